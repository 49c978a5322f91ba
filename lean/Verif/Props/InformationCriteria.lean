import Verif.Lemmas.InformationCriteria
import Verif.Lemmas.Methods
import Mathlib.Tactic.FieldSimp
import Mathlib.Tactic.NormNum
import Mathlib.Tactic.IntervalCases

/-!
# Properties C31–C34: information criteria and model selection (`src/ondil/information_criteria.py`)
-/

namespace Ondil

/-! ## C31 The selected model is the best one of the path -/

/-- **C31.** `np.argmin` returns a valid position of a number that no other one is preferred to, the first one, and it fails
only for an empty path. -/
theorem C31_argmin (ic : List Flt) (hne : ic ≠ []) :
    ∃ i v, argminFlt ic = .ok i ∧ ic[i]? = some v ∧ (∀ x ∈ ic, ¬ x.Preferred v) ∧
      ∀ j x, j < i → ic[j]? = some x → v.Preferred x := by
  obtain ⟨i, _, h⟩ := argminFlt_ok hne
  obtain ⟨v, h1, h2, h3⟩ := argminFlt_spec h
  exact ⟨i, v, h, h1, h2, h3⟩

/-- **C31.** For the criteria the estimators accept, selection over a non-empty path always succeeds. -/
theorem C31_select_succeeds (c : Criterion) (hc : c ≠ .aicc) (n : ℝ) (p rss : List ℝ)
    (hlen : p.length = rss.length) (hne : p ≠ []) : ∃ i, selectByRss c n p rss = .ok i := by
  have hm : ∀ l : List (ℝ × Flt), ∃ r : List Flt, (l.mapM fun pl => fromLL c n pl.1 pl.2) = .ok r := by
    intro l
    induction l with
    | nil => exact ⟨[], rfl⟩
    | cons a l ih =>
      obtain ⟨r, hr⟩ := ih
      have ha : ∃ v, fromLL c n a.1 a.2 = .ok v := by
        cases c <;> simp [fromLL] at hc ⊢
      obtain ⟨v, hv⟩ := ha
      exact ⟨v :: r, by rw [List.mapM_cons, hv, hr]; rfl⟩
  obtain ⟨r, hr⟩ := hm (List.zip p (rss.map (llFromRss n)))
  have h1 : fromRssArray c n p rss = .ok r := by
    unfold fromRssArray fromLLArray
    rw [if_neg (fun h => hc h.1)]; exact hr
  have hrl := (fromLLArray_ok (h := h1) (by simpa using hlen)).1
  have hrne : r ≠ [] := by
    intro h0; rw [h0] at hrl; exact hne (List.length_eq_zero_iff.mp hrl.symm)
  obtain ⟨i, _, hi, _⟩ := C31_argmin r hrne
  exact ⟨i, by unfold selectByRss; rw [h1]; exact hi⟩

/-- **C31.** No model of the path has a preferred criterion, and the selected one is preferred to every earlier model. -/
theorem C31_selected_is_best {c : Criterion} {n : ℝ} {p rss : List ℝ} {i : ℕ}
    (hlen : p.length = rss.length) (h : selectByRss c n p rss = .ok i) :
    ∃ pi ri v, p[i]? = some pi ∧ rss[i]? = some ri ∧ fromRss c n pi ri = .ok v ∧
      ∀ (j : ℕ) (pj rj : ℝ), p[j]? = some pj → rss[j]? = some rj →
        ∃ u, fromRss c n pj rj = .ok u ∧ ¬ u.Preferred v ∧ (j < i → v.Preferred u) := by
  unfold selectByRss at h
  rw [bind_ok] at h
  obtain ⟨ic, hic, hi⟩ := h
  obtain ⟨v, hv, hmin, hfirst⟩ := argminFlt_spec hi
  obtain ⟨hl, hget⟩ := fromLLArray_ok (h := hic) (by simpa using hlen)
  have hib : i < p.length := by rw [← hl]; exact (List.getElem?_eq_some_iff.mp hv).1
  have hall : ∀ (j : ℕ) (pj rj : ℝ), p[j]? = some pj → rss[j]? = some rj →
      ∃ u, ic[j]? = some u ∧ fromRss c n pj rj = .ok u := by
    intro j pj rj hp hr
    exact hget j pj (llFromRss n rj) hp (by rw [List.getElem?_map, hr]; rfl)
  have hp : p[i]? = some p[i] := List.getElem?_eq_getElem hib
  have hr : rss[i]? = some (rss[i]'(hlen ▸ hib)) := List.getElem?_eq_getElem (hlen ▸ hib)
  obtain ⟨u, hu1, hu2⟩ := hall i _ _ hp hr
  rw [hv] at hu1
  cases hu1
  refine ⟨_, _, v, hp, hr, hu2, fun j pj rj hpj hrj => ?_⟩
  obtain ⟨u, hu1, hu3⟩ := hall j pj rj hpj hrj
  exact ⟨u, hu3, hmin u (List.mem_of_getElem? hu1), fun hj => hfirst j u hj hu1⟩

theorem fromLL_fin {c : Criterion} (hc : c ≠ .aicc) {n : ℝ} (hn : 1 < n) (k l : ℝ) :
    fromLL c n k (.fin l) = .ok (.fin (textbookIc c n k l)) := by
  have h0 : (0 : ℝ) < n := by linarith
  have h1 : 0 < Real.log n := Real.log_pos hn
  cases c with
  | aic => simp only [fromLL, textbookIc, Flt.mul, Flt.add]; congr 2; ring
  | aicc => exact absurd rfl hc
  | bic => simp only [fromLL, textbookIc, Flt.mul, Flt.add, Flt.log, if_pos h0]; congr 2; ring
  | hqc => simp only [fromLL, textbookIc, Flt.mul, Flt.add, Flt.log, if_pos h0, if_pos h1]; congr 2; ring
  | max => rfl

theorem llFromRss_fin {n r : ℝ} (hn : 0 < n) (hr : 0 < r) : llFromRss n r = .fin (gaussianLL n r (r / n)) := by
  have hπ := Real.pi_pos
  have hv : 0 < r / n := div_pos hr hn
  unfold llFromRss
  simp only [Flt.div, if_neg hn.ne', Flt.log, if_pos hv, Flt.mul, Flt.add, gaussianLL]
  congr 1
  rw [Real.log_mul (by positivity) hv.ne']
  field_simp
  ring

theorem llFromRss_zero {n : ℝ} (hn : 0 < n) : llFromRss n 0 = .pinf := by
  have h1 : ¬ (0 : ℝ) < -n / 2 := by linarith
  have h2 : -n / 2 < (0 : ℝ) := by linarith
  simp [llFromRss, Flt.div, hn.ne', Flt.log, Flt.mul, Flt.infSigned, h1, h2, Flt.neg, Flt.add]

theorem fromRss_fin {c : Criterion} (hc : c ≠ .aicc) {n : ℝ} (hn : 1 < n) (k : ℝ) {r : ℝ} (hr : 0 < r) :
    fromRss c n k r = .ok (.fin (textbookIc c n k (gaussianLL n r (r / n)))) := by
  unfold fromRss
  rw [llFromRss_fin (by linarith) hr, fromLL_fin hc hn]

theorem fromRss_zero {c : Criterion} (hc : c ≠ .aicc) {n : ℝ} (hn : 1 < n) (k : ℝ) : fromRss c n k 0 = .ok .ninf := by
  have h0 : (0 : ℝ) < n := by linarith
  have h1 : 0 < Real.log n := Real.log_pos hn
  unfold fromRss
  rw [llFromRss_zero h0]
  cases c with
  | aicc => exact absurd rfl hc
  | max => rfl
  | _ => norm_num [fromLL, Flt.mul, Flt.infSigned, Flt.neg, Flt.log, h0, h1, Flt.add]

/-- **C31.** In terms of the textbook formulas: for more than one observation and residual sums of squares that are not zero,
the selected model has the smallest criterion at the Gaussian profile log-likelihood, and every earlier one a larger. -/
theorem C31_selected_textbook {c : Criterion} (hc : c ≠ .aicc) {n : ℝ} (hn : 1 < n) {p rss : List ℝ}
    (hr : ∀ r ∈ rss, 0 < r) {i : ℕ} (hlen : p.length = rss.length) (h : selectByRss c n p rss = .ok i) :
    ∃ pi ri, p[i]? = some pi ∧ rss[i]? = some ri ∧ ∀ (j : ℕ) (pj rj : ℝ), p[j]? = some pj → rss[j]? = some rj →
      textbookIc c n pi (gaussianLL n ri (ri / n)) ≤ textbookIc c n pj (gaussianLL n rj (rj / n)) ∧
      (j < i → textbookIc c n pi (gaussianLL n ri (ri / n)) < textbookIc c n pj (gaussianLL n rj (rj / n))) := by
  obtain ⟨pi, ri, v, h1, h2, h3, h4⟩ := C31_selected_is_best hlen h
  refine ⟨pi, ri, h1, h2, fun j pj rj hp hj => ?_⟩
  obtain ⟨u, g1, g2, g3⟩ := h4 j pj rj hp hj
  rw [fromRss_fin hc hn _ (hr _ (List.mem_of_getElem? h2))] at h3
  rw [fromRss_fin hc hn _ (hr _ (List.mem_of_getElem? hj))] at g1
  cases h3
  cases g1
  simp only [Flt.Preferred, Flt.lt, reduceCtorEq, false_and, false_or] at g2 g3
  exact ⟨not_lt.1 g2, g3⟩

/-- Non-vacuity of C31: the second of three criteria is smallest, the tie is resolved to the first. -/
example : argminFlt [.fin 3, .fin 1, .fin 1] = .ok 1 := by
  obtain ⟨i, v, h, h1, h2, h3⟩ := C31_argmin [.fin 3, .fin 1, .fin 1] (by simp)
  have hi : i < 3 := (List.getElem?_eq_some_iff.1 h1).1
  rw [h]
  interval_cases i
  · cases h1
    exact absurd (.inr (by norm_num [Flt.lt])) (h2 (.fin 1) (by simp))
  · rfl
  · cases h1
    have := h3 1 (.fin 1) (by norm_num) rfl
    simp [Flt.Preferred, Flt.lt] at this

/-! ## C32 Textbook formulas and rejected input -/

/-- **C32.** AIC. -/
theorem C32_aic (n p l : ℝ) : fromLL .aic n p (.fin l) = .ok (.fin (2 * p - 2 * l)) := by
  simp only [fromLL, Flt.mul, Flt.add]; congr 2; ring

/-- **C32.** AICc is AIC plus the small-sample correction `2p(p+1)/(n-p-1)`, and is rejected exactly for
`n = p + 1`. -/
theorem C32_aicc (n p l : ℝ) :
    (n ≠ p + 1 → fromLL .aicc n p (.fin l) = .ok (.fin (2 * p - 2 * l + 2 * p * (p + 1) / (n - p - 1)))) ∧
    (fromLL .aicc n p (.fin l) = .error .valueError ↔ n = p + 1) := by
  constructor
  · intro h
    have h' : n - p - 1 ≠ 0 := fun h0 => h (by linarith)
    simp only [fromLL, if_neg h', Flt.mul, Flt.add]
    congr 2
    field_simp
    ring
  · simp only [fromLL]
    constructor
    · intro h
      by_contra hn
      rw [if_neg (fun h0 => hn (by linarith))] at h
      cases h
    · intro h
      rw [if_pos (by linarith)]

/-- **C32.** BIC. -/
theorem C32_bic {n : ℝ} (hn : 0 < n) (p l : ℝ) : fromLL .bic n p (.fin l) = .ok (.fin (p * Real.log n - 2 * l)) := by
  simp only [fromLL, Flt.mul, Flt.add, Flt.log, if_pos hn]; congr 2; ring

/-- **C32.** HQC. -/
theorem C32_hqc {n : ℝ} (hn : 1 < n) (p l : ℝ) :
    fromLL .hqc n p (.fin l) = .ok (.fin (2 * p * Real.log (Real.log n) - 2 * l)) := by
  rw [fromLL_fin (by simp) hn]
  simp only [textbookIc]
  congr 2; ring

/-- **C32.** HQC has no value below one observation: the code returns NaN. -/
theorem C32_hqc_undefined {n : ℝ} (hn : n < 1) (p : ℝ) (l : Flt) : fromLL .hqc n p l = .ok .nan := by
  have h : Flt.log (Flt.log (.fin n)) = .nan := by
    unfold Flt.log
    rcases lt_trichotomy n 0 with h0 | rfl | h0
    · simp [h0.ne, not_lt.2 h0.le]
    · simp
    · have := Real.log_neg h0 hn
      simp [h0, not_lt.2 this.le, this.ne]
  simp only [fromLL, h]
  cases Flt.mul (.fin (-2)) l <;> rfl

/-- **C32.** `from_rss` uses the Gaussian log-likelihood at the variance `rss / n`, and this variance
maximises the Gaussian log-likelihood: it is the profile likelihood. -/
theorem C32_rss_profile {n rss : ℝ} (hn : 0 < n) (hr : 0 < rss) (c : Criterion) (p : ℝ) :
    fromRss c n p rss = fromLL c n p (.fin (gaussianLL n rss (rss / n))) ∧
    ∀ s2, 0 < s2 → gaussianLL n rss s2 ≤ gaussianLL n rss (rss / n) := by
  have hπ := Real.pi_pos
  have hv : 0 < rss / n := div_pos hr hn
  constructor
  · unfold fromRss
    rw [llFromRss_fin hn hr]
  · intro s2 hs
    unfold gaussianLL
    rw [Real.log_mul (by positivity) hv.ne', Real.log_mul (by positivity) hs.ne']
    have h1 := Real.log_le_sub_one_of_pos (x := (rss / n) / s2) (div_pos hv hs)
    rw [Real.log_div hv.ne' hs.ne'] at h1
    have e1 : rss / (2 * (rss / n)) = n / 2 := by field_simp
    have e2 : rss / (2 * s2) = n / 2 * ((rss / n) / s2) := by field_simp
    rw [e1, e2]
    have h2 := mul_le_mul_of_nonneg_left h1 (by positivity : (0:ℝ) ≤ n / 2)
    nlinarith

/-- **C32.** Exactly the five documented names are accepted; every other string raises `ValueError`. -/
theorem C32_unknown_name (s : String) :
    ((∃ c, Criterion.ofString s = .ok c) ↔ s ∈ ["aic", "aicc", "bic", "hqc", "max"]) ∧
    (s ∉ ["aic", "aicc", "bic", "hqc", "max"] → Criterion.ofString s = .error .valueError) := by
  unfold Criterion.ofString
  constructor
  · by_cases h1 : s = "aic"
    · simp [h1]
    by_cases h2 : s = "aicc"
    · simp [h2]
    by_cases h3 : s = "bic"
    · simp [h3]
    by_cases h4 : s = "hqc"
    · simp [h4]
    by_cases h5 : s = "max"
    · simp [h5]
    simp [h1, h2, h3, h4, h5]
  · intro h
    simp only [List.mem_cons, List.not_mem_nil, or_false, not_or] at h
    simp [h.1, h.2.1, h.2.2.1, h.2.2.2.1, h.2.2.2.2]

/-- **C32.** Each name selects the criterion of that name. -/
theorem C32_names : Criterion.ofString "aic" = .ok .aic ∧ Criterion.ofString "aicc" = .ok .aicc ∧
    Criterion.ofString "bic" = .ok .bic ∧ Criterion.ofString "hqc" = .ok .hqc ∧
    Criterion.ofString "max" = .ok .max := by
  refine ⟨?_, ?_, ?_, ?_, ?_⟩ <;> simp [Criterion.ofString]

/-- **C32.** AICc cannot be used on a path: every array of two or more parameter counts is rejected, even
when no model has `n = p + 1`. -/
theorem C32_aicc_array_fails (n : ℝ) (p : List ℝ) (ll : List Flt) (h2 : 2 ≤ p.length) :
    fromLLArray .aicc n p ll = .error .valueError := by
  unfold fromLLArray
  rw [if_pos ⟨rfl, by omega⟩]

/-- Non-vacuity of C32: ten observations, two parameters. -/
example : fromLL .aicc 10 2 (.fin (-3)) = .ok (.fin (4 + 6 + 12 / 7)) := by
  rw [(C32_aicc 10 2 (-3)).1 (by norm_num)]; norm_num

/-! ## C33 Stronger penalties never select larger models -/

/-- The penalty a criterion puts on one parameter. -/
noncomputable def penaltyPerParameter (n : ℝ) : Criterion → ℝ
  | .aic => 2
  | .bic => Real.log n
  | .hqc => 2 * Real.log (Real.log n)
  | _ => 0

theorem gaussianLL_lt {n r r' : ℝ} (hn : 0 < n) (hr : 0 < r) (h : r < r') :
    gaussianLL n r' (r' / n) < gaussianLL n r (r / n) := by
  have hπ := Real.pi_pos
  have hr' : 0 < r' := hr.trans h
  unfold gaussianLL
  have e : ∀ x : ℝ, 0 < x → x / (2 * (x / n)) = n / 2 := fun x hx => by field_simp
  rw [e _ hr, e _ hr']
  have := Real.log_lt_log (by positivity : 0 < 2 * Real.pi * (r / n))
    (mul_lt_mul_of_pos_left (div_lt_div_of_pos_right h hn) (by positivity : 0 < 2 * Real.pi))
  nlinarith

/-- **C33.** If criterion `c` penalises each parameter more than `c'`, the model selected by `c` has at
most as many parameters as the model selected by `c'` from the same path. -/
theorem C33_stronger_penalty {c c' : Criterion} {n : ℝ} {p rss : List ℝ} {i i' : ℕ} {a a' : ℝ} (hn : 1 < n)
    (hr : ∀ r ∈ rss, 0 ≤ r) (hc : c ∈ [Criterion.aic, .bic, .hqc]) (hc' : c' ∈ [Criterion.aic, .bic, .hqc])
    (hpen : penaltyPerParameter n c' < penaltyPerParameter n c) (hlen : p.length = rss.length)
    (h : selectByRss c n p rss = .ok i) (h' : selectByRss c' n p rss = .ok i')
    (ha : p[i]? = some a) (ha' : p[i']? = some a') : a ≤ a' := by
  have hca : c ≠ .aicc := by rintro rfl; simp at hc
  have hca' : c' ≠ .aicc := by rintro rfl; simp at hc'
  obtain ⟨pi, ri, v, hpi, hri, hv, hall⟩ := C31_selected_is_best hlen h
  obtain ⟨pj, rj, v', hpj, hrj, hv', hall'⟩ := C31_selected_is_best hlen h'
  rw [ha] at hpi; cases hpi
  rw [ha'] at hpj; cases hpj
  obtain ⟨u, hu, hle, hf⟩ := hall i' a' rj ha' hrj
  obtain ⟨u', hu', hle', hf'⟩ := hall' i a ri ha hri
  rcases (hr ri (List.mem_of_getElem? hri)).eq_or_lt with rfl | hi0
  · rcases (hr rj (List.mem_of_getElem? hrj)).eq_or_lt with rfl | hj0
    · rw [fromRss_zero hca hn] at hv hu
      rw [fromRss_zero hca' hn] at hv' hu'
      cases hv; cases hu; cases hv'; cases hu'
      rcases lt_trichotomy i i' with hlt | rfl | hlt
      · simpa [Flt.Preferred, Flt.lt] using hf' hlt
      · rw [ha] at ha'; cases ha'; exact le_rfl
      · simpa [Flt.Preferred, Flt.lt] using hf hlt
    · rw [fromRss_zero hca' hn] at hu'
      rw [fromRss_fin hca' hn _ hj0] at hv'
      cases hu'; cases hv'
      exact absurd (.inr trivial) hle'
  · rcases (hr rj (List.mem_of_getElem? hrj)).eq_or_lt with rfl | hj0
    · rw [fromRss_zero hca hn] at hu
      rw [fromRss_fin hca hn _ hi0] at hv
      cases hu; cases hv
      exact absurd (.inr trivial) hle
    · rw [fromRss_fin hca hn _ hi0] at hv
      rw [fromRss_fin hca hn _ hj0] at hu
      rw [fromRss_fin hca' hn _ hj0] at hv'
      rw [fromRss_fin hca' hn _ hi0] at hu'
      cases hv; cases hu; cases hv'; cases hu'
      simp only [Flt.Preferred, Flt.lt, reduceCtorEq, false_and, false_or, not_lt] at hle hle'
      have key : ∀ (d : Criterion) (q l : ℝ), d ∈ [Criterion.aic, .bic, .hqc] →
          textbookIc d n q l = -2 * l + q * penaltyPerParameter n d := by
        intro d q l hd
        cases d <;> simp at hd <;> simp only [textbookIc, penaltyPerParameter] <;> ring
      rw [key c _ _ hc, key c _ _ hc] at hle
      rw [key c' _ _ hc', key c' _ _ hc'] at hle'
      nlinarith

/-- **C33.** BIC never selects a larger model than AIC when `log n > 2`. -/
theorem C33_bic_aic {n : ℝ} {p rss : List ℝ} {i i' : ℕ} {a a' : ℝ} (hn0 : 0 < n) (hn : 2 < Real.log n)
    (hr : ∀ r ∈ rss, 0 ≤ r) (hlen : p.length = rss.length) (h : selectByRss .bic n p rss = .ok i)
    (h' : selectByRss .aic n p rss = .ok i') (ha : p[i]? = some a) (ha' : p[i']? = some a') : a ≤ a' :=
  C33_stronger_penalty (c := .bic) (c' := .aic) (n := n) ((Real.log_pos_iff hn0.le).1 (by linarith)) hr (by simp) (by simp) hn
    hlen h h' ha ha'

/-- **C33.** HQC never selects a larger model than AIC when `log (log n) > 1`. -/
theorem C33_hqc_aic {n : ℝ} {p rss : List ℝ} {i i' : ℕ} {a a' : ℝ} (hn0 : 1 < n) (hn : 1 < Real.log (Real.log n))
    (hr : ∀ r ∈ rss, 0 ≤ r) (hlen : p.length = rss.length) (h : selectByRss .hqc n p rss = .ok i)
    (h' : selectByRss .aic n p rss = .ok i') (ha : p[i]? = some a) (ha' : p[i']? = some a') : a ≤ a' :=
  C33_stronger_penalty (c := .hqc) (c' := .aic) (n := n) hn0 hr (by simp) (by simp)
    (by simp only [penaltyPerParameter]; linarith) hlen h h' ha ha'

/-- **C33.** With the same number of parameters every criterion prefers the smaller residual sum of
squares. -/
theorem C33_smaller_rss {c : Criterion} (hc : c ≠ .aicc) {n p rss rss' : ℝ} {v v' : Flt} (hn : 1 < n) (hr : 0 ≤ rss)
    (hlt : rss < rss') (hv : fromRss c n p rss = .ok v) (hv' : fromRss c n p rss' = .ok v') : Flt.lt v v' := by
  rw [fromRss_fin hc hn p (hr.trans_lt hlt)] at hv'
  cases hv'
  rcases hr.eq_or_lt with rfl | hr
  · rw [fromRss_zero hc hn] at hv
    cases hv
    exact trivial
  · rw [fromRss_fin hc hn p hr] at hv
    cases hv
    have := gaussianLL_lt (n := n) (by linarith) hr hlt
    change textbookIc _ _ _ _ < textbookIc _ _ _ _
    cases c <;> simp only [textbookIc] <;> linarith

/-- **C33.** The same for AICc, which is defined unless `n = p + 1`. -/
theorem C33_smaller_rss_aicc {n p rss rss' : ℝ} {v v' : Flt} (hn : 0 < n) (hr : 0 < rss) (hlt : rss < rss')
    (hv : fromRss .aicc n p rss = .ok v) (hv' : fromRss .aicc n p rss' = .ok v') : Flt.lt v v' := by
  have := gaussianLL_lt hn hr hlt
  simp only [fromRss, llFromRss_fin hn hr, llFromRss_fin hn (hr.trans hlt), fromLL] at hv hv'
  split at hv
  · cases hv
  · rename_i hne
    rw [if_neg hne] at hv'
    cases hv; cases hv'
    simp only [Flt.mul, Flt.add, Flt.lt]
    linarith

theorem select_first {c : Criterion} (hc : c ≠ .aicc) {n : ℝ} (hn : 1 < n) {p p' r r' : ℝ} (hr : 0 < r) (hr' : 0 < r')
    (h : textbookIc c n p (gaussianLL n r (r / n)) ≤ textbookIc c n p' (gaussianLL n r' (r' / n))) :
    selectByRss c n [p, p'] [r, r'] = .ok 0 := by
  obtain ⟨i, hi⟩ := C31_select_succeeds c hc n [p, p'] [r, r'] rfl (by simp)
  obtain ⟨pi, ri, h1, h2, h3⟩ := C31_selected_textbook (p := [p, p']) (rss := [r, r']) hc hn (by simp [hr, hr']) rfl hi
  have hi2 : i < 2 := (List.getElem?_eq_some_iff.1 h1).1
  rw [hi]
  interval_cases i
  · rfl
  · cases h1; cases h2
    exact absurd ((h3 0 p r rfl rfl).2 (by norm_num)) (not_lt.2 h)

theorem select_second {c : Criterion} (hc : c ≠ .aicc) {n : ℝ} (hn : 1 < n) {p p' r r' : ℝ} (hr : 0 < r) (hr' : 0 < r')
    (h : textbookIc c n p' (gaussianLL n r' (r' / n)) < textbookIc c n p (gaussianLL n r (r / n))) :
    selectByRss c n [p, p'] [r, r'] = .ok 1 := by
  obtain ⟨i, hi⟩ := C31_select_succeeds c hc n [p, p'] [r, r'] rfl (by simp)
  obtain ⟨pi, ri, h1, h2, h3⟩ := C31_selected_textbook (p := [p, p']) (rss := [r, r']) hc hn (by simp [hr, hr']) rfl hi
  have hi2 : i < 2 := (List.getElem?_eq_some_iff.1 h1).1
  rw [hi]
  interval_cases i
  · cases h1; cases h2
    exact absurd (h3 1 p' r' rfl rfl).1 (not_le.2 h)
  · rfl

/-- Non-vacuity of C33: there are paths on which AIC and BIC choose different models. -/
example : ∃ n : ℝ, 2 < Real.log n ∧ selectByRss .bic n [1, 2] [Real.exp (5 / n), 1] = .ok 0 ∧
    selectByRss .aic n [1, 2] [Real.exp (5 / n), 1] = .ok 1 := by
  have hN := Real.exp_pos 8
  have hπ := Real.pi_pos
  have h1 : (1 : ℝ) < Real.exp 8 := by rw [Real.one_lt_exp_iff]; norm_num
  have e : Real.exp 8 * (5 / Real.exp 8) = 5 := by field_simp
  have g : ∀ x, 0 < x → gaussianLL (Real.exp 8) x (x / Real.exp 8) =
      -Real.exp 8 / 2 * (Real.log (2 * Real.pi) + (Real.log x - 8) + 1) := fun x hx => by
    unfold gaussianLL
    rw [Real.log_mul (by positivity) (by positivity), Real.log_div hx.ne' hN.ne', Real.log_exp]
    field_simp
    ring
  refine ⟨Real.exp 8, by rw [Real.log_exp]; norm_num, ?_, ?_⟩
  · refine select_first (by simp) h1 (Real.exp_pos _) one_pos ?_
    rw [g _ (Real.exp_pos _), g _ one_pos]
    simp only [textbookIc, Real.log_exp, Real.log_one]
    nlinarith
  · refine select_second (by simp) h1 (Real.exp_pos _) one_pos ?_
    rw [g _ (Real.exp_pos _), g _ one_pos]
    simp only [textbookIc, Real.log_exp, Real.log_one]
    nlinarith

/-! ## C34 Criterion 'max' -/

theorem fromRss_max_lt {n r r' : ℝ} (hn : 0 < n) (hr : 0 ≤ r) (h : r < r') {k k' : ℝ} {v v' : Flt}
    (hv : fromRss .max n k r = .ok v) (hv' : fromRss .max n k' r' = .ok v') : v.Preferred v' := by
  simp only [fromRss, fromLL, llFromRss_fin hn (hr.trans_lt h)] at hv hv'
  cases hv
  cases hv'
  rcases hr.eq_or_lt with rfl | hr
  · rw [llFromRss_zero hn]
    exact .inr trivial
  · rw [llFromRss_fin hn hr]
    exact .inr (neg_lt_neg (gaussianLL_lt hn hr h))

/-- **C34 (what holds).** `'max'` selects the first model with the smallest residual sum of squares.
Missing: the documentation promises the largest model. -/
theorem C34_max_likelihood_partial {n : ℝ} {p rss : List ℝ} {i : ℕ} (hn : 0 < n)
    (hr : ∀ r ∈ rss, 0 ≤ r) (hlen : p.length = rss.length) (h : selectByRss .max n p rss = .ok i) :
    ∃ ri, rss[i]? = some ri ∧ (∀ r ∈ rss, ri ≤ r) ∧ ∀ j rj, j < i → rss[j]? = some rj → ri < rj := by
  obtain ⟨pi, ri, v, hpi, hri, hv, hall⟩ := C31_selected_is_best hlen h
  have key : ∀ (j : ℕ) (rj : ℝ), rss[j]? = some rj → ri ≤ rj ∧ (j < i → ri < rj) := by
    intro j rj hrj
    have hj : j < p.length := by rw [hlen]; exact (List.getElem?_eq_some_iff.mp hrj).1
    obtain ⟨u, hu, hle, hlt⟩ := hall j p[j] rj (List.getElem?_eq_getElem hj) hrj
    have hrj0 := hr rj (List.mem_of_getElem? hrj)
    have h1 : ri ≤ rj := by
      by_contra hcon
      exact hle (fromRss_max_lt hn hrj0 (not_le.1 hcon) hu hv)
    refine ⟨h1, fun hji => lt_of_le_of_ne h1 fun he => ?_⟩
    subst he
    have e : u = v := by
      simp only [fromRss, fromLL] at hu hv
      rw [hu] at hv
      exact Except.ok.inj hv
    exact hle (e ▸ hlt hji)
  refine ⟨ri, hri, fun r hrm => ?_, fun j rj hj hrj => (key j rj hrj).2 hj⟩
  obtain ⟨j, hj, hjr⟩ := List.getElem_of_mem hrm
  exact (key j r (by rw [List.getElem?_eq_getElem hj, hjr])).1

/-- **C34 (what holds).** If a larger model always has a strictly smaller residual sum of squares, `'max'`
selects a model with the most parameters. -/
theorem C34_nested_partial {n : ℝ} {p rss : List ℝ} {i : ℕ} {a : ℝ} (hn : 0 < n)
    (hr : ∀ r ∈ rss, 0 ≤ r) (hlen : p.length = rss.length)
    (hnested : ∀ (j k : ℕ) (pj pk rj rk : ℝ), p[j]? = some pj → p[k]? = some pk → rss[j]? = some rj →
      rss[k]? = some rk → pj < pk → rk < rj)
    (h : selectByRss .max n p rss = .ok i) (ha : p[i]? = some a) : ∀ q ∈ p, q ≤ a := by
  obtain ⟨ri, hri, hmin, _⟩ := C34_max_likelihood_partial hn hr hlen h
  intro q hq
  by_contra hcon
  push Not at hcon
  obtain ⟨j, hj, hjq⟩ := List.getElem_of_mem hq
  have hj' : j < rss.length := hlen ▸ hj
  have h1 := hnested i j a q ri rss[j] ha (by rw [List.getElem?_eq_getElem hj, hjq]) hri
    (List.getElem?_eq_getElem hj') hcon
  exact absurd (hmin rss[j] (List.getElem_mem hj')) (not_le.mpr h1)

/-- **C34 fails.** For every number of observations there is a path on which `'max'` selects the model
with fewer parameters: the larger model does not fit better. -/
theorem C34_max_fails (n : ℝ) (hn : 0 < n) (r : ℝ) (hr : 0 < r) (r' : ℝ) (hr' : r ≤ r') :
    selectByRss .max n [1, 2] [r, r'] = .ok 0 := by
  obtain ⟨i, hi⟩ := C31_select_succeeds .max (by simp) n [1, 2] [r, r'] rfl (by simp)
  obtain ⟨ri, hri, hmin, hfirst⟩ := C34_max_likelihood_partial hn (p := [1, 2]) (rss := [r, r']) (by
    simp only [List.mem_cons, List.not_mem_nil, or_false]
    rintro x (rfl | rfl)
    · exact hr.le
    · exact hr.le.trans hr') rfl hi
  have hil : i < 2 := (List.getElem?_eq_some_iff.mp hri).1
  rw [hi]
  interval_cases i
  · rfl
  · simp at hri
    have h0 := hfirst 0 r (by norm_num) rfl
    subst hri
    exact absurd h0 (not_lt.mpr hr')

end Ondil
