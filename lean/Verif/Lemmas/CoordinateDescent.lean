import Verif.Model.CoordinateDescent
import Verif.Spec.ElasticNet
import Mathlib.Tactic.Ring
import Mathlib.Tactic.Linarith
import Mathlib.Tactic.FieldSimp
import Mathlib.Tactic.LinearCombination

/-! # Helper lemmas on coordinate descent -/

open scoped BigOperators

namespace Ondil

variable {p : ℕ}

theorem softThreshold_of_pos {v t : ℝ} (h : 0 < v) : softThreshold v t = max (v - t) 0 := by
  rw [softThreshold, Real.sign_of_pos h, abs_of_pos h, one_mul]

theorem softThreshold_of_neg {v t : ℝ} (h : v < 0) : softThreshold v t = -max (-v - t) 0 := by
  rw [softThreshold, Real.sign_of_neg h, abs_of_neg h]; ring

theorem softThreshold_zero (t : ℝ) : softThreshold 0 t = 0 := by
  rw [softThreshold, Real.sign_zero, zero_mul]

theorem softThreshold_eq_zero {v t : ℝ} (h : |v| ≤ t) : softThreshold v t = 0 := by
  rw [softThreshold, max_eq_right (by linarith), mul_zero]

/-- The three cases of soft thresholding with a non-negative threshold. -/
theorem softThreshold_cases {v t : ℝ} (ht : 0 ≤ t) :
    (t < v ∧ softThreshold v t = v - t) ∨ (v < -t ∧ softThreshold v t = v + t) ∨
      (|v| ≤ t ∧ softThreshold v t = 0) := by
  by_cases h1 : t < v
  · left
    exact ⟨h1, by rw [softThreshold_of_pos (by linarith), max_eq_left (by linarith)]⟩
  · by_cases h2 : v < -t
    · right; left
      exact ⟨h2, by rw [softThreshold_of_neg (by linarith), max_eq_left (by linarith)]; ring⟩
    · right; right
      have : |v| ≤ t := abs_le.mpr ⟨by linarith, by linarith⟩
      exact ⟨this, softThreshold_eq_zero this⟩

/-- The residual of the thresholding is a subgradient: `v - S(v,t) ∈ t ∂|·|(S(v,t))`. -/
theorem softThreshold_subgrad {v t : ℝ} (ht : 0 ≤ t) :
    |v - softThreshold v t| ≤ t ∧ (v - softThreshold v t) * softThreshold v t = t * |softThreshold v t| := by
  rcases softThreshold_cases (v := v) ht with ⟨h, e⟩ | ⟨h, e⟩ | ⟨h, e⟩
  · rw [e]
    have : v - (v - t) = t := by ring
    rw [this, abs_of_nonneg ht, abs_of_pos (by linarith : 0 < v - t)]
    exact ⟨le_refl _, rfl⟩
  · rw [e]
    have : v - (v + t) = -t := by ring
    rw [this, abs_neg, abs_of_nonneg ht, abs_of_neg (by linarith : v + t < 0)]
    exact ⟨le_refl _, by ring⟩
  · rw [e]; simp [h]

theorem softThreshold_mul {c v t : ℝ} (hc : 0 < c) : softThreshold (c * v) (c * t) = c * softThreshold v t := by
  have hm : ∀ a : ℝ, max (c * a) 0 = c * max a 0 := fun a => by
    rw [mul_max_of_nonneg _ _ hc.le, mul_zero]
  rcases lt_trichotomy v 0 with h | h | h
  · rw [softThreshold_of_neg h, softThreshold_of_neg (mul_neg_of_pos_of_neg hc h)]
    have : -(c * v) - c * t = c * (-v - t) := by ring
    rw [this, hm]; ring
  · subst h; rw [mul_zero, softThreshold_zero, softThreshold_zero, mul_zero]
  · rw [softThreshold_of_pos h, softThreshold_of_pos (mul_pos hc h)]
    have : c * v - c * t = c * (v - t) := by ring
    rw [this, hm]

/-- Variational inequality of the clipped thresholded minimiser: with `t0 = S(u,a)/d` and `c` the
projection of `t0` on the bounds, every feasible `t` satisfies
`(d c - u)(t - c) + a (|t| - |c|) ≥ 0`. -/
theorem clip_vi {d u a : ℝ} (hd : 0 < d) (ha : 0 ≤ a) {lo hi : Option ℝ}
    {t : ℝ} (ht : InBounds lo hi t) :
    0 ≤ (d * clipHigh hi (clipLow lo (softThreshold u a / d)) - u)
          * (t - clipHigh hi (clipLow lo (softThreshold u a / d)))
        + a * (|t| - |clipHigh hi (clipLow lo (softThreshold u a / d))|) := by
  set t0 := softThreshold u a / d with ht0
  set c := clipHigh hi (clipLow lo t0) with hc
  have hcase : c = t0 ∨ (t0 ≤ c ∧ c ≤ t) ∨ (t ≤ c ∧ c ≤ t0) := by
    rcases lo with _ | l <;> rcases hi with _ | r
    · left; simp [hc, clipHigh, clipLow]
    · have h2 := ht.2 r rfl
      simp only [hc, clipHigh, clipLow]
      rcases le_total t0 r with h | h
      · left; exact min_eq_left h
      · right; right; rw [min_eq_right h]; exact ⟨h2, h⟩
    · have h1 := ht.1 l rfl
      simp only [hc, clipHigh, clipLow]
      rcases le_total t0 l with h | h
      · right; left; rw [max_eq_right h]; exact ⟨h, h1⟩
      · left; exact max_eq_left h
    · have h1 := ht.1 l rfl
      have h2 := ht.2 r rfl
      simp only [hc, clipHigh, clipLow]
      rcases le_total t0 l with h | h
      · right; left; rw [max_eq_right h, min_eq_left (le_trans h1 h2)]; exact ⟨h, h1⟩
      · rw [max_eq_left h]
        rcases le_total t0 r with h' | h'
        · left; exact min_eq_left h'
        · right; right; rw [min_eq_right h']; exact ⟨h2, h'⟩
  have hdt : d * t0 = softThreshold u a := by rw [ht0]; field_simp
  obtain ⟨hg1, hg2⟩ := softThreshold_subgrad (v := u) ha
  rw [← hdt] at hg1
  -- `v = u - d t0` is a subgradient of `a|·|` at `t0`
  have hv0 : (u - d * t0) * t0 = a * |t0| := by
    have : (u - d * t0) * (d * t0) = a * |d * t0| := by rw [hdt]; exact hg2
    rw [abs_mul, abs_of_pos hd] at this
    have h2 : d * ((u - d * t0) * t0) = d * (a * |t0|) := by linarith
    exact mul_left_cancel₀ hd.ne' h2
  generalize hv : u - d * t0 = v at hg1 hv0
  have hvt : ∀ s, v * s ≤ a * |s| := fun s =>
    le_trans (le_abs_self _) (by rw [abs_mul]; exact mul_le_mul_of_nonneg_right hg1 (abs_nonneg s))
  have hu : u = v + d * t0 := by linarith
  have hva := abs_le.mp hg1
  rcases hcase with h | ⟨h1, h2⟩ | ⟨h1, h2⟩
  · rw [h, hu]
    have := hvt t
    nlinarith [hv0]
  · -- t0 ≤ c ≤ t
    have key : v * (t - c) ≤ a * (|t| - |c|) := by
      rcases lt_trichotomy t0 0 with h0 | h0 | h0
      · have hvn : v = -a := by
          rw [abs_of_neg h0] at hv0
          have : (v + a) * t0 = 0 := by linarith
          rcases mul_eq_zero.mp this with h | h
          · linarith
          · exact absurd h h0.ne
        have h3 : |c| - |t| ≤ |c - t| := abs_sub_abs_le_abs_sub c t
        rw [abs_of_nonpos (by linarith : c - t ≤ 0)] at h3
        rw [hvn]; nlinarith
      · rw [abs_of_nonneg (by linarith : 0 ≤ t), abs_of_nonneg (by linarith : 0 ≤ c)]
        nlinarith
      · rw [abs_of_nonneg (by linarith : 0 ≤ t), abs_of_nonneg (by linarith : 0 ≤ c)]
        nlinarith
    rw [hu]
    nlinarith [mul_nonneg (mul_nonneg hd.le (sub_nonneg.mpr h1)) (sub_nonneg.mpr h2)]
  · have key : v * (t - c) ≤ a * (|t| - |c|) := by
      rcases lt_trichotomy t0 0 with h0 | h0 | h0
      · rw [abs_of_nonpos (by linarith : t ≤ 0), abs_of_nonpos (by linarith : c ≤ 0)]
        nlinarith
      · rw [abs_of_nonpos (by linarith : t ≤ 0), abs_of_nonpos (by linarith : c ≤ 0)]
        nlinarith
      · have hvn : v = a := by
          rw [abs_of_pos h0] at hv0
          have : (v - a) * t0 = 0 := by linarith
          rcases mul_eq_zero.mp this with h | h
          · linarith
          · exact absurd h h0.ne'
        have h3 : |c| - |t| ≤ |c - t| := abs_sub_abs_le_abs_sub c t
        rw [abs_of_nonneg (by linarith : 0 ≤ c - t)] at h3
        rw [hvn]; nlinarith
    rw [hu]
    nlinarith [mul_nonneg (mul_nonneg hd.le (sub_nonneg.mpr h1)) (sub_nonneg.mpr h2)]

theorem clip_inBounds {lo hi : Option ℝ} (h : ∀ l u, lo = some l → hi = some u → l ≤ u) (v : ℝ) :
    InBounds lo hi (clipHigh hi (clipLow lo v)) := by
  constructor
  · intro l hl
    subst hl
    rcases hi with _ | u
    · exact le_max_right _ _
    · exact le_min (le_max_right _ _) (h l u rfl rfl)
  · intro u hu
    subst hu
    exact min_le_right _ _

/-- The penalty of one coefficient. -/
noncomputable def pen (lam alpha : ℝ) (r : Bool) (b : ℝ) : ℝ :=
  if r then lam * (alpha * |b| + (1 - alpha) / 2 * b ^ 2) else 0

/-- Gradient of the smooth quadratic part. -/
noncomputable def grad (G : Matrix (Fin p) (Fin p) ℝ) (h : Row p) (b : Row p) (j : Fin p) : ℝ :=
  (∑ k, G j k * b k) - h j

theorem enetObjective_eq (G : Matrix (Fin p) (Fin p) ℝ) (h : Row p) (lam alpha : ℝ) (reg : Fin p → Bool)
    (b : Row p) : enetObjective G h lam alpha reg b
      = 1 / 2 * (∑ i, b i * ∑ j, G i j * b j) - ∑ j, h j * b j + ∑ j, pen lam alpha (reg j) (b j) := by
  unfold enetObjective
  rw [Finset.mul_sum (a := lam)]
  congr 1
  · congr 2
    refine Finset.sum_congr rfl fun i _ => ?_
    rw [Finset.mul_sum]
    exact Finset.sum_congr rfl fun j _ => by ring
  · refine Finset.sum_congr rfl fun j _ => ?_
    unfold pen; split <;> simp

/-- Exact second-order expansion of the objective. -/
theorem enetObjective_expand (G : Matrix (Fin p) (Fin p) ℝ) (hG : G.IsSymm) (h : Row p) (lam alpha : ℝ)
    (reg : Fin p → Bool) (b c : Row p) :
    enetObjective G h lam alpha reg c - enetObjective G h lam alpha reg b
      = (∑ j, (grad G h b j * (c j - b j) + (pen lam alpha (reg j) (c j) - pen lam alpha (reg j) (b j))))
        + 1 / 2 * (∑ i, (c i - b i) * ∑ j, G i j * (c j - b j)) := by
  rw [enetObjective_eq, enetObjective_eq]
  have hsymm : ∑ i, c i * ∑ j, G i j * b j = ∑ i, b i * ∑ j, G i j * c j := by
    simp only [Finset.mul_sum]
    rw [Finset.sum_comm]
    refine Finset.sum_congr rfl fun i _ => Finset.sum_congr rfl fun j _ => ?_
    rw [hG.apply]
    ring
  have e1 : ∑ i, (c i - b i) * ∑ j, G i j * (c j - b j)
      = (∑ i, c i * ∑ j, G i j * c j) - (∑ i, c i * ∑ j, G i j * b j)
        - (∑ i, b i * ∑ j, G i j * c j) + ∑ i, b i * ∑ j, G i j * b j := by
    have : ∀ i, (∑ j, G i j * (c j - b j)) = (∑ j, G i j * c j) - ∑ j, G i j * b j := fun i => by
      rw [← Finset.sum_sub_distrib]; exact Finset.sum_congr rfl fun j _ => by ring
    simp only [this]
    rw [← Finset.sum_sub_distrib, ← Finset.sum_sub_distrib, ← Finset.sum_add_distrib]
    exact Finset.sum_congr rfl fun j _ => by ring
  have e2 : ∑ j, (grad G h b j * (c j - b j) + (pen lam alpha (reg j) (c j) - pen lam alpha (reg j) (b j)))
      = (∑ j, c j * ∑ k, G j k * b k) - (∑ j, b j * ∑ k, G j k * b k) - (∑ j, h j * c j) + (∑ j, h j * b j)
        + (∑ j, pen lam alpha (reg j) (c j)) - ∑ j, pen lam alpha (reg j) (b j) := by
    simp only [← Finset.sum_sub_distrib, ← Finset.sum_add_distrib]
    exact Finset.sum_congr rfl fun j _ => by unfold grad; ring
  rw [e1, e2, hsymm]
  ring

/-- Variational inequality for the value computed for one coordinate. -/
theorem newValue_vi (P : CDProblem p) (hlam : 0 ≤ P.lam) (ha0 : 0 ≤ P.alpha)
    (b : Row p) (j : Fin p) (hd : 0 < P.denom j) {t : ℝ} (ht : InBounds (P.lower j) (P.upper j) t) :
    0 ≤ (grad P.G P.h b j + P.denom j * P.newValue b j - P.G j j * b j) * (t - P.newValue b j)
        + (if P.reg j then P.alpha * P.lam else 0) * (|t| - |P.newValue b j|) := by
  set c := P.newValue b j with hc
  have hu : P.h j - (∑ k, P.G j k * b k) + P.G j j * b j = P.G j j * b j - grad P.G P.h b j := by
    unfold grad; ring
  have h0 : ∀ v, softThreshold v 0 = v := fun v => by
    rcases softThreshold_cases (v := v) le_rfl with ⟨h, e⟩ | ⟨h, e⟩ | ⟨h, e⟩
    · rw [e]; ring
    · rw [e]; ring
    · rw [e]; exact (abs_eq_zero.mp (le_antisymm h (abs_nonneg v))).symm
  have key := clip_vi (u := P.G j j * b j - grad P.G P.h b j)
    (a := if P.reg j then P.alpha * P.lam else 0) hd
    (by split <;> positivity) ht
  have hcc : clipHigh (P.upper j) (clipLow (P.lower j)
      (softThreshold (P.G j j * b j - grad P.G P.h b j) (if P.reg j then P.alpha * P.lam else 0)
        / P.denom j)) = c := by
    rw [hc]
    unfold CDProblem.newValue CDProblem.target
    simp only [hu]
    congr 3
    split
    · rfl
    · exact h0 _
  rw [hcc] at key
  linarith [key]

open Classical in
/-- `cdStep` when no denominator is zero. -/
noncomputable def pureStep (P : CDProblem p) (i : ℕ) (beta : Row p) (j : Fin p) : Row p :=
  if i < 2 ∨ beta j ≠ 0 then Function.update beta j (P.newValue beta j) else beta

/-- `cdSweep` when no denominator is zero. -/
noncomputable def pureSweep (P : CDProblem p) (i : ℕ) (JJ : List (Fin p)) (beta : Row p) : Row p :=
  JJ.foldl (pureStep P i) beta

open Classical in
/-- `whileLoop` for sweeps that do not raise. -/
noncomputable def pureLoop {S : Type*} (sweep : ℕ → S → S) (conv : S → S → Prop)
    (max_iterations : ℕ) (i : ℕ) (s : S) : S × ℕ :=
  let s' := sweep (i + 1) s
  if conv s' s then (s', i + 1)
  else if _h : i + 1 > max_iterations then (s', i + 1)
  else pureLoop sweep conv max_iterations (i + 1) s'
termination_by max_iterations + 1 - i

theorem pureStep_apply_ne (P : CDProblem p) (i : ℕ) (b : Row p) {j k : Fin p} (h : k ≠ j) :
    pureStep P i b j k = b k := by
  unfold pureStep; split
  · exact Function.update_of_ne h _ _
  · rfl

theorem pureStep_eq_update (P : CDProblem p) {i : ℕ} {b : Row p} {j : Fin p} (h : i < 2 ∨ b j ≠ 0) :
    pureStep P i b j = Function.update b j (P.newValue b j) := by
  unfold pureStep; rw [if_pos h]

/-- Sums in which only coordinate `j` changes. -/
theorem sum_update_diff {j : Fin p} (f : Fin p → ℝ) (hf : ∀ k, k ≠ j → f k = 0) : ∑ k, f k = f j :=
  Finset.sum_eq_single j (fun k _ hk => hf k hk) (fun h => absurd (Finset.mem_univ j) h)

/-- The change of the objective when one coordinate changes. -/
theorem enetObjective_update (G : Matrix (Fin p) (Fin p) ℝ) (hG : G.IsSymm) (h : Row p) (lam alpha : ℝ)
    (reg : Fin p → Bool) (b : Row p) (j : Fin p) (t : ℝ) :
    enetObjective G h lam alpha reg (Function.update b j t) - enetObjective G h lam alpha reg b
      = grad G h b j * (t - b j) + (pen lam alpha (reg j) t - pen lam alpha (reg j) (b j))
        + 1 / 2 * G j j * (t - b j) ^ 2 := by
  rw [enetObjective_expand G hG]
  have hne : ∀ k, k ≠ j → Function.update b j t k - b k = 0 := fun k hk => by
    rw [Function.update_of_ne hk]; ring
  have hj : Function.update b j t j = t := Function.update_self ..
  rw [sum_update_diff (j := j)]
  · rw [sum_update_diff (j := j) (f := fun i => (Function.update b j t i - b i)
        * ∑ k, G i k * (Function.update b j t k - b k))]
    · rw [sum_update_diff (j := j) (f := fun k => G j k * (Function.update b j t k - b k))]
      · rw [hj]; ring
      · intro k hk; simp only [hne k hk, mul_zero]
    · intro k hk; simp only [hne k hk, zero_mul]
  · intro k hk
    rw [hne k hk, Function.update_of_ne hk]; ring

/-- The value computed for one coordinate minimises the objective over the feasible values of that
coordinate. -/
theorem newValue_minimises (P : CDProblem p) (hG : P.G.IsSymm) (hlam : 0 ≤ P.lam) (ha0 : 0 ≤ P.alpha)
    (b : Row p) (j : Fin p) (hd : 0 < P.denom j) {t : ℝ}
    (ht : InBounds (P.lower j) (P.upper j) t) :
    enetObjective P.G P.h P.lam P.alpha P.reg (Function.update b j (P.newValue b j))
        + P.denom j / 2 * (t - P.newValue b j) ^ 2
      ≤ enetObjective P.G P.h P.lam P.alpha P.reg (Function.update b j t) := by
  have key := newValue_vi P hlam ha0 b j hd ht
  have e1 := enetObjective_update P.G hG P.h P.lam P.alpha P.reg b j (P.newValue b j)
  have e2 := enetObjective_update P.G hG P.h P.lam P.alpha P.reg b j t
  set c := P.newValue b j
  unfold pen at e1 e2
  unfold CDProblem.denom at key ⊢
  by_cases hr : P.reg j
  · simp only [hr, if_true] at e1 e2 key ⊢
    nlinarith [key, e1, e2]
  · simp only [hr] at e1 e2 key ⊢
    simp only [Bool.false_eq_true, if_false] at e1 e2 key ⊢
    nlinarith [key, e1, e2]

theorem pureSweep_nil (P : CDProblem p) (i : ℕ) (b : Row p) : pureSweep P i [] b = b := rfl

theorem pureSweep_cons (P : CDProblem p) (i : ℕ) (j : Fin p) (JJ : List (Fin p)) (b : Row p) :
    pureSweep P i (j :: JJ) b = pureSweep P i JJ (pureStep P i b j) := rfl

theorem pureSweep_notMem (P : CDProblem p) (i : ℕ) (JJ : List (Fin p)) (b : Row p) {k : Fin p}
    (h : k ∉ JJ) : pureSweep P i JJ b k = b k := by
  induction JJ generalizing b with
  | nil => rfl
  | cons j JJ ih =>
    rw [pureSweep_cons, ih _ (fun hk => h (List.mem_cons_of_mem _ hk)),
      pureStep_apply_ne _ _ _ (fun e => h (by rw [e]; exact List.mem_cons_self ..))]

/-- If a sweep over distinct coordinates leaves the vector unchanged, every single step did. -/
theorem pureSweep_fixed (P : CDProblem p) (i : ℕ) (JJ : List (Fin p)) (hn : JJ.Nodup) (b : Row p)
    (h : pureSweep P i JJ b = b) : ∀ j ∈ JJ, pureStep P i b j = b := by
  induction JJ with
  | nil => intro j hj; cases hj
  | cons j JJ ih =>
    rw [pureSweep_cons] at h
    have hj : pureStep P i b j = b := by
      funext k
      by_cases hk : k = j
      · subst hk
        have := congrFun h k
        rwa [pureSweep_notMem _ _ _ _ (List.nodup_cons.mp hn).1] at this
      · exact pureStep_apply_ne _ _ _ hk
    rw [hj] at h
    intro k hk
    rcases List.mem_cons.mp hk with rfl | hk
    · exact hj
    · exact ih (List.nodup_cons.mp hn).2 h k hk

/-- Unfolding of the loop. -/
theorem pureLoop_eq {S : Type*} (sweep : ℕ → S → S) (conv : S → S → Prop) (m i : ℕ) (s : S) :
    pureLoop sweep conv m i s =
      (open Classical in
      if conv (sweep (i + 1) s) s then (sweep (i + 1) s, i + 1)
      else if i + 1 > m then (sweep (i + 1) s, i + 1)
      else pureLoop sweep conv m (i + 1) (sweep (i + 1) s)) := by
  rw [pureLoop]
  simp only [dite_eq_ite]

/-- Anything preserved by the sweeps and established by the first one holds for the result. -/
theorem pureLoop_invariant {S : Type*} (sweep : ℕ → S → S) (conv : S → S → Prop) (m : ℕ)
    (Q : S → Prop) (i : ℕ) (s : S) (h0 : Q (sweep (i + 1) s))
    (h1 : ∀ k s, i + 1 ≤ k → Q s → Q (sweep (k + 1) s)) : Q (pureLoop sweep conv m i s).1 := by
  induction hk : m + 1 - i using Nat.strong_induction_on generalizing i s with
  | _ n ih =>
    rw [pureLoop_eq]
    split
    · exact h0
    · split
      · exact h0
      · exact ih (m + 1 - (i + 1)) (by omega) (i + 1) _ (h1 _ _ le_rfl h0)
          (fun k s hk hq => h1 k s (by omega) hq) rfl

theorem foldl_max_le (l : List (Fin p)) (f : Fin p → ℝ) (m : ℝ) :
    m ≤ l.foldl (fun m j => max m (f j)) m ∧ ∀ j ∈ l, f j ≤ l.foldl (fun m j => max m (f j)) m := by
  induction l generalizing m with
  | nil => exact ⟨le_rfl, fun j hj => by cases hj⟩
  | cons j l ih =>
    obtain ⟨h1, h2⟩ := ih (max m (f j))
    refine ⟨le_trans (le_max_left _ _) h1, fun k hk => ?_⟩
    rcases List.mem_cons.mp hk with rfl | hk
    · exact le_trans (le_max_right _ _) h1
    · exact h2 k hk

theorem foldl_max_ub (l : List (Fin p)) (f : Fin p → ℝ) (m B : ℝ) (hm : m ≤ B) (hf : ∀ j ∈ l, f j ≤ B) :
    l.foldl (fun m j => max m (f j)) m ≤ B := by
  induction l generalizing m with
  | nil => exact hm
  | cons j l ih =>
    exact ih _ (max_le hm (hf j (List.mem_cons_self ..))) (fun k hk => hf k (List.mem_cons_of_mem _ hk))

theorem abs_le_maxAbs (v : Row p) (j : Fin p) : |v j| ≤ maxAbs v :=
  (foldl_max_le (List.finRange p) (fun j => |v j|) 0).2 j (List.mem_finRange j)

theorem maxAbs_nonneg (v : Row p) : 0 ≤ maxAbs v :=
  (foldl_max_le (List.finRange p) (fun j => |v j|) 0).1

theorem maxAbs_le {v : Row p} {B : ℝ} (hB : 0 ≤ B) (h : ∀ j, |v j| ≤ B) : maxAbs v ≤ B :=
  foldl_max_ub _ _ _ _ hB fun j _ => h j

theorem maxAbs_zero : maxAbs (0 : Row p) = 0 :=
  le_antisymm (maxAbs_le le_rfl fun j => by simp) (maxAbs_nonneg _)

theorem countNonzero_zero : countNonzero (0 : Row p) = 0 := by
  unfold countNonzero; simp

/-- No denominator is zero. -/
def CDProblem.NoZero (P : CDProblem p) : Prop := ∀ j, P.denom j ≠ 0

theorem cdStep_eq (P : CDProblem p) (h : P.NoZero) (i : ℕ) (b : Row p) (j : Fin p) :
    cdStep P i b j = .ok (pureStep P i b j) := by
  unfold cdStep pureStep
  split
  · rw [if_neg (h j)]
  · rfl

theorem cdSweep_eq (P : CDProblem p) (h : P.NoZero) (i : ℕ) (JJ : List (Fin p)) (b : Row p) :
    cdSweep P i JJ b = .ok (pureSweep P i JJ b) := by
  induction JJ generalizing b with
  | nil => rfl
  | cons j JJ ih =>
    rw [pureSweep_cons, ← ih]
    unfold cdSweep
    rw [List.foldlM_cons, cdStep_eq P h]
    rfl

/-- A full first sweep raises if some denominator is zero. -/
theorem cdSweep_error (P : CDProblem p) {i : ℕ} (hi : i < 2) (JJ : List (Fin p)) (b : Row p)
    (h : ∃ j ∈ JJ, P.denom j = 0) : cdSweep P i JJ b = .error .zeroDivision := by
  induction JJ generalizing b with
  | nil => obtain ⟨j, hj, _⟩ := h; cases hj
  | cons j JJ ih =>
    unfold cdSweep
    rw [List.foldlM_cons]
    by_cases hj : P.denom j = 0
    · have : cdStep P i b j = .error .zeroDivision := by
        unfold cdStep; rw [if_pos (Or.inl hi), if_pos hj]
      rw [this]; rfl
    · have : cdStep P i b j = .ok (Function.update b j (P.newValue b j)) := by
        unfold cdStep; rw [if_pos (Or.inl hi), if_neg hj]
      rw [this]
      refine ih _ ?_
      obtain ⟨k, hk, hk0⟩ := h
      rcases List.mem_cons.mp hk with rfl | hk
      · exact absurd hk0 hj
      · exact ⟨k, hk, hk0⟩

theorem whileLoop_eq {S : Type*} (sweep : ℕ → S → Except PyErr S) (f : ℕ → S → S)
    (hf : ∀ i s, sweep i s = .ok (f i s)) (conv : S → S → Prop) (m i : ℕ) (s : S) :
    whileLoop sweep conv m i s = .ok (pureLoop f conv m i s) := by
  induction hk : m + 1 - i using Nat.strong_induction_on generalizing i s with
  | _ n ih =>
    rw [whileLoop, pureLoop_eq]
    simp only [hf]
    split
    · rfl
    · split
      · rfl
      · exact ih (m + 1 - (i + 1)) (by omega) (i + 1) _ rfl

/-- Coordinate descent without exceptions. -/
noncomputable def pureCD (P : CDProblem p) (selection : Selection) (perm : ℕ → List (Fin p))
    (tolerance : ℝ) (max_iterations : ℕ) (beta : Row p) : Row p × ℕ :=
  pureLoop (fun i b => pureSweep P i (cdOrder selection perm i) b) (cdConverged tolerance)
    max_iterations 0 beta

theorem onlineCD_eq (P : CDProblem p) (h : P.NoZero) (sel : Selection) (perm : ℕ → List (Fin p))
    (tol : ℝ) (m : ℕ) (b : Row p) : onlineCD P sel perm tol m b = .ok (pureCD P sel perm tol m b) :=
  whileLoop_eq _ _ (fun i s => cdSweep_eq P h i _ s) _ _ _ _

theorem cdOrder_one (sel : Selection) (perm : ℕ → List (Fin p)) : cdOrder sel perm 1 = List.finRange p := by
  unfold cdOrder
  rw [if_neg (by omega)]

theorem onlineCD_error (P : CDProblem p) (h : ¬ P.NoZero) (sel : Selection) (perm : ℕ → List (Fin p))
    (tol : ℝ) (m : ℕ) (b : Row p) : onlineCD P sel perm tol m b = .error .zeroDivision := by
  unfold onlineCD
  rw [whileLoop]
  unfold CDProblem.NoZero at h
  push Not at h
  obtain ⟨j, hj⟩ := h
  rw [cdSweep_error P (by omega) _ _ ⟨j, by rw [Nat.zero_add, cdOrder_one]; exact List.mem_finRange j, hj⟩]

theorem onlineCD_ok_iff (P : CDProblem p) (sel : Selection) (perm : ℕ → List (Fin p))
    (tol : ℝ) (m : ℕ) (b : Row p) (r : Row p × ℕ) : onlineCD P sel perm tol m b = .ok r ↔
      P.NoZero ∧ pureCD P sel perm tol m b = r := by
  by_cases h : P.NoZero
  · rw [onlineCD_eq P h]
    constructor
    · intro e; exact ⟨h, Except.ok.inj e⟩
    · rintro ⟨_, e⟩; rw [e]
  · rw [onlineCD_error P h]
    constructor
    · intro e; cases e
    · rintro ⟨h', _⟩; exact absurd h' h

end Ondil

namespace Ondil

variable {p : ℕ}

theorem cdPathLoop_nil_left (c : PathConfig p) (G : Matrix (Fin p) (Fin p) ℝ) (h : Row p) (k : ℕ)
    (np : Row p) (olds : List (Row p)) : cdPathLoop c G h k np [] olds = .ok [] := by
  rw [cdPathLoop]; intros; simp_all

theorem cdPathLoop_nil_right (c : PathConfig p) (G : Matrix (Fin p) (Fin p) ℝ) (h : Row p) (k : ℕ)
    (np : Row p) (lams : List ℝ) : cdPathLoop c G h k np lams [] = .ok [] := by
  rw [cdPathLoop]; intros; simp_all

theorem cdPathLoop_cons_ok {c : PathConfig p} {G : Matrix (Fin p) (Fin p) ℝ} {h : Row p} {k : ℕ}
    {np : Row p} {lam : ℝ} {lams : List ℝ} {old : Row p} {olds : List (Row p)} {l : List (Row p × ℕ)}
    (hl : cdPathLoop c G h k np (lam :: lams) (old :: olds) = .ok l) :
    ∃ r rs, l = r :: rs ∧ cdPathRow c G h k lam np old = .ok r ∧
      cdPathLoop c G h (k + 1) r.1 lams olds = .ok rs := by
  rw [cdPathLoop] at hl
  split at hl
  · cases hl
  · rename_i r hr
    split at hl
    · cases hl
    · rename_i rs hrs
      exact ⟨r, rs, (Except.ok.inj hl).symm, hr, hrs⟩

theorem cdPathLoop_length {c : PathConfig p} {G : Matrix (Fin p) (Fin p) ℝ} {h : Row p} {k : ℕ}
    {np : Row p} {lams : List ℝ} {olds : List (Row p)} {l : List (Row p × ℕ)}
    (hl : cdPathLoop c G h k np lams olds = .ok l) : l.length = min lams.length olds.length := by
  induction lams generalizing k np olds l with
  | nil => rw [cdPathLoop_nil_left] at hl; rw [← Except.ok.inj hl]; simp
  | cons lam lams ih =>
    cases olds with
    | nil => rw [cdPathLoop_nil_right] at hl; rw [← Except.ok.inj hl]; simp
    | cons old olds =>
      obtain ⟨r, rs, rfl, _, h2⟩ := cdPathLoop_cons_ok hl
      rw [List.length_cons, ih h2]; simp

/-- Every row of a path is one row computation, started from its predecessor or the old row. -/
theorem cdPathLoop_row {c : PathConfig p} {G : Matrix (Fin p) (Fin p) ℝ} {h : Row p} {k : ℕ}
    {np : Row p} {lams : List ℝ} {olds : List (Row p)} {l : List (Row p × ℕ)}
    (hl : cdPathLoop c G h k np lams olds = .ok l) (i : ℕ) (r : Row p × ℕ) (hr : l[i]? = some r) :
    ∃ lam old prev, lams[i]? = some lam ∧ olds[i]? = some old ∧
      (np :: l.map Prod.fst)[i]? = some prev ∧ cdPathRow c G h (k + i) lam prev old = .ok r := by
  induction lams generalizing k np olds l i with
  | nil =>
    rw [cdPathLoop_nil_left] at hl; rw [← Except.ok.inj hl] at hr; simp at hr
  | cons lam lams ih =>
    cases olds with
    | nil => rw [cdPathLoop_nil_right] at hl; rw [← Except.ok.inj hl] at hr; simp at hr
    | cons old olds =>
      obtain ⟨r', rs, rfl, h1, h2⟩ := cdPathLoop_cons_ok hl
      cases i with
      | zero =>
        simp only [List.getElem?_cons_zero, Option.some.injEq] at hr
        subst hr
        exact ⟨lam, old, np, by simp, by simp, by simp, h1⟩
      | succ i =>
        rw [List.getElem?_cons_succ] at hr
        obtain ⟨a, b, d, e1, e2, e3, e4⟩ := ih h2 i hr
        refine ⟨a, b, d, by simpa using e1, by simpa using e2, by simpa using e3, ?_⟩
        rw [← e4]; congr 1; omega

/-- Induction along a path: a property of rows that holds for the initial predecessor and the old rows and is
passed on by each row computation. -/
theorem cdPathLoop_forall {c : PathConfig p} {G : Matrix (Fin p) (Fin p) ℝ} {h : Row p} (Q : Row p → Prop)
    (hstep : ∀ i lam prev old r, cdPathRow c G h i lam prev old = .ok r → Q prev → Q old → Q r.1) {k : ℕ}
    {np : Row p} {lams : List ℝ} {olds : List (Row p)} {l : List (Row p × ℕ)}
    (hl : cdPathLoop c G h k np lams olds = .ok l) (h0 : Q np) (ho : ∀ o ∈ olds, Q o) :
    ∀ r ∈ l, Q r.1 := by
  induction lams generalizing k np olds l with
  | nil => rw [cdPathLoop_nil_left] at hl; rw [← Except.ok.inj hl]; intro r hr; cases hr
  | cons lam lams ih =>
    cases olds with
    | nil => rw [cdPathLoop_nil_right] at hl; rw [← Except.ok.inj hl]; intro r hr; cases hr
    | cons old olds =>
      obtain ⟨r, rs, rfl, h1, h2⟩ := cdPathLoop_cons_ok hl
      have hq := hstep _ _ _ _ _ h1 h0 (ho old (List.mem_cons_self ..))
      intro x hx
      rcases List.mem_cons.mp hx with rfl | hx
      · exact hq
      · exact ih h2 hq (fun o h => ho o (List.mem_cons_of_mem _ h)) x hx

end Ondil
