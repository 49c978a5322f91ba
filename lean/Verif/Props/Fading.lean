import Verif.Lemmas.Fading
import Verif.Props.LeastSquares
import Verif.Props.Scaler

/-!
# C100: the influence of old data fades exponentially
-/

open scoped BigOperators Matrix

namespace Ondil

variable {p k : ℕ} {fi : Bool}

theorem OlsInv.gradient {c : LMConfig p fi} (hv : c.Valid) {h : List (Obs p)} {d : List (Obs (designDim p fi))} {s : LM p fi}
    (inv : OlsInv c h d s) : ∃ b, s.coef = some b ∧ sseGradient c.forget d b = 0 := by
  refine ⟨_, inv.coef, sseGradient_of_normal hv.2.1.le inv.nonneg ?_⟩
  unfold olsBeta
  rw [Matrix.mulVec_mulVec, Matrix.mul_nonsing_inv _ inv.isUnit, Matrix.one_mulVec]

/-- A fit and updates of least squares without scaling: the object exists, predicts with its coefficients, and these solve the
normal equations of all data. -/
theorem ols_run (c : LMConfig p fi) (hm : c.method = .str "ols") (hs : c.scaleInputs = .off)
    (rng : ℕ → ℕ → ℕ → List (Fin (designDim p fi))) (perm : ℕ → ℕ → List (Fin (designDim p fi))) {data : List (Obs p)}
    {batches : List (List (Obs p))} (hne : ∀ b ∈ batches, b ≠ []) (hi : NonnegWeights data)
    (hb : ∀ b ∈ batches, NonnegWeights b) {s₀ s : LM p fi} (hfit : LM.fit c perm data s₀ = (.ok (), s)) :
    ∃ t b, LM.updates c rng 0 batches s = (.ok (), t) ∧ t.coef = some b ∧
      sseGradient c.forget (plainObs fi data ++ plainObs fi batches.flatten) b = 0 ∧
      ∀ X, t.predict X = .ok (X.map fun x => linPred (designRow fi x) b) := by
  have hm' : getEstimationMethod c.method = .ok .ols := by rw [hm]; exact getEstimationMethod_ols
  have hsel : c.scaleInputs.selection = none := by rw [hs]; rfl
  obtain ⟨hv, _, h3, _⟩ := LM.fit_ok hfit
  have inv0 := OlsInv.of_fit hm' hi hfit
  obtain ⟨t, ht, inv⟩ := inv0.updates hv (fun h => h3 (.inr h)) rng batches hne hb 0
  rw [designObs_off hsel, mixedDesign_off hsel] at inv
  obtain ⟨b, hb1, hb2⟩ := inv.gradient hv
  refine ⟨t, b, ht, hb1, hb2, fun X => ?_⟩
  unfold LM.predict
  rw [inv.scaler, hb1]
  simp only [scaledDesign, transform_canon, List.map_map]
  congr 1
  refine List.map_congr_left fun x _ => ?_
  simp only [Function.comp]
  rw [standardise_off hsel]
  rfl

theorem nonneg_plainObs {b : List (Obs p)} (h : NonnegWeights b) : NonnegWeights (plainObs fi b) := by
  intro o ho
  obtain ⟨o', ho', rfl⟩ := List.mem_map.1 ho
  exact h o' ho'

/-- Two models (least squares, no scaling) fitted to different data and then updated with the same batches of `n` observations in
total: the distance of their coefficients is at most `(1 - forget) ^ n` times the distance of the gradients of the two
initial data sets, divided by the curvature of the common data. -/
theorem C100_fading_memory (c : LMConfig p fi) (hm : c.method = .str "ols") (hs : c.scaleInputs = .off)
    (rng rng' : ℕ → ℕ → ℕ → List (Fin (designDim p fi))) (perm perm' : ℕ → ℕ → List (Fin (designDim p fi)))
    (data data' : List (Obs p)) (batches : List (List (Obs p))) (hne : ∀ b ∈ batches, b ≠ []) (hi : NonnegWeights data)
    (hi' : NonnegWeights data') (hb : ∀ b ∈ batches, NonnegWeights b) (s₀ s₀' s s' : LM p fi)
    (hfit : LM.fit c perm data s₀ = (.ok (), s)) (hfit' : LM.fit c perm' data' s₀' = (.ok (), s')) :
    ∃ t t' b b', LM.updates c rng 0 batches s = (.ok (), t) ∧ LM.updates c rng' 0 batches s' = (.ok (), t') ∧
      t.coef = some b ∧ t'.coef = some b' ∧ ∀ mu, Excites c.forget (plainObs fi batches.flatten) mu →
        mu * euclid b b' ≤ (1 - c.forget) ^ batches.flatten.length *
          euclid (sseGradient c.forget (plainObs fi data') b') (sseGradient c.forget (plainObs fi data) b') := by
  obtain ⟨t, b, h1, h2, h3, _⟩ := ols_run c hm hs rng perm hne hi hb hfit
  obtain ⟨t', b', h1', h2', h3', _⟩ := ols_run c hm hs rng' perm' hne hi' hb hfit'
  refine ⟨t, t', b, b', h1, h1', h2, h2', fun mu hmu => ?_⟩
  have := fading (LM.fit_ok hfit).1.2.1.le (nonneg_plainObs hi) h3 h3' hmu
  rwa [show (plainObs fi batches.flatten).length = batches.flatten.length from List.length_map _] at this

/-- The same for one model, against least squares on the recent data alone: what the initial data set contributes is
`(1 - forget) ^ n` times its gradient there. -/
theorem C100_recent_data (c : LMConfig p fi) (hm : c.method = .str "ols") (hs : c.scaleInputs = .off)
    (rng : ℕ → ℕ → ℕ → List (Fin (designDim p fi))) (perm : ℕ → ℕ → List (Fin (designDim p fi)))
    (data : List (Obs p)) (batches : List (List (Obs p))) (hne : ∀ b ∈ batches, b ≠ []) (hi : NonnegWeights data)
    (hb : ∀ b ∈ batches, NonnegWeights b) (s₀ s : LM p fi) (hfit : LM.fit c perm data s₀ = (.ok (), s))
    (hr : FullRank (plainObs fi batches.flatten)) :
    ∃ t b bRecent, LM.updates c rng 0 batches s = (.ok (), t) ∧ t.coef = some b ∧
      IsLeastSquares c.forget (plainObs fi batches.flatten) bRecent ∧
      ∀ mu, Excites c.forget (plainObs fi batches.flatten) mu →
        mu * euclid b bRecent ≤ (1 - c.forget) ^ batches.flatten.length *
          euclid 0 (sseGradient c.forget (plainObs fi data) bRecent) := by
  obtain ⟨t, b, h1, h2, h3, _⟩ := ols_run c hm hs rng perm hne hi hb hfit
  have hf := (LM.fit_ok hfit).1.2.1
  have hn : NonnegWeights (plainObs fi batches.flatten) := nonneg_plainObs (nonneg_flatten hb)
  have hu := (isUnit_det_iff_fullRank hf _ hn).2 hr
  set r := plainObs fi batches.flatten with hrdef
  have e : initGram (xs r) (ws r) c.forget *ᵥ olsBeta (initGram (xs r) (ws r) c.forget)⁻¹ (initYGram (xs r) (ys r) (ws r) c.forget) =
      initYGram (xs r) (ys r) (ws r) c.forget := by
    unfold olsBeta
    rw [Matrix.mulVec_mulVec, Matrix.mul_nonsing_inv _ hu, Matrix.one_mulVec]
  refine ⟨t, b, _, h1, h2, isLeastSquares_of_normal hf r hn _ hu e, fun mu hmu => ?_⟩
  have := fading (h' := []) hf.le (nonneg_plainObs hi) h3 (sseGradient_of_normal hf.le (by simpa using hn) (by simpa using e)) hmu
  rwa [show r.length = batches.flatten.length from List.length_map _, sseGradient_nil] at this

/-- The first `k` batches of a stream. -/
def firstBatches (stream : ℕ → List (Obs p)) (k : ℕ) : List (List (Obs p)) := (List.range k).map stream

theorem length_firstBatches (stream : ℕ → List (Obs p)) (hne : ∀ i, stream i ≠ []) (k : ℕ) :
    k ≤ (firstBatches stream k).flatten.length := by
  induction k with
  | zero => simp
  | succ k ih =>
    have : 0 < (stream k).length := List.length_pos_iff.2 (hne k)
    simp only [firstBatches, List.range_succ, List.map_append, List.flatten_append, List.length_append] at ih ⊢
    simp
    simp at ih
    omega

theorem bounded_plainObs {B W : ℝ} (hB : 1 ≤ B) {h : List (Obs p)} (hh : Bounded B W h) : Bounded B W (plainObs fi h) := by
  intro o ho
  obtain ⟨o', ho', rfl⟩ := List.mem_map.1 ho
  obtain ⟨h1, h2, h3, h4⟩ := hh o' ho'
  refine ⟨fun j => ?_, h2, h3, h4⟩
  cases fi with
  | false => exact h1 j
  | true =>
    change |(Fin.cons 1 o'.x : Row (p + 1)) j| ≤ B
    refine Fin.cases ?_ (fun i => ?_) j
    · simpa using hB
    · simpa using h1 i

/-- An endless stream of bounded batches that determines the coefficients (curvature at least `mu > 0` from some time on), and a
positive `forget`: two models that were fitted to different data approach each other exponentially, and so do their predictions. -/
theorem C100_convergence (c : LMConfig p fi) (hm : c.method = .str "ols") (hs : c.scaleInputs = .off) (hf0 : 0 < c.forget)
    (rng rng' : ℕ → ℕ → ℕ → List (Fin (designDim p fi))) (perm perm' : ℕ → ℕ → List (Fin (designDim p fi)))
    (data data' : List (Obs p)) (stream : ℕ → List (Obs p)) (hne : ∀ i, stream i ≠ []) {B W mu : ℝ}
    (hi : Bounded B W data) (hi' : Bounded B W data') (hb : ∀ i, Bounded B W (stream i)) (hmu0 : 0 < mu) (k₀ : ℕ)
    (hmu : ∀ k ≥ k₀, Excites c.forget (plainObs fi (firstBatches stream k).flatten) mu) (s₀ s₀' s s' : LM p fi)
    (hfit : LM.fit c perm data s₀ = (.ok (), s)) (hfit' : LM.fit c perm' data' s₀' = (.ok (), s')) :
    ∃ K, ∀ k ≥ k₀, ∃ t t' b b', LM.updates c rng 0 (firstBatches stream k) s = (.ok (), t) ∧
      LM.updates c rng' 0 (firstBatches stream k) s' = (.ok (), t') ∧ t.coef = some b ∧ t'.coef = some b' ∧
      euclid b b' ≤ K * (1 - c.forget) ^ (firstBatches stream k).flatten.length ∧
      (1 - c.forget) ^ (firstBatches stream k).flatten.length ≤ (1 - c.forget) ^ k ∧
      ∀ x, ∃ y y', t.predict [x] = .ok [y] ∧ t'.predict [x] = .ok [y'] ∧
        |y' - y| ≤ K * (1 - c.forget) ^ (firstBatches stream k).flatten.length * ∑ j, |designRow fi x j| := by
  have hf := (LM.fit_ok hfit).1.2.1
  -- enlarge the bounds
  set B' := max B 1 with hB'
  set W' := max W 0 with hW'
  have up : ∀ {h : List (Obs p)}, Bounded B W h → Bounded B' W' h := fun hh o ho => by
    obtain ⟨h1, h2, h3, h4⟩ := hh o ho
    exact ⟨fun j => (h1 j).trans (le_max_left _ _), h2.trans (le_max_left _ _), h3, h4.trans (le_max_left _ _)⟩
  have nn : ∀ {h : List (Obs p)}, Bounded B W h → NonnegWeights h := fun hh o ho => (hh o ho).2.2.1
  have hB1 : 1 ≤ B' := le_max_right _ _
  have hB0 : 0 ≤ B' := zero_le_one.trans hB1
  have hW0 : 0 ≤ W' := le_max_right _ _
  set M := Real.sqrt (∑ _j : Fin (designDim p fi), (W' * B' * B' / c.forget) ^ 2) / mu with hM
  obtain ⟨K, hK0, hK⟩ := gradient_distance_bounded c.forget (plainObs fi data) (plainObs fi data') M
  refine ⟨K / mu, fun k hk => ?_⟩
  have hne' : ∀ b ∈ firstBatches stream k, b ≠ [] := by
    intro b hb'
    obtain ⟨i, _, rfl⟩ := List.mem_map.1 hb'
    exact hne i
  have hb' : ∀ b ∈ firstBatches stream k, Bounded B W b := by
    intro b hb'
    obtain ⟨i, _, rfl⟩ := List.mem_map.1 hb'
    exact hb i
  have hbn : ∀ b ∈ firstBatches stream k, NonnegWeights b := fun b h => nn (hb' b h)
  obtain ⟨t, b, h1, h2, h3, h4⟩ := ols_run c hm hs rng perm hne' (nn hi) hbn hfit
  obtain ⟨t', b', h1', h2', h3', h4'⟩ := ols_run c hm hs rng' perm' hne' (nn hi') hbn hfit'
  have hx := hmu k hk
  set r := plainObs fi (firstBatches stream k).flatten with hr
  have hlen : r.length = (firstBatches stream k).flatten.length := List.length_map _
  have hbound : Bounded B' W' (plainObs fi data' ++ r) := by
    intro o ho
    rcases List.mem_append.1 ho with ho | ho
    · exact bounded_plainObs hB1 (up hi') o ho
    · refine bounded_plainObs (h := (firstBatches stream k).flatten) hB1 (fun o ho => ?_) o ho
      obtain ⟨l, hl, hol⟩ := List.mem_flatten.1 ho
      exact up (hb' l hl) o hol
  have hcb : ∀ j, |b' j| ≤ M := coef_bounded hf0 hf.le hbound hB0 hW0 hmu0 (hx.append hf.le (nonneg_plainObs (nn hi'))) h3'
  have hd := fading hf.le (nonneg_plainObs (nn hi)) h3 h3' hx
  rw [hlen] at hd
  have hp0 : 0 ≤ (1 - c.forget) ^ (firstBatches stream k).flatten.length := pow_nonneg (by linarith) _
  have he : euclid b b' ≤ K / mu * (1 - c.forget) ^ (firstBatches stream k).flatten.length := by
    rw [div_mul_eq_mul_div, le_div_iff₀ hmu0, mul_comm]
    refine hd.trans ?_
    rw [mul_comm]
    exact mul_le_mul_of_nonneg_right (hK b' hcb) hp0
  refine ⟨t, t', b, b', h1, h1', h2, h2', he, ?_, fun x => ?_⟩
  · exact pow_le_pow_of_le_one (by linarith) (by linarith) (length_firstBatches stream hne k)
  · refine ⟨_, _, h4 [x], h4' [x], ?_⟩
    have e : linPred (designRow fi x) b' - linPred (designRow fi x) b = ∑ j, designRow fi x j * (b' j - b j) := by
      simp only [linPred, mul_sub, Finset.sum_sub_distrib]
    rw [e, Finset.mul_sum]
    refine (Finset.abs_sum_le_sum_abs _ _).trans (Finset.sum_le_sum fun j _ => ?_)
    rw [abs_mul, mul_comm]
    exact mul_le_mul_of_nonneg_right ((abs_sub_le_euclid b b' j).trans he) (abs_nonneg _)

/-- Hence every difference becomes arbitrarily small. -/
theorem C100_forgotten (c : LMConfig p fi) (hm : c.method = .str "ols") (hs : c.scaleInputs = .off) (hf0 : 0 < c.forget)
    (rng rng' : ℕ → ℕ → ℕ → List (Fin (designDim p fi))) (perm perm' : ℕ → ℕ → List (Fin (designDim p fi)))
    (data data' : List (Obs p)) (stream : ℕ → List (Obs p)) (hne : ∀ i, stream i ≠ []) {B W mu : ℝ}
    (hi : Bounded B W data) (hi' : Bounded B W data') (hb : ∀ i, Bounded B W (stream i)) (hmu0 : 0 < mu) (k₀ : ℕ)
    (hmu : ∀ k ≥ k₀, Excites c.forget (plainObs fi (firstBatches stream k).flatten) mu) (s₀ s₀' s s' : LM p fi)
    (hfit : LM.fit c perm data s₀ = (.ok (), s)) (hfit' : LM.fit c perm' data' s₀' = (.ok (), s')) {eps : ℝ} (heps : 0 < eps) :
    ∃ k₁, ∀ k ≥ k₁, ∃ t t' b b', LM.updates c rng 0 (firstBatches stream k) s = (.ok (), t) ∧
      LM.updates c rng' 0 (firstBatches stream k) s' = (.ok (), t') ∧ t.coef = some b ∧ t'.coef = some b' ∧
      ∀ j, |b' j - b j| < eps := by
  obtain ⟨K, hK⟩ := C100_convergence c hm hs hf0 rng rng' perm perm' data data' stream hne hi hi' hb hmu0 k₀ hmu s₀ s₀' s s' hfit hfit'
  have hf := (LM.fit_ok hfit).1.2.1
  obtain ⟨k₁, hk₁⟩ := exists_pow_lt_of_lt_one (div_pos heps (by positivity : 0 < |K| + 1)) (by linarith : 1 - c.forget < 1)
  refine ⟨max k₀ k₁, fun k hk => ?_⟩
  obtain ⟨t, t', b, b', h1, h2, h3, h4, h5, h6, _⟩ := hK k ((le_max_left _ _).trans hk)
  refine ⟨t, t', b, b', h1, h2, h3, h4, fun j => ?_⟩
  have h7 : (1 - c.forget) ^ k ≤ (1 - c.forget) ^ k₁ :=
    pow_le_pow_of_le_one (by linarith) (by linarith) ((le_max_right _ _).trans hk)
  set q := (1 - c.forget) ^ (firstBatches stream k).flatten.length with hq
  have hq0 : 0 ≤ q := pow_nonneg (by linarith) _
  have h8 : q < eps / (|K| + 1) := (h6.trans h7).trans_lt hk₁
  rw [lt_div_iff₀ (by positivity)] at h8
  have h9 := abs_sub_le_euclid b b' j
  have h10 : K * q ≤ |K| * q := mul_le_mul_of_nonneg_right (le_abs_self K) hq0
  nlinarith

/-- The scaler forgets in the same way: the mean differs from the exponentially weighted mean of the recent data by at most
`(1 - forget) ^ n` times the difference of old and new mean, times the ratio of the weights. -/
theorem C100_scaler (sel : Fin k → Fin p) {forget : ℝ} (hf : forget < 1) (init : List (Obs p))
    (batches : List (List (Obs p))) (hlen : 2 ≤ init.length) (hne : ∀ b ∈ batches, b ≠ [])
    (hW : 0 < totalWeight forget init) (hb : ∀ b ∈ batches, NonnegWeights b) (hr : 0 < totalWeight forget batches.flatten) :
    ∃ s, onlineScaler sel forget init batches = .ok s ∧ ∀ i,
      |s.mean i - ewMean forget batches.flatten (sel i)| ≤ (1 - forget) ^ batches.flatten.length *
        (totalWeight forget init / totalWeight forget batches.flatten) *
          |ewMean forget init (sel i) - ewMean forget batches.flatten (sel i)| := by
  obtain ⟨s, h1, h2⟩ := C12_moments sel hf init batches hlen hne hW hb
  refine ⟨s, h1, fun i => ?_⟩
  rw [(h2 i).1]
  set r := batches.flatten
  set rho := (1 - forget) ^ r.length with hrho
  have hr0 : 0 ≤ rho := pow_nonneg (by linarith) _
  have e1 : totalWeight forget (init ++ r) = rho * totalWeight forget init + totalWeight forget r := discSum_append _ _ _ _
  have e2 : ∀ {h : List (Obs p)}, 0 < totalWeight forget h → discSum forget h (fun o => o.w * o.x (sel i)) =
      ewMean forget h (sel i) * totalWeight forget h := fun hh => by unfold ewMean; rw [div_mul_cancel₀ _ hh.ne']
  set A := totalWeight forget init
  set R := totalWeight forget r
  set m := ewMean forget init (sel i)
  set n := ewMean forget r (sel i)
  have e3 : ewMean forget (init ++ r) (sel i) = (rho * (m * A) + n * R) / (rho * A + R) := by
    unfold ewMean
    rw [discSum_append, e1, e2 hW, e2 hr]
  have hpos : 0 < rho * A + R := by positivity
  have e4 : (rho * (m * A) + n * R) / (rho * A + R) - n = rho * A / (rho * A + R) * (m - n) := by
    field_simp; ring
  rw [e3, e4, abs_mul, abs_of_nonneg (by positivity)]
  refine mul_le_mul_of_nonneg_right ?_ (abs_nonneg _)
  rw [← mul_div_assoc]
  refine div_le_div_of_nonneg_left (by positivity) hr (by nlinarith [mul_nonneg hr0 hW.le])

/-- With a positive `forget` the statistics stay bounded for ever, if the data are. -/
theorem C100_bounded {forget : ℝ} (hf0 : 0 < forget) (hf : forget ≤ 1) (init : List (Obs p)) (batches : List (List (Obs p)))
    (hne : ∀ b ∈ batches, b ≠ []) {B W : ℝ} (hB : 0 ≤ B) (hW : 0 ≤ W) (hi : Bounded B W init) (hb : ∀ b ∈ batches, Bounded B W b) (i j : Fin p) :
    |onlineGram forget init batches i j| ≤ W * B * B / forget ∧ |onlineYGram forget init batches j| ≤ W * B * B / forget := by
  have nn : ∀ {h : List (Obs p)}, Bounded B W h → NonnegWeights h := fun hh o ho => (hh o ho).2.2.1
  have hall : Bounded B W (init ++ batches.flatten) := by
    intro o ho
    rcases List.mem_append.1 ho with ho | ho
    · exact hi o ho
    · obtain ⟨l, hl, hol⟩ := List.mem_flatten.1 ho
      exact hb l hl o hol
  rw [C03_online_eq_batch hf init batches hne (nn hi) fun b h => nn (hb b h),
    C03_online_eq_batch_y hf init batches hne (nn hi) fun b h => nn (hb b h), initGram_apply hf _ (nn hall), initYGram_apply hf _ (nn hall)]
  refine ⟨abs_discSum_le hf0 hf _ (fun o ho => ?_) (by positivity), abs_discSum_le hf0 hf _ (fun o ho => ?_) (by positivity)⟩ <;>
    obtain ⟨h1, h2, h3, h4⟩ := hall o ho <;> rw [abs_mul, abs_mul, abs_of_nonneg h3]
  · exact mul_le_mul (mul_le_mul h4 (h1 i) (abs_nonneg _) hW) (h1 j) (abs_nonneg _) (by positivity)
  · exact mul_le_mul (mul_le_mul h4 h2 (abs_nonneg _) hW) (h1 j) (abs_nonneg _) (by positivity)

/-! ### A case: one feature that is always one, half of the past is forgotten with each observation -/

/-- `OnlineLinearModel(forget=0.5, fit_intercept=False, scale_inputs=False, method="ols")`. -/
noncomputable def halfConfig : LMConfig 1 false :=
  { forget := 1 / 2, scaleInputs := .off, regularizeIntercept := false, method := .str "ols", ic := .bic }

/-- Three observations of the response `y`. -/
noncomputable def levelData (y : ℝ) : List (Obs 1) := [⟨fun _ => 1, y, 1⟩, ⟨fun _ => 1, y, 1⟩, ⟨fun _ => 1, y, 1⟩]

theorem levelData_fit (y : ℝ) (perm : ℕ → ℕ → List (Fin (designDim 1 false))) (s : LM 1 false) :
    ∃ s', LM.fit halfConfig perm (levelData y) s = (.ok (), s') := by
  have hn : NonnegWeights (levelData y) := by
    intro o ho
    simp only [levelData, List.mem_cons, List.not_mem_nil, or_false] at ho
    rcases ho with rfl | rfl | rfl <;> norm_num
  refine LM.fit_ols_succeeds halfConfig perm (levelData y) s ?_ (by simp [halfConfig]) ?_ ?_ ?_ getEstimationMethod_ols _
    (scaler_fit_canon .off (1 / 2) (levelData y) (by simp [levelData]) (.inl rfl)) ((initGram (xs (designObs .off (1 / 2) false (levelData y) (levelData y)))
      (ws (designObs .off (1 / 2) false (levelData y) (levelData y))) (1 / 2))⁻¹) ?_
  · exact ⟨by norm_num [halfConfig], by norm_num [halfConfig], by simp [halfConfig], by simp [halfConfig]⟩
  · simp [levelData]
  · simp [levelData, ws, designDim]
  · simp [levelData, ws]
  · rw [show halfConfig.forget = 1 / 2 from rfl, scaledDesign_canon, ← ws_designObs .off (1 / 2) (levelData y) (levelData y) (fi := false)]
    refine initInvertedGram_of_isUnit ((isUnit_det_iff_fullRank (by norm_num) _ (designObs_nonneg _ _ _ _ hn)).2 ?_)
    intro v hv
    have h1 := hv ⟨fun _ => 1, y, 1⟩ (by
      rw [designObs_off rfl]
      exact List.mem_map.2 ⟨⟨fun _ => 1, y, 1⟩, by simp [levelData], rfl⟩) (by norm_num)
    change ∑ j : Fin 1, (1 : ℝ) * v j = 0 at h1
    rw [Fin.sum_univ_one, one_mul] at h1
    funext j
    rw [show j = (0 : Fin 1) from Subsingleton.elim (α := Fin 1) _ _, h1]
    rfl

/-- The hypotheses of the theorems hold: models that start with the levels 0 and 10 and then see the level 3. -/
example (rng : ℕ → ℕ → ℕ → List (Fin (designDim 1 false))) (perm : ℕ → ℕ → List (Fin (designDim 1 false))) :
    ∃ s s', LM.fit halfConfig perm (levelData 0) (LM.new 1 false) = (.ok (), s) ∧
      LM.fit halfConfig perm (levelData 10) (LM.new 1 false) = (.ok (), s') ∧
      ∃ k₁, ∀ k ≥ k₁, ∃ t t' b b', LM.updates halfConfig rng 0 (firstBatches (fun _ => [⟨fun _ => 1, 3, 1⟩]) k) s = (.ok (), t) ∧
        LM.updates halfConfig rng 0 (firstBatches (fun _ => [⟨fun _ => 1, 3, 1⟩]) k) s' = (.ok (), t') ∧
        t.coef = some b ∧ t'.coef = some b' ∧ ∀ j, |b' j - b j| < 1 / 1000 := by
  obtain ⟨s, hs⟩ := levelData_fit 0 perm (LM.new 1 false)
  obtain ⟨s', hs'⟩ := levelData_fit 10 perm (LM.new 1 false)
  have hb : ∀ y : ℝ, |y| ≤ 10 → Bounded 10 1 (levelData y) := by
    intro y hy o ho
    simp only [levelData, List.mem_cons, List.not_mem_nil, or_false] at ho
    rcases ho with rfl | rfl | rfl <;> exact ⟨fun _ => by norm_num, hy, by norm_num, le_refl _⟩
  refine ⟨s, s', hs, hs', C100_forgotten halfConfig rfl rfl (by norm_num [halfConfig]) rng rng perm perm (levelData 0) (levelData 10)
    (fun _ => [⟨fun _ => 1, 3, 1⟩]) (fun _ => by simp) (hb 0 (by norm_num)) (hb 10 (by norm_num)) ?_ one_pos 1 ?_ _ _ s s' hs hs'
    (by norm_num)⟩
  · intro _ o ho
    rw [List.mem_singleton] at ho
    subst ho
    exact ⟨fun _ => by norm_num, by norm_num, by norm_num, le_refl _⟩
  · intro k hk v
    obtain ⟨m, rfl⟩ := Nat.exists_eq_add_of_le' hk
    have e : plainObs false (firstBatches (fun _ => [(⟨fun _ => 1, 3, 1⟩ : Obs 1)]) (m + 1)).flatten =
        plainObs false (firstBatches (fun _ => [(⟨fun _ => 1, 3, 1⟩ : Obs 1)]) m).flatten ++ [⟨fun _ => 1, 3, 1⟩] := by
      simp only [firstBatches, List.range_succ, List.map_append, List.flatten_append, plainObs]
      rfl
    rw [e, discSum_snoc, one_mul]
    have h0 : 0 ≤ discSum halfConfig.forget (plainObs false (firstBatches (fun _ => [(⟨fun _ => 1, 3, 1⟩ : Obs 1)]) m).flatten)
        fun o => o.w * linPred o.x v ^ 2 := by
      refine discSum_nonneg (by norm_num [halfConfig]) _ fun o ho => mul_nonneg ?_ (sq_nonneg _)
      refine nonneg_plainObs (b := (firstBatches (fun _ => [(⟨fun _ => 1, 3, 1⟩ : Obs 1)]) m).flatten) ?_ o ho
      intro o ho
      obtain ⟨l, hl, hol⟩ := List.mem_flatten.1 ho
      obtain ⟨i, _, rfl⟩ := List.mem_map.1 hl
      rw [List.mem_singleton] at hol
      subst hol
      norm_num
    have h1 : (0 : ℝ) ≤ 1 - halfConfig.forget := by norm_num [halfConfig]
    have h2 : linPred (fun _ => 1 : Row (designDim 1 false)) v = v (0 : Fin 1) := by
      change ∑ j : Fin 1, (1 : ℝ) * v j = _
      rw [Fin.sum_univ_one, one_mul]
    have h3 : ∑ j, v j ^ 2 = v (0 : Fin 1) ^ 2 := by
      change ∑ j : Fin 1, v j ^ 2 = _
      rw [Fin.sum_univ_one]
    rw [h3]
    simp only
    rw [h2, one_mul]
    have := mul_nonneg h1 h0
    linarith

/-- A scaler that has seen two rows and is updated with a third. -/
example : ∃ s, onlineScaler (fun _ : Fin 1 => (1 : Fin 2)) (1 / 2) exScale [[⟨![0, 4], 0, 1⟩]] = .ok s ∧
    |s.mean 0 - 4| ≤ 1 / 2 * (5 / 2) * |7 / 5 * 2 - 1 / 5 - 4| := by
  have e1 : totalWeight (1 / 2) exScale = 5 / 2 := by
    simp [totalWeight, exScale, discSum_cons]; norm_num
  have e2 : totalWeight (1 / 2) ([[⟨![0, 4], 0, 1⟩]] : List (List (Obs 2))).flatten = 1 := by
    simp [totalWeight, discSum_cons]
  have e3 : ewMean (1 / 2) exScale 1 = 13 / 5 := by
    unfold ewMean
    rw [e1]
    simp [exScale, discSum_cons]; norm_num
  have e4 : ewMean (1 / 2) ([[⟨![0, 4], 0, 1⟩]] : List (List (Obs 2))).flatten 1 = 4 := by
    unfold ewMean
    rw [e2]
    simp [discSum_cons]
  obtain ⟨s, h1, h2⟩ := C100_scaler (fun _ : Fin 1 => (1 : Fin 2)) (by norm_num : (1 / 2 : ℝ) < 1) exScale [[⟨![0, 4], 0, 1⟩]]
    (by simp [exScale]) (by simp) (by rw [e1]; norm_num) (by simp [NonnegWeights]) (by rw [e2]; norm_num)
  refine ⟨s, h1, ?_⟩
  have h3 := h2 0
  rw [e1, e2, e3, e4] at h3
  norm_num at h3 ⊢
  exact h3

/-- Statistics of a constant feature never exceed twice the weight. -/
example (n : ℕ) : |onlineGram (1 / 2) [(⟨fun _ => 1, 1, 1⟩ : Obs 1)] (List.replicate n [⟨fun _ => 1, 1, 1⟩]) 0 0| ≤ 2 := by
  have hb : Bounded 1 1 [(⟨fun _ => 1, 1, 1⟩ : Obs 1)] := by
    intro o ho
    rw [List.mem_singleton] at ho
    subst ho
    exact ⟨fun _ => by norm_num, by norm_num, by norm_num, le_refl _⟩
  refine (C100_bounded (by norm_num) (by norm_num) _ _ (fun b h => ?_) zero_le_one zero_le_one hb (fun b h => ?_) 0 0).1.trans (by norm_num)
  · rw [List.eq_of_mem_replicate h]; simp
  · rw [List.eq_of_mem_replicate h]; exact hb

end Ondil
