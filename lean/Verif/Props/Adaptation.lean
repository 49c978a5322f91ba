import Verif.Spec.Adaptation
import Verif.Props.GaussMarkov
import Mathlib.Algebra.Order.Chebyshev

/-!
# C109: the forget factor trades variance for the speed of adaptation
-/

open scoped BigOperators Matrix
open MeasureTheory ProbabilityTheory Filter

namespace Ondil

variable {p : ℕ} {fi : Bool} {Ω : Type}

theorem crossProduct_quad (f : ℝ) (h : List (RandObs Ω p)) (u v : Row (designDim p fi)) :
    u ⬝ᵥ (crossProduct fi f h *ᵥ v) = discSum f h fun o => o.w * linPred (designRow fi o.x) u * linPred (designRow fi o.x) v := by
  simp only [dotProduct, Matrix.mulVec, crossProduct]
  simp_rw [Finset.mul_sum, ← discSum_mul_right, ← discSum_mul_left, ← discSum_sum]
  refine discSum_congr _ _ fun o _ => ?_
  unfold linPred
  rw [mul_assoc, Finset.sum_mul_sum, Finset.mul_sum]
  refine Finset.sum_congr rfl fun i _ => ?_
  rw [Finset.mul_sum]
  exact Finset.sum_congr rfl fun j _ => by ring

/-- All runs of least squares on random responses, with the cross product of all regressors. -/
theorem ols_random_cross (c : LMConfig p fi) (hm : c.method = .str "ols") (hs : c.scaleInputs = .off)
    (rng : ℕ → ℕ → ℕ → List (Fin (designDim p fi))) (perm : ℕ → ℕ → List (Fin (designDim p fi)))
    (init : List (RandObs Ω p)) (batches : List (List (RandObs Ω p))) (hne : ∀ b ∈ batches, b ≠ [])
    (hw : ∀ o ∈ init ++ batches.flatten, 0 ≤ o.w) (ω₀ : Ω) (s₀ s : LM p fi)
    (hfit : LM.fit c perm (outcome ω₀ init) s₀ = (.ok (), s)) :
    ∃ B : Ω → Row (designDim p fi), IsUnit (crossProduct fi c.forget (init ++ batches.flatten)).det ∧
      (∀ ω, ∃ t, (do LM.fit c perm (outcome ω init); LM.updates c rng 0 (batches.map (outcome ω)) : Py (LM p fi) Unit) s₀ =
          (.ok (), t) ∧ t.coef = some (B ω)) ∧
      ∀ u ω, linPred (crossProduct fi c.forget (init ++ batches.flatten) *ᵥ u) (B ω) =
        discSum c.forget (init ++ batches.flatten) fun o => o.w * o.Y ω * linPred (designRow fi o.x) u := by
  obtain ⟨G, B, hu, hrun, hquad, hdual⟩ := ols_random c hm hs rng perm init batches hne hw ω₀ s₀ s hfit
  have e : crossProduct fi c.forget (init ++ batches.flatten) = G := by
    ext i j
    have h1 := hquad (Pi.single j 1) (Pi.single i 1)
    have h2 := crossProduct_quad (fi := fi) c.forget (init ++ batches.flatten) (Pi.single i 1) (Pi.single j 1)
    rw [← h1] at h2
    simpa using h2
  rw [e]
  refine ⟨B, hu, fun ω => ?_, hdual⟩
  obtain ⟨t, h1, h2, _⟩ := hrun ω
  exact ⟨t, h1, h2⟩

theorem linPred_single (j : Fin p) (b : Row p) : linPred (Pi.single j 1) b = b j := by
  rw [linPred_eq_dotProduct, single_one_dotProduct]

variable [MeasurableSpace Ω] {μ : Measure Ω}

/-- The expected value of a combination of the coefficients. -/
theorem integral_direction {f : ℝ} {h : List (RandObs Ω p)} (hint : ∀ o ∈ h, Integrable o.Y μ) {B : Ω → Row (designDim p fi)}
    (hdual : ∀ u ω, linPred (crossProduct fi f h *ᵥ u) (B ω) = discSum f h fun o => o.w * o.Y ω * linPred (designRow fi o.x) u)
    (u : Row (designDim p fi)) :
    Integrable (fun ω => linPred (crossProduct fi f h *ᵥ u) (B ω)) μ ∧ ∫ ω, linPred (crossProduct fi f h *ᵥ u) (B ω) ∂μ =
      discSum f h fun o => o.w * (∫ ω, o.Y ω ∂μ) * linPred (designRow fi o.x) u := by
  simp only [hdual]
  unfold discSum
  have hi : ∀ i ∈ (Finset.univ : Finset (Fin h.length)), Integrable (fun ω =>
      (1 - f) ^ (h.length - 1 - (i : ℕ)) * ((h.get i).w * (h.get i).Y ω * linPred (designRow fi (h.get i).x) u)) μ := by
    intro i _
    exact (((hint _ (List.get_mem _ i)).const_mul _).mul_const _).const_mul _
  refine ⟨integrable_finsetSum _ hi, ?_⟩
  rw [integral_finsetSum _ hi]
  refine Finset.sum_congr rfl fun i _ => ?_
  rw [integral_const_mul, integral_mul_const, integral_const_mul]

theorem mul_inv_direction {d : ℕ} {G : Matrix (Fin d) (Fin d) ℝ} (hu : IsUnit G.det) (l : Row d) : G *ᵥ (G⁻¹ *ᵥ l) = l := by
  rw [Matrix.mulVec_mulVec, Matrix.mul_nonsing_inv _ hu, Matrix.one_mulVec]

theorem discSum_sq (f : ℝ) {α : Type} (h : List α) (g : α → ℝ) :
    discSum (f * (2 - f)) h g = ∑ i : Fin h.length, ((1 - f) ^ (h.length - 1 - (i : ℕ))) ^ 2 * g (h.get i) := by
  unfold discSum
  refine Finset.sum_congr rfl fun i _ => ?_
  rw [← pow_mul, mul_comm _ 2, pow_mul]
  congr 2
  ring

theorem discSum_sq_le {f : ℝ} (hf0 : 0 ≤ f) (hf : f ≤ 1) {α : Type} (h : List α) {g : α → ℝ} (hg : ∀ o ∈ h, 0 ≤ g o) :
    discSum (f * (2 - f)) h g ≤ discSum f h g := by
  rw [discSum_sq]
  unfold discSum
  refine Finset.sum_le_sum fun i _ => mul_le_mul_of_nonneg_right ?_ (hg _ (List.get_mem _ i))
  have h1 : (1 - f) ^ (h.length - 1 - (i : ℕ)) ≤ 1 := pow_le_one₀ (by linarith) (by linarith)
  have h0 : 0 ≤ (1 - f) ^ (h.length - 1 - (i : ℕ)) := pow_nonneg (by linarith) _
  nlinarith

theorem le_discSum_sq {f : ℝ} (hf0 : 0 ≤ f) (hf : f ≤ 1) {α : Type} (h : List α) {g : α → ℝ} (hg : ∀ o ∈ h, 0 ≤ g o) :
    (1 - f) ^ h.length * discSum f h g ≤ discSum (f * (2 - f)) h g := by
  rw [discSum_sq]
  unfold discSum
  rw [Finset.mul_sum]
  refine Finset.sum_le_sum fun i _ => ?_
  rw [← mul_assoc]
  refine mul_le_mul_of_nonneg_right ?_ (hg _ (List.get_mem _ i))
  have h0 : 0 ≤ (1 - f) ^ (h.length - 1 - (i : ℕ)) := pow_nonneg (by linarith) _
  have h1 : (1 - f) ^ h.length ≤ (1 - f) ^ (h.length - 1 - (i : ℕ)) :=
    pow_le_pow_of_le_one (by linarith) (by linarith) (by omega)
  nlinarith

/-- The coefficients of least squares in a direction have the variance `v` times the sum of squares with squared discounts. -/
theorem var_direction [IsProbabilityMeasure μ] {f v : ℝ} {h : List (RandObs Ω p)} (hn : UncorrelatedNoise μ v h)
    {B : Ω → Row (designDim p fi)}
    (hdual : ∀ u ω, linPred (crossProduct fi f h *ᵥ u) (B ω) = discSum f h fun o => o.w * o.Y ω * linPred (designRow fi o.x) u)
    (u : Row (designDim p fi)) :
    Var[fun ω => linPred (crossProduct fi f h *ᵥ u) (B ω); μ] =
      v * discSum (f * (2 - f)) h fun o => o.w * linPred (designRow fi o.x) u ^ 2 := by
  have e : (fun ω => linPred (crossProduct fi f h *ᵥ u) (B ω)) = combine h fun i =>
      (1 - f) ^ (h.length - 1 - (i : ℕ)) * ((h.get i).w * linPred (designRow fi (h.get i).x) u) := by
    funext ω
    rw [hdual]
    unfold combine discSum
    exact Finset.sum_congr rfl fun i _ => by ring
  rw [e, var_combine hn, discSum_sq, Finset.mul_sum]
  refine Finset.sum_congr rfl fun i _ => ?_
  have := (hn.1 _ (List.get_mem h i)).1.ne'
  field_simp

/-! ### Adaptation -/

/-- **C109 (adaptation).** Least squares without scaling, any forgetting and weights.  The expected responses are linear with the
coefficients `b₀` up to some time (fit and the batches `before`) and with the coefficients `b₁` afterwards (the batches `after`, with
`n` observations in total).  Then the expected coefficients differ from the new ones by exactly `(1 - forget) ^ n` times
`G⁻¹ G₀ (b₀ - b₁)`, where `G` is the cross product of all data and `G₀` that of the data before the change. -/
theorem C109_change (c : LMConfig p fi) (hm : c.method = .str "ols") (hs : c.scaleInputs = .off)
    (rng : ℕ → ℕ → ℕ → List (Fin (designDim p fi))) (perm : ℕ → ℕ → List (Fin (designDim p fi)))
    (init : List (RandObs Ω p)) (before after : List (List (RandObs Ω p))) (hne : ∀ b ∈ before ++ after, b ≠ [])
    (hw : ∀ o ∈ init ++ (before ++ after).flatten, 0 ≤ o.w) (b₀ b₁ : Row (designDim p fi))
    (hold : LinearMean μ fi b₀ (init ++ before.flatten)) (hnew : LinearMean μ fi b₁ after.flatten) (ω₀ : Ω) (s₀ s : LM p fi)
    (hfit : LM.fit c perm (outcome ω₀ init) s₀ = (.ok (), s)) :
    ∃ B : Ω → Row (designDim p fi),
      (∀ ω, ∃ t, (do LM.fit c perm (outcome ω init); LM.updates c rng 0 ((before ++ after).map (outcome ω)) : Py (LM p fi) Unit) s₀ =
          (.ok (), t) ∧ t.coef = some (B ω)) ∧
      IsUnit (crossProduct fi c.forget (init ++ (before ++ after).flatten)).det ∧
      ∀ j, Integrable (fun ω => B ω j) μ ∧ ∫ ω, B ω j ∂μ = b₁ j + (1 - c.forget) ^ after.flatten.length *
        ((crossProduct fi c.forget (init ++ (before ++ after).flatten))⁻¹ *ᵥ
          (crossProduct fi c.forget (init ++ before.flatten) *ᵥ (b₀ - b₁))) j := by
  obtain ⟨B, hu, hrun, hdual⟩ := ols_random_cross c hm hs rng perm init (before ++ after) hne hw ω₀ s₀ s hfit
  have ehist : init ++ (before ++ after).flatten = (init ++ before.flatten) ++ after.flatten := by simp
  refine ⟨B, hrun, hu, fun j => ?_⟩
  have hint : ∀ o ∈ init ++ (before ++ after).flatten, Integrable o.Y μ := by
    intro o ho
    rw [ehist] at ho
    rcases List.mem_append.1 ho with ho | ho
    · exact (hold o ho).1
    · exact (hnew o ho).1
  set G := crossProduct fi c.forget (init ++ (before ++ after).flatten) with hG
  set u := G⁻¹ *ᵥ (Pi.single j 1) with hudef
  have hl : G *ᵥ u = Pi.single j 1 := mul_inv_direction hu _
  have hI := integral_direction (fi := fi) hint hdual u
  rw [← hG, hl] at hI
  simp only [linPred_single] at hI
  refine ⟨hI.1, ?_⟩
  rw [hI.2]
  -- the expected responses
  have e1 : (discSum c.forget (init ++ (before ++ after).flatten) fun o => o.w * (∫ ω, o.Y ω ∂μ) * linPred (designRow fi o.x) u) =
      (1 - c.forget) ^ after.flatten.length * (discSum c.forget (init ++ before.flatten) fun o =>
        o.w * linPred (designRow fi o.x) u * linPred (designRow fi o.x) (b₀ - b₁)) +
      discSum c.forget (init ++ (before ++ after).flatten) fun o =>
        o.w * linPred (designRow fi o.x) u * linPred (designRow fi o.x) b₁ := by
    rw [ehist, discSum_append _ (init ++ before.flatten) after.flatten, discSum_append _ (init ++ before.flatten) after.flatten]
    have e2 : (discSum c.forget (init ++ before.flatten) fun o => o.w * (∫ ω, o.Y ω ∂μ) * linPred (designRow fi o.x) u) =
        (discSum c.forget (init ++ before.flatten) fun o =>
          o.w * linPred (designRow fi o.x) u * linPred (designRow fi o.x) (b₀ - b₁)) +
        discSum c.forget (init ++ before.flatten) fun o => o.w * linPred (designRow fi o.x) u * linPred (designRow fi o.x) b₁ := by
      rw [← discSum_add]
      refine discSum_congr _ _ fun o ho => ?_
      rw [(hold o ho).2]
      have : linPred (designRow fi o.x) (b₀ - b₁) = linPred (designRow fi o.x) b₀ - linPred (designRow fi o.x) b₁ := by
        simp only [linPred, Pi.sub_apply, mul_sub, Finset.sum_sub_distrib]
      rw [this]; ring
    have e3 : (discSum c.forget after.flatten fun o => o.w * (∫ ω, o.Y ω ∂μ) * linPred (designRow fi o.x) u) =
        discSum c.forget after.flatten fun o => o.w * linPred (designRow fi o.x) u * linPred (designRow fi o.x) b₁ :=
      discSum_congr _ _ fun o ho => by rw [(hnew o ho).2]; ring
    rw [e2, e3]; ring
  rw [e1, ← crossProduct_quad, ← crossProduct_quad, ← hG]
  have hsymm : ∀ a b : Row (designDim p fi), a ⬝ᵥ (G *ᵥ b) = b ⬝ᵥ (G *ᵥ a) := by
    intro a b
    rw [hG, crossProduct_quad, crossProduct_quad]
    exact discSum_congr _ _ fun o _ => by ring
  have h1 : u ⬝ᵥ (G *ᵥ b₁) = b₁ j := by rw [hsymm, hl, dotProduct_single_one]
  have h2 : ∀ z : Row (designDim p fi), u ⬝ᵥ z = (G⁻¹ *ᵥ z) j := by
    intro z
    rw [← mul_inv_direction hu z, hsymm, hl, dotProduct_single_one, mul_inv_direction hu z]
  rw [h1, h2, add_comm]

/-- **C109 (adaptation).** Hence the distance of the expected coefficients to the new ones is at most `(1 - forget) ^ n` times a constant of
the old data, divided by the curvature of the new data. -/
theorem C109_adaptation (c : LMConfig p fi) (hm : c.method = .str "ols") (hs : c.scaleInputs = .off)
    (rng : ℕ → ℕ → ℕ → List (Fin (designDim p fi))) (perm : ℕ → ℕ → List (Fin (designDim p fi)))
    (init : List (RandObs Ω p)) (before after : List (List (RandObs Ω p))) (hne : ∀ b ∈ before ++ after, b ≠ [])
    (hw : ∀ o ∈ init ++ (before ++ after).flatten, 0 ≤ o.w) (b₀ b₁ : Row (designDim p fi))
    (hold : LinearMean μ fi b₀ (init ++ before.flatten)) (hnew : LinearMean μ fi b₁ after.flatten) (ω₀ : Ω) (s₀ s : LM p fi)
    (hfit : LM.fit c perm (outcome ω₀ init) s₀ = (.ok (), s)) :
    ∃ B : Ω → Row (designDim p fi),
      (∀ ω, ∃ t, (do LM.fit c perm (outcome ω init); LM.updates c rng 0 ((before ++ after).map (outcome ω)) : Py (LM p fi) Unit) s₀ =
          (.ok (), t) ∧ t.coef = some (B ω)) ∧
      ∀ mu, Informative fi c.forget after.flatten mu → mu * euclid b₁ (fun j => ∫ ω, B ω j ∂μ) ≤
        (1 - c.forget) ^ after.flatten.length * euclid 0 (crossProduct fi c.forget (init ++ before.flatten) *ᵥ (b₀ - b₁)) := by
  obtain ⟨B, hrun, hu, hE⟩ := C109_change c hm hs rng perm init before after hne hw b₀ b₁ hold hnew ω₀ s₀ s hfit
  have hf := (LM.fit_ok hfit).1.2.1
  refine ⟨B, hrun, fun mu hmu => ?_⟩
  have ehist : init ++ (before ++ after).flatten = (init ++ before.flatten) ++ after.flatten := by simp
  set G := crossProduct fi c.forget (init ++ (before ++ after).flatten) with hG
  set z := crossProduct fi c.forget (init ++ before.flatten) *ᵥ (b₀ - b₁) with hz
  set q := (1 - c.forget) ^ after.flatten.length with hq
  have hq0 : 0 ≤ q := pow_nonneg (by linarith) _
  set d : Row (designDim p fi) := q • (G⁻¹ *ᵥ z) with hd
  have eE : ∀ j, (∫ ω, B ω j ∂μ) - b₁ j = d j := by
    intro j
    rw [(hE j).2, hd]
    simp
  have hGd : G *ᵥ d = q • z := by rw [hd, Matrix.mulVec_smul, mul_inv_direction hu]
  have h1 : mu * ∑ j, d j ^ 2 ≤ d ⬝ᵥ (G *ᵥ d) := by
    rw [hG, crossProduct_quad, ehist, discSum_append]
    have h2 := hmu d
    have h3 : 0 ≤ discSum c.forget (init ++ before.flatten) fun o =>
        o.w * linPred (designRow fi o.x) d * linPred (designRow fi o.x) d :=
      discSum_nonneg hf.le _ fun o ho => by
        rw [mul_assoc]
        exact mul_nonneg (hw o (by rw [ehist]; exact List.mem_append_left _ ho)) (mul_self_nonneg _)
    have h4 : (discSum c.forget after.flatten fun o => o.w * linPred (designRow fi o.x) d ^ 2) =
        discSum c.forget after.flatten fun o => o.w * linPred (designRow fi o.x) d * linPred (designRow fi o.x) d :=
      discSum_congr _ _ fun o _ => by ring
    rw [h4] at h2
    nlinarith [mul_nonneg hq0 h3]
  have h2 : d ⬝ᵥ (G *ᵥ d) ≤ q * (euclid b₁ (fun j => ∫ ω, B ω j ∂μ) * euclid 0 z) := by
    rw [hGd, dotProduct_smul, smul_eq_mul]
    refine mul_le_mul_of_nonneg_left ?_ hq0
    have := sum_mul_le_euclid b₁ (fun j => ∫ ω, B ω j ∂μ) 0 z
    simp only [eE, Pi.zero_apply, sub_zero] at this
    exact this
  have h3 : ∑ j, d j ^ 2 = euclid b₁ (fun j => ∫ ω, B ω j ∂μ) ^ 2 := by
    rw [euclid_sq]
    exact Finset.sum_congr rfl fun j _ => by rw [eE]
  rw [h3] at h1
  have h4 := h1.trans h2
  rcases (euclid_nonneg b₁ (fun j => ∫ ω, B ω j ∂μ)).eq_or_lt with h0 | h0
  · rw [← h0]
    have := mul_nonneg hq0 (euclid_nonneg 0 z)
    simpa using this
  · by_contra hcon
    rw [not_le] at hcon
    have := mul_lt_mul_of_pos_right hcon h0
    nlinarith

/-! ### Variance -/

/-- **C109 (variance).** Least squares with any forgetting, uncorrelated noise of variance `v` over the weight: in the direction `l` the
variance of the coefficients after the fit and all updates is `v` times the sum of the squared predictions of `G⁻¹ l` with
*squared* discounts, and at most `v` over the curvature of the discounted data, in units of `l`. -/
theorem C109_variance [IsProbabilityMeasure μ] (c : LMConfig p fi) (hm : c.method = .str "ols") (hs : c.scaleInputs = .off)
    (rng : ℕ → ℕ → ℕ → List (Fin (designDim p fi))) (perm : ℕ → ℕ → List (Fin (designDim p fi)))
    (init : List (RandObs Ω p)) (batches : List (List (RandObs Ω p))) (hne : ∀ b ∈ batches, b ≠ [])
    (v : ℝ) (hv : 0 ≤ v) (hn : UncorrelatedNoise μ v (init ++ batches.flatten)) (ω₀ : Ω) (s₀ s : LM p fi)
    (hfit : LM.fit c perm (outcome ω₀ init) s₀ = (.ok (), s)) :
    ∃ B : Ω → Row (designDim p fi),
      (∀ ω, ∃ t, (do LM.fit c perm (outcome ω init); LM.updates c rng 0 (batches.map (outcome ω)) : Py (LM p fi) Unit) s₀ =
          (.ok (), t) ∧ t.coef = some (B ω)) ∧
      (∀ l, Var[fun ω => linPred l (B ω); μ] = v * discSum (c.forget * (2 - c.forget)) (init ++ batches.flatten) fun o =>
        o.w * linPred (designRow fi o.x) ((crossProduct fi c.forget (init ++ batches.flatten))⁻¹ *ᵥ l) ^ 2) ∧
      ∀ m > 0, Informative fi c.forget (init ++ batches.flatten) m →
        ∀ l, Var[fun ω => linPred l (B ω); μ] ≤ v * (∑ j, l j ^ 2) / m := by
  have hw : ∀ o ∈ init ++ batches.flatten, 0 ≤ o.w := fun o ho => (hn.1 o ho).1.le
  obtain ⟨B, hu, hrun, hdual⟩ := ols_random_cross c hm hs rng perm init batches hne hw ω₀ s₀ s hfit
  obtain ⟨hf0, hf, _⟩ := (LM.fit_ok hfit).1
  set h := init ++ batches.flatten with hh
  set G := crossProduct fi c.forget h with hG
  have hvar : ∀ l, Var[fun ω => linPred l (B ω); μ] = v * discSum (c.forget * (2 - c.forget)) h fun o =>
      o.w * linPred (designRow fi o.x) (G⁻¹ *ᵥ l) ^ 2 := by
    intro l
    have := var_direction (fi := fi) hn hdual (G⁻¹ *ᵥ l)
    rwa [← hG, mul_inv_direction hu] at this
  refine ⟨B, hrun, hvar, fun m hm0 hinf l => ?_⟩
  rw [hvar, mul_div_assoc]
  refine mul_le_mul_of_nonneg_left ?_ hv
  set u := G⁻¹ *ᵥ l with hudef
  have h1 := discSum_sq_le hf0 hf.le h (g := fun o => o.w * linPred (designRow fi o.x) u ^ 2)
    fun o ho => mul_nonneg (hw o ho) (sq_nonneg _)
  refine h1.trans ?_
  have e : (discSum c.forget h fun o => o.w * linPred (designRow fi o.x) u ^ 2) = ∑ j, u j * l j := by
    have : u ⬝ᵥ (G *ᵥ u) = ∑ j, u j * l j := by rw [mul_inv_direction hu]; rfl
    rw [← this, hG, crossProduct_quad]
    exact discSum_congr _ _ fun o _ => by ring
  have h2 := hinf u
  rw [e] at h2 ⊢
  rw [le_div_iff₀ hm0]
  have h3 : (∑ j, u j * l j) ^ 2 ≤ (∑ j, u j ^ 2) * ∑ j, l j ^ 2 := Finset.sum_mul_sq_le_sq_mul_sq _ _ _
  have hU : 0 ≤ ∑ j, u j ^ 2 := Finset.sum_nonneg fun _ _ => sq_nonneg _
  have hL : 0 ≤ ∑ j, l j ^ 2 := Finset.sum_nonneg fun _ _ => sq_nonneg _
  rcases (mul_nonneg hm0.le hU).trans h2 |>.eq_or_lt with h0 | h0
  · rw [← h0, zero_mul]; exact hL
  · by_contra hcon
    rw [not_le] at hcon
    have h5 : (∑ j, u j ^ 2) * ∑ j, l j ^ 2 ≤ (∑ j, u j ^ 2) * ((∑ j, u j * l j) * m) := mul_le_mul_of_nonneg_left hcon.le hU
    have h6 : (∑ j, l j ^ 2) * (∑ j, u j * l j) < (∑ j, u j * l j) * m * (∑ j, u j * l j) := mul_lt_mul_of_pos_right hcon h0
    have h7 : m * ((∑ j, u j ^ 2) * ∑ j, l j ^ 2) ≤ (∑ j, u j * l j) * ∑ j, l j ^ 2 := by nlinarith
    have h8 : m * (∑ j, u j * l j) ^ 2 ≤ (∑ j, u j * l j) * ∑ j, l j ^ 2 := le_trans (mul_le_mul_of_nonneg_left h3 hm0.le) h7
    nlinarith

theorem abs_linPred_le {d : ℕ} {X : ℝ} {x : Row d} (hx : ∀ j, |x j| ≤ X) (a : Row d) : |linPred x a| ≤ X * ∑ j, |a j| := by
  unfold linPred
  rw [Finset.mul_sum]
  refine (Finset.abs_sum_le_sum_abs _ _).trans (Finset.sum_le_sum fun j _ => ?_)
  rw [abs_mul]
  exact mul_le_mul_of_nonneg_right (hx j) (abs_nonneg _)

/-- The quadratic form of the discounted cross product of bounded data. -/
theorem cross_bound {f X W : ℝ} (hf0 : 0 < f) (hf : f ≤ 1) (hX : 0 ≤ X) (hW : 0 ≤ W) {h : List (RandObs Ω p)} (hw : ∀ o ∈ h, 0 ≤ o.w)
    (hb : DesignWithin fi X W h) (a u : Row (designDim p fi)) :
    f * |a ⬝ᵥ (crossProduct fi f h *ᵥ u)| ≤ W * (X * ∑ j, |a j|) * (X * ∑ j, |u j|) := by
  have hA : 0 ≤ X * ∑ j, |a j| := mul_nonneg hX (Finset.sum_nonneg fun _ _ => abs_nonneg _)
  have hU : 0 ≤ X * ∑ j, |u j| := mul_nonneg hX (Finset.sum_nonneg fun _ _ => abs_nonneg _)
  rw [crossProduct_quad, mul_comm f, ← le_div_iff₀ hf0]
  refine abs_discSum_le hf0 hf h (fun o ho => ?_) (mul_nonneg (mul_nonneg hW hA) hU)
  obtain ⟨h1, h2⟩ := hb o ho
  rw [abs_mul, abs_mul, abs_of_nonneg (hw o ho)]
  exact mul_le_mul (mul_le_mul h2 (abs_linPred_le h1 a) (abs_nonneg _) hW) (abs_linPred_le h1 u) (abs_nonneg _) (mul_nonneg hW hA)

/-- **C109 (variance).** With a positive `forget`, bounded regressors and weights, and at most `L` recent observations that determine the
coefficients with curvature `mu`: the variance of every coefficient is at least a positive multiple of the noise variance, however
many observations there are. -/
theorem C109_variance_floor [IsProbabilityMeasure μ] (c : LMConfig p fi) (hm : c.method = .str "ols") (hs : c.scaleInputs = .off)
    (hf0 : 0 < c.forget) (rng : ℕ → ℕ → ℕ → List (Fin (designDim p fi))) (perm : ℕ → ℕ → List (Fin (designDim p fi)))
    (init : List (RandObs Ω p)) (batches : List (List (RandObs Ω p))) (hne : ∀ b ∈ batches, b ≠ [])
    (v : ℝ) (hv : 0 ≤ v) (hn : UncorrelatedNoise μ v (init ++ batches.flatten)) {X W mu : ℝ} (hX : 0 ≤ X) (hW : 0 ≤ W) (hmu : 0 ≤ mu)
    (hb : DesignWithin fi X W (init ++ batches.flatten)) {old recent : List (RandObs Ω p)} {L : ℕ}
    (hsplit : init ++ batches.flatten = old ++ recent) (hL : recent.length ≤ L) (hinf : Informative fi c.forget recent mu)
    (ω₀ : Ω) (s₀ s : LM p fi) (hfit : LM.fit c perm (outcome ω₀ init) s₀ = (.ok (), s)) :
    ∃ B : Ω → Row (designDim p fi),
      (∀ ω, ∃ t, (do LM.fit c perm (outcome ω init); LM.updates c rng 0 (batches.map (outcome ω)) : Py (LM p fi) Unit) s₀ =
          (.ok (), t) ∧ t.coef = some (B ω)) ∧
      ∀ j, v * (mu * (1 - c.forget) ^ L * c.forget ^ 2) ≤ Var[fun ω => B ω j; μ] * (designDim p fi * (W * X ^ 2) ^ 2) := by
  have hw : ∀ o ∈ init ++ batches.flatten, 0 ≤ o.w := fun o ho => (hn.1 o ho).1.le
  obtain ⟨B, hu, hrun, hdual⟩ := ols_random_cross c hm hs rng perm init batches hne hw ω₀ s₀ s hfit
  obtain ⟨_, hf, _⟩ := (LM.fit_ok hfit).1
  refine ⟨B, hrun, fun j => ?_⟩
  set h := init ++ batches.flatten with hh
  set G := crossProduct fi c.forget h with hG
  set u := G⁻¹ *ᵥ (Pi.single j 1) with hudef
  have hl : G *ᵥ u = Pi.single j 1 := mul_inv_direction hu _
  have hvar := var_direction (fi := fi) hn hdual u
  rw [← hG, hl] at hvar
  simp only [linPred_single] at hvar
  rw [hvar, mul_assoc v (discSum _ _ _)]
  refine mul_le_mul_of_nonneg_left ?_ hv
  -- the recent observations alone
  have h1 : mu * (1 - c.forget) ^ L * ∑ k, u k ^ 2 ≤
      discSum (c.forget * (2 - c.forget)) h fun o => o.w * linPred (designRow fi o.x) u ^ 2 := by
    rw [hsplit, discSum_append]
    have g1 : 0 ≤ discSum (c.forget * (2 - c.forget)) old fun o => o.w * linPred (designRow fi o.x) u ^ 2 :=
      discSum_nonneg (by nlinarith [sq_nonneg (1 - c.forget)]) _ fun o ho =>
        mul_nonneg (hw o (by rw [hsplit]; exact List.mem_append_left _ ho)) (sq_nonneg _)
    have g2 := le_discSum_sq hf0.le hf.le recent (g := fun o => o.w * linPred (designRow fi o.x) u ^ 2) fun o ho =>
      mul_nonneg (hw o (by rw [hsplit]; exact List.mem_append_right _ ho)) (sq_nonneg _)
    have g3 : (1 - c.forget) ^ L ≤ (1 - c.forget) ^ recent.length := pow_le_pow_of_le_one (by linarith) (by linarith) hL
    have g4 : 0 ≤ (1 - c.forget) ^ L := pow_nonneg (by linarith) _
    have g5 := hinf u
    have g6 : 0 ≤ mu * ∑ k, u k ^ 2 := mul_nonneg hmu (Finset.sum_nonneg fun _ _ => sq_nonneg _)
    have g7 : (1 - c.forget) ^ L * (mu * ∑ k, u k ^ 2) ≤
        (1 - c.forget) ^ recent.length * discSum c.forget recent fun o => o.w * linPred (designRow fi o.x) u ^ 2 :=
      mul_le_mul g3 g5 g6 (g4.trans g3)
    have g8 : 0 ≤ (1 - c.forget * (2 - c.forget)) ^ recent.length :=
      pow_nonneg (by nlinarith [sq_nonneg (1 - c.forget)]) _
    have g9 := mul_nonneg g8 g1
    nlinarith
  -- the inverse Gramian is not small
  have h2 : c.forget ^ 2 ≤ designDim p fi * (W * X ^ 2) ^ 2 * ∑ k, u k ^ 2 := by
    have g1 := cross_bound hf0 hf.le hX hW hw hb (Pi.single j 1) u
    rw [← hG, hl] at g1
    have g2 : ∑ k, |(Pi.single j (1 : ℝ) : Row (designDim p fi)) k| = 1 := by
      rw [Finset.sum_eq_single j]
      · simp
      · intro k _ hk
        simp [hk]
      · simp
    rw [g2] at g1
    simp only [dotProduct_single_one, Pi.single_eq_same, abs_one, mul_one] at g1
    have g3 : (∑ k, |u k|) ^ 2 ≤ designDim p fi * ∑ k, u k ^ 2 := by
      have := sq_sum_le_card_mul_sum_sq (s := (Finset.univ : Finset (Fin (designDim p fi)))) (f := fun k => |u k|)
      simpa [sq_abs] using this
    have g4 : c.forget ^ 2 ≤ (W * X * (X * ∑ k, |u k|)) ^ 2 := pow_le_pow_left₀ hf0.le g1 2
    have g5 : (W * X * (X * ∑ k, |u k|)) ^ 2 = (W * X ^ 2) ^ 2 * (∑ k, |u k|) ^ 2 := by ring
    rw [g5] at g4
    have := mul_le_mul_of_nonneg_left g3 (sq_nonneg (W * X ^ 2))
    linarith
  have h3 : 0 ≤ mu * (1 - c.forget) ^ L := mul_nonneg hmu (pow_nonneg (by linarith) _)
  have h4 : (0 : ℝ) ≤ designDim p fi * (W * X ^ 2) ^ 2 := by positivity
  have h5 := mul_le_mul_of_nonneg_left h2 h3
  have h6 := mul_le_mul_of_nonneg_right h1 h4
  nlinarith

/-- **C109 (variance).** Hence with forgetting the estimates are not consistent, in contrast to `C104_consistent`: along an unending stream
in which the most recent observations always determine the coefficients, the variance of no coefficient tends to zero. -/
theorem C109_not_consistent [IsProbabilityMeasure μ] (c : LMConfig p fi) (hm : c.method = .str "ols") (hs : c.scaleInputs = .off)
    (hf0 : 0 < c.forget) (rng : ℕ → ℕ → ℕ → List (Fin (designDim p fi))) (perm : ℕ → ℕ → List (Fin (designDim p fi)))
    (init : List (RandObs Ω p)) (batches : ℕ → List (RandObs Ω p)) (hne : ∀ n, batches n ≠ [])
    (v : ℝ) (hv : 0 < v) (hn : ∀ n, UncorrelatedNoise μ v (init ++ (streamBatches batches n).flatten)) {X W mu : ℝ} (hX : 0 ≤ X)
    (hW : 0 ≤ W) (hmu : 0 < mu) (hb : ∀ n, DesignWithin fi X W (init ++ (streamBatches batches n).flatten)) {L : ℕ}
    (hrec : ∀ n, ∃ old recent, init ++ (streamBatches batches n).flatten = old ++ recent ∧ recent.length ≤ L ∧
      Informative fi c.forget recent mu)
    (ω₀ : Ω) (s₀ s : LM p fi) (hfit : LM.fit c perm (outcome ω₀ init) s₀ = (.ok (), s)) :
    ∃ B : ℕ → Ω → Row (designDim p fi),
      (∀ n ω, ∃ t, (do LM.fit c perm (outcome ω init); LM.updates c rng 0 ((streamBatches batches n).map (outcome ω)) :
          Py (LM p fi) Unit) s₀ = (.ok (), t) ∧ t.coef = some (B n ω)) ∧
      ∀ j, ∃ low > 0, ∀ n, low ≤ Var[fun ω => B n ω j; μ] := by
  have hne' : ∀ n, ∀ b ∈ streamBatches batches n, b ≠ [] := by
    intro n b hb
    obtain ⟨i, _, rfl⟩ := List.mem_map.1 hb
    exact hne i
  obtain ⟨_, hf, _⟩ := (LM.fit_ok hfit).1
  have key : ∀ n, ∃ B : Ω → Row (designDim p fi),
      (∀ ω, ∃ t, (do LM.fit c perm (outcome ω init); LM.updates c rng 0 ((streamBatches batches n).map (outcome ω)) :
          Py (LM p fi) Unit) s₀ = (.ok (), t) ∧ t.coef = some (B ω)) ∧
      ∀ j, v * (mu * (1 - c.forget) ^ L * c.forget ^ 2) ≤ Var[fun ω => B ω j; μ] * (designDim p fi * (W * X ^ 2) ^ 2) := by
    intro n
    obtain ⟨old, recent, h1, h2, h3⟩ := hrec n
    exact C109_variance_floor c hm hs hf0 rng perm init (streamBatches batches n) (hne' n) v hv.le (hn n) hX hW hmu.le (hb n) h1 h2 h3
      ω₀ s₀ s hfit
  choose B hB1 hB2 using key
  refine ⟨B, hB1, fun j => ?_⟩
  have hnum : 0 < v * (mu * (1 - c.forget) ^ L * c.forget ^ 2) := by
    have : 0 < (1 - c.forget) ^ L := pow_pos (by linarith) _
    positivity
  set D : ℝ := designDim p fi * (W * X ^ 2) ^ 2 with hD
  have hD0 : 0 ≤ D := by positivity
  have hDpos : 0 < D := by
    rcases hD0.eq_or_lt with h0 | h0
    · have := hB2 0 j
      rw [← h0, mul_zero] at this
      exact absurd hnum (not_lt.2 this)
    · exact h0
  exact ⟨_, div_pos hnum hDpos, fun n => by rw [div_le_iff₀ hDpos]; exact hB2 n j⟩

/-! ### A constant feature: averages -/

theorem discSum_const_one {α : Type} {f : ℝ} (hf : f ≠ 0) (h : List α) : discSum f h (fun _ => 1) = (1 - (1 - f) ^ h.length) / f := by
  induction h with
  | nil => simp
  | cons a h ih =>
    rw [discSum_cons, ih, List.length_cons, pow_succ]
    field_simp
    ring

/-- **C109 (averages).** With the constant feature one as the only regressor and unit weights, least squares is the exponentially weighted
mean.  Its variance after `n` observations is the noise variance times `forget / (2 - forget)`, times a factor that decreases to
one: it is as exact as an ordinary mean of `(2 - forget) / forget` observations and never more. -/
theorem C109_mean [IsProbabilityMeasure μ] (c : LMConfig 1 false) (hm : c.method = .str "ols") (hs : c.scaleInputs = .off)
    (hf0 : 0 < c.forget) (rng : ℕ → ℕ → ℕ → List (Fin 1)) (perm : ℕ → ℕ → List (Fin 1))
    (init : List (RandObs Ω 1)) (batches : List (List (RandObs Ω 1))) (hne : ∀ b ∈ batches, b ≠ [])
    (v : ℝ) (hv : 0 ≤ v) (hn : UncorrelatedNoise μ v (init ++ batches.flatten))
    (hone : ∀ o ∈ init ++ batches.flatten, o.x = (fun _ => 1) ∧ o.w = 1) (ω₀ : Ω) (s₀ s : LM 1 false)
    (hfit : LM.fit c perm (outcome ω₀ init) s₀ = (.ok (), s)) :
    ∃ B : Ω → Row 1,
      (∀ ω, ∃ t, (do LM.fit c perm (outcome ω init); LM.updates c rng 0 (batches.map (outcome ω)) : Py (LM 1 false) Unit) s₀ =
          (.ok (), t) ∧ t.coef = some (B ω)) ∧
      Var[fun ω => B ω 0; μ] = v * (c.forget / (2 - c.forget)) *
        ((1 + (1 - c.forget) ^ (init ++ batches.flatten).length) / (1 - (1 - c.forget) ^ (init ++ batches.flatten).length)) ∧
      v * (c.forget / (2 - c.forget)) ≤ Var[fun ω => B ω 0; μ] := by
  obtain ⟨B, _, hrun, hdual⟩ := ols_random_cross c hm hs rng perm init batches hne (fun o ho => (hn.1 o ho).1.le) ω₀ s₀ s hfit
  obtain ⟨_, hf, _⟩ := (LM.fit_ok hfit).1
  obtain ⟨_, _, h3, _⟩ := LM.fit_ok hfit
  set h := init ++ batches.flatten with hh
  have hlen : 0 < h.length := by
    rw [hh, List.length_append]
    have : init ≠ [] := fun h0 => h3 (.inl (by simp [outcome, h0]))
    have := List.length_pos_iff.2 this
    omega
  set r := 1 - c.forget with hr
  have hr0 : 0 < r := by rw [hr]; linarith
  have hr1 : r < 1 := by rw [hr]; linarith
  set q := r ^ h.length with hq
  have hq0 : 0 < q := pow_pos hr0 _
  have hq1 : q < 1 := pow_lt_one₀ hr0.le hr1 hlen.ne'
  have hq' : 1 - q ≠ 0 := by linarith
  have h2 : (2 : ℝ) - c.forget ≠ 0 := by linarith
  have hG : ∀ i j, crossProduct false c.forget h i j = (1 - q) / c.forget := by
    intro i j
    unfold crossProduct
    rw [← discSum_const_one hf0.ne']
    refine discSum_congr _ _ fun o ho => ?_
    change o.w * o.x i * o.x j = 1
    rw [(hone o ho).1, (hone o ho).2]
    norm_num
  have hl : ∀ ω, linPred (crossProduct false c.forget h *ᵥ fun _ => c.forget / (1 - q)) (B ω) = B ω (0 : Fin 1) := by
    intro ω
    change ∑ j : Fin 1, (∑ k : Fin 1, crossProduct false c.forget h j k * (c.forget / (1 - q))) * B ω j = _
    simp only [Fin.sum_univ_one]
    rw [show crossProduct false c.forget h (0 : Fin 1) (0 : Fin 1) = _ from hG _ _]
    field_simp
  have hV : Var[fun ω => B ω (0 : Fin 1); μ] = v * (c.forget / (2 - c.forget)) * ((1 + q) / (1 - q)) := by
    have e := var_direction (fi := false) hn hdual fun _ => c.forget / (1 - q)
    simp only [hl] at e
    have e1 : (discSum (c.forget * (2 - c.forget)) h fun o =>
        o.w * linPred (designRow false o.x) (fun _ => c.forget / (1 - q)) ^ 2) =
        (c.forget / (1 - q)) ^ 2 * discSum (c.forget * (2 - c.forget)) h fun _ => 1 := by
      rw [← discSum_mul_left]
      refine discSum_congr _ _ fun o ho => ?_
      change o.w * (∑ j : Fin 1, o.x j * (c.forget / (1 - q))) ^ 2 = _
      rw [(hone o ho).1, (hone o ho).2, Fin.sum_univ_one]
      ring
    have e2 : (1 - c.forget * (2 - c.forget)) ^ h.length = q ^ 2 := by
      have e3 : 1 - c.forget * (2 - c.forget) = r ^ 2 := by rw [hr]; ring
      rw [e3, hq, ← pow_mul, ← pow_mul, mul_comm 2]
    rw [e, e1, discSum_const_one (mul_ne_zero hf0.ne' h2), e2, mul_assoc]
    congr 1
    field_simp
    ring
  refine ⟨B, hrun, hV, ?_⟩
  rw [hV]
  refine le_mul_of_one_le_right (mul_nonneg hv (div_nonneg hf0.le (by linarith))) ?_
  rw [le_div_iff₀ (by linarith)]
  linarith

/-! ### A case: measuring a level that changes, with independent Gaussian errors -/

theorem measureInit_outcome : outcome (0 : ℕ → ℝ) measureInit = levelData 5 := by simp [outcome, measureInit, measurement, levelData]

theorem measure_history {n : ℕ} {o : RandObs (ℕ → ℝ) 1} (ho : o ∈ measureInit ++ (streamBatches measureStream n).flatten) :
    ∃ i, o = measurement i := by
  rw [measure_stream] at ho
  obtain ⟨i, _, rfl⟩ := List.mem_map.1 ho
  exact ⟨i, rfl⟩

theorem measureStream_ne {n : ℕ} : ∀ b ∈ streamBatches measureStream n, b ≠ [] := by
  intro b hb
  obtain ⟨i, _, rfl⟩ := List.mem_map.1 hb
  simp [measureStream]

/-- With `forget = 1/2` the variance of the estimated level never falls below a third of the noise variance. -/
example (perm : ℕ → ℕ → List (Fin 1)) (rng : ℕ → ℕ → ℕ → List (Fin 1)) (s₀ : LM 1 false) (n : ℕ) :
    ∃ B : (ℕ → ℝ) → Row 1,
      (∀ ω, ∃ t, (do LM.fit halfConfig perm (outcome ω measureInit)
                     LM.updates halfConfig rng 0 ((streamBatches measureStream n).map (outcome ω)) : Py (LM 1 false) Unit) s₀ =
          (.ok (), t) ∧ t.coef = some (B ω)) ∧ 1 / 3 ≤ Var[fun ω => B ω 0; errorLaw] := by
  obtain ⟨s, hs⟩ := levelData_fit 5 perm s₀
  rw [← measureInit_outcome] at hs
  have hn := measure_noise (n + 3)
  rw [← measure_stream] at hn
  obtain ⟨B, h1, _, h2⟩ := C109_mean halfConfig rfl rfl (by norm_num [halfConfig]) rng perm measureInit (streamBatches measureStream n)
    measureStream_ne 1 zero_le_one hn (fun o ho => by obtain ⟨i, rfl⟩ := measure_history ho; exact ⟨rfl, rfl⟩) 0 s₀ s hs
  refine ⟨B, h1, le_trans (le_of_eq ?_) h2⟩
  norm_num [halfConfig]

theorem linPred_constant_one (u : Row (designDim 1 false)) : linPred (fun _ => 1) u = u (0 : Fin 1) := by
  change ∑ j : Fin 1, (1 : ℝ) * u j = _
  rw [Fin.sum_univ_one, one_mul]

theorem informative_one {forget : ℝ} (o : RandObs Ω 1) (hx : o.x = fun _ => 1) (hw : o.w = 1) : Informative false forget [o] 1 := by
  intro u
  rw [discSum_singleton, one_mul]
  change ∑ j : Fin 1, u j ^ 2 ≤ o.w * linPred o.x u ^ 2
  rw [hx, hw, Fin.sum_univ_one, one_mul]
  exact le_of_eq (by rw [show linPred (fun _ : Fin 1 => (1 : ℝ)) u = _ from linPred_constant_one u])

/-- The general theorem applies to the same stream: the last measurement alone determines the level. -/
example (perm : ℕ → ℕ → List (Fin (designDim 1 false))) (rng : ℕ → ℕ → ℕ → List (Fin (designDim 1 false))) (s₀ : LM 1 false) :
    ∃ B : ℕ → (ℕ → ℝ) → Row (designDim 1 false),
      (∀ n ω, ∃ t, (do LM.fit halfConfig perm (outcome ω measureInit)
                       LM.updates halfConfig rng 0 ((streamBatches measureStream n).map (outcome ω)) : Py (LM 1 false) Unit) s₀ =
          (.ok (), t) ∧ t.coef = some (B n ω)) ∧ ∀ j, ∃ low > 0, ∀ n, low ≤ Var[fun ω => B n ω j; errorLaw] := by
  obtain ⟨s, hs⟩ := levelData_fit 5 perm s₀
  rw [← measureInit_outcome] at hs
  refine C109_not_consistent halfConfig rfl rfl (by norm_num [halfConfig]) rng perm measureInit measureStream
    (by simp [measureStream]) 1 one_pos (fun n => by rw [measure_stream]; exact measure_noise _) (X := 1) (W := 1) (mu := 1)
    zero_le_one zero_le_one one_pos (fun n o ho => ?_) (L := 1) (fun n => ?_) 0 s₀ s hs
  · obtain ⟨i, rfl⟩ := measure_history ho
    exact ⟨fun j => le_of_eq (abs_one (α := ℝ)), le_refl (1 : ℝ)⟩
  · refine ⟨(List.range (n + 2)).map measurement, [measurement (n + 2)], ?_, le_refl _, informative_one _ rfl rfl⟩
    rw [measure_stream, List.range_succ, List.map_append]
    rfl

/-- The `i`-th measurement of the constant seven. -/
def measurementSeven (i : ℕ) : RandObs (ℕ → ℝ) 1 := ⟨fun _ => 1, fun ω => 7 + ω i, 1⟩

/-- After the change: one measurement of the new level after the other. -/
def streamSeven (n : ℕ) : List (RandObs (ℕ → ℝ) 1) := [measurementSeven (n + 3)]

theorem streamSeven_flatten (n : ℕ) : (streamBatches streamSeven n).flatten = (List.range n).map fun i => measurementSeven (i + 3) := by
  induction n with
  | zero => rfl
  | succ n ih =>
    have e : streamBatches streamSeven (n + 1) = streamBatches streamSeven n ++ [streamSeven n] := by
      simp [streamBatches, List.range_succ]
    rw [e, List.flatten_append, ih, List.range_succ, List.map_append]
    rfl

theorem mean_seven (n : ℕ) : LinearMean errorLaw false (fun _ => 7) (streamBatches streamSeven n).flatten := by
  intro o ho
  rw [streamSeven_flatten] at ho
  obtain ⟨i, _, rfl⟩ := List.mem_map.1 ho
  have hint : Integrable (fun ω : ℕ → ℝ => ω (i + 3)) errorLaw := (memLp_error (i + 3)).integrable (by norm_num)
  refine ⟨(integrable_const (7 : ℝ)).add hint, ?_⟩
  change ∫ ω : ℕ → ℝ, 7 + ω (i + 3) ∂errorLaw = ∑ j : Fin 1, (1 : ℝ) * 7
  rw [integral_add (integrable_const _) hint, integral_error]
  simp

/-- Three measurements of the level five, then `n + 1` measurements of the level seven, with `forget = 1/2`: the expected estimate differs
from seven by at most `7/2 · (1/2) ^ (n + 1)`. -/
example (perm : ℕ → ℕ → List (Fin (designDim 1 false))) (rng : ℕ → ℕ → ℕ → List (Fin (designDim 1 false))) (s₀ : LM 1 false) (n : ℕ) :
    ∃ B : (ℕ → ℝ) → Row (designDim 1 false),
      (∀ ω, ∃ t, (do LM.fit halfConfig perm (outcome ω measureInit)
                     LM.updates halfConfig rng 0 (([] ++ streamBatches streamSeven (n + 1)).map (outcome ω)) : Py (LM 1 false) Unit) s₀ =
          (.ok (), t) ∧ t.coef = some (B ω)) ∧ |(∫ ω, B ω (0 : Fin 1) ∂errorLaw) - 7| ≤ 7 / 2 * (1 / 2) ^ (n + 1) := by
  obtain ⟨s, hs⟩ := levelData_fit 5 perm s₀
  rw [← measureInit_outcome] at hs
  have hlen : (streamBatches streamSeven (n + 1)).flatten.length = n + 1 := by rw [streamSeven_flatten]; simp
  have hmem : ∀ o ∈ (streamBatches streamSeven (n + 1)).flatten, o.x = (fun _ => 1) ∧ o.w = 1 := by
    intro o ho
    rw [streamSeven_flatten] at ho
    obtain ⟨i, _, rfl⟩ := List.mem_map.1 ho
    exact ⟨rfl, rfl⟩
  have hmem0 : ∀ o ∈ measureInit, o.x = (fun _ => 1) ∧ o.w = 1 := by
    intro o ho
    simp only [measureInit, List.mem_cons, List.not_mem_nil, or_false] at ho
    rcases ho with rfl | rfl | rfl <;> exact ⟨rfl, rfl⟩
  obtain ⟨B, h1, h2⟩ := C109_adaptation (μ := errorLaw) halfConfig rfl rfl rng perm measureInit [] (streamBatches streamSeven (n + 1))
    (by
      intro b hb
      rw [List.nil_append] at hb
      obtain ⟨i, _, rfl⟩ := List.mem_map.1 hb
      simp [streamSeven])
    (by
      intro o ho
      have : o.w = 1 := by
        rcases List.mem_append.1 ho with ho | ho
        · exact (hmem0 o ho).2
        · exact (hmem o (by simpa using ho)).2
      rw [this]
      norm_num)
    (fun _ => 5) (fun _ => 7) (by rw [List.flatten_nil, List.append_nil]; exact measure_mean 3) (mean_seven (n + 1)) 0 s₀ s hs
  refine ⟨B, h1, ?_⟩
  have hinf : Informative false halfConfig.forget (streamBatches streamSeven (n + 1)).flatten 1 := by
    intro u
    rw [streamSeven_flatten, List.range_succ, List.map_append, List.map_singleton, discSum_snoc]
    have g1 := informative_one (forget := halfConfig.forget) (measurementSeven (n + 3)) rfl rfl u
    rw [discSum_singleton] at g1
    have g2 : 0 ≤ discSum halfConfig.forget ((List.range n).map fun i => measurementSeven (i + 3)) fun o =>
        o.w * linPred (designRow false o.x) u ^ 2 := by
      refine discSum_nonneg (by norm_num [halfConfig]) _ fun o ho => mul_nonneg ?_ (sq_nonneg _)
      obtain ⟨i, _, rfl⟩ := List.mem_map.1 ho
      exact zero_le_one
    have g3 : (0 : ℝ) ≤ 1 - halfConfig.forget := by norm_num [halfConfig]
    have g4 := mul_nonneg g3 g2
    linarith
  have h3 := h2 1 hinf
  rw [one_mul, hlen, List.flatten_nil, List.append_nil] at h3
  have h4 := (abs_sub_le_euclid (fun _ : Fin (designDim 1 false) => (7 : ℝ)) (fun j => ∫ ω, B ω j ∂errorLaw) (0 : Fin 1)).trans h3
  refine h4.trans (le_of_eq ?_)
  have h5 : euclid 0 (crossProduct false halfConfig.forget measureInit *ᵥ
      ((fun _ => 5) - (fun _ => 7) : Row (designDim 1 false))) = 7 / 2 := by
    have hc : ∀ i j, crossProduct false halfConfig.forget measureInit i j = 7 / 4 := by
      intro i j
      have : crossProduct false halfConfig.forget measureInit i j = discSum (1 / 2) measureInit fun _ => 1 := by
        refine discSum_congr _ _ fun o ho => ?_
        change o.w * o.x i * o.x j = 1
        rw [(hmem0 o ho).1, (hmem0 o ho).2]
        norm_num
      rw [this]
      simp [measureInit, discSum_cons]
      norm_num
    unfold euclid
    change Real.sqrt (∑ j : Fin 1, ((∑ k : Fin 1, crossProduct false halfConfig.forget measureInit j k * (5 - 7)) - 0) ^ 2) = _
    simp only [Fin.sum_univ_one]
    rw [show crossProduct false halfConfig.forget measureInit (0 : Fin 1) (0 : Fin 1) = _ from hc _ _]
    rw [show (7 / 4 * (5 - 7) - 0 : ℝ) ^ 2 = (7 / 2) ^ 2 by norm_num]
    exact Real.sqrt_sq (by norm_num)
  rw [h5]
  norm_num [halfConfig]
  ring

end Ondil
