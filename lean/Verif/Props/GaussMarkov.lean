import Verif.Spec.GaussMarkov
import Verif.Props.Fading
import Verif.Props.LinearModel
import Mathlib.Probability.Independence.InfinitePi
import Mathlib.Probability.Distributions.Gaussian.Real

/-!
# C104: least squares is unbiased, best among the linear unbiased estimators, and consistent
-/

open scoped BigOperators Matrix
open MeasureTheory ProbabilityTheory Filter

namespace Ondil

variable {p : ℕ} {fi : Bool} {Ω : Type}

theorem outcome_append (ω : Ω) (h k : List (RandObs Ω p)) : outcome ω (h ++ k) = outcome ω h ++ outcome ω k := by
  simp [outcome]

theorem outcome_flatten (ω : Ω) (bs : List (List (RandObs Ω p))) :
    (bs.map (outcome ω)).flatten = outcome ω bs.flatten := by
  induction bs with
  | nil => rfl
  | cons b bs ih => simp [outcome_append, ih]

theorem outcome_nonneg (ω : Ω) {h : List (RandObs Ω p)} (hw : ∀ o ∈ h, 0 ≤ o.w) : NonnegWeights (outcome ω h) := by
  intro o ho
  obtain ⟨o', ho', rfl⟩ := List.mem_map.1 ho
  exact hw o' ho'

theorem xs_outcome (ω ω' : Ω) (h : List (RandObs Ω p)) : xs (outcome ω h) = xs (outcome ω' h) := by
  simp [xs, outcome]

theorem ws_outcome (ω ω' : Ω) (h : List (RandObs Ω p)) : ws (outcome ω h) = ws (outcome ω' h) := by
  simp [ws, outcome]

theorem xs_plain_outcome (ω ω' : Ω) (h : List (RandObs Ω p)) :
    xs (plainObs fi (outcome ω h)) = xs (plainObs fi (outcome ω' h)) := by
  simp [xs, plainObs, outcome]

theorem ws_plain_outcome (ω ω' : Ω) (h : List (RandObs Ω p)) :
    ws (plainObs fi (outcome ω h)) = ws (plainObs fi (outcome ω' h)) := by
  simp [ws, plainObs, outcome]

theorem discSum_outcome (f : ℝ) (ω : Ω) (h : List (RandObs Ω p)) (g : Obs (designDim p fi) → ℝ) :
    discSum f (plainObs fi (outcome ω h)) g = discSum f h fun o => g ⟨designRow fi o.x, o.Y ω, o.w⟩ := by
  unfold plainObs outcome
  rw [List.map_map, discSum_map]
  rfl

/-- Whether least squares accepts the data does not depend on the responses. -/
theorem ols_fit_outcome (c : LMConfig p fi) (hm : c.method = .str "ols") (perm : ℕ → ℕ → List (Fin (designDim p fi)))
    (init : List (RandObs Ω p)) (ω ω' : Ω) (s₀ s : LM p fi)
    (hfit : LM.fit c perm (outcome ω init) s₀ = (.ok (), s)) : ∃ s', LM.fit c perm (outcome ω' init) s₀ = (.ok (), s') := by
  have hm' : getEstimationMethod c.method = .ok .ols := by rw [hm]; exact getEstimationMethod_ols
  obtain ⟨hv, h2, h3, h4, h5, m, sc, G, hm2, hsc, hG, _⟩ := LM.fit_ok hfit
  rw [hm'] at hm2
  cases hm2
  rw [ws_outcome ω ω'] at h4 h5 hsc hG
  rw [xs_outcome ω ω'] at hsc hG
  have h3' : ¬ (outcome ω' init = [] ∨ p = 0) := by
    simpa [outcome] using h3
  exact LM.fit_ols_succeeds c perm (outcome ω' init) s₀ hv h2 h3' h4 h5 hm' sc hsc G hG

/-- The coefficient vector in a direction, as a combination of the responses. -/
theorem normal_dual {q : ℕ} {f : ℝ} (hf : f ≤ 1) {d : List (Obs q)} (hw : NonnegWeights d) {b u l : Row q}
    (hb : sseGradient f d b = 0) (hu : initGram (xs d) (ws d) f *ᵥ u = l) :
    linPred l b = discSum f d fun o => o.w * o.y * linPred o.x u := by
  have h1 : linPred l b = discSum f d fun o => o.w * linPred o.x u * linPred o.x b := by
    rw [← hu, linPred_eq_dotProduct, dotProduct_comm, gram_quad hf d hw]
    refine discSum_congr _ _ fun o _ => ?_
    rw [linPred_eq_dotProduct, linPred_eq_dotProduct, dotProduct_comm b]
    ring
  have h2 : (0 : ℝ) = discSum f d fun o => o.w * (linPred o.x b - o.y) * linPred o.x u := by
    have : ∑ j, u j * sseGradient f d b j = 0 := by rw [hb]; simp
    rw [← this]
    unfold sseGradient
    simp_rw [← discSum_mul_left, ← discSum_sum]
    refine discSum_congr _ _ fun o _ => ?_
    unfold linPred
    rw [Finset.mul_sum]
    refine Finset.sum_congr rfl fun j _ => by ring
  rw [h1, ← sub_eq_zero, ← discSum_sub, h2]
  exact discSum_congr _ _ fun o _ => by ring

/-- All runs of least squares on random responses: each succeeds, and the coefficients are combinations of the responses with
factors that do not depend on them. -/
theorem ols_random (c : LMConfig p fi) (hm : c.method = .str "ols") (hs : c.scaleInputs = .off)
    (rng : ℕ → ℕ → ℕ → List (Fin (designDim p fi))) (perm : ℕ → ℕ → List (Fin (designDim p fi)))
    (init : List (RandObs Ω p)) (batches : List (List (RandObs Ω p))) (hne : ∀ b ∈ batches, b ≠ [])
    (hw : ∀ o ∈ init ++ batches.flatten, 0 ≤ o.w) (ω₀ : Ω) (s₀ s : LM p fi)
    (hfit : LM.fit c perm (outcome ω₀ init) s₀ = (.ok (), s)) :
    ∃ (G : Matrix (Fin (designDim p fi)) (Fin (designDim p fi)) ℝ) (B : Ω → Row (designDim p fi)), IsUnit G.det ∧
      (∀ ω, ∃ t, (do LM.fit c perm (outcome ω init); LM.updates c rng 0 (batches.map (outcome ω)) : Py (LM p fi) Unit) s₀ =
          (.ok (), t) ∧ t.coef = some (B ω) ∧ t.xGram = some G⁻¹ ∧
          ∀ X, t.predict X = .ok (X.map fun x => linPred (designRow fi x) (B ω))) ∧
      (∀ u v, v ⬝ᵥ (G *ᵥ u) = discSum c.forget (init ++ batches.flatten) fun o =>
        o.w * linPred (designRow fi o.x) v * linPred (designRow fi o.x) u) ∧
      ∀ u ω, linPred (G *ᵥ u) (B ω) = discSum c.forget (init ++ batches.flatten) fun o =>
        o.w * o.Y ω * linPred (designRow fi o.x) u := by
  have hm' : getEstimationMethod c.method = .ok .ols := by rw [hm]; exact getEstimationMethod_ols
  have hsel : c.scaleInputs.selection = none := by rw [hs]; rfl
  obtain ⟨hv, _, h3, _⟩ := LM.fit_ok hfit
  set h := init ++ batches.flatten with hh
  have hwi : ∀ o ∈ init, 0 ≤ o.w := fun o ho => hw o (List.mem_append_left _ ho)
  have hwb : ∀ b ∈ batches, ∀ o ∈ b, 0 ≤ o.w := fun b hb o ho =>
    hw o (List.mem_append_right _ (List.mem_flatten.2 ⟨b, hb, ho⟩))
  have key : ∀ ω, ∃ t, (do LM.fit c perm (outcome ω init); LM.updates c rng 0 (batches.map (outcome ω)) : Py (LM p fi) Unit) s₀ =
      (.ok (), t) ∧ OlsInv c (outcome ω h) (plainObs fi (outcome ω h)) t := by
    intro ω
    obtain ⟨s1, hs1⟩ := ols_fit_outcome c hm perm init ω₀ ω s₀ s hfit
    have inv0 := OlsInv.of_fit hm' (outcome_nonneg ω hwi) hs1
    obtain ⟨t, ht, inv⟩ := inv0.updates hv (fun h => h3 (.inr h)) rng (batches.map (outcome ω)) (by
      intro b hb
      obtain ⟨b', hb', rfl⟩ := List.mem_map.1 hb
      simpa [outcome] using hne b' hb') (by
      intro b hb
      obtain ⟨b', hb', rfl⟩ := List.mem_map.1 hb
      exact outcome_nonneg ω (hwb b' hb')) 0
    rw [designObs_off hsel, mixedDesign_off hsel, outcome_flatten] at inv
    refine ⟨t, by rw [Py.bind_of_ok hs1]; exact ht, ?_⟩
    have e : plainObs fi (outcome ω init) ++ plainObs fi (outcome ω batches.flatten) = plainObs fi (outcome ω h) := by
      simp [plainObs, outcome, hh]
    rw [← e, hh, outcome_append]
    exact inv
  have eG : ∀ ω, initGram (xs (plainObs fi (outcome ω h))) (ws (plainObs fi (outcome ω h))) c.forget =
      initGram (xs (plainObs fi (outcome ω₀ h))) (ws (plainObs fi (outcome ω₀ h))) c.forget := by
    intro ω
    rw [xs_plain_outcome ω ω₀, ws_plain_outcome ω ω₀]
  have hnn : ∀ ω, NonnegWeights (plainObs fi (outcome ω h)) := fun ω => nonneg_plainObs (outcome_nonneg ω hw)
  choose T hT inv using key
  have hg := fun ω => (inv ω).gradient hv
  choose B hB hgrad using hg
  refine ⟨initGram (xs (plainObs fi (outcome ω₀ h))) (ws (plainObs fi (outcome ω₀ h))) c.forget, B, (inv ω₀).isUnit,
    fun ω => ⟨T ω, hT ω, hB ω, by rw [(inv ω).xGram, eG ω], fun X => ?_⟩, fun u v => ?_, fun u ω => ?_⟩
  · unfold LM.predict
    rw [(inv ω).scaler, hB ω]
    simp only [scaledDesign, transform_canon, List.map_map]
    congr 1
    refine List.map_congr_left fun x _ => ?_
    simp only [Function.comp]
    rw [standardise_off hsel]
    rfl
  · rw [gram_quad hv.2.1.le _ (hnn ω₀), discSum_outcome]
    refine discSum_congr _ _ fun o _ => ?_
    rw [linPred_eq_dotProduct, linPred_eq_dotProduct, dotProduct_comm v]
  · rw [← eG ω, normal_dual hv.2.1.le (hnn ω) (hgrad ω) rfl, discSum_outcome]

variable [MeasurableSpace Ω] {μ : Measure Ω}

/-- **C104.** Least squares without scaling, any forgetting, any non-negative weights: if the expected responses are linear in
the features with the coefficients `beta`, then the coefficients after the fit and all updates have expected value `beta`, and
every prediction has the expected value of a new response. -/
theorem C104_unbiased (c : LMConfig p fi) (hm : c.method = .str "ols") (hs : c.scaleInputs = .off)
    (rng : ℕ → ℕ → ℕ → List (Fin (designDim p fi))) (perm : ℕ → ℕ → List (Fin (designDim p fi)))
    (init : List (RandObs Ω p)) (batches : List (List (RandObs Ω p))) (hne : ∀ b ∈ batches, b ≠ [])
    (hw : ∀ o ∈ init ++ batches.flatten, 0 ≤ o.w) (beta : Row (designDim p fi))
    (hlin : LinearMean μ fi beta (init ++ batches.flatten)) (ω₀ : Ω) (s₀ s : LM p fi)
    (hfit : LM.fit c perm (outcome ω₀ init) s₀ = (.ok (), s)) :
    ∃ B : Ω → Row (designDim p fi),
      (∀ ω, ∃ t, (do LM.fit c perm (outcome ω init); LM.updates c rng 0 (batches.map (outcome ω)) : Py (LM p fi) Unit) s₀ =
          (.ok (), t) ∧ t.coef = some (B ω) ∧ ∀ X, t.predict X = .ok (X.map fun x => linPred (designRow fi x) (B ω))) ∧
      (∀ j, Integrable (fun ω => B ω j) μ ∧ ∫ ω, B ω j ∂μ = beta j) ∧
      ∀ x, ∫ ω, linPred (designRow fi x) (B ω) ∂μ = linPred (designRow fi x) beta := by
  obtain ⟨G, B, hu, hrun, hquad, hdual⟩ := ols_random c hm hs rng perm init batches hne hw ω₀ s₀ s hfit
  have hmean : ∀ l, Integrable (fun ω => linPred l (B ω)) μ ∧ ∫ ω, linPred l (B ω) ∂μ = linPred l beta := by
    intro l
    have hl : G *ᵥ (G⁻¹ *ᵥ l) = l := by rw [Matrix.mulVec_mulVec, Matrix.mul_nonsing_inv _ hu, Matrix.one_mulVec]
    have e : (fun ω => linPred l (B ω)) = fun ω => discSum c.forget (init ++ batches.flatten) fun o =>
        o.w * o.Y ω * linPred (designRow fi o.x) (G⁻¹ *ᵥ l) := by
      funext ω
      rw [← hdual, hl]
    rw [e]
    unfold discSum
    have hi : ∀ i ∈ (Finset.univ : Finset (Fin (init ++ batches.flatten).length)), Integrable (fun ω =>
        (1 - c.forget) ^ ((init ++ batches.flatten).length - 1 - (i : ℕ)) *
          (((init ++ batches.flatten).get i).w * ((init ++ batches.flatten).get i).Y ω *
            linPred (designRow fi ((init ++ batches.flatten).get i).x) (G⁻¹ *ᵥ l))) μ := by
      intro i _
      exact (((hlin _ (List.get_mem _ i)).1.const_mul _).mul_const _).const_mul _
    refine ⟨integrable_finsetSum _ hi, ?_⟩
    rw [integral_finsetSum _ hi]
    have e2 : linPred l beta = beta ⬝ᵥ (G *ᵥ (G⁻¹ *ᵥ l)) := by rw [hl, linPred_eq_dotProduct, dotProduct_comm]
    rw [e2, hquad]
    unfold discSum
    refine Finset.sum_congr rfl fun i _ => ?_
    rw [integral_const_mul, integral_mul_const, integral_const_mul, (hlin _ (List.get_mem _ i)).2]
  have hcoord : ∀ (j : Fin (designDim p fi)) (b : Row (designDim p fi)), linPred (Pi.single j 1) b = b j := by
    intro j b
    rw [linPred_eq_dotProduct, single_one_dotProduct]
  refine ⟨B, fun ω => ?_, fun j => ?_, fun x => (hmean _).2⟩
  · obtain ⟨t, h1, h2, _, h3⟩ := hrun ω
    exact ⟨t, h1, h2, h3⟩
  · have := hmean (Pi.single j 1)
    simp only [hcoord] at this
    exact this

theorem discSum_zero_fin {α : Type*} (h : List α) (g : α → ℝ) : discSum 0 h g = ∑ i : Fin h.length, g (h.get i) := by
  unfold discSum
  simp

theorem cov_combine [IsProbabilityMeasure μ] {v : ℝ} {h : List (RandObs Ω p)} (hn : UncorrelatedNoise μ v h)
    (a b : Fin h.length → ℝ) : cov[combine h a, combine h b; μ] = ∑ i, a i * b i * (v / (h.get i).w) := by
  have hL : ∀ i : Fin h.length, MemLp (h.get i).Y 2 μ := fun i => (hn.1 _ (List.get_mem _ i)).2.1
  have hoff : ∀ i j : Fin h.length, i ≠ j → cov[(h.get i).Y, (h.get j).Y; μ] = 0 := by
    intro i j hij
    rcases lt_or_gt_of_ne hij with h1 | h1
    · exact List.pairwise_iff_get.1 hn.2 i j h1
    · rw [covariance_comm]
      exact List.pairwise_iff_get.1 hn.2 j i h1
  unfold combine
  rw [covariance_fun_sum_fun_sum (fun i => (hL i).const_mul _) (fun i => (hL i).const_mul _)]
  refine Finset.sum_congr rfl fun i _ => ?_
  rw [Finset.sum_eq_single i]
  · rw [covariance_const_mul_left, covariance_const_mul_right, covariance_self (hL i).aestronglyMeasurable.aemeasurable,
      (hn.1 _ (List.get_mem _ i)).2.2]
    ring
  · intro j _ hj
    rw [covariance_const_mul_left, covariance_const_mul_right, hoff i j (Ne.symm hj)]
    ring
  · intro hi
    exact absurd (Finset.mem_univ i) hi

theorem memLp_combine {h : List (RandObs Ω p)} {v : ℝ} (hn : UncorrelatedNoise μ v h) (a : Fin h.length → ℝ) :
    MemLp (combine h a) 2 μ := by
  unfold combine
  exact memLp_finset_sum _ fun i _ => ((hn.1 _ (List.get_mem _ i)).2.1).const_mul _

theorem var_combine [IsProbabilityMeasure μ] {v : ℝ} {h : List (RandObs Ω p)} (hn : UncorrelatedNoise μ v h)
    (a : Fin h.length → ℝ) : Var[combine h a; μ] = ∑ i, a i ^ 2 * (v / (h.get i).w) := by
  rw [← covariance_self (memLp_combine hn a).aestronglyMeasurable.aemeasurable, cov_combine hn]
  exact Finset.sum_congr rfl fun i _ => by ring

/-- The factors with which least squares without forgetting combines the responses in the direction `G u`. -/
noncomputable def olsFactors (fi : Bool) (h : List (RandObs Ω p)) (u : Row (designDim p fi)) (i : Fin h.length) : ℝ :=
  (h.get i).w * linPred (designRow fi (h.get i).x) u

/-- **C104 (Gauss and Markov).** Without forgetting, with uncorrelated noise and weights inversely proportional to the variances:
the coefficients after the fit and all updates have the covariance matrix `v` times the stored inverse Gramian, and in every
direction no linear estimator that is unbiased for all coefficients has a smaller variance. -/
theorem C104_gauss_markov [IsProbabilityMeasure μ] (c : LMConfig p fi) (hm : c.method = .str "ols") (hs : c.scaleInputs = .off)
    (hf : c.forget = 0) (rng : ℕ → ℕ → ℕ → List (Fin (designDim p fi))) (perm : ℕ → ℕ → List (Fin (designDim p fi)))
    (init : List (RandObs Ω p)) (batches : List (List (RandObs Ω p))) (hne : ∀ b ∈ batches, b ≠ [])
    (v : ℝ) (hn : UncorrelatedNoise μ v (init ++ batches.flatten)) (ω₀ : Ω) (s₀ s : LM p fi)
    (hfit : LM.fit c perm (outcome ω₀ init) s₀ = (.ok (), s)) :
    ∃ (B : Ω → Row (designDim p fi)) (M : Matrix (Fin (designDim p fi)) (Fin (designDim p fi)) ℝ),
      (∀ ω, ∃ t, (do LM.fit c perm (outcome ω init); LM.updates c rng 0 (batches.map (outcome ω)) : Py (LM p fi) Unit) s₀ =
          (.ok (), t) ∧ t.coef = some (B ω) ∧ t.xGram = some M) ∧
      (∀ i j, cov[fun ω => B ω i, fun ω => B ω j; μ] = v * M i j) ∧
      ∀ (l : Row (designDim p fi)) (a : Fin (init ++ batches.flatten).length → ℝ),
        UnbiasedFor fi (init ++ batches.flatten) a l →
        Var[fun ω => linPred l (B ω); μ] ≤ Var[combine (init ++ batches.flatten) a; μ] := by
  have hw : ∀ o ∈ init ++ batches.flatten, 0 ≤ o.w := fun o ho => (hn.1 o ho).1.le
  obtain ⟨G, B, hu, hrun, hquad, hdual⟩ := ols_random c hm hs rng perm init batches hne hw ω₀ s₀ s hfit
  set h := init ++ batches.flatten with hh
  rw [hf] at hquad hdual
  have hw' : ∀ i : Fin h.length, (h.get i).w ≠ 0 := fun i => (hn.1 _ (List.get_mem _ i)).1.ne'
  have hl : ∀ l, G *ᵥ (G⁻¹ *ᵥ l) = l := fun l => by
    rw [Matrix.mulVec_mulVec, Matrix.mul_nonsing_inv _ hu, Matrix.one_mulVec]
  have hcomb : ∀ l, (fun ω => linPred l (B ω)) = combine h (olsFactors fi h (G⁻¹ *ᵥ l)) := by
    intro l
    funext ω
    have := hdual (G⁻¹ *ᵥ l) ω
    rw [hl, discSum_zero_fin] at this
    rw [this]
    unfold combine olsFactors
    exact Finset.sum_congr rfl fun i _ => by ring
  have hv0 : 0 ≤ v ∨ h.length = 0 := by
    rcases Nat.eq_zero_or_pos h.length with h0 | h0
    · exact .inr h0
    · left
      obtain ⟨h1, _, h2⟩ := hn.1 _ (List.get_mem h ⟨0, h0⟩)
      have := variance_nonneg (h.get ⟨0, h0⟩).Y μ
      rw [h2] at this
      by_contra hcon
      exact absurd (div_neg_of_neg_of_pos (not_le.1 hcon) h1) (not_lt.2 this)
  refine ⟨B, G⁻¹, fun ω => ?_, fun i j => ?_, fun l a ha => ?_⟩
  · obtain ⟨t, h1, h2, h3, _⟩ := hrun ω
    exact ⟨t, h1, h2, h3⟩
  · have e : ∀ k, (fun ω => B ω k) = combine h (olsFactors fi h (G⁻¹ *ᵥ Pi.single k 1)) := by
      intro k
      rw [← hcomb]
      funext ω
      rw [linPred_eq_dotProduct, single_one_dotProduct]
    rw [e i, e j, cov_combine hn]
    have e2 : ∑ k, olsFactors fi h (G⁻¹ *ᵥ Pi.single i 1) k * olsFactors fi h (G⁻¹ *ᵥ Pi.single j 1) k * (v / (h.get k).w) =
        v * ((G⁻¹ *ᵥ Pi.single j 1) ⬝ᵥ (G *ᵥ (G⁻¹ *ᵥ Pi.single i 1))) := by
      rw [hquad, discSum_zero_fin, Finset.mul_sum]
      refine Finset.sum_congr rfl fun k _ => ?_
      unfold olsFactors
      have := hw' k
      field_simp
    rw [e2, hl, dotProduct_single_one, Matrix.mulVec_single_one]
    rfl
  · rw [hcomb l, var_combine hn, var_combine hn]
    set k := olsFactors fi h (G⁻¹ *ᵥ l) with hk
    have hcross : ∑ i, (a i - k i) * k i * (v / (h.get i).w) = 0 := by
      have e1 : ∑ i, a i * linPred (designRow fi (h.get i).x) (G⁻¹ *ᵥ l) = linPred l (G⁻¹ *ᵥ l) := ha _
      have e2 : ∑ i, k i * linPred (designRow fi (h.get i).x) (G⁻¹ *ᵥ l) = linPred l (G⁻¹ *ᵥ l) := by
        have := hquad (G⁻¹ *ᵥ l) (G⁻¹ *ᵥ l)
        rw [hl, discSum_zero_fin] at this
        rw [linPred_eq_dotProduct, dotProduct_comm, this]
        rfl
      have e3 : ∑ i, (a i - k i) * k i * (v / (h.get i).w) =
          v * (∑ i, a i * linPred (designRow fi (h.get i).x) (G⁻¹ *ᵥ l) - ∑ i, k i * linPred (designRow fi (h.get i).x) (G⁻¹ *ᵥ l)) := by
        rw [← Finset.sum_sub_distrib, Finset.mul_sum]
        refine Finset.sum_congr rfl fun i _ => ?_
        rw [hk]
        unfold olsFactors
        have := hw' i
        field_simp
      rw [e3, e1, e2]
      ring
    have hsq : 0 ≤ ∑ i, (a i - k i) ^ 2 * (v / (h.get i).w) := by
      rcases hv0 with h1 | h1
      · exact Finset.sum_nonneg fun i _ => mul_nonneg (sq_nonneg _) (div_nonneg h1 (hn.1 _ (List.get_mem _ i)).1.le)
      · have : IsEmpty (Fin h.length) := by rw [h1]; infer_instance
        simp
    have hsum : ∑ i, a i ^ 2 * (v / (h.get i).w) = ∑ i, k i ^ 2 * (v / (h.get i).w) +
        (2 * ∑ i, (a i - k i) * k i * (v / (h.get i).w) + ∑ i, (a i - k i) ^ 2 * (v / (h.get i).w)) := by
      rw [Finset.mul_sum, ← Finset.sum_add_distrib, ← Finset.sum_add_distrib]
      exact Finset.sum_congr rfl fun i _ => by ring
    rw [hsum, hcross]
    linarith

/-- **C104.** Without forgetting the mean squared error of every coefficient is at most the noise variance divided by the
curvature of the data seen so far. -/
theorem C104_mean_squared_error [IsProbabilityMeasure μ] (c : LMConfig p fi) (hm : c.method = .str "ols") (hs : c.scaleInputs = .off)
    (hf : c.forget = 0) (rng : ℕ → ℕ → ℕ → List (Fin (designDim p fi))) (perm : ℕ → ℕ → List (Fin (designDim p fi)))
    (init : List (RandObs Ω p)) (batches : List (List (RandObs Ω p))) (hne : ∀ b ∈ batches, b ≠ [])
    (beta : Row (designDim p fi)) (hlin : LinearMean μ fi beta (init ++ batches.flatten))
    (v : ℝ) (hv : 0 ≤ v) (hn : UncorrelatedNoise μ v (init ++ batches.flatten)) (ω₀ : Ω) (m : ℝ) (hm0 : 0 < m)
    (hex : Excites 0 (plainObs fi (outcome ω₀ (init ++ batches.flatten))) m) (s₀ s : LM p fi)
    (hfit : LM.fit c perm (outcome ω₀ init) s₀ = (.ok (), s)) :
    ∃ B : Ω → Row (designDim p fi),
      (∀ ω, ∃ t, (do LM.fit c perm (outcome ω init); LM.updates c rng 0 (batches.map (outcome ω)) : Py (LM p fi) Unit) s₀ =
          (.ok (), t) ∧ t.coef = some (B ω)) ∧
      ∀ j, Integrable (fun ω => (B ω j - beta j) ^ 2) μ ∧ ∫ ω, (B ω j - beta j) ^ 2 ∂μ ≤ v / m := by
  have hw : ∀ o ∈ init ++ batches.flatten, 0 ≤ o.w := fun o ho => (hn.1 o ho).1.le
  obtain ⟨B1, hrun1, hmean, _⟩ := C104_unbiased c hm hs rng perm init batches hne hw beta hlin ω₀ s₀ s hfit
  obtain ⟨B2, M, hrun2, hcov, _⟩ := C104_gauss_markov c hm hs hf rng perm init batches hne v hn ω₀ s₀ s hfit
  obtain ⟨G, B, hu, hrun, hquad, hdual⟩ := ols_random c hm hs rng perm init batches hne hw ω₀ s₀ s hfit
  have e1 : B1 = B := by
    funext ω
    obtain ⟨t, q1, q2, _⟩ := hrun1 ω
    obtain ⟨t', r1, r2, _⟩ := hrun ω
    rw [q1] at r1
    cases r1
    rw [q2] at r2
    exact Option.some.inj r2
  have e2 : B2 = B ∧ M = G⁻¹ := by
    have hB : B2 = B := by
      funext ω
      obtain ⟨t, q1, q2, _⟩ := hrun2 ω
      obtain ⟨t', r1, r2, _⟩ := hrun ω
      rw [q1] at r1
      cases r1
      rw [q2] at r2
      exact Option.some.inj r2
    refine ⟨hB, ?_⟩
    obtain ⟨t, q1, q2, q3⟩ := hrun2 ω₀
    obtain ⟨t', r1, r2, r3, _⟩ := hrun ω₀
    rw [q1] at r1
    cases r1
    rw [q3] at r3
    exact Option.some.inj r3
  rw [e1] at hmean
  rw [e2.1, e2.2] at hcov
  rw [hf] at hquad hdual
  have hl : ∀ l, G *ᵥ (G⁻¹ *ᵥ l) = l := fun l => by
    rw [Matrix.mulVec_mulVec, Matrix.mul_nonsing_inv _ hu, Matrix.one_mulVec]
  refine ⟨B, fun ω => ?_, fun j => ?_⟩
  · obtain ⟨t, h1, h2, _⟩ := hrun ω
    exact ⟨t, h1, h2⟩
  have hL : MemLp (fun ω => B ω j) 2 μ := by
    have e : (fun ω => B ω j) = combine (init ++ batches.flatten) (olsFactors fi _ (G⁻¹ *ᵥ Pi.single j 1)) := by
      funext ω
      have := hdual (G⁻¹ *ᵥ Pi.single j 1) ω
      rw [hl, discSum_zero_fin, linPred_eq_dotProduct, single_one_dotProduct] at this
      rw [this]
      unfold combine olsFactors
      exact Finset.sum_congr rfl fun i _ => by ring
    rw [e]
    exact memLp_combine hn _
  have hL' : MemLp (fun ω => B ω j - beta j) 2 μ := hL.sub (memLp_const _)
  refine ⟨hL'.integrable_sq, ?_⟩
  have hvar : ∫ ω, (B ω j - beta j) ^ 2 ∂μ = v * G⁻¹ j j := by
    rw [← hcov j j, covariance_self hL.aestronglyMeasurable.aemeasurable,
      variance_eq_integral hL.aestronglyMeasurable.aemeasurable, (hmean j).2]
  have hq := hex (G⁻¹ *ᵥ Pi.single j 1)
  have e3 : discSum 0 (plainObs fi (outcome ω₀ (init ++ batches.flatten))) (fun o => o.w * linPred o.x (G⁻¹ *ᵥ Pi.single j 1) ^ 2) =
      G⁻¹ j j := by
    rw [discSum_outcome]
    have := hquad (G⁻¹ *ᵥ Pi.single j 1) (G⁻¹ *ᵥ Pi.single j 1)
    rw [hl, dotProduct_single_one, Matrix.mulVec_single_one] at this
    change G⁻¹ j j = _ at this
    rw [this]
    exact discSum_congr _ _ fun o _ => by rw [Matrix.mulVec_single_one]; ring
  rw [e3] at hq
  have hjj : G⁻¹ j j ^ 2 ≤ ∑ k, (G⁻¹ *ᵥ Pi.single j 1) k ^ 2 := by
    have := Finset.single_le_sum (f := fun k => (G⁻¹ *ᵥ Pi.single j 1) k ^ 2) (fun k _ => sq_nonneg _) (Finset.mem_univ j)
    rw [Matrix.mulVec_single_one] at this ⊢
    exact this
  have hb : m * G⁻¹ j j ^ 2 ≤ G⁻¹ j j := le_trans (mul_le_mul_of_nonneg_left hjj hm0.le) hq
  have hbd : G⁻¹ j j ≤ 1 / m := by
    rw [le_div_iff₀ hm0]
    by_contra hcon
    have hpos : 0 < G⁻¹ j j := by
      by_contra h0
      have := mul_nonpos_of_nonpos_of_nonneg (not_lt.1 h0) hm0.le
      linarith
    nlinarith
  rw [hvar, div_eq_mul_one_div]
  exact mul_le_mul_of_nonneg_left hbd hv

/-- The first `n` batches of a stream. -/
def streamBatches (batches : ℕ → List (RandObs Ω p)) (n : ℕ) : List (List (RandObs Ω p)) := (List.range n).map batches

/-- **C104.** Consistency: along an unending stream of batches whose curvature grows without bound, the mean squared error of
every coefficient tends to zero. -/
theorem C104_consistent [IsProbabilityMeasure μ] (c : LMConfig p fi) (hm : c.method = .str "ols") (hs : c.scaleInputs = .off)
    (hf : c.forget = 0) (rng : ℕ → ℕ → ℕ → List (Fin (designDim p fi))) (perm : ℕ → ℕ → List (Fin (designDim p fi)))
    (init : List (RandObs Ω p)) (batches : ℕ → List (RandObs Ω p)) (hne : ∀ n, batches n ≠ [])
    (beta : Row (designDim p fi)) (hlin : ∀ n, LinearMean μ fi beta (init ++ (streamBatches batches n).flatten))
    (v : ℝ) (hv : 0 ≤ v) (hn : ∀ n, UncorrelatedNoise μ v (init ++ (streamBatches batches n).flatten)) (ω₀ : Ω) (m : ℕ → ℝ)
    (hm0 : Tendsto m atTop atTop)
    (hex : ∀ n, Excites 0 (plainObs fi (outcome ω₀ (init ++ (streamBatches batches n).flatten))) (m n)) (s₀ s : LM p fi)
    (hfit : LM.fit c perm (outcome ω₀ init) s₀ = (.ok (), s)) :
    ∃ B : ℕ → Ω → Row (designDim p fi),
      (∀ n ω, ∃ t, (do LM.fit c perm (outcome ω init); LM.updates c rng 0 ((streamBatches batches n).map (outcome ω)) :
          Py (LM p fi) Unit) s₀ = (.ok (), t) ∧
          t.coef = some (B n ω)) ∧
      ∀ j, Tendsto (fun n => ∫ ω, (B n ω j - beta j) ^ 2 ∂μ) atTop (nhds 0) := by
  have hne' : ∀ n, ∀ b ∈ streamBatches batches n, b ≠ [] := by
    intro n b hb
    obtain ⟨i, _, rfl⟩ := List.mem_map.1 hb
    exact hne i
  have hex0 : ∀ n, ∃ B : Ω → Row (designDim p fi), (∀ ω, ∃ t, (do LM.fit c perm (outcome ω init); LM.updates c rng 0 ((streamBatches batches n).map (outcome ω)) :
          Py (LM p fi) Unit) s₀ = (.ok (), t) ∧
          t.coef = some (B ω)) ∧ (0 < m n → ∀ j, ∫ ω, (B ω j - beta j) ^ 2 ∂μ ≤ v / m n) := by
    intro n
    by_cases h0 : 0 < m n
    · obtain ⟨B, h1, h2⟩ := C104_mean_squared_error c hm hs hf rng perm init (streamBatches batches n) (hne' n) beta (hlin n) v hv (hn n)
        ω₀ (m n) h0 (hex n) s₀ s hfit
      exact ⟨B, h1, fun _ j => (h2 j).2⟩
    · obtain ⟨G, B, _, hrun, _⟩ := ols_random c hm hs rng perm init (streamBatches batches n) (hne' n)
        (fun o ho => ((hn n).1 o ho).1.le) ω₀ s₀ s hfit
      refine ⟨B, fun ω => ?_, fun h => absurd h h0⟩
      obtain ⟨t, h1, h2, _⟩ := hrun ω
      exact ⟨t, h1, h2⟩
  choose B hB1 hB2 using hex0
  refine ⟨B, hB1, fun j => ?_⟩
  refine tendsto_of_tendsto_of_tendsto_of_le_of_le' tendsto_const_nhds (hm0.const_div_atTop v)
    (Eventually.of_forall fun n => integral_nonneg fun ω => sq_nonneg _) ?_
  filter_upwards [hm0.eventually_gt_atTop 0] with n hn0
  exact hB2 n hn0 j

/-! ### A case: measuring a constant with independent Gaussian errors -/

/-- Independent standard normal errors, one for every natural number. -/
noncomputable def errorLaw : Measure (ℕ → ℝ) := Measure.infinitePi fun _ => gaussianReal 0 1

noncomputable instance : IsProbabilityMeasure errorLaw := by
  unfold errorLaw
  infer_instance

/-- The `i`-th measurement of the constant five. -/
def measurement (i : ℕ) : RandObs (ℕ → ℝ) 1 := ⟨fun _ => 1, fun ω => 5 + ω i, 1⟩

/-- Three measurements. -/
def measureInit : List (RandObs (ℕ → ℝ) 1) := [measurement 0, measurement 1, measurement 2]

/-- Then one after the other. -/
def measureStream (n : ℕ) : List (RandObs (ℕ → ℝ) 1) := [measurement (n + 3)]

theorem memLp_error (i : ℕ) : MemLp (fun ω : ℕ → ℝ => ω i) 2 errorLaw := by
  have h := measurePreserving_eval_infinitePi (fun _ : ℕ => gaussianReal 0 1) i
  exact (memLp_id_gaussianReal (μ := 0) (v := 1) 2).comp_measurePreserving h

theorem integral_error (i : ℕ) : ∫ ω : ℕ → ℝ, ω i ∂errorLaw = 0 := by
  have h := measurePreserving_eval_infinitePi (fun _ : ℕ => gaussianReal 0 1) i
  have e : ∫ x, x ∂(gaussianReal 0 1) = 0 := integral_id_gaussianReal
  rw [← h.map_eq, integral_map h.measurable.aemeasurable (by fun_prop)] at e
  exact e

theorem variance_error (i : ℕ) : Var[fun ω : ℕ → ℝ => ω i; errorLaw] = 1 := by
  have h := measurePreserving_eval_infinitePi (fun _ : ℕ => gaussianReal 0 1) i
  have e : Var[fun x => x; gaussianReal 0 1] = 1 := by rw [variance_fun_id_gaussianReal]; rfl
  rw [← h.map_eq, variance_map (by fun_prop) h.measurable.aemeasurable] at e
  exact e

theorem cov_measurement {i j : ℕ} (hij : i ≠ j) : cov[(measurement i).Y, (measurement j).Y; errorLaw] = 0 := by
  have hint : ∀ k, Integrable (fun ω : ℕ → ℝ => ω k) errorLaw := fun k => (memLp_error k).integrable (by norm_num)
  change cov[fun ω : ℕ → ℝ => 5 + ω i, fun ω : ℕ → ℝ => 5 + ω j; errorLaw] = 0
  rw [covariance_const_add_left (hint i), covariance_const_add_right (hint j)]
  have := (iIndepFun_infinitePi (P := fun _ : ℕ => gaussianReal 0 1) (X := fun _ x => x) (by fun_prop)).indepFun hij
  exact this.covariance_eq_zero (memLp_error i) (memLp_error j)

theorem measure_stream (n : ℕ) : measureInit ++ (streamBatches measureStream n).flatten = (List.range (n + 3)).map measurement := by
  induction n with
  | zero => rfl
  | succ n ih =>
    have e : streamBatches measureStream (n + 1) = streamBatches measureStream n ++ [measureStream n] := by
      simp [streamBatches, List.range_succ]
    rw [e, List.flatten_append, ← List.append_assoc, ih, show n + 1 + 3 = (n + 3) + 1 from by omega, List.range_succ (n := n + 3),
      List.map_append]
    rfl

theorem measure_noise (n : ℕ) : UncorrelatedNoise errorLaw 1 ((List.range n).map measurement) := by
  refine ⟨fun o ho => ?_, ?_⟩
  · obtain ⟨i, _, rfl⟩ := List.mem_map.1 ho
    refine ⟨by norm_num [measurement], ?_, ?_⟩
    · exact (memLp_const (5 : ℝ)).add (memLp_error i)
    · change Var[fun ω : ℕ → ℝ => 5 + ω i; errorLaw] = 1 / 1
      rw [variance_const_add (memLp_error i).aestronglyMeasurable, variance_error]
      norm_num
  · rw [List.pairwise_map]
    exact List.Pairwise.imp (fun h => cov_measurement (Nat.ne_of_lt h)) List.pairwise_lt_range

theorem measure_mean (n : ℕ) : LinearMean errorLaw false (fun _ => 5) ((List.range n).map measurement) := by
  intro o ho
  obtain ⟨i, _, rfl⟩ := List.mem_map.1 ho
  have hint : Integrable (fun ω : ℕ → ℝ => ω i) errorLaw := (memLp_error i).integrable (by norm_num)
  refine ⟨(integrable_const (5 : ℝ)).add hint, ?_⟩
  change ∫ ω : ℕ → ℝ, 5 + ω i ∂errorLaw = ∑ j : Fin 1, (1 : ℝ) * 5
  rw [integral_add (integrable_const _) hint, integral_error]
  simp

theorem measure_excites (n : ℕ) (ω : ℕ → ℝ) : Excites 0 (plainObs false (outcome ω ((List.range n).map measurement))) n := by
  intro v
  rw [discSum_outcome, discSum_map, discSum_zero_fin]
  have e : ∀ i : Fin (List.range n).length, (measurement ((List.range n).get i)).w *
      linPred (designRow false (measurement ((List.range n).get i)).x) v ^ 2 = v (0 : Fin 1) ^ 2 := by
    intro i
    change (1 : ℝ) * (∑ j : Fin 1, (1 : ℝ) * v j) ^ 2 = _
    rw [Fin.sum_univ_one]
    ring
  rw [Finset.sum_congr rfl fun i _ => e i]
  change (n : ℝ) * ∑ j : Fin 1, v j ^ 2 ≤ _
  rw [Fin.sum_univ_one]
  simp

theorem measure_fit (perm : ℕ → ℕ → List (Fin (designDim 1 false))) (s : LM 1 false) :
    ∃ s', LM.fit (onesConfig (.str "ols")) perm (outcome 0 measureInit) s = (.ok (), s') := by
  have hd : outcome 0 measureInit = levelData 5 := by simp [outcome, measureInit, measurement, levelData]
  have hw : NonnegWeights (levelData 5) := by
    intro o ho
    simp only [levelData, List.mem_cons, List.not_mem_nil, or_false] at ho
    rcases ho with rfl | rfl | rfl <;> norm_num
  have hX : scaledDesign false (canonSc (ToScale.off : ToScale 1) 0 (levelData 5)) (xs (levelData 5)) = xs (levelData 5) :=
    (List.map_id (xs (levelData 5)) : _)
  have hdet : (initGram (xs (levelData 5)) (ws (levelData 5)) 0).det = 3 := by
    change Matrix.det (n := Fin 1) _ = _
    rw [Matrix.det_fin_one, initGram_apply zero_le_one _ hw, discSum_forget_zero]
    simp [levelData]; norm_num
  rw [hd]
  refine LM.fit_ols_succeeds _ _ _ _ ⟨le_refl _, by norm_num [onesConfig], by simp [onesConfig], by simp [onesConfig]⟩ (by simp [onesConfig])
    (by simp [levelData]) (by norm_num [levelData, ws, designDim]) (by norm_num [levelData, ws])
    getEstimationMethod_ols _ (scaler_fit_canon (ToScale.off : ToScale 1) 0 (levelData 5) (by simp [levelData]) (.inl rfl))
    (initGram (xs (levelData 5)) (ws (levelData 5)) 0)⁻¹ ?_
  rw [hX]
  have hu : IsUnit (initGram (xs (levelData 5)) (ws (levelData 5)) 0).det := by rw [hdet]; norm_num
  exact initInvertedGram_of_isUnit hu

/-- The estimates from ever more measurements converge to five in mean square. -/
example (perm : ℕ → ℕ → List (Fin (designDim 1 false))) (rng : ℕ → ℕ → ℕ → List (Fin (designDim 1 false))) (s₀ : LM 1 false) :
    ∃ B : ℕ → (ℕ → ℝ) → Row 1,
      (∀ n ω, ∃ t, (do LM.fit (onesConfig (.str "ols")) perm (outcome ω measureInit)
                       LM.updates (onesConfig (.str "ols")) rng 0 ((streamBatches measureStream n).map (outcome ω)) :
          Py (LM 1 false) Unit) s₀ = (.ok (), t) ∧ t.coef = some (B n ω)) ∧
      Tendsto (fun n => ∫ ω, (B n ω 0 - 5) ^ 2 ∂errorLaw) atTop (nhds 0) := by
  obtain ⟨s, hs⟩ := measure_fit perm s₀
  obtain ⟨B, h1, h2⟩ := C104_consistent (onesConfig (.str "ols")) rfl rfl rfl rng perm measureInit measureStream
    (by simp [measureStream]) (fun _ => 5) (fun n => by rw [measure_stream]; exact measure_mean _) 1 (by norm_num)
    (fun n => by rw [measure_stream]; exact measure_noise _) 0 (fun n => ((n + 3 : ℕ) : ℝ))
    (tendsto_natCast_atTop_atTop.comp (tendsto_add_atTop_nat 3))
    (fun n => by rw [measure_stream]; exact measure_excites _ _) s₀ s hs
  exact ⟨B, h1, h2 (0 : Fin 1)⟩

/-- The mean of three measurements and two more is unbiased, and no unbiased combination of the five has a smaller variance. -/
example (perm : ℕ → ℕ → List (Fin (designDim 1 false))) (rng : ℕ → ℕ → ℕ → List (Fin (designDim 1 false))) (s₀ : LM 1 false) :
    ∃ B : (ℕ → ℝ) → Row 1, (∫ ω, B ω 0 ∂errorLaw = 5) ∧ ∃ B' : (ℕ → ℝ) → Row 1,
      ∀ a : Fin (measureInit ++ (streamBatches measureStream 2).flatten).length → ℝ, ∑ i, a i = 1 →
        Var[fun ω => linPred (fun _ => 1) (B' ω); errorLaw] ≤
          Var[combine (measureInit ++ (streamBatches measureStream 2).flatten) a; errorLaw] := by
  obtain ⟨s, hs⟩ := measure_fit perm s₀
  have hn := measure_noise (2 + 3)
  rw [← measure_stream] at hn
  have hl := measure_mean (2 + 3)
  rw [← measure_stream] at hl
  have hne : ∀ b ∈ streamBatches measureStream 2, b ≠ [] := by
    intro b hb
    obtain ⟨i, _, rfl⟩ := List.mem_map.1 hb
    simp [measureStream]
  obtain ⟨B, _, h2, _⟩ := C104_unbiased (onesConfig (.str "ols")) rfl rfl rng perm measureInit (streamBatches measureStream 2) hne
    (fun o ho => (hn.1 o ho).1.le) (fun _ => 5) hl 0 s₀ s hs
  obtain ⟨B', M, _, _, h5⟩ := C104_gauss_markov (onesConfig (.str "ols")) rfl rfl rfl rng perm measureInit (streamBatches measureStream 2) hne
    1 hn 0 s₀ s hs
  refine ⟨B, (h2 (0 : Fin 1)).2, B', fun a ha => h5 (fun _ => 1) a fun beta => ?_⟩
  have hx : ∀ i : Fin (measureInit ++ (streamBatches measureStream 2).flatten).length,
      linPred (designRow false ((measureInit ++ (streamBatches measureStream 2).flatten).get i).x) beta = beta (0 : Fin 1) := by
    intro i
    have hmem := List.get_mem (measureInit ++ (streamBatches measureStream 2).flatten) i
    obtain ⟨k, _, hk⟩ := List.mem_map.1 (Eq.subst (motive := fun l => _ ∈ l) (measure_stream 2) hmem)
    rw [← hk]
    change ∑ j : Fin 1, (1 : ℝ) * beta j = _
    rw [Fin.sum_univ_one, one_mul]
  rw [Finset.sum_congr rfl fun i _ => by rw [hx i], ← Finset.sum_mul, ha, one_mul]
  change _ = ∑ j : Fin 1, (1 : ℝ) * beta j
  rw [Fin.sum_univ_one, one_mul]

end Ondil
