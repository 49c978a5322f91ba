import Verif.Lemmas.RowOrder
import Verif.Props.Regret

/-!
# C128: errors of predictions without an observation follow from the estimator that has seen it
-/

open scoped BigOperators Matrix

namespace Ondil

variable {p : ℕ} {fi : Bool}

theorem gram_self_nonneg {q : ℕ} {f : ℝ} (hf : f ≤ 1) {d : List (Obs q)} (hd : NonnegWeights d) (v : Row q) :
    0 ≤ v ⬝ᵥ (initGram (xs d) (ws d) f *ᵥ v) := by
  rw [gram_quad hf d hd]
  refine discSum_nonneg hf d fun a ha => ?_
  rw [dotProduct_comm v, mul_assoc]
  exact mul_nonneg (hd a ha) (mul_self_nonneg _)

theorem leave_one_out_step {q : ℕ} (d e : List (Obs q)) (o : Obs q) (he : e.Perm (o :: d)) (hd : NonnegWeights d) (ho : 0 ≤ o.w)
    (b b' : Row q) (hu : IsUnit (initGram (xs d) (ws d) 0).det) (hu' : IsUnit (initGram (xs e) (ws e) 0).det)
    (h1 : sseGradient 0 d b = 0) (h2 : sseGradient 0 e b' = 0) :
    0 ≤ o.w * (o.x ⬝ᵥ ((initGram (xs e) (ws e) 0)⁻¹ *ᵥ o.x)) ∧ o.w * (o.x ⬝ᵥ ((initGram (xs e) (ws e) 0)⁻¹ *ᵥ o.x)) < 1 ∧
      o.y - linPred o.x b' =
        (1 - o.w * (o.x ⬝ᵥ ((initGram (xs e) (ws e) 0)⁻¹ *ᵥ o.x))) * (o.y - linPred o.x b) := by
  have hew : NonnegWeights e := by
    intro a ha
    rcases List.mem_cons.1 (he.mem_iff.1 ha) with rfl | h
    · exact ho
    · exact hd a h
  have hG : ∀ v, initGram (xs e) (ws e) 0 *ᵥ v = initGram (xs d) (ws d) 0 *ᵥ v + (o.w * (o.x ⬝ᵥ v)) • o.x := by
    intro v
    funext i
    simp only [Matrix.mulVec, dotProduct, Pi.add_apply, Pi.smul_apply, smul_eq_mul]
    rw [Finset.mul_sum, Finset.sum_mul, ← Finset.sum_add_distrib]
    refine Finset.sum_congr rfl fun j _ => ?_
    rw [initGram_apply zero_le_one _ hew, initGram_apply zero_le_one _ hd, discSum_perm he, discSum_cons]
    simp only [sub_zero, one_pow, one_mul]
    ring
  set G := initGram (xs d) (ws d) 0 with hGd
  set G' := initGram (xs e) (ws e) 0 with hGe
  set z := G'⁻¹ *ᵥ o.x with hz
  have hz' : G' *ᵥ z = o.x := by rw [hz, Matrix.mulVec_mulVec, Matrix.mul_nonsing_inv _ hu', Matrix.one_mulVec]
  have ha : 0 ≤ o.x ⬝ᵥ z := by
    have := gram_self_nonneg zero_le_one hew z
    rwa [← hGe, hz', dotProduct_comm] at this
  have hGz : G *ᵥ z = (1 - o.w * (o.x ⬝ᵥ z)) • o.x := by
    have := hG z
    rw [hz'] at this
    rw [sub_smul, one_smul, eq_sub_iff_add_eq, ← this]
  have hlt : o.w * (o.x ⬝ᵥ z) < 1 := by
    by_contra hge
    rw [not_lt] at hge
    have hq := gram_self_nonneg zero_le_one hd z
    rw [← hGd, hGz, dotProduct_smul, smul_eq_mul, dotProduct_comm z o.x] at hq
    have hpos : 0 < o.x ⬝ᵥ z := lt_of_le_of_ne ha fun h0 => by rw [← h0] at hge; linarith
    have h0 : 1 - o.w * (o.x ⬝ᵥ z) = 0 := le_antisymm (by linarith) (by
      by_contra hn
      have := mul_neg_of_neg_of_pos (not_le.1 hn) hpos
      linarith)
    rw [h0, zero_smul] at hGz
    have hz0 : z = 0 := by
      have := congrArg (fun v => G⁻¹ *ᵥ v) hGz
      simpa [Matrix.mulVec_mulVec, Matrix.nonsing_inv_mul _ hu] using this
    rw [hz0] at hpos
    simp at hpos
  refine ⟨mul_nonneg ho ha, hlt, ?_⟩
  have hgrad : G' *ᵥ (b - b') = (o.w * (linPred o.x b - o.y)) • o.x := by
    funext j
    have e1 : sseGradient 0 e b j = (G' *ᵥ (b - b')) j := by
      have e2 := congrFun h2 j
      rw [sseGradient_eq zero_le_one hew] at e2 ⊢
      rw [Matrix.mulVec_sub]
      simp only [Pi.sub_apply, Pi.zero_apply] at e2 ⊢
      linarith
    have e3 : sseGradient 0 e b j = o.w * (linPred o.x b - o.y) * o.x j + sseGradient 0 d b j := by
      unfold sseGradient
      rw [discSum_perm he, discSum_cons]
      simp
    rw [← e1, e3, congrFun h1 j]
    simp
  have hb : b - b' = (o.w * (linPred o.x b - o.y)) • z := by
    have := congrArg (fun v => G'⁻¹ *ᵥ v) hgrad
    simpa [Matrix.mulVec_mulVec, Matrix.nonsing_inv_mul _ hu', Matrix.mulVec_smul] using this
  have hx : linPred o.x b - linPred o.x b' = o.w * (linPred o.x b - o.y) * (o.x ⬝ᵥ z) := by
    rw [linPred_eq_dotProduct, linPred_eq_dotProduct, ← dotProduct_sub, hb, dotProduct_smul, smul_eq_mul]
    rfl
  linarith

/-- **C128.** Least squares without scaling and without forgetting.  Two estimators, fitted and updated with any batches; the data of
one are those of the other, in any order, and one more observation.  The error of the first estimator for this observation is that
of the second, which has not seen it, times one minus the leverage.  The leverage is computed from the inverse Gramian that the first
one stores, is at least zero and less than one. -/
theorem C128_leave_one_out (c : LMConfig p fi) (hm : c.method = .str "ols") (hs : c.scaleInputs = .off) (hf : c.forget = 0)
    (rng rng' : ℕ → ℕ → ℕ → List (Fin (designDim p fi))) (perm perm' : ℕ → ℕ → List (Fin (designDim p fi)))
    (init init' : List (Obs p)) (batches batches' : List (List (Obs p))) (o : Obs p)
    (hdata : (init ++ batches.flatten).Perm (o :: (init' ++ batches'.flatten)))
    (hne : ∀ b ∈ batches, b ≠ []) (hne' : ∀ b ∈ batches', b ≠ []) (hw : NonnegWeights (init ++ batches.flatten))
    (s₀ s s₀' s' : LM p fi) (hfit : LM.fit c perm init s₀ = (.ok (), s)) (hfit' : LM.fit c perm' init' s₀' = (.ok (), s')) :
    ∃ t t' y y' M lev, LM.updates c rng 0 batches s = (.ok (), t) ∧ LM.updates c rng' 0 batches' s' = (.ok (), t') ∧
      t.predict [o.x] = .ok [y] ∧ t'.predict [o.x] = .ok [y'] ∧ t.xGram = some M ∧
      lev = o.w * (designRow fi o.x ⬝ᵥ (M *ᵥ designRow fi o.x)) ∧ 0 ≤ lev ∧ lev < 1 ∧
      o.y - y = (1 - lev) * (o.y - y') ∧ o.y - y' = (o.y - y) / (1 - lev) := by
  have hw' : NonnegWeights (init' ++ batches'.flatten) := fun a ha => hw a (hdata.mem_iff.2 (List.mem_cons_of_mem _ ha))
  have ho : 0 ≤ o.w := hw o (hdata.mem_iff.2 List.mem_cons_self)
  obtain ⟨t, b, G, h1, h2, h3, h4, -, h5, h6⟩ := ols_run_normal c hm hs rng batches hne (fun a ha => hw a (by simp [ha]))
    (fun B hB a ha => hw a (List.mem_append_right _ (List.mem_flatten.2 ⟨B, hB, ha⟩))) hfit
  obtain ⟨t', b', G', h1', h2', h3', h4', -, h5', h6'⟩ := ols_run_normal c hm hs rng' batches' hne' (fun a ha => hw' a (by simp [ha]))
    (fun B hB a ha => hw' a (List.mem_append_right _ (List.mem_flatten.2 ⟨B, hB, ha⟩))) hfit'
  rw [hf] at h4 h4' h5 h5'
  have key := leave_one_out_step (plainObs fi (init' ++ batches'.flatten)) (plainObs fi (init ++ batches.flatten))
    ⟨designRow fi o.x, o.y, o.w⟩ (hdata.map _) (nonneg_plainObs hw') ho b' b (h4' ▸ h3') (h4 ▸ h3) h5' h5
  rw [← h4] at key
  obtain ⟨k1, k2, k3⟩ := key
  refine ⟨t, t', _, _, _, _, h1, h1', h6 _, h6' _, h2, rfl, k1, k2, k3, ?_⟩
  rw [eq_div_iff (sub_pos.2 k2).ne', mul_comm]
  exact k3.symm

/-- **C128.** Any forgetting: the discounted leverages of all data sum to the number of coefficients. -/
theorem C128_leverages (c : LMConfig p fi) (hm : c.method = .str "ols") (hs : c.scaleInputs = .off)
    (rng : ℕ → ℕ → ℕ → List (Fin (designDim p fi))) (perm : ℕ → ℕ → List (Fin (designDim p fi)))
    (init : List (Obs p)) (batches : List (List (Obs p))) (hne : ∀ b ∈ batches, b ≠ [])
    (hw : NonnegWeights (init ++ batches.flatten)) (s₀ s : LM p fi) (hfit : LM.fit c perm init s₀ = (.ok (), s)) :
    ∃ t M, LM.updates c rng 0 batches s = (.ok (), t) ∧ t.xGram = some M ∧
      discSum c.forget (init ++ batches.flatten) (fun o => o.w * (designRow fi o.x ⬝ᵥ (M *ᵥ designRow fi o.x))) =
        (designDim p fi : ℝ) := by
  obtain ⟨t, b, G, h1, h2, h3, h4, -, -, -⟩ := ols_run_normal c hm hs rng batches hne (fun a ha => hw a (by simp [ha]))
    (fun B hB a ha => hw a (List.mem_append_right _ (List.mem_flatten.2 ⟨B, hB, ha⟩))) hfit
  have hf := (LM.fit_ok hfit).1.2.1
  refine ⟨t, _, h1, h2, ?_⟩
  set D := init ++ batches.flatten with hD
  have e : discSum c.forget D (fun o => o.w * (designRow fi o.x ⬝ᵥ (G⁻¹ *ᵥ designRow fi o.x))) =
      discSum c.forget (plainObs fi D) fun o => o.w * (o.x ⬝ᵥ (G⁻¹ *ᵥ o.x)) := by
    unfold plainObs
    rw [discSum_map]
  rw [e]
  have tr : (G * G⁻¹).trace = (designDim p fi : ℝ) := by
    rw [Matrix.mul_nonsing_inv _ h3, Matrix.trace_one, Fintype.card_fin]
  rw [← tr]
  simp only [Matrix.trace, Matrix.diag_apply, Matrix.mul_apply]
  have gij : ∀ i j, G i j = discSum c.forget (plainObs fi D) fun o => o.w * o.x i * o.x j := fun i j => by
    rw [h4, initGram_apply hf.le _ (nonneg_plainObs hw)]
  simp_rw [gij, ← discSum_mul_right, ← discSum_sum]
  refine discSum_congr _ _ fun o _ => ?_
  simp only [dotProduct, Matrix.mulVec, Finset.mul_sum]
  rw [Finset.sum_comm]
  exact Finset.sum_congr rfl fun i _ => Finset.sum_congr rfl fun j _ => by ring

/-- The hypotheses are met: four points of a line, and the same points with a fifth one off the line. -/
example (rng : ℕ → ℕ → ℕ → List (Fin (designDim 1 true))) (perm : ℕ → ℕ → List (Fin (designDim 1 true))) :
    ∃ s t y y' M lev, LM.fit (olsConfig .off) perm lineInit (LM.new 1 true) = (.ok (), s) ∧
      LM.updates (olsConfig .off) rng 0 [[⟨fun _ => 2, 3, 1⟩]] s = (.ok (), t) ∧
      t.predict [fun _ => 2] = .ok [y] ∧ s.predict [fun _ => 2] = .ok [y'] ∧ t.xGram = some M ∧
      lev = 1 * (designRow true (fun _ => 2) ⬝ᵥ (M *ᵥ designRow true fun _ => 2)) ∧ 0 ≤ lev ∧ lev < 1 ∧
      3 - y' = (3 - y) / (1 - lev) := by
  obtain ⟨s, hs⟩ := lineInit_fit perm .off (.inr rfl) (LM.new 1 true)
  obtain ⟨t, t', y, y', M, lev, h1, h2, h3, h4, h5, h6, h7, h8, -, h9⟩ := C128_leave_one_out (olsConfig .off) rfl rfl rfl rng rng
    perm perm lineInit lineInit [[⟨fun _ => 2, 3, 1⟩]] [] ⟨fun _ => 2, 3, 1⟩
    (by simpa using List.perm_append_comm) (by simp) (by simp)
    (fun a ha => by
      rcases List.mem_append.1 ha with h | h
      · exact lineInit_nonneg a h
      · simp at h; rw [h]; norm_num) _ s _ s hs hs
  obtain rfl : s = t' := (Prod.ext_iff.1 h2).2
  exact ⟨s, t, y, y', M, lev, hs, h1, h3, h4, h5, h6, h7, h8, h9⟩

end Ondil
