import Mathlib.LinearAlgebra.Matrix.SchurComplement
import Verif.Props.Prequential

/-!
# C127: forecasting before learning costs little compared with the best fixed coefficients
-/

open scoped BigOperators Matrix

namespace Ondil

variable {p : ℕ} {fi : Bool}

/-- One observation is added to the data: the growth of the smallest squared error is the product of the errors before and
after, and the Gramian grows by the factor by which the error shrinks. -/
theorem regret_step {q : ℕ} (d : List (Obs q)) (o : Obs q) (hd : NonnegWeights d) (ho : 0 ≤ o.w) (b b' : Row q)
    (hu : IsUnit (initGram (xs d) (ws d) 0).det) (h1 : sseGradient 0 d b = 0) (h2 : sseGradient 0 (d ++ [o]) b' = 0) :
    ∃ h : ℝ, 0 ≤ h ∧ (initGram (xs (d ++ [o])) (ws (d ++ [o])) 0).det = (initGram (xs d) (ws d) 0).det * (1 + h) ∧
      o.y - linPred o.x b = (1 + h) * (o.y - linPred o.x b') ∧
      discSSE 0 (d ++ [o]) b' = discSSE 0 d b + o.w * (o.y - linPred o.x b) * (o.y - linPred o.x b') := by
  have hd' : NonnegWeights (d ++ [o]) := by
    intro a ha
    rcases List.mem_append.1 ha with h | h
    · exact hd a h
    · rw [List.mem_singleton.1 h]; exact ho
  have hG' : initGram (xs (d ++ [o])) (ws (d ++ [o])) 0 = initGram (xs d) (ws d) 0 +
      Matrix.replicateCol Unit (o.w • o.x) * Matrix.replicateRow Unit o.x := by
    ext i j
    rw [Matrix.add_apply, initGram_apply zero_le_one _ hd', initGram_apply zero_le_one _ hd, discSum_snoc, Matrix.mul_apply]
    simp
  set G := initGram (xs d) (ws d) 0 with hG
  have hn : G *ᵥ b = initYGram (xs d) (ys d) (ws d) 0 := by
    rw [sseGradient_eq zero_le_one hd, sub_eq_zero] at h1; exact h1
  have hmove : G *ᵥ (b' - b) = (o.w * (o.y - linPred o.x b')) • o.x := by
    funext j
    have e := congrFun h2 j
    rw [sseGradient_append] at e
    have e1 : sseGradient 0 d b' j = (G *ᵥ (b' - b)) j := by
      rw [sseGradient_eq zero_le_one hd, ← hG, ← hn, Matrix.mulVec_sub]
    rw [e1] at e
    simp only [sub_zero, one_pow, one_mul, sseGradient, discSum_singleton, Pi.zero_apply] at e
    simp only [Pi.smul_apply, smul_eq_mul]
    linarith
  have hMG : ∀ v, G⁻¹ *ᵥ (G *ᵥ v) = v := fun v => by
    rw [Matrix.mulVec_mulVec, Matrix.nonsing_inv_mul _ hu, Matrix.one_mulVec]
  have hGM : ∀ v, G *ᵥ (G⁻¹ *ᵥ v) = v := fun v => by
    rw [Matrix.mulVec_mulVec, Matrix.mul_nonsing_inv _ hu, Matrix.one_mulVec]
  have hb : b' - b = (o.w * (o.y - linPred o.x b')) • (G⁻¹ *ᵥ o.x) := by
    rw [← hMG (b' - b), hmove, Matrix.mulVec_smul]
  have hq : 0 ≤ o.x ⬝ᵥ (G⁻¹ *ᵥ o.x) := by
    have e := gram_quad zero_le_one d hd (G⁻¹ *ᵥ o.x) (G⁻¹ *ᵥ o.x)
    rw [← hG, hGM, dotProduct_comm] at e
    rw [e]
    refine discSum_nonneg zero_le_one d fun a ha => ?_
    rw [dotProduct_comm _ a.x, mul_assoc]
    exact mul_nonneg (hd a ha) (mul_self_nonneg _)
  have hdiff : linPred o.x b' - linPred o.x b = o.x ⬝ᵥ (b' - b) := by
    rw [linPred_eq_dotProduct, linPred_eq_dotProduct, dotProduct_sub]
  refine ⟨o.w * (o.x ⬝ᵥ (G⁻¹ *ᵥ o.x)), mul_nonneg ho hq, ?_, ?_, ?_⟩
  · rw [hG', Matrix.det_add_replicateCol_mul_replicateRow hu]
    congr 1
    rw [Matrix.det_unique, Matrix.add_apply, Matrix.one_apply_eq, Matrix.mul_assoc, Matrix.mul_apply]
    congr 1
    have : ∀ j, (G⁻¹ * Matrix.replicateCol Unit (o.w • o.x)) j default = o.w * (G⁻¹ *ᵥ o.x) j := by
      intro j
      rw [← Matrix.replicateCol_mulVec, Matrix.mulVec_smul]
      rfl
    simp only [this, Matrix.replicateRow_apply, dotProduct, Finset.mul_sum]
    exact Finset.sum_congr rfl fun j _ => by ring
  · have e : o.x ⬝ᵥ (b' - b) = o.w * (o.y - linPred o.x b') * (o.x ⬝ᵥ (G⁻¹ *ᵥ o.x)) := by
      rw [hb, dotProduct_smul, smul_eq_mul]
    rw [e] at hdiff
    linarith
  · have e := discSSE_expand zero_le_one d hd b b' hn
    rw [← hG, hmove, dotProduct_smul, smul_eq_mul, dotProduct_comm, ← hdiff] at e
    have e2 : discSSE 0 (d ++ [o]) b' = discSSE 0 d b' + o.w * (o.y - linPred o.x b') ^ 2 := by
      unfold discSSE
      rw [discSum_snoc]
      simp
    rw [e2, e]
    ring

/-- The estimator after a fit and any updates: Gramian and normal equations of all data so far. -/
theorem ols_run_normal (c : LMConfig p fi) (hm : c.method = .str "ols") (hs : c.scaleInputs = .off)
    (rng : ℕ → ℕ → ℕ → List (Fin (designDim p fi))) {perm : ℕ → ℕ → List (Fin (designDim p fi))} {init : List (Obs p)}
    (batches : List (List (Obs p))) (hne : ∀ b ∈ batches, b ≠ []) (hi : NonnegWeights init)
    (hb : ∀ b ∈ batches, NonnegWeights b) {s₀ s : LM p fi} (hfit : LM.fit c perm init s₀ = (.ok (), s)) :
    ∃ t b G, LM.updates c rng 0 batches s = (.ok (), t) ∧ t.xGram = some G⁻¹ ∧ IsUnit G.det ∧
      G = initGram (xs (plainObs fi (init ++ batches.flatten))) (ws (plainObs fi (init ++ batches.flatten))) c.forget ∧
      IsLeastSquares c.forget (plainObs fi (init ++ batches.flatten)) b ∧
      sseGradient c.forget (plainObs fi (init ++ batches.flatten)) b = 0 ∧
      ∀ X, t.predict X = .ok (X.map fun x => linPred (designRow fi x) b) := by
  have hm' : getEstimationMethod c.method = .ok .ols := by rw [hm]; exact getEstimationMethod_ols
  have hsel : c.scaleInputs.selection = none := by rw [hs]; rfl
  obtain ⟨hv, _, h3, _⟩ := LM.fit_ok hfit
  have hp : p ≠ 0 := fun h => h3 (.inr h)
  obtain ⟨t, ht, inv⟩ := (OlsInv.of_fit hm' hi hfit).updates hv hp rng batches hne hb 0
  rw [designObs_off hsel, mixedDesign_off hsel, ← plainObs_append] at inv
  obtain ⟨t', b, ht', h4, h5⟩ := ols_run_best c hm hs rng batches hne hi hb hfit
  obtain ⟨t'', b'', ht'', h6, h7, h8⟩ := ols_run c hm hs rng perm hne hi hb hfit
  rw [← plainObs_append] at h7
  obtain rfl : t = t' := by rw [ht] at ht'; exact (Prod.ext_iff.1 ht').2
  obtain rfl : t = t'' := by rw [ht] at ht''; exact (Prod.ext_iff.1 ht'').2
  have hn : initGram (xs (plainObs fi (init ++ batches.flatten))) (ws (plainObs fi (init ++ batches.flatten))) c.forget *ᵥ b'' =
      initYGram (xs (plainObs fi (init ++ batches.flatten))) (ys (plainObs fi (init ++ batches.flatten)))
        (ws (plainObs fi (init ++ batches.flatten))) c.forget := by
    have := h7
    rw [sseGradient_eq hv.2.1.le inv.nonneg, sub_eq_zero] at this
    exact this
  exact ⟨t, b'', _, ht, inv.xGram, inv.isUnit, rfl, isLeastSquares_of_normal hv.2.1 _ inv.nonneg _ inv.isUnit hn, h7, h8⟩

/-- The predictions for single observations with coefficients that belong to their position. -/
noncomputable def obsPreds (obs : List (Obs p)) (b : ℕ → Row (designDim p fi)) : List ℝ :=
  obs.mapIdx fun k o => linPred (designRow fi o.x) (b k)

theorem regret_run (init obs : List (Obs p)) (hi : NonnegWeights init) (ho : NonnegWeights obs) (b : ℕ → Row (designDim p fi))
    (hu : ∀ k ≤ obs.length, IsUnit (initGram (xs (plainObs fi (init ++ obs.take k))) (ws (plainObs fi (init ++ obs.take k))) 0).det)
    (hg : ∀ k ≤ obs.length, sseGradient 0 (plainObs fi (init ++ obs.take k)) (b k) = 0) (E : ℝ)
    (hE : ∀ (k : ℕ) (o : Obs p) (y : ℝ), obs[k]? = some o → (obsPreds obs b)[k]? = some y → o.w * (o.y - y) ^ 2 ≤ E) :
    0 < (initGram (xs (plainObs fi (init ++ obs))) (ws (plainObs fi (init ++ obs))) 0).det /
      (initGram (xs (plainObs fi init)) (ws (plainObs fi init)) 0).det ∧
    predictionError 0 obs (obsPreds obs b) + discSSE 0 (plainObs fi init) (b 0) ≤
      discSSE 0 (plainObs fi (init ++ obs)) (b obs.length) +
        E * Real.log ((initGram (xs (plainObs fi (init ++ obs))) (ws (plainObs fi (init ++ obs))) 0).det /
          (initGram (xs (plainObs fi init)) (ws (plainObs fi init)) 0).det) := by
  induction obs using List.reverseRecOn with
  | nil =>
    have h0 : (initGram (xs (plainObs fi init)) (ws (plainObs fi init)) 0).det ≠ 0 := by
      have := hu 0 (by simp)
      simpa using this.ne_zero
    simp [predictionError, obsPreds, h0]
  | append_singleton l o ih =>
    have hpre : obsPreds (l ++ [o]) b = obsPreds l b ++ [linPred (designRow fi o.x) (b l.length)] := by
      unfold obsPreds
      rw [List.mapIdx_concat]
    have hlen : (obsPreds l b).length = l.length := by simp [obsPreds]
    obtain ⟨ih0, ih1⟩ := ih (fun a ha => ho a (by simp [ha]))
      (fun k hk => by have := hu k (by simp; omega); rwa [List.take_append_of_le_length hk] at this)
      (fun k hk => by have := hg k (by simp; omega); rwa [List.take_append_of_le_length hk] at this)
      (fun k a y ha hy => by
        have hk : k < l.length := (List.getElem?_eq_some_iff.1 ha).1
        refine hE k a y ?_ ?_
        · rw [List.getElem?_append_left hk]; exact ha
        · rw [hpre, List.getElem?_append_left (by omega)]; exact hy)
    have hlast := hE l.length o (linPred (designRow fi o.x) (b l.length)) (by simp) (by rw [hpre, ← hlen]; simp)
    have u := hu l.length (by simp)
    have g1 := hg l.length (by simp)
    have g2 := hg (l.length + 1) (by simp)
    rw [List.take_append_of_le_length le_rfl, List.take_length] at u g1
    rw [show (l ++ [o]).take (l.length + 1) = l ++ [o] from List.take_of_length_le (by simp), ← List.append_assoc,
      plainObs_append (init ++ l)] at g2
    have how : 0 ≤ o.w := ho o (by simp)
    obtain ⟨h, hh, hdet, herr, hsse⟩ := regret_step (plainObs fi (init ++ l)) ⟨designRow fi o.x, o.y, o.w⟩ (by
      intro a ha
      obtain ⟨a', ha', rfl⟩ := List.mem_map.1 ha
      rcases List.mem_append.1 ha' with h | h
      · exact hi a' h
      · exact ho a' (by simp [h])) how (b l.length) (b (l.length + 1)) u g1 g2
    have happ : plainObs fi (init ++ (l ++ [o])) = plainObs fi (init ++ l) ++ [⟨designRow fi o.x, o.y, o.w⟩] := by
      rw [← List.append_assoc, plainObs_append]
      rfl
    have h1 : 0 < 1 + h := by linarith
    rw [happ, hdet, mul_div_right_comm, List.length_append, List.length_singleton, hsse, hpre,
      predictionError_append _ _ _ _ _ hlen.symm (by simp)]
    refine ⟨mul_pos ih0 h1, ?_⟩
    rw [Real.log_mul ih0.ne' h1.ne']
    have hone : predictionError 0 [o] [linPred (designRow fi o.x) (b l.length)] =
        o.w * (o.y - linPred (designRow fi o.x) (b l.length)) ^ 2 := by
      change discSum 0 [(o, _)] _ = _
      rw [discSum_singleton]
    rw [hone]
    simp only at herr
    set e := o.y - linPred (designRow fi o.x) (b l.length)
    set e' := o.y - linPred (designRow fi o.x) (b (l.length + 1))
    have hlog : 1 - (1 + h)⁻¹ ≤ Real.log (1 + h) := Real.one_sub_inv_le_log_of_pos h1
    have hlog0 : 0 ≤ Real.log (1 + h) := Real.log_nonneg (by linarith)
    have he' : e' = (1 + h)⁻¹ * e := by rw [herr, ← mul_assoc, inv_mul_cancel₀ h1.ne', one_mul]
    have a1 : o.w * e ^ 2 - o.w * e * e' ≤ E * Real.log (1 + h) := by
      calc o.w * e ^ 2 - o.w * e * e' = o.w * e ^ 2 * (1 - (1 + h)⁻¹) := by rw [he']; ring
        _ ≤ o.w * e ^ 2 * Real.log (1 + h) := mul_le_mul_of_nonneg_left hlog (mul_nonneg how (sq_nonneg e))
        _ ≤ _ := mul_le_mul_of_nonneg_right hlast hlog0
    simp only [sub_zero, one_pow, one_mul]
    linarith

/-- **C127.** Least squares without scaling and without forgetting, observations learned one at a time, each forecast before it is
learned.  If no forecast has a weighted squared error above `E`, the total error of the forecasts exceeds that of any fixed
coefficients `β`, chosen with knowledge of all data, by at most what `β` loses on the first data plus `E` times the logarithm of
the growth of the determinant of the Gramian (the estimator stores its inverse). -/
theorem C127_regret (c : LMConfig p fi) (hm : c.method = .str "ols") (hs : c.scaleInputs = .off) (hf : c.forget = 0)
    (rng : ℕ → ℕ → ℕ → List (Fin (designDim p fi))) (perm : ℕ → ℕ → List (Fin (designDim p fi))) (init obs : List (Obs p))
    (hi : NonnegWeights init) (ho : NonnegWeights obs) (s₀ s : LM p fi) (hfit : LM.fit c perm init s₀ = (.ok (), s)) :
    ∃ t first M M', ∃ before : List ℝ, LM.updates c rng 0 (obs.map fun o => [o]) s = (.ok (), t) ∧
      s.predict (xs init) = .ok first ∧ s.xGram = some M ∧ t.xGram = some M' ∧ 0 < M.det / M'.det ∧
      before.length = obs.length ∧
      (∀ (k : ℕ) (o : Obs p) (y : ℝ), obs[k]? = some o → before[k]? = some y →
        ∃ u, LM.updates c rng 0 ((obs.take k).map fun o => [o]) s = (.ok (), u) ∧ u.predict [o.x] = .ok [y]) ∧
      ∀ E, (∀ (k : ℕ) (o : Obs p) (y : ℝ), obs[k]? = some o → before[k]? = some y → o.w * (o.y - y) ^ 2 ≤ E) → ∀ β : Row (designDim p fi),
        predictionError 0 obs before ≤ predictionError 0 obs ((xs obs).map fun x => linPred (designRow fi x) β) +
          (predictionError 0 init ((xs init).map fun x => linPred (designRow fi x) β) - predictionError 0 init first) +
          E * Real.log (M.det / M'.det) := by
  have hfl : ∀ l : List (Obs p), (l.map fun o => [o]).flatten = l := fun l => by
    induction l with
    | nil => rfl
    | cons a l ih => rw [List.map_cons, List.flatten_cons, ih]; rfl
  have run : ∀ k, ∃ t b G, LM.updates c rng 0 ((obs.take k).map fun o => [o]) s = (.ok (), t) ∧ t.xGram = some G⁻¹ ∧ IsUnit G.det ∧
      G = initGram (xs (plainObs fi (init ++ obs.take k))) (ws (plainObs fi (init ++ obs.take k))) 0 ∧
      IsLeastSquares 0 (plainObs fi (init ++ obs.take k)) b ∧ sseGradient 0 (plainObs fi (init ++ obs.take k)) b = 0 ∧
      ∀ X, t.predict X = .ok (X.map fun x => linPred (designRow fi x) b) := fun k => by
    have := ols_run_normal c hm hs rng ((obs.take k).map fun o => [o]) (fun B hB => by
      obtain ⟨a, -, rfl⟩ := List.mem_map.1 hB
      exact List.cons_ne_nil _ _) hi (fun B hB => by
      obtain ⟨a, ha, rfl⟩ := List.mem_map.1 hB
      intro a' ha'
      rw [List.mem_singleton.1 ha']
      exact ho a (List.mem_of_mem_take ha)) hfit
    rwa [hfl, hf] at this
  choose t b G h1 h2 h3 h4 h5 h6 h7 using run
  have h0 : t 0 = s := by
    have := h1 0
    rw [List.take_zero] at this
    exact (Prod.ext_iff.1 this).2.symm
  have hT := h1 obs.length
  rw [List.take_length] at hT
  have hG0 := h4 0
  rw [List.take_zero, List.append_nil] at hG0
  have hGT := h4 obs.length
  rw [List.take_length] at hGT
  have hdet : (G 0)⁻¹.det / (G obs.length)⁻¹.det = (G obs.length).det / (G 0).det := by
    rw [Matrix.det_nonsing_inv, Matrix.det_nonsing_inv, Ring.inverse_eq_inv', div_eq_mul_inv, inv_inv,
      div_eq_mul_inv, mul_comm]
  have bound := regret_run init obs hi ho b (fun k _ => h4 k ▸ h3 k) fun k _ => h6 k
  rw [← hG0, ← hGT, ← hdet] at bound
  refine ⟨t obs.length, _, _, _, obsPreds obs b, hT, h0 ▸ h7 0 _, h0 ▸ h2 0, h2 _, ?_, by simp [obsPreds], ?_, ?_⟩
  · refine (bound ((obs.mapIdx fun k o => |o.w * (o.y - linPred (designRow fi o.x) (b k)) ^ 2|).sum) ?_).1
    intro k o y hk hy
    unfold obsPreds at hy
    rw [List.getElem?_mapIdx, hk] at hy
    simp only [Option.map_some, Option.some.injEq] at hy
    subst hy
    refine (le_abs_self _).trans (List.single_le_sum (fun x hx => ?_) _ ?_)
    · obtain ⟨i, hi, rfl⟩ := List.mem_mapIdx.1 hx
      exact abs_nonneg _
    · obtain ⟨hl, rfl⟩ := List.getElem?_eq_some_iff.1 hk
      exact List.mem_mapIdx.2 ⟨k, hl, rfl⟩
  · intro k o y hk hy
    unfold obsPreds at hy
    rw [List.getElem?_mapIdx, hk] at hy
    simp only [Option.map_some, Option.some.injEq] at hy
    subst hy
    exact ⟨_, h1 k, h7 k _⟩
  · intro E hE β
    obtain ⟨-, h⟩ := bound E hE
    have m := (h5 obs.length).le β
    rw [List.take_length] at m
    have split : discSSE 0 (plainObs fi (init ++ obs)) β = discSSE 0 (plainObs fi init) β + discSSE 0 (plainObs fi obs) β := by
      rw [plainObs_append]
      unfold discSSE
      rw [discSum_append]
      simp
    rw [split] at m
    rw [predictionError_linear, predictionError_linear, predictionError_linear]
    linarith

/-- The hypotheses are met: four points of a line, then two points off the line. -/
example (rng : ℕ → ℕ → ℕ → List (Fin (designDim 1 true))) (perm : ℕ → ℕ → List (Fin (designDim 1 true))) :
    ∃ s t, LM.fit (olsConfig .off) perm lineInit (LM.new 1 true) = (.ok (), s) ∧
      LM.updates (olsConfig .off) rng 0 [[⟨fun _ => 2, 3, 1⟩], [⟨fun _ => 3, 1, 1⟩]] s = (.ok (), t) ∧
      ∃ M M', s.xGram = some M ∧ t.xGram = some M' ∧ 0 < M.det / M'.det := by
  obtain ⟨s, hs⟩ := lineInit_fit perm .off (.inr rfl) (LM.new 1 true)
  obtain ⟨t, _, M, M', _, h1, -, h2, h3, h4, -⟩ := C127_regret (olsConfig .off) rfl rfl rfl rng perm lineInit
    [⟨fun _ => 2, 3, 1⟩, ⟨fun _ => 3, 1, 1⟩] lineInit_nonneg (by simp [NonnegWeights]) _ s hs
  exact ⟨s, t, hs, h1, M, M', h2, h3, h4⟩

end Ondil
