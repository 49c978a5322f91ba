import Verif.Props.LeaveOneOut

/-!
# C129: new observations move the predictions by a known gain
-/

open scoped BigOperators Matrix

namespace Ondil

variable {p : ℕ} {fi : Bool}

theorem repetition_step {q : ℕ} (d : List (Obs q)) (o : Obs q) (n : ℕ) (hd : NonnegWeights d) (ho : 0 ≤ o.w) (b b' : Row q)
    (hu : IsUnit (initGram (xs d) (ws d) 0).det) (h1 : sseGradient 0 d b = 0) (h2 : sseGradient 0 (d ++ List.replicate n o) b' = 0) :
    0 ≤ o.w * (o.x ⬝ᵥ ((initGram (xs d) (ws d) 0)⁻¹ *ᵥ o.x)) ∧
      o.y - linPred o.x b =
        (1 + n * (o.w * (o.x ⬝ᵥ ((initGram (xs d) (ws d) 0)⁻¹ *ᵥ o.x)))) * (o.y - linPred o.x b') := by
  set G := initGram (xs d) (ws d) 0 with hG
  have hGM : ∀ v, G *ᵥ (G⁻¹ *ᵥ v) = v := fun v => by
    rw [Matrix.mulVec_mulVec, Matrix.mul_nonsing_inv _ hu, Matrix.one_mulVec]
  have hq : 0 ≤ o.x ⬝ᵥ (G⁻¹ *ᵥ o.x) := by
    have := gram_self_nonneg zero_le_one hd (G⁻¹ *ᵥ o.x)
    rwa [← hG, hGM, dotProduct_comm] at this
  refine ⟨mul_nonneg ho hq, ?_⟩
  have hmove : G *ᵥ (b' - b) = (n * (o.w * (o.y - linPred o.x b'))) • o.x := by
    funext j
    have e := congrFun h2 j
    rw [sseGradient_append] at e
    have e1 : sseGradient 0 d b' j = (G *ᵥ (b' - b)) j := by
      have e2 := congrFun h1 j
      rw [sseGradient_eq zero_le_one hd] at e2 ⊢
      rw [Matrix.mulVec_sub]
      simp only [Pi.sub_apply, Pi.zero_apply] at e2 ⊢
      linarith
    have e3 : sseGradient 0 (List.replicate n o) b' j = n * (o.w * (linPred o.x b' - o.y) * o.x j) := by
      unfold sseGradient
      rw [discSum_forget_zero, List.map_replicate, List.sum_replicate, nsmul_eq_mul]
    rw [e1, e3] at e
    simp only [sub_zero, one_pow, one_mul, Pi.zero_apply] at e
    simp only [Pi.smul_apply, smul_eq_mul]
    linarith
  have hb : b' - b = (n * (o.w * (o.y - linPred o.x b'))) • (G⁻¹ *ᵥ o.x) := by
    have := congrArg (fun v => G⁻¹ *ᵥ v) hmove
    simpa [Matrix.mulVec_mulVec, Matrix.nonsing_inv_mul _ hu, Matrix.mulVec_smul] using this
  have hx : linPred o.x b' - linPred o.x b = n * (o.w * (o.y - linPred o.x b')) * (o.x ⬝ᵥ (G⁻¹ *ᵥ o.x)) := by
    rw [linPred_eq_dotProduct, linPred_eq_dotProduct, ← dotProduct_sub, hb, dotProduct_smul, smul_eq_mul]
    rfl
  linarith

/-- **C129.** Least squares without scaling and without forgetting.  After any history the same observation is learned `n` more times,
in any batches: its error is divided by `1 + n * lev`, where `lev` is its leverage by the inverse Gramian stored before. -/
theorem C129_repeated (c : LMConfig p fi) (hm : c.method = .str "ols") (hs : c.scaleInputs = .off) (hf : c.forget = 0)
    (rng rng' : ℕ → ℕ → ℕ → List (Fin (designDim p fi))) (perm : ℕ → ℕ → List (Fin (designDim p fi)))
    (init : List (Obs p)) (batches again : List (List (Obs p))) (o : Obs p) (n : ℕ) (hn : again.flatten = List.replicate n o)
    (hne : ∀ b ∈ batches, b ≠ []) (hne' : ∀ b ∈ again, b ≠ []) (hw : NonnegWeights (init ++ batches.flatten)) (ho : 0 ≤ o.w)
    (s₀ s : LM p fi) (hfit : LM.fit c perm init s₀ = (.ok (), s)) :
    ∃ t t' y y' M lev, LM.updates c rng 0 batches s = (.ok (), t) ∧ LM.updates c rng' 0 (batches ++ again) s = (.ok (), t') ∧
      t.predict [o.x] = .ok [y] ∧ t'.predict [o.x] = .ok [y'] ∧ t.xGram = some M ∧
      lev = o.w * (designRow fi o.x ⬝ᵥ (M *ᵥ designRow fi o.x)) ∧ 0 ≤ lev ∧ o.y - y' = (o.y - y) / (1 + n * lev) := by
  have hi : NonnegWeights init := fun a ha => hw a (by simp [ha])
  have hb : ∀ B ∈ batches, NonnegWeights B := fun B hB a ha => hw a (List.mem_append_right _ (List.mem_flatten.2 ⟨B, hB, ha⟩))
  have ha : ∀ B ∈ again, NonnegWeights B := fun B hB a ha => by
    have : a ∈ again.flatten := List.mem_flatten.2 ⟨B, hB, ha⟩
    rw [hn] at this
    rw [List.eq_of_mem_replicate this]
    exact ho
  obtain ⟨t, b, G, h1, h2, h3, h4, -, h5, h6⟩ := ols_run_normal c hm hs rng batches hne hi hb hfit
  obtain ⟨t', b', G', h1', -, -, -, -, h5', h6'⟩ := ols_run_normal c hm hs rng' (batches ++ again)
    (fun B hB => (List.mem_append.1 hB).elim (hne B) (hne' B)) hi (fun B hB => (List.mem_append.1 hB).elim (hb B) (ha B)) hfit
  rw [hf] at h4 h5 h5'
  have happ : plainObs fi (init ++ (batches ++ again).flatten) =
      plainObs fi (init ++ batches.flatten) ++ List.replicate n ⟨designRow fi o.x, o.y, o.w⟩ := by
    rw [List.flatten_append, hn, ← List.append_assoc, plainObs_append]
    simp [plainObs]
  rw [happ] at h5'
  have key := repetition_step (plainObs fi (init ++ batches.flatten)) ⟨designRow fi o.x, o.y, o.w⟩ n (nonneg_plainObs hw) ho b b'
    (h4 ▸ h3) h5 h5'
  rw [← h4] at key
  obtain ⟨k1, k2⟩ := key
  refine ⟨t, t', _, _, _, _, h1, h1', h6 _, h6' _, h2, rfl, k1, ?_⟩
  have hpos : 0 < 1 + (n : ℝ) * (o.w * (designRow fi o.x ⬝ᵥ (G⁻¹ *ᵥ designRow fi o.x))) := by
    have := mul_nonneg (Nat.cast_nonneg (α := ℝ) n) k1
    simp only at this
    linarith
  rw [eq_div_iff hpos.ne', mul_comm]
  exact k2.symm

/-- **C129.** Least squares without scaling, any forgetting and history.  Learning one observation moves the prediction at every
point `x` by the error made for the observation times a gain that depends on `x`, the observation's features and the stored inverse
Gramian, but on no response. -/
theorem C129_gain (c : LMConfig p fi) (hm : c.method = .str "ols") (hs : c.scaleInputs = .off)
    (rng rng' : ℕ → ℕ → ℕ → List (Fin (designDim p fi))) (perm : ℕ → ℕ → List (Fin (designDim p fi)))
    (init : List (Obs p)) (batches : List (List (Obs p))) (o : Obs p) (x : Row p)
    (hne : ∀ b ∈ batches, b ≠ []) (hw : NonnegWeights (init ++ batches.flatten)) (ho : 0 ≤ o.w)
    (s₀ s : LM p fi) (hfit : LM.fit c perm init s₀ = (.ok (), s)) :
    ∃ t t' y z z' M, LM.updates c rng 0 batches s = (.ok (), t) ∧ LM.updates c rng' 0 (batches ++ [[o]]) s = (.ok (), t') ∧
      t.predict [o.x] = .ok [y] ∧ t.predict [x] = .ok [z] ∧ t'.predict [x] = .ok [z'] ∧ t.xGram = some M ∧
      z' - z = o.w * (designRow fi x ⬝ᵥ (M *ᵥ designRow fi o.x)) /
        (1 - c.forget + o.w * (designRow fi o.x ⬝ᵥ (M *ᵥ designRow fi o.x))) * (o.y - y) := by
  have hi : NonnegWeights init := fun a ha => hw a (by simp [ha])
  have hb : ∀ B ∈ batches, NonnegWeights B := fun B hB a ha => hw a (List.mem_append_right _ (List.mem_flatten.2 ⟨B, hB, ha⟩))
  have hf := (LM.fit_ok hfit).1.2.1
  obtain ⟨t, b, G, h1, h2, h3, h4, -, h5, h6⟩ := ols_run_normal c hm hs rng batches hne hi hb hfit
  obtain ⟨t', b', G', h1', -, -, -, -, h5', h6'⟩ := ols_run_normal c hm hs rng' (batches ++ [[o]])
    (fun B hB => (List.mem_append.1 hB).elim (hne B) fun h => by rw [List.mem_singleton.1 h]; exact List.cons_ne_nil _ _) hi
    (fun B hB => (List.mem_append.1 hB).elim (hb B) fun h a ha => by
      rw [List.mem_singleton.1 h, List.mem_singleton] at ha
      rw [ha]
      exact ho) hfit
  refine ⟨t, t', _, _, _, _, h1, h1', h6 _, h6 _, h6' _, h2, ?_⟩
  have happ : plainObs fi (init ++ (batches ++ [[o]]).flatten) =
      plainObs fi (init ++ batches.flatten) ++ [⟨designRow fi o.x, o.y, o.w⟩] := by
    rw [List.flatten_append, ← List.append_assoc, plainObs_append]
    rfl
  rw [happ] at h5'
  set D := plainObs fi (init ++ batches.flatten) with hD
  have hDw : NonnegWeights D := nonneg_plainObs hw
  set u := designRow fi o.x
  have hmove : (1 - c.forget) • (G *ᵥ (b' - b)) = (o.w * (o.y - linPred u b')) • u := by
    funext j
    have e := congrFun h5' j
    rw [sseGradient_append] at e
    have e1 : sseGradient c.forget D b' j = (G *ᵥ (b' - b)) j := by
      have e2 := congrFun h5 j
      rw [sseGradient_eq hf.le hDw, ← h4] at e2 ⊢
      rw [Matrix.mulVec_sub]
      simp only [Pi.sub_apply, Pi.zero_apply] at e2 ⊢
      linarith
    rw [e1] at e
    simp only [List.length_singleton, pow_one, sseGradient, discSum_singleton, Pi.zero_apply] at e
    simp only [Pi.smul_apply, smul_eq_mul]
    linarith
  have hbb : (1 - c.forget) • (b' - b) = (o.w * (o.y - linPred u b')) • (G⁻¹ *ᵥ u) := by
    have := congrArg (fun v => G⁻¹ *ᵥ v) hmove
    simpa only [Matrix.mulVec_smul, Matrix.mulVec_mulVec, Matrix.nonsing_inv_mul _ h3, Matrix.one_mulVec] using this
  have at_point : ∀ v : Row (designDim p fi), (1 - c.forget) * (linPred v b' - linPred v b) =
      o.w * (o.y - linPred u b') * (v ⬝ᵥ (G⁻¹ *ᵥ u)) := by
    intro v
    have := congrArg (fun r => v ⬝ᵥ r) hbb
    simp only [dotProduct_smul, smul_eq_mul, dotProduct_sub] at this
    exact this
  have hq : 0 ≤ u ⬝ᵥ (G⁻¹ *ᵥ u) := by
    have := gram_self_nonneg hf.le hDw (G⁻¹ *ᵥ u)
    rwa [← h4, Matrix.mulVec_mulVec, Matrix.mul_nonsing_inv _ h3, Matrix.one_mulVec, dotProduct_comm] at this
  have hpos : 0 < 1 - c.forget + o.w * (u ⬝ᵥ (G⁻¹ *ᵥ u)) := by
    have := mul_nonneg ho hq
    linarith
  have e0 := at_point u
  have e1 := at_point (designRow fi x)
  have h1f : 0 < 1 - c.forget := sub_pos.2 hf
  have herr : (1 - c.forget + o.w * (u ⬝ᵥ (G⁻¹ *ᵥ u))) * (o.y - linPred u b') = (1 - c.forget) * (o.y - linPred u b) := by
    linarith
  rw [div_mul_eq_mul_div, eq_div_iff hpos.ne']
  apply mul_left_cancel₀ h1f.ne'
  calc (1 - c.forget) * ((linPred (designRow fi x) b' - linPred (designRow fi x) b) * (1 - c.forget + o.w * (u ⬝ᵥ (G⁻¹ *ᵥ u))))
      = (1 - c.forget) * (linPred (designRow fi x) b' - linPred (designRow fi x) b) * (1 - c.forget + o.w * (u ⬝ᵥ (G⁻¹ *ᵥ u))) := by ring
    _ = o.w * (designRow fi x ⬝ᵥ (G⁻¹ *ᵥ u)) * ((1 - c.forget + o.w * (u ⬝ᵥ (G⁻¹ *ᵥ u))) * (o.y - linPred u b')) := by rw [e1]; ring
    _ = _ := by rw [herr]; ring

/-- The hypotheses are met: four points of a line, then a point off the line three times in two batches. -/
example (rng : ℕ → ℕ → ℕ → List (Fin (designDim 1 true))) (perm : ℕ → ℕ → List (Fin (designDim 1 true))) :
    ∃ s t y y' lev, LM.fit (olsConfig .off) perm lineInit (LM.new 1 true) = (.ok (), s) ∧
      LM.updates (olsConfig .off) rng 0 [[⟨fun _ => 2, 3, 1⟩], [⟨fun _ => 2, 3, 1⟩, ⟨fun _ => 2, 3, 1⟩]] s = (.ok (), t) ∧
      s.predict [fun _ => 2] = .ok [y] ∧ t.predict [fun _ => 2] = .ok [y'] ∧ 0 ≤ lev ∧ 3 - y' = (3 - y) / (1 + (3 : ℕ) * lev) := by
  obtain ⟨s, hs⟩ := lineInit_fit perm .off (.inr rfl) (LM.new 1 true)
  obtain ⟨t', t, y, y', M, lev, h2, h1, h3, h4, h5, -, h7, h9⟩ := C129_repeated (olsConfig .off) rfl rfl rfl rng rng
    perm lineInit [] [[⟨fun _ => 2, 3, 1⟩], [⟨fun _ => 2, 3, 1⟩, ⟨fun _ => 2, 3, 1⟩]] ⟨fun _ => 2, 3, 1⟩ 3 rfl (by simp) (by simp)
    (by simpa using lineInit_nonneg) (by norm_num) _ s hs
  obtain rfl : s = t' := (Prod.ext_iff.1 h2).2
  exact ⟨s, t, y, y', lev, hs, h1, h3, h4, h7, h9⟩

example (rng : ℕ → ℕ → ℕ → List (Fin (designDim 1 true))) (perm : ℕ → ℕ → List (Fin (designDim 1 true))) :
    ∃ s t y z z' g, LM.fit (olsConfig .off) perm lineInit (LM.new 1 true) = (.ok (), s) ∧
      LM.updates (olsConfig .off) rng 0 [[⟨fun _ => 2, 3, 1⟩]] s = (.ok (), t) ∧
      s.predict [fun _ => 2] = .ok [y] ∧ s.predict [fun _ => 7] = .ok [z] ∧ t.predict [fun _ => 7] = .ok [z'] ∧ z' - z = g * (3 - y) := by
  obtain ⟨s, hs⟩ := lineInit_fit perm .off (.inr rfl) (LM.new 1 true)
  obtain ⟨t', t, y, z, z', M, h2, h1, h3, h4, h5, -, h7⟩ := C129_gain (olsConfig .off) rfl rfl rng rng
    perm lineInit [] ⟨fun _ => 2, 3, 1⟩ (fun _ => 7) (by simp) (by simpa using lineInit_nonneg) (by norm_num) _ s hs
  obtain rfl : s = t' := (Prod.ext_iff.1 h2).2
  exact ⟨s, t, y, z, z', _, hs, h1, h3, h4, h5, h7⟩

end Ondil
