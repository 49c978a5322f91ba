import Verif.Lemmas.LinearModel

/-! # Invariant of the linear model with the least squares method -/

open scoped BigOperators Matrix

namespace Ondil

variable {p : ℕ} {fi : Bool}

/-- Updates with a sequence of batches; `rng k` is the random generator of the `k`-th call. -/
noncomputable def LM.updates (c : LMConfig p fi) (rng : ℕ → ℕ → ℕ → List (Fin (designDim p fi))) :
    ℕ → List (List (Obs p)) → Py (LM p fi) Unit
  | _, [] => pure ()
  | k, b :: bs => do
    LM.update c (rng k) b
    LM.updates c rng (k + 1) bs

/-- The state of a least squares model that has seen the data `h` and works with the design rows `d`. -/
structure OlsInv (c : LMConfig p fi) (h : List (Obs p)) (d : List (Obs (designDim p fi)))
    (s : LM p fi) : Prop where
  weight : c.scaleInputs.selection = none ∨ 0 < totalWeight c.forget h
  nonneg : NonnegWeights d
  scaler : s.scaler = some (canonSc c.scaleInputs c.forget h)
  method : s.method = some .ols
  nObs : s.nObs = some (ws h).sum
  nTraining : s.nTraining = some (effectiveTrainingLength c.forget (ws h).sum)
  isUnit : IsUnit (initGram (xs d) (ws d) c.forget).det
  xGram : s.xGram = some (initGram (xs d) (ws d) c.forget)⁻¹
  yGram : s.yGram = some (initYGram (xs d) (ys d) (ws d) c.forget)
  coef : s.coef = some (olsBeta (initGram (xs d) (ws d) c.forget)⁻¹
    (initYGram (xs d) (ys d) (ws d) c.forget))

theorem totalWeight_nonneg {forget : ℝ} (hf : forget ≤ 1) (h : List (Obs p)) (hw : NonnegWeights h) :
    0 ≤ totalWeight forget h := discSum_nonneg hf h hw

theorem initInvertedGram_ok {q : ℕ} {X : List (Row q)} {w : List ℝ} {forget : ℝ}
    {G : Matrix (Fin q) (Fin q) ℝ} (h : initInvertedGram X w forget = .ok G) :
    IsUnit (initGram X w forget).det ∧ G = (initGram X w forget)⁻¹ := by
  unfold initInvertedGram at h
  simp only at h
  split_ifs at h with h1
  exact ⟨(rank_eq_iff_isUnit_det _).1 h1, (Except.ok.inj h).symm⟩

theorem initInvertedGram_of_isUnit {q : ℕ} {X : List (Row q)} {w : List ℝ} {forget : ℝ}
    (h : IsUnit (initGram X w forget).det) :
    initInvertedGram X w forget = .ok (initGram X w forget)⁻¹ := by
  unfold initInvertedGram
  simp only [(rank_eq_iff_isUnit_det _).2 h, if_true]

theorem getEstimationMethod_ols : getEstimationMethod (q := p) (.str "ols") = .ok .ols := by
  simp [getEstimationMethod, methodFromString]

/-- `fit` establishes the invariant. -/
theorem OlsInv.of_fit {c : LMConfig p fi} {perm : ℕ → ℕ → List (Fin (designDim p fi))}
    {data : List (Obs p)} {s s' : LM p fi} (hm : getEstimationMethod c.method = .ok .ols)
    (hw : NonnegWeights data) (h : LM.fit c perm data s = (.ok (), s')) :
    OlsInv c data (designObs c.scaleInputs c.forget fi data data) s' := by
  obtain ⟨hv, h2, h3, h4, h5, m, sc, G, hm', hsc, hG, e1, e2, e3, e4, e5, e6, _, _⟩ := LM.fit_ok h
  rw [hm] at hm'
  cases hm'
  obtain ⟨hlen, hW, rfl⟩ := scaler_fit_ok _ _ _ _ hsc
  obtain ⟨e8, e7⟩ := e6 rfl
  rw [scaledDesign_canon] at hG e5 e7
  have hG' : initInvertedGram (xs (designObs c.scaleInputs c.forget fi data data))
    (ws data) c.forget = .ok G := hG
  obtain ⟨hu, rfl⟩ := initInvertedGram_ok hG'
  have hW' : c.scaleInputs.selection = none ∨ 0 < totalWeight c.forget data := by
    rcases hW with h | h
    · exact .inl h
    · exact .inr (lt_of_le_of_ne (totalWeight_nonneg hv.2.1.le data hw) h.symm)
  refine ⟨hW', designObs_nonneg _ _ _ _ hw, e1, e8, e2, e3, ?_, ?_, ?_, ?_⟩
  · rw [ws_designObs]; exact hu
  · rw [ws_designObs]; exact e4
  · rw [ws_designObs, ys_designObs]; exact e5
  · rw [ws_designObs, ys_designObs]; exact e7

/-- `update` preserves it, and never fails. -/
theorem OlsInv.update {c : LMConfig p fi} {h : List (Obs p)} {d : List (Obs (designDim p fi))}
    {s : LM p fi} (inv : OlsInv c h d s) (hv : c.Valid) (hp : p ≠ 0)
    (perm : ℕ → ℕ → List (Fin (designDim p fi))) (b : List (Obs p)) (hne : b ≠ [])
    (hb : NonnegWeights b) :
    ∃ s', LM.update c perm b s = (.ok (), s') ∧
      OlsInv c (h ++ b) (d ++ designObs c.scaleInputs c.forget fi (h ++ b) b) s' := by
  have hf := hv.2.1
  have hsc := scaler_update_canon c.scaleInputs hf h b hne hb inv.weight
  set b' := designObs c.scaleInputs c.forget fi (h ++ b) b with hb'
  have hbn : NonnegWeights b' := designObs_nonneg _ _ _ _ hb
  have hne' : b' ≠ [] := by
    intro h0; apply hne; rw [hb'] at h0; simpa [designObs] using h0
  obtain ⟨hu, hG⟩ := inverted_batch hf b' d hne' inv.nonneg hbn inv.isUnit
  have hws : ws b' = ws b := ws_designObs _ _ _ _
  have hys : ys b' = ys b := ys_designObs _ _ _ _
  have hX : scaledDesign fi (canonSc c.scaleInputs c.forget (h ++ b)) (xs b) = xs b' :=
    scaledDesign_canon _ _ _ _
  obtain ⟨s', hs'⟩ := LM.update_ols_succeeds c perm b s hv (by simp [hne, hp]) inv.nObs inv.scaler
    inv.method inv.xGram inv.yGram inv.coef hsc (G := (initGram (xs (d ++ b')) (ws (d ++ b')) c.forget)⁻¹)
    (by rw [hX, ← hws]; exact hG)
  refine ⟨s', hs', ?_⟩
  obtain ⟨_, _, n0, sc0, sc, m, G0, G, h0, q1, q2, q3, q4, q5, q6, q7, r1, r2, r3, r4, r5, r6, r7, _, _⟩ :=
    LM.update_ok hs'
  rw [inv.nObs] at q1; cases q1
  rw [inv.scaler] at q2; cases q2
  rw [inv.method] at q3; cases q3
  rw [inv.xGram] at q4; cases q4
  rw [inv.yGram] at q5; cases q5
  rw [hsc] at q6; cases q6
  have q7' : updateInvertedGram (initGram (xs d) (ws d) c.forget)⁻¹
    (scaledDesign fi (canonSc c.scaleInputs c.forget (h ++ b)) (xs b)) c.forget (.array (ws b)) = .ok G := q7
  rw [hX, ← hws, hG] at q7'
  cases q7'
  have r7' := r7 rfl
  have hy := updateYGram_initYGram hf.le d b' inv.nonneg hbn
  rw [hX, ← hws, ← hys, hy] at r6 r7'
  have hsum : (ws h).sum + (ws b).sum = (ws (h ++ b)).sum := by rw [ws_append, List.sum_append]
  rw [hsum] at r3 r4
  refine ⟨?_, inv.nonneg.append hbn, r2, r1, r3, r4, hu, r5, r6, r7'⟩
  rcases inv.weight with h1 | h1
  · exact .inl h1
  · exact .inr (totalWeight_append_pos hf h b h1 hb)

/-- The invariant after any sequence of updates. -/
theorem OlsInv.updates {c : LMConfig p fi} (hv : c.Valid) (hp : p ≠ 0)
    (rng : ℕ → ℕ → ℕ → List (Fin (designDim p fi))) (bs : List (List (Obs p)))
    (hne : ∀ b ∈ bs, b ≠ []) (hb : ∀ b ∈ bs, NonnegWeights b) (k : ℕ) {h : List (Obs p)}
    {d : List (Obs (designDim p fi))} {s : LM p fi} (inv : OlsInv c h d s) :
    ∃ s', LM.updates c rng k bs s = (.ok (), s') ∧
      OlsInv c (h ++ bs.flatten) (d ++ mixedDesign c.scaleInputs c.forget fi h bs) s' := by
  induction bs generalizing k h d s with
  | nil => exact ⟨s, rfl, by simpa [mixedDesign] using inv⟩
  | cons b bs ih =>
    obtain ⟨s1, h1, inv1⟩ := inv.update hv hp (rng k) b (hne b (by simp)) (hb b (by simp))
    obtain ⟨s2, h2, inv2⟩ := ih (fun c hc => hne c (by simp [hc])) (fun c hc => hb c (by simp [hc]))
      (k + 1) inv1
    refine ⟨s2, ?_, ?_⟩
    · rw [LM.updates, Py.bind_of_ok h1]; exact h2
    · simpa [mixedDesign] using inv2

/-- The coefficients are the least squares solution of the design the model works with. -/
theorem OlsInv.leastSquares {c : LMConfig p fi} (hv : c.Valid) {h : List (Obs p)}
    {d : List (Obs (designDim p fi))} {s : LM p fi} (inv : OlsInv c h d s) :
    ∃ b, s.coef = some b ∧ IsLeastSquares c.forget d b := by
  refine ⟨_, inv.coef, isLeastSquares_of_normal hv.2.1 d inv.nonneg _ inv.isUnit ?_⟩
  unfold olsBeta
  rw [Matrix.mulVec_mulVec, Matrix.mul_nonsing_inv _ inv.isUnit, Matrix.one_mulVec]

theorem standardise_off {t : ToScale p} (ht : t.selection = none) (forget : ℝ) (h : List (Obs p))
    (x : Row p) : standardise t forget h x = x := by
  funext j
  unfold standardise
  rw [if_neg]
  rw [selects_iff, ht]
  rintro ⟨l, hl, _⟩
  cases hl

theorem designObs_off {t : ToScale p} (ht : t.selection = none) (forget : ℝ) (h b : List (Obs p)) :
    designObs t forget fi h b = plainObs fi b := by
  unfold designObs plainObs
  exact List.map_congr_left fun o _ => by rw [standardise_off ht]

theorem mixedDesign_off {t : ToScale p} (ht : t.selection = none) (forget : ℝ) (h : List (Obs p))
    (bs : List (List (Obs p))) : mixedDesign t forget fi h bs = plainObs fi bs.flatten := by
  induction bs generalizing h with
  | nil => rfl
  | cons b bs ih => rw [mixedDesign, ih, designObs_off ht]; simp [plainObs]

end Ondil
