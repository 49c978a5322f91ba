import Verif.Spec.Improvement
import Verif.Props.Fading
import Verif.Props.Penalty
import Verif.Lemmas.CDConvergence

/-!
# C110: learning a batch improves the predictions for it
-/

open scoped BigOperators Matrix

namespace Ondil

variable {p : ℕ} {fi : Bool}

theorem zip_map_self {α β : Type} (l : List α) (g : α → β) : l.zip (l.map g) = l.map fun a => (a, g a) := by
  induction l with
  | nil => rfl
  | cons a l ih => simp [ih]

theorem predictionError_linear (f : ℝ) (new : List (Obs p)) (b : Row (designDim p fi)) :
    predictionError f new ((xs new).map fun x => linPred (designRow fi x) b) = discSSE f (plainObs fi new) b := by
  unfold predictionError discSSE plainObs xs
  rw [List.map_map, zip_map_self, discSum_map, discSum_map]
  rfl

theorem residualProduct_linear (f : ℝ) (new : List (Obs p)) (b : Row (designDim p fi)) (j : Fin (designDim p fi)) :
    residualProduct fi f new ((xs new).map fun x => linPred (designRow fi x) b) j =
      discSum f (plainObs fi new) fun o => o.w * (o.y - linPred o.x b) * o.x j := by
  unfold residualProduct plainObs xs
  rw [List.map_map, zip_map_self, discSum_map, discSum_map]
  rfl

theorem sseGradient_eq {forget : ℝ} (hf : forget ≤ 1) {q : ℕ} {h : List (Obs q)} (hw : NonnegWeights h) (b : Row q) :
    sseGradient forget h b = initGram (xs h) (ws h) forget *ᵥ b - initYGram (xs h) (ys h) (ws h) forget := by
  funext j
  have h2 : sseGradient forget h b j = discSum forget h (fun o => o.w * o.x j * (o.x ⬝ᵥ b) - o.w * o.y * o.x j) :=
    discSum_congr _ _ fun o _ => by rw [linPred_eq_dotProduct]; ring
  rw [h2, discSum_sub, Pi.sub_apply, gram_mulVec hf h hw, initYGram_apply hf h hw]

/-- A fit, updates and one more update of least squares without scaling. -/
theorem ols_step (c : LMConfig p fi) (hm : c.method = .str "ols") (hs : c.scaleInputs = .off)
    (rng : ℕ → ℕ → ℕ → List (Fin (designDim p fi))) (perm perm' : ℕ → ℕ → List (Fin (designDim p fi))) {init : List (Obs p)}
    {batches : List (List (Obs p))} {new : List (Obs p)} (hne : ∀ b ∈ batches, b ≠ []) (hnew : new ≠ []) (hi : NonnegWeights init)
    (hb : ∀ b ∈ batches, NonnegWeights b) (hw : NonnegWeights new) {s₀ s : LM p fi} (hfit : LM.fit c perm init s₀ = (.ok (), s)) :
    ∃ t t' b b' d G, LM.updates c rng 0 batches s = (.ok (), t) ∧ LM.update c perm' new t = (.ok (), t') ∧
      t.coef = some b ∧ t'.coef = some b' ∧ t.xGram = some G⁻¹ ∧ IsUnit G.det ∧ G = initGram (xs d) (ws d) c.forget ∧ NonnegWeights d ∧
      IsLeastSquares c.forget d b ∧ IsLeastSquares c.forget (d ++ plainObs fi new) b' ∧
      sseGradient c.forget d b = 0 ∧ sseGradient c.forget (d ++ plainObs fi new) b' = 0 ∧
      (∀ X, t.predict X = .ok (X.map fun x => linPred (designRow fi x) b)) ∧
      ∀ X, t'.predict X = .ok (X.map fun x => linPred (designRow fi x) b') := by
  have hm' : getEstimationMethod c.method = .ok .ols := by rw [hm]; exact getEstimationMethod_ols
  have hsel : c.scaleInputs.selection = none := by rw [hs]; rfl
  obtain ⟨hv, _, h3, _⟩ := LM.fit_ok hfit
  have hp : p ≠ 0 := fun h => h3 (.inr h)
  have inv0 := OlsInv.of_fit hm' hi hfit
  obtain ⟨t, ht, inv⟩ := inv0.updates hv hp rng batches hne hb 0
  obtain ⟨t', ht', inv'⟩ := inv.update hv hp perm' new hnew hw
  set d := designObs c.scaleInputs c.forget fi init init ++ mixedDesign c.scaleInputs c.forget fi init batches
  rw [designObs_off hsel] at inv'
  have normal : ∀ {h e u}, OlsInv c h e u → initGram (xs e) (ws e) c.forget *ᵥ olsBeta (initGram (xs e) (ws e) c.forget)⁻¹
      (initYGram (xs e) (ys e) (ws e) c.forget) = initYGram (xs e) (ys e) (ws e) c.forget := by
    intro h e u i
    unfold olsBeta
    rw [Matrix.mulVec_mulVec, Matrix.mul_nonsing_inv _ i.isUnit, Matrix.one_mulVec]
  have pred : ∀ {h e} {u : LM p fi} {b}, OlsInv c h e u → u.coef = some b →
      ∀ X, u.predict X = .ok (X.map fun x => linPred (designRow fi x) b) := by
    intro h e u b i hb X
    unfold LM.predict
    rw [i.scaler, hb]
    simp only [scaledDesign, transform_canon, List.map_map]
    congr 1
    refine List.map_congr_left fun x _ => ?_
    simp only [Function.comp]
    rw [standardise_off hsel]
    rfl
  exact ⟨t, t', _, _, d, _, ht, ht', inv.coef, inv'.coef, inv.xGram, inv.isUnit, rfl, inv.nonneg,
    isLeastSquares_of_normal hv.2.1 _ inv.nonneg _ inv.isUnit (normal inv),
    isLeastSquares_of_normal hv.2.1 _ inv'.nonneg _ inv'.isUnit (normal inv'),
    sseGradient_of_normal hv.2.1.le inv.nonneg (normal inv), sseGradient_of_normal hv.2.1.le inv'.nonneg (normal inv'),
    pred inv inv.coef, pred inv' inv'.coef⟩

/-- **C110.** Least squares without scaling, any forgetting, weights and history.  After an update the discounted weighted
squared error of the predictions for the batch is not larger than before it, and it is smaller whenever the update changes the
coefficients. -/
theorem C110_batch (c : LMConfig p fi) (hm : c.method = .str "ols") (hs : c.scaleInputs = .off)
    (rng : ℕ → ℕ → ℕ → List (Fin (designDim p fi))) (perm perm' : ℕ → ℕ → List (Fin (designDim p fi))) (init : List (Obs p))
    (batches : List (List (Obs p))) (new : List (Obs p)) (hne : ∀ b ∈ batches, b ≠ []) (hnew : new ≠ []) (hi : NonnegWeights init)
    (hb : ∀ b ∈ batches, NonnegWeights b) (hw : NonnegWeights new) (s₀ s : LM p fi) (hfit : LM.fit c perm init s₀ = (.ok (), s)) :
    ∃ t t' y y', LM.updates c rng 0 batches s = (.ok (), t) ∧ LM.update c perm' new t = (.ok (), t') ∧
      t.predict (xs new) = .ok y ∧ t'.predict (xs new) = .ok y' ∧
      predictionError c.forget new y' ≤ predictionError c.forget new y ∧
      (t'.coef ≠ t.coef → predictionError c.forget new y' < predictionError c.forget new y) := by
  obtain ⟨t, t', b, b', d, G, h1, h2, h3, h4, -, -, -, hd, h5, h6, -, -, h7, h8⟩ :=
    ols_step c hm hs rng perm perm' hne hnew hi hb hw hfit
  have hf := (LM.fit_ok hfit).1.2.1
  have strict : b' ≠ b → discSSE c.forget (plainObs fi new) b' < discSSE c.forget (plainObs fi new) b := by
    intro hbb
    have e1 := h5 b' hbb
    have e2 := h6 b hbb.symm
    unfold discSSE at e1 e2 ⊢
    rw [discSum_append, discSum_append] at e2
    have := mul_lt_mul_of_pos_left e1 (pow_pos (sub_pos.2 hf) (plainObs fi new).length)
    linarith
  refine ⟨t, t', _, _, h1, h2, h7 _, h8 _, ?_, fun hbb => ?_⟩ <;>
    rw [predictionError_linear, predictionError_linear]
  · rcases eq_or_ne b' b with rfl | hbb
    · exact le_rfl
    · exact (strict hbb).le
  · exact strict fun e => hbb (by rw [h3, h4, e])

/-- **C110.** The coefficients are left as they are if and only if the residuals of the batch before the update are orthogonal to
every regressor, in particular if the batch was predicted without error. -/
theorem C110_unchanged (c : LMConfig p fi) (hm : c.method = .str "ols") (hs : c.scaleInputs = .off)
    (rng : ℕ → ℕ → ℕ → List (Fin (designDim p fi))) (perm perm' : ℕ → ℕ → List (Fin (designDim p fi))) (init : List (Obs p))
    (batches : List (List (Obs p))) (new : List (Obs p)) (hne : ∀ b ∈ batches, b ≠ []) (hnew : new ≠ []) (hi : NonnegWeights init)
    (hb : ∀ b ∈ batches, NonnegWeights b) (hw : NonnegWeights new) (s₀ s : LM p fi) (hfit : LM.fit c perm init s₀ = (.ok (), s)) :
    ∃ t t' y, LM.updates c rng 0 batches s = (.ok (), t) ∧ LM.update c perm' new t = (.ok (), t') ∧
      t.predict (xs new) = .ok y ∧ (t'.coef = t.coef ↔ ∀ j, residualProduct fi c.forget new y j = 0) ∧
      (y = ys new → t'.coef = t.coef) := by
  obtain ⟨t, t', b, b', d, G, h1, h2, h3, h4, -, -, -, hd, h5, h6, h9, h10, h7, h8⟩ :=
    ols_step c hm hs rng perm perm' hne hnew hi hb hw hfit
  have hf := (LM.fit_ok hfit).1.2.1
  have neg : ∀ j, residualProduct fi c.forget new ((xs new).map fun x => linPred (designRow fi x) b) j =
      - sseGradient c.forget (plainObs fi new) b j := by
    intro j
    rw [residualProduct_linear]
    unfold sseGradient
    rw [← neg_one_mul, ← discSum_mul_left]
    exact discSum_congr _ _ fun o _ => by ring
  have whole : ∀ j, sseGradient c.forget (d ++ plainObs fi new) b j = sseGradient c.forget (plainObs fi new) b j := by
    intro j
    rw [sseGradient_append, h9]
    simp
  have key : t'.coef = t.coef ↔ ∀ j, residualProduct fi c.forget new ((xs new).map fun x => linPred (designRow fi x) b) j = 0 := by
    rw [h3, h4, Option.some.injEq]
    constructor
    · rintro rfl j
      rw [neg, ← whole, h10]
      simp
    · intro h
      have hz : sseGradient c.forget (d ++ plainObs fi new) b = 0 := by
        funext j
        rw [whole]
        have := h j
        rw [neg] at this
        simpa using this
      by_contra hbb
      have e := h6 b (Ne.symm hbb)
      have hall : NonnegWeights (d ++ plainObs fi new) := hd.append (nonneg_plainObs hw)
      rw [sseGradient_eq hf.le hall, sub_eq_zero] at hz
      rw [discSSE_expand hf.le _ hall b b' hz, gram_quad hf.le _ hall] at e
      have : 0 ≤ discSum c.forget (d ++ plainObs fi new) fun o => o.w * ((b' - b) ⬝ᵥ o.x) * (o.x ⬝ᵥ (b' - b)) := by
        refine discSum_nonneg hf.le _ fun o ho => ?_
        rw [dotProduct_comm (b' - b) o.x, mul_assoc]
        exact mul_nonneg (hall o ho) (mul_self_nonneg _)
      linarith
  refine ⟨t, t', _, h1, h2, h7 _, key, fun hy => key.2 fun j => ?_⟩
  have hz : ∀ o ∈ new, linPred (designRow fi o.x) b = o.y := by
    have : new.map (fun o => linPred (designRow fi o.x) b) = new.map fun o => o.y := by
      have := hy
      simpa [xs, ys, List.map_map, Function.comp_def] using this
    exact List.map_inj_left.1 this
  rw [residualProduct_linear]
  unfold plainObs
  rw [discSum_map, discSum_congr (k := fun _ => 0) _ _ (fun o ho => ?_), discSum_zero]
  rw [hz o ho]
  ring

/-- **C110, one observation.** The error of the prediction for the observation is multiplied by
`1 / (1 + w / (1 - forget) * (x · _x_gram x))`, where `_x_gram` is the inverted Gramian stored before the update: a number that is
positive and at most one, and less than one if the observation has a positive weight and a regressor that is not zero.  So the
prediction moves towards the response and never beyond it. -/
theorem C110_single (c : LMConfig p fi) (hm : c.method = .str "ols") (hs : c.scaleInputs = .off)
    (rng : ℕ → ℕ → ℕ → List (Fin (designDim p fi))) (perm perm' : ℕ → ℕ → List (Fin (designDim p fi))) (init : List (Obs p))
    (batches : List (List (Obs p))) (o : Obs p) (hne : ∀ b ∈ batches, b ≠ []) (hi : NonnegWeights init)
    (hb : ∀ b ∈ batches, NonnegWeights b) (hw : 0 ≤ o.w) (s₀ s : LM p fi) (hfit : LM.fit c perm init s₀ = (.ok (), s)) :
    ∃ t t' y y' M k, LM.updates c rng 0 batches s = (.ok (), t) ∧ LM.update c perm' [o] t = (.ok (), t') ∧
      t.predict [o.x] = .ok [y] ∧ t'.predict [o.x] = .ok [y'] ∧ t.xGram = some M ∧
      k = 1 / (1 + o.w / (1 - c.forget) * (designRow fi o.x ⬝ᵥ (M *ᵥ designRow fi o.x))) ∧
      o.y - y' = k * (o.y - y) ∧ 0 < k ∧ k ≤ 1 ∧ (0 < o.w → designRow fi o.x ≠ 0 → k < 1) := by
  obtain ⟨t, t', b, b', d, G, h1, h2, h3, h4, hG, hu, rfl, hd, h5, h6, h9, h10, h7, h8⟩ :=
    ols_step c hm hs rng perm perm' (new := [o]) hne (by simp) hi hb (by simpa [NonnegWeights] using hw) hfit
  have hf := (LM.fit_ok hfit).1.2.1
  set G := initGram (xs d) (ws d) c.forget with hGdef
  set x := designRow fi o.x with hx
  have hpos : ∀ v : Row (designDim p fi), v ≠ 0 → 0 < v ⬝ᵥ (G *ᵥ v) := by
    intro v hv
    have hn : G *ᵥ b = initYGram (xs d) (ys d) (ws d) c.forget := by
      rw [sseGradient_eq hf.le hd, sub_eq_zero] at h9; exact h9
    have e := discSSE_expand hf.le d hd b (b + v) hn
    have e2 := h5 (b + v) (by simpa using hv)
    rw [add_sub_cancel_left, ← hGdef] at e
    linarith
  have hGM : ∀ v, G *ᵥ (G⁻¹ *ᵥ v) = v := fun v => by
    rw [Matrix.mulVec_mulVec, Matrix.mul_nonsing_inv _ hu, Matrix.one_mulVec]
  have hMG : ∀ v, G⁻¹ *ᵥ (G *ᵥ v) = v := fun v => by
    rw [Matrix.mulVec_mulVec, Matrix.nonsing_inv_mul _ hu, Matrix.one_mulVec]
  have hquad : ∀ v : Row (designDim p fi), v ≠ 0 → 0 < v ⬝ᵥ (G⁻¹ *ᵥ v) := by
    intro v hv
    have hz : G⁻¹ *ᵥ v ≠ 0 := by
      intro h0
      apply hv
      rw [← hGM v, h0, Matrix.mulVec_zero]
    have := hpos _ hz
    rwa [hGM, dotProduct_comm] at this
  have hq0 : 0 ≤ x ⬝ᵥ (G⁻¹ *ᵥ x) := by
    rcases eq_or_ne x 0 with h | h
    · rw [h]; simp
    · exact (hquad x h).le
  have h1f : 0 < 1 - c.forget := sub_pos.2 hf
  have hstep : (1 - c.forget) • (G *ᵥ (b' - b)) = (o.w * (o.y - linPred x b')) • x := by
    funext j
    have e := congrFun h10 j
    rw [sseGradient_append] at e
    have e1 : sseGradient c.forget d b' j = (G *ᵥ (b' - b)) j := by
      have e2 := congrFun h9 j
      rw [sseGradient_eq hf.le hd] at e2 ⊢
      rw [Matrix.mulVec_sub]
      simp only [Pi.sub_apply, Pi.zero_apply] at e2 ⊢
      linarith
    rw [e1] at e
    simp only [plainObs, List.map_cons, List.map_nil, List.length_singleton, pow_one, sseGradient, Pi.zero_apply] at e
    rw [discSum_cons] at e
    simp only [discSum_nil, List.length_nil, pow_zero, one_mul, add_zero] at e
    simp only [Pi.smul_apply, smul_eq_mul]
    linarith
  have hmove : b' - b = (o.w / (1 - c.forget) * (o.y - linPred x b')) • (G⁻¹ *ᵥ x) := by
    have e : G *ᵥ (b' - b) = (o.w / (1 - c.forget) * (o.y - linPred x b')) • x := by
      have := congrArg (fun v => (1 - c.forget)⁻¹ • v) hstep
      simp only [smul_smul] at this
      rw [inv_mul_cancel₀ h1f.ne', one_smul] at this
      rw [this]
      congr 1
      field_simp
    rw [← hMG (b' - b), e, Matrix.mulVec_smul]
  have hres : o.y - linPred x b = (o.y - linPred x b') * (1 + o.w / (1 - c.forget) * (x ⬝ᵥ (G⁻¹ *ᵥ x))) := by
    have e := congrArg (fun v => x ⬝ᵥ v) hmove
    simp only [dotProduct_sub, dotProduct_smul, smul_eq_mul] at e
    rw [linPred_eq_dotProduct, linPred_eq_dotProduct] at *
    linarith
  have hw1 : 0 ≤ o.w / (1 - c.forget) := div_nonneg hw h1f.le
  have hden : 1 ≤ 1 + o.w / (1 - c.forget) * (x ⬝ᵥ (G⁻¹ *ᵥ x)) := by
    have := mul_nonneg hw1 hq0
    linarith
  refine ⟨t, t', _, _, _, _, h1, h2, h7 [o.x], h8 [o.x], hG, rfl, ?_, by positivity, ?_, fun hw0 hx0 => ?_⟩
  · change o.y - linPred x b' = _ * (o.y - linPred x b)
    rw [hres]
    field_simp
  · rw [div_le_one (by linarith)]; exact hden
  · rw [div_lt_one (by linarith)]
    have := mul_pos (div_pos hw0 h1f) (hquad x hx0)
    linarith


/-! ### A concrete case -/

/-- The hypotheses of C110 are met, and the error does fall: after four points on the line `y = x` a fifth one is learned that lies
off the line. -/
example (rng : ℕ → ℕ → ℕ → List (Fin (designDim 1 true))) (perm perm' : ℕ → ℕ → List (Fin (designDim 1 true))) :
    ∃ s t t' y y' k, LM.fit (olsConfig .off) perm lineInit (LM.new 1 true) = (.ok (), s) ∧
      LM.updates (olsConfig .off) rng 0 [] s = (.ok (), t) ∧ LM.update (olsConfig .off) perm' [⟨fun _ => 2, 3, 1⟩] t = (.ok (), t') ∧
      t.predict [fun _ => 2] = .ok [y] ∧ t'.predict [fun _ => 2] = .ok [y'] ∧ 3 - y' = k * (3 - y) ∧ 0 < k ∧ k < 1 := by
  obtain ⟨s, hs⟩ := lineInit_fit perm .off (.inr rfl) (LM.new 1 true)
  obtain ⟨t, t', y, y', M, k, h1, h2, h3, h4, -, -, h6, h7, -, h8⟩ := C110_single (olsConfig .off) rfl rfl rng perm perm' lineInit []
    ⟨fun _ => 2, 3, 1⟩ (by simp) lineInit_nonneg (by simp) (by norm_num) _ s hs
  refine ⟨s, t, t', y, y', k, hs, h1, h2, h3, h4, h6, h7, h8 (by norm_num) fun h => ?_⟩
  have := congrFun h (0 : Fin 2)
  rw [designRow_one] at this
  exact one_ne_zero this

/-! ### With input scaling -/

/-- **C110 fails with input scaling.** Four points of the line `y = x` are fitted, the fifth is predicted without error.  The
update with this point makes its prediction wrong, because the older points stay standardised with the older moments. -/
theorem C110_scaling_fails (perm perm' : ℕ → ℕ → List (Fin (designDim 1 true))) :
    ∃ s t y y', LM.fit (olsConfig .all) perm lineInit (LM.new 1 true) = (.ok (), s) ∧
      LM.update (olsConfig .all) perm' lineNew s = (.ok (), t) ∧
      s.predict (xs lineNew) = .ok y ∧ t.predict (xs lineNew) = .ok y' ∧
      predictionError (olsConfig .all).forget lineNew y = 0 ∧ 0 < predictionError (olsConfig .all).forget lineNew y' := by
  obtain ⟨s, hs⟩ := lineInit_fit perm .all (.inl rfl) (LM.new 1 true)
  have inv0 := OlsInv.of_fit getEstimationMethod_ols lineInit_nonneg hs
  obtain ⟨t, ht, inv⟩ := inv0.update (olsConfig_valid _) (by norm_num) perm' lineNew (by simp [lineNew]) lineNew_nonneg
  have hd : designObs (olsConfig .all).scaleInputs (olsConfig .all).forget true lineInit lineInit ++
      designObs (olsConfig .all).scaleInputs (olsConfig .all).forget true (lineInit ++ lineNew) lineNew = lineMixed := by
    have h := lineMixed_eq
    simp only [mixedDesign, List.append_nil] at h
    exact h
  rw [hd] at inv
  have hmn : NonnegWeights (lineMixed : List (Obs 2)) := inv.nonneg
  have hc0 : s.coef = some (![0, 1] : Row 2) := by
    rw [inv0.coef]
    congr 1
    refine olsBeta_eq_of_normal inv0.isUnit ?_
    have hdn := inv0.nonneg
    have hd0 : designObs (olsConfig .all).scaleInputs (olsConfig .all).forget true lineInit lineInit =
        (lineMixed.take 4 : List (Obs 2)) := by
      change designObs .all 0 true lineInit lineInit = _
      simp only [designObs, standardise_init]
      simp only [lineInit, List.map_cons, List.map_nil, designRow_one, lineMixed]
      rfl
    rw [hd0] at hdn ⊢
    change initGram (xs (lineMixed.take 4)) (ws (lineMixed.take 4)) 0 *ᵥ (![0, 1] : Row 2) =
      initYGram (xs (lineMixed.take 4)) (ys (lineMixed.take 4)) (ws (lineMixed.take 4)) 0
    have hdn' : NonnegWeights (lineMixed.take 4 : List (Obs 2)) := hdn
    funext a
    rw [gram_mulVec (by norm_num) _ hdn', initYGram_apply (by norm_num) _ hdn']
    fin_cases a
    · simp [lineMixed, discSum_cons]
    · simp [lineMixed, discSum_cons]
  have hc : t.coef = some (![6 / 61, 69 / 61] : Row 2) := by
    rw [inv.coef]
    congr 1
    refine olsBeta_eq_of_normal inv.isUnit ?_
    change initGram (xs lineMixed) (ws lineMixed) 0 *ᵥ (![6 / 61, 69 / 61] : Row 2) = initYGram (xs lineMixed) (ys lineMixed) (ws lineMixed) 0
    funext a
    rw [gram_mulVec (by norm_num) lineMixed hmn, initYGram_apply (by norm_num) lineMixed hmn]
    fin_cases a
    · simp [lineMixed, discSum_cons]; norm_num
    · simp [lineMixed, discSum_cons]; norm_num
  have p0 : s.predict (xs lineNew) = .ok [2] := by
    unfold LM.predict
    rw [inv0.scaler, hc0]
    simp only [scaledDesign, transform_canon, xs, lineNew, List.map_cons, List.map_nil]
    change Except.ok [rowDot (designRow true (standardise .all 0 lineInit fun _ => 2)) _] = _
    rw [standardise_init]
    congr 2
    change ∑ j : Fin 2, (Fin.cons 1 (fun _ => 2) : Row 2) j * (![0, 1] : Row 2) j = _
    rw [Fin.sum_univ_two]
    simp
  have p1 : t.predict (xs lineNew) = .ok [98 / 61] := by
    unfold LM.predict
    rw [inv.scaler, hc]
    simp only [scaledDesign, transform_canon, xs, lineNew, List.map_cons, List.map_nil]
    change Except.ok [rowDot (designRow true (standardise .all 0 (lineInit ++ lineNew) fun _ => 2)) _] = _
    rw [standardise_all]
    congr 2
    change ∑ j : Fin 2, (Fin.cons 1 (fun _ => (2 - 2 / 5) / (6 / 5)) : Row 2) j * (![6 / 61, 69 / 61] : Row 2) j = _
    rw [Fin.sum_univ_two]
    simp
    norm_num
  refine ⟨s, t, _, _, hs, ht, p0, p1, ?_, ?_⟩
  · simp [predictionError, lineNew, discSum_cons]
  · simp [predictionError, lineNew, discSum_cons]
    norm_num

/-! ### Ridge regression -/

theorem onlineCD_one_value {P : CDProblem 1} (ha : P.alpha = 0) (hlo : P.lower 0 = none) (hup : P.upper 0 = none) (b : Row 1) :
    P.newValue b 0 = P.h 0 / P.denom 0 := by
  unfold CDProblem.newValue CDProblem.target
  simp only [hlo, hup, clipLow, clipHigh, ha, zero_mul, Finset.univ_unique, Fin.default_eq_zero, Finset.sum_singleton]
  have : ∀ u : ℝ, softThreshold u 0 = u := by
    intro u
    rcases softThreshold_cases (v := u) le_rfl with ⟨h, e⟩ | ⟨h, e⟩ | ⟨h, e⟩
    · rw [e]; ring
    · rw [e]; ring
    · rw [e]; exact (abs_eq_zero.mp (le_antisymm h (abs_nonneg u))).symm
  rw [this]
  split <;> congr 1 <;> ring

/-- Coordinate descent with one coordinate, no bounds and no `l1` penalty ends in the optimum. -/
theorem onlineCD_one {P : CDProblem 1} (ha : P.alpha = 0) (hlo : P.lower 0 = none) (hup : P.upper 0 = none) (hh : P.h 0 ≠ 0)
    {sel : Selection} {perm : ℕ → List (Fin 1)} (hsel : sel = .cyclic) {tol : ℝ} {m n : ℕ} {b r : Row 1}
    (hr : onlineCD P sel perm tol m b = .ok (r, n)) : r 0 = P.h 0 / P.denom 0 := by
  obtain ⟨hz, h1, -, rfl, -⟩ := onlineCD_seq hr
  have hv := onlineCD_one_value ha hlo hup
  have hne : P.h 0 / P.denom 0 ≠ 0 := div_ne_zero hh (hz 0)
  have hord : ∀ i, cdOrder sel perm i = [0] := by
    intro i
    unfold cdOrder
    rw [if_neg (by rw [hsel]; simp)]
    rfl
  obtain ⟨k, rfl⟩ : ∃ k, n = k + 1 := ⟨n - 1, by omega⟩
  clear hr h1
  induction k with
  | zero =>
    rw [cdSeq_succ, hord]
    simp only [pureSweep, List.foldl_cons, List.foldl_nil, pureStep]
    rw [if_pos (by left; omega)]
    simp [hv]
  | succ k ih =>
    rw [cdSeq_succ, hord]
    simp only [pureSweep, List.foldl_cons, List.foldl_nil, pureStep]
    rw [if_pos (by right; rw [ih]; exact hne)]
    simp [hv]


/-- One feature without intercept, `Ridge(lambda_reg=l)` without start values and bounds. -/
noncomputable def ridgeOne (l : Option ℝ) (f : ℝ) : LMConfig 1 false :=
  { forget := f, scaleInputs := .off, regularizeIntercept := false,
    method := .obj (.ridge ⟨l, some 0, .cyclic, none, none, 1 / 10000, 1000⟩), ic := .bic }

theorem designObs_one (f : ℝ) (h d : List (Obs 1)) : designObs (ToScale.off : ToScale 1) f false h d = d := by
  simp only [designObs, standardise_off (t := (ToScale.off : ToScale 1)) rfl]
  exact List.map_id d

theorem ridgeOne_valid (l : Option ℝ) {f : ℝ} (hf0 : 0 ≤ f) (hf1 : f < 1) : (ridgeOne l f).Valid :=
  ⟨hf0, hf1, by simp [ridgeOne], by simp [ridgeOne]⟩

/-- A fit of `ridgeOne` ends in the optimum. -/
theorem ridgeOne_fit (l : Option ℝ) {f : ℝ} (hf0 : 0 ≤ f) (hf1 : f < 1) (perm : ℕ → ℕ → List (Fin (designDim 1 false))) {d : List (Obs 1)}
    (hne : 2 ≤ d.length) (hd : NonnegWeights d) (hsum : (ws d).sum ≠ 1) {lam : ℝ} (hlam : 0 ≤ lam)
    (hl : lam = l.getD (initGram (xs d) (ws d) f 0 0)) (hG : 0 < initGram (xs d) (ws d) f 0 0)
    (hh : initYGram (xs d) (ys d) (ws d) f 0 ≠ 0) (s₀ : LM 1 false) :
    ∃ (s : LM 1 false) (b : Row 1), LM.fit (ridgeOne l f) perm d s₀ = (.ok (), s) ∧ GramInv (ridgeOne l f) d d s ∧ s.coef = some b ∧
      b 0 = initYGram (xs d) (ys d) (ws d) f 0 / (initGram (xs d) (ws d) f 0 0 + lam) ∧ s.nObs = some (ws d).sum ∧
      s.method = some (.ridge ⟨some lam, some 0, .cyclic, none, none, 1 / 10000, 1000⟩) := by
  have hpen : ∀ o, RidgeArgs.penalty (⟨l, o, .cyclic, none, none, 1 / 10000, 1000⟩ : RidgeArgs 1) (initGram (xs d) (ws d) f) = lam := by
    intro o
    unfold RidgeArgs.penalty
    rw [hl]
    simp [Matrix.trace]
  have z1 : ∀ h lower upper, CDProblem.NoZero (p := 1) ⟨initGram (xs d) (ws d) f, h, lam, 0,
      isRegularized 1 false false, lower, upper⟩ := fun h lower upper =>
    ridge_noZero (p := 1) (fi := false) hf1.le d hd
      (by change ∀ j : Fin 1, _; intro j; rw [Subsingleton.elim j 0]; exact hG) h lam hlam _ lower upper
  obtain ⟨s, hs⟩ := LM.fit_ridge_succeeds (ridgeOne l f) perm d s₀ (ridgeOne_valid l hf0 hf1) (by simp [ridgeOne])
    (by rintro (h | h); · simp [h] at hne
        · simp at h) (by simp [ridgeOne]) hsum _ rfl _ (scaler_fit_canon .off f d hne (.inl rfl)) (_, _) (by
      rw [show (ridgeOne l f).forget = f from rfl, scaledDesign_canon, designObs_one]
      unfold RidgeArgs.fitBeta
      simp only [setBound]
      simp only [bind, Except.bind]
      erw [hpen]
      erw [onlineCD_eq _ (z1 _ _ _)]
      rfl)
  have inv := GramInv.of_fit (c := ridgeOne l f) rfl (by simp) hd hs
  change GramInv (ridgeOne l f) d (designObs (ToScale.off : ToScale 1) f false d d) s at inv
  rw [designObs_one] at inv
  obtain ⟨_, _, _, _, _, m', sc, G, hm', _, _, _, hn, _, e4, e5, _, _, e7⟩ := LM.fit_ok hs
  cases hm'
  obtain ⟨b, lam', hb, hm, hc⟩ := e7 _ rfl
  rw [inv.xGram] at e4; cases e4
  have e5' := inv.yGram.symm.trans e5
  rw [← Option.some.inj e5'] at hb
  unfold RidgeArgs.fitBeta at hb
  simp only [bind_ok] at hb
  obtain ⟨lo, h1, up, h2, r, hr, h3⟩ := hb
  cases h1; cases h2; cases h3
  erw [hpen] at hr hm
  refine ⟨s, r.1, hs, inv, hc, ?_, hn, hm⟩
  exact onlineCD_one (r := r.1) (n := r.2) rfl rfl rfl hh rfl hr |>.trans (by
    unfold CDProblem.denom
    change initYGram (xs d) (ys d) (ws d) f 0 / (initGram (xs d) (ws d) f 0 0 + lam * (1 - 0)) = _
    rw [sub_zero, mul_one])

/-- An update of `ridgeOne` ends in the optimum. -/
theorem ridgeOne_update (l : Option ℝ) {f : ℝ} (hf0 : 0 ≤ f) (hf1 : f < 1) (perm : ℕ → ℕ → List (Fin (designDim 1 false))) {d e : List (Obs 1)}
    (hd : NonnegWeights d) (hne : e ≠ []) (he : NonnegWeights e) {lam : ℝ} (hlam : 0 ≤ lam)
    (hG : 0 < initGram (xs (d ++ e)) (ws (d ++ e)) f 0 0) (hh : initYGram (xs (d ++ e)) (ys (d ++ e)) (ws (d ++ e)) f 0 ≠ 0)
    {s : LM 1 false} (inv : GramInv (ridgeOne l f) d d s) {b : Row 1} (hb : s.coef = some b) {n0 : ℝ} (hn : s.nObs = some n0)
    (hm : s.method = some (.ridge ⟨some lam, some 0, .cyclic, none, none, 1 / 10000, 1000⟩)) :
    ∃ (t : LM 1 false) (b' : Row 1), LM.update (ridgeOne l f) perm e s = (.ok (), t) ∧ GramInv (ridgeOne l f) (d ++ e) (d ++ e) t ∧
      t.coef = some b' ∧
      b' 0 = initYGram (xs (d ++ e)) (ys (d ++ e)) (ws (d ++ e)) f 0 / (initGram (xs (d ++ e)) (ws (d ++ e)) f 0 0 + lam) := by
  have z2 : ∀ h lower upper, CDProblem.NoZero (p := 1) ⟨initGram (xs (d ++ e)) (ws (d ++ e)) f, h, lam, 0,
      isRegularized 1 false false, lower, upper⟩ := fun h lower upper =>
    ridge_noZero (p := 1) (fi := false) hf1.le (d ++ e : List (Obs 1)) (hd.append he)
      (by change ∀ j : Fin 1, _; intro j; rw [Subsingleton.elim j 0]; exact hG) h lam hlam _ lower upper
  obtain ⟨t, ht⟩ := LM.update_ridge_succeeds (ridgeOne l f) perm e s (ridgeOne_valid l hf0 hf1) (by simp [hne]) hn inv.scaler
    rfl hm inv.xGram inv.yGram hb (scaler_update_canon .off hf1 d e hne he (.inl rfl)) _ (by
      have hX : scaledDesign false (canonSc ToScale.off f (d ++ e)) (xs e) = xs e :=
        (scaledDesign_canon _ _ _ _).trans (congrArg xs (designObs_one _ _ _))
      rw [hX, show (ridgeOne l f).forget = f from rfl]
      change RidgeArgs.updateBeta (p := 1) _ _ (updateGram (initGram (xs d) (ws d) f) (xs e) f (.array (ws e))) _ _ _ _ = _
      rw [updateGram_initGram hf1.le d e hd he]
      unfold RidgeArgs.updateBeta
      simp only [setBound]
      simp only [bind, Except.bind]
      erw [onlineCD_eq _ (z2 _ _ _)]
      rfl)
  have inv' := inv.update hne he ht
  rw [show designObs (ridgeOne l f).scaleInputs (ridgeOne l f).forget false (d ++ e) e = (e : List (Obs 1)) from designObs_one _ _ _] at inv'
  obtain ⟨_, _, _, _, _, m, _, G, _, _, _, q3, _, _, _, _, r1, _, _, _, r5, r6, _, _, r8⟩ := LM.update_ok ht
  rw [hm] at q3; cases q3
  obtain ⟨b0, lam', b', g1, g2, g3, g4⟩ := r8 _ rfl
  cases g2
  rw [inv'.xGram] at r5; cases r5
  have e6' := inv'.yGram.symm.trans r6
  rw [← Option.some.inj e6'] at g3
  unfold RidgeArgs.updateBeta at g3
  simp only [bind_ok] at g3
  obtain ⟨lo, h1, up, h2, r', hr', h3⟩ := g3
  cases h1; cases h2; cases h3
  refine ⟨t, r'.1, ht, inv', g4, ?_⟩
  exact onlineCD_one (r := r'.1) (n := r'.2) rfl rfl rfl hh rfl hr' |>.trans (by
    unfold CDProblem.denom
    change initYGram (xs (d ++ e)) (ys (d ++ e)) (ws (d ++ e)) f 0 / (initGram (xs (d ++ e)) (ws (d ++ e)) f 0 0 + lam * (1 - 0)) = _
    rw [sub_zero, mul_one])

theorem ridgeOne_predict {l : Option ℝ} {f : ℝ} {h : List (Obs 1)} {u : LM 1 false} {v : Row 1}
    (hu : GramInv (ridgeOne l f) h h u) (hv : u.coef = some v) (x : Row 1) : u.predict [x] = .ok [x 0 * v 0] := by
  unfold LM.predict
  rw [hu.scaler, hv]
  simp only [scaledDesign, transform_canon, List.map_cons, List.map_nil]
  change Except.ok [rowDot (designRow false (standardise .off f h x)) v] = _
  rw [standardise_off (t := (ToScale.off : ToScale 1)) rfl]
  congr 2
  exact Fin.sum_univ_one fun j : Fin 1 => x j * v j

/-- Two observations of the response one. -/
def onesInit : List (Obs 1) := [⟨fun _ => 1, 1, 1⟩, ⟨fun _ => 1, 1, 1⟩]

/-- One more observation. -/
def oneNew (y : ℝ) : List (Obs 1) := [⟨fun _ => 1, y, 1⟩]

theorem onesInit_nonneg : NonnegWeights onesInit := by simp [NonnegWeights, onesInit]

theorem oneNew_nonneg (y : ℝ) : NonnegWeights (oneNew y) := by simp [NonnegWeights, oneNew]

theorem onesInit_gram {f : ℝ} (hf : f ≤ 1) : initGram (xs onesInit) (ws onesInit) f 0 0 = 2 - f := by
  rw [initGram_apply hf _ onesInit_nonneg]
  simp [onesInit, discSum_cons]
  ring

theorem onesInit_yGram {f : ℝ} (hf : f ≤ 1) : initYGram (xs onesInit) (ys onesInit) (ws onesInit) f 0 = 2 - f := by
  rw [initYGram_apply hf _ onesInit_nonneg]
  simp [onesInit, discSum_cons]
  ring

theorem onesNew_gram {f : ℝ} (hf : f ≤ 1) (y : ℝ) :
    initGram (xs (onesInit ++ oneNew y)) (ws (onesInit ++ oneNew y)) f 0 0 = 1 + (1 - f) * (2 - f) := by
  rw [initGram_apply hf _ (onesInit_nonneg.append (oneNew_nonneg y))]
  simp [onesInit, oneNew, discSum_cons]
  ring

theorem onesNew_yGram {f : ℝ} (hf : f ≤ 1) (y : ℝ) :
    initYGram (xs (onesInit ++ oneNew y)) (ys (onesInit ++ oneNew y)) (ws (onesInit ++ oneNew y)) f 0 = y + (1 - f) * (2 - f) := by
  rw [initYGram_apply hf _ (onesInit_nonneg.append (oneNew_nonneg y))]
  simp [onesInit, oneNew, discSum_cons]
  ring

/-- A fit and an update of `ridgeOne`. -/
theorem ridgeOne_run (l : Option ℝ) {f : ℝ} (hf0 : 0 ≤ f) (hf1 : f < 1) {y : ℝ} (hy : y + (1 - f) * (2 - f) ≠ 0) {lam : ℝ} (hlam : 0 ≤ lam)
    (hl : lam = l.getD (2 - f)) (perm perm' : ℕ → ℕ → List (Fin (designDim 1 false))) :
    ∃ (s t : LM 1 false) (b b' : Row 1), LM.fit (ridgeOne l f) perm onesInit (LM.new 1 false) = (.ok (), s) ∧
      LM.update (ridgeOne l f) perm' (oneNew y) s = (.ok (), t) ∧ s.coef = some b ∧ t.coef = some b' ∧
      b 0 = (2 - f) / (2 - f + lam) ∧ b' 0 = (y + (1 - f) * (2 - f)) / (1 + (1 - f) * (2 - f) + lam) ∧
      s.predict (xs (oneNew y)) = .ok [b 0] ∧ t.predict (xs (oneNew y)) = .ok [b' 0] := by
  obtain ⟨s, b, h1, h2, h3, h4, h5, h6⟩ := ridgeOne_fit l hf0 hf1 perm (d := onesInit) (by simp [onesInit]) onesInit_nonneg
    (by simp [onesInit, ws]) hlam (by rw [onesInit_gram hf1.le]; exact hl) (by rw [onesInit_gram hf1.le]; linarith)
    (by rw [onesInit_yGram hf1.le]; linarith) (LM.new 1 false)
  obtain ⟨t, b', g1, g2, g3, g4⟩ := ridgeOne_update l hf0 hf1 perm' (e := oneNew y) onesInit_nonneg (by simp [oneNew]) (oneNew_nonneg y) hlam
    (by rw [onesNew_gram hf1.le]; nlinarith) (by rw [onesNew_yGram hf1.le]; exact hy) h2 h3 h5 h6
  rw [onesInit_gram hf1.le, onesInit_yGram hf1.le] at h4
  rw [onesNew_gram hf1.le, onesNew_yGram hf1.le] at g4
  refine ⟨s, t, b, b', h1, g1, h3, g3, h4, g4, ?_, ?_⟩
  · exact (ridgeOne_predict h2 h3 _).trans (by rw [one_mul])
  · exact (ridgeOne_predict g2 g3 _).trans (by rw [one_mul])

/-- **C110 fails for `Ridge` with forgetting.** The observation is predicted without error before the update and with an error after
it: the penalty keeps its full strength while the past that it is weighed against is discounted. -/
theorem C110_ridge_fails (perm perm' : ℕ → ℕ → List (Fin (designDim 1 false))) :
    ∃ s t y y', LM.fit (ridgeOne (some 1) (1 / 2)) perm onesInit (LM.new 1 false) = (.ok (), s) ∧
      LM.update (ridgeOne (some 1) (1 / 2)) perm' (oneNew (3 / 5)) s = (.ok (), t) ∧
      s.predict (xs (oneNew (3 / 5))) = .ok y ∧ t.predict (xs (oneNew (3 / 5))) = .ok y' ∧
      predictionError (1 / 2) (oneNew (3 / 5)) y = 0 ∧ 0 < predictionError (1 / 2) (oneNew (3 / 5)) y' := by
  obtain ⟨s, t, b, b', h1, h2, -, -, h3, h4, h5, h6⟩ := ridgeOne_run (some 1) (f := 1 / 2) (y := 3 / 5) (by norm_num) (by norm_num)
    (by norm_num) zero_le_one rfl perm perm'
  refine ⟨s, t, _, _, h1, h2, h5, h6, ?_, ?_⟩
  · rw [h3]
    simp [predictionError, oneNew, discSum_cons]
    norm_num
  · rw [h4]
    simp [predictionError, oneNew, discSum_cons]
    norm_num

/-- **C110** for `Ridge` without forgetting, without scaling and without bounds.  If the coefficients before the update are
converged (one more sweep of coordinate descent with the stored Gramians does not change them), then after the update, however
many sweeps it made, the squared error on the batch is not larger than before.

Missing: forgetting and scaling (`C110_ridge_fails`, `C110_scaling_fails`), bounds and coefficients that are not converged. -/
theorem C110_ridge_partial (c : LMConfig p fi) (a : RidgeArgs (designDim p fi)) (ha : getEstimationMethod c.method = .ok (.ridge a))
    (hs : c.scaleInputs = .off) (hf : c.forget = 0) (hlo : a.lower = none) (hup : a.upper = none)
    (perm perm' : ℕ → ℕ → List (Fin (designDim p fi))) (rng : ℕ → ℕ → ℕ → List (Fin (designDim p fi))) (init : List (Obs p))
    (batches : List (List (Obs p))) (new : List (Obs p)) (hwi : NonnegWeights init) (hne : ∀ b ∈ batches ++ [new], b ≠ [])
    (hwb : ∀ b ∈ batches ++ [new], NonnegWeights b) (s₀ s t t' : LM p fi) (hfit : LM.fit c perm init s₀ = (.ok (), s))
    (hups : LM.updates c rng 0 batches s = (.ok (), t)) (hnew : LM.update c perm' new t = (.ok (), t')) :
    ∃ lam b G h y y', s.method = some (.ridge { a with lambdaReg := some lam }) ∧ t.coef = some b ∧ t.xGram = some G ∧ t.yGram = some h ∧
      t.predict (xs new) = .ok y ∧ t'.predict (xs new) = .ok y' ∧
      ∀ order, order.Perm (List.finRange _) → 0 ≤ lam →
        cdSweep ⟨G, h, lam, 0, isRegularized p fi c.regularizeIntercept, fun _ => none, fun _ => none⟩ 1 order b = .ok b →
        predictionError c.forget new y' ≤ predictionError c.forget new y := by
  have hsel : c.scaleInputs.selection = none := by rw [hs]; rfl
  have inv := (GramInv.of_fit ha (by simp) hwi hfit).updates batches (fun b hb => hne b (by simp [hb]))
    (fun b hb => hwb b (by simp [hb])) hups
  have inv' := inv.update (hne new (by simp)) (hwb new (by simp)) hnew
  obtain ⟨lam, b, b', hm, -, hb, hb', hle⟩ := C73_ridge_update c a ha perm perm' rng init batches new hwi hne hwb s₀ s t t' hfit hups hnew
  have pred : ∀ {h e} {u : LM p fi} {b}, GramInv c h e u → u.coef = some b →
      ∀ X, u.predict X = .ok (X.map fun x => linPred (designRow fi x) b) := by
    intro h e u b i hb X
    unfold LM.predict
    rw [i.scaler, hb]
    simp only [scaledDesign, transform_canon, List.map_map]
    congr 1
    refine List.map_congr_left fun x _ => ?_
    simp only [Function.comp]
    rw [standardise_off hsel]
    rfl
  have hd : ∀ (bs : List (List (Obs p))) (h : List (Obs p)),
      mixedDesign c.scaleInputs c.forget fi h (bs ++ [new]) = mixedDesign c.scaleInputs c.forget fi h bs ++ plainObs fi new := by
    intro bs
    induction bs with
    | nil => intro h; simp [mixedDesign, designObs_off hsel]
    | cons b bs ih => intro h; simp [mixedDesign, ih]
  refine ⟨lam, b, _, _, _, _, hm, hb, inv.xGram, inv.yGram, pred inv hb _, pred inv' hb' _, fun order ho hlam hfix => ?_⟩
  have hmin := C72_converged_minimises (by rw [hf]; norm_num) _ inv.nonneg lam 0 hlam le_rfl zero_le_one c.regularizeIntercept
    (fun _ => none) (fun _ => none) order ho b hfix b' (fun j => by simp [InBounds])
  have hbet := hle (fun _ => none) (fun _ => none) (by rw [hlo]; rfl) (by rw [hup]; rfl) (fun j => by simp) (fun j => by simp [InBounds]) hlam
  unfold historyDesign at hbet
  rw [hd, ← List.append_assoc] at hbet
  rw [predictionError_linear, predictionError_linear]
  unfold penalisedLoss at hmin hbet
  have happ : ∀ v, discSSE c.forget ((designObs c.scaleInputs c.forget fi init init ++ mixedDesign c.scaleInputs c.forget fi init batches) ++
      plainObs fi new) v = discSSE c.forget (designObs c.scaleInputs c.forget fi init init ++
        mixedDesign c.scaleInputs c.forget fi init batches) v + discSSE c.forget (plainObs fi new) v := by
    intro v
    unfold discSSE
    rw [discSum_append, hf]
    simp
  rw [happ, happ] at hbet
  linarith

/-- Non-vacuity of `C110_ridge_partial`: the coefficient after the fit is converged. -/
example (perm perm' : ℕ → ℕ → List (Fin (designDim 1 false))) :
    ∃ s t b G h, LM.fit (ridgeOne (some 1) 0) perm onesInit (LM.new 1 false) = (.ok (), s) ∧
      LM.update (ridgeOne (some 1) 0) perm' (oneNew 3) s = (.ok (), t) ∧ s.coef = some b ∧ s.xGram = some G ∧ s.yGram = some h ∧
      cdSweep ⟨G, h, 1, 0, isRegularized 1 false false, fun _ => none, fun _ => none⟩ 1 (List.finRange 1) b = .ok b := by
  obtain ⟨s, t, b, b', h1, h2, h3, -, h4, -⟩ := ridgeOne_run (some 1) (f := 0) (y := 3) le_rfl one_pos (by norm_num) zero_le_one rfl perm perm'
  have hin : NonnegWeights onesInit := by simp [NonnegWeights, onesInit]
  have inv := GramInv.of_fit (c := ridgeOne (some 1) 0) rfl (by simp) hin h1
  have hd : designObs (ridgeOne (some 1) 0).scaleInputs (ridgeOne (some 1) 0).forget false onesInit onesInit = (onesInit : List (Obs 1)) := by
    change designObs (ToScale.off : ToScale 1) 0 false onesInit onesInit = _
    simp only [designObs, standardise_off (t := (ToScale.off : ToScale 1)) rfl]
    rfl
  rw [hd] at inv
  refine ⟨s, t, b, _, _, h1, h2, h3, inv.xGram, inv.yGram, ?_⟩
  have hG : initGram (xs onesInit) (ws onesInit) 0 0 0 = 2 := by
    rw [initGram_apply (by norm_num) _ hin]
    simp [onesInit, discSum_cons]
    norm_num
  have hh : initYGram (xs onesInit) (ys onesInit) (ws onesInit) 0 0 = 2 := by
    rw [initYGram_apply (by norm_num) _ hin]
    simp [onesInit, discSum_cons]
    norm_num
  set P : CDProblem 1 := ⟨initGram (xs onesInit) (ws onesInit) 0, initYGram (xs onesInit) (ys onesInit) (ws onesInit) 0, 1, 0,
    isRegularized 1 false false, fun _ => none, fun _ => none⟩ with hP
  have hden : P.denom 0 = 3 := by
    unfold CDProblem.denom
    change initGram (xs onesInit) (ws onesInit) 0 0 0 + 1 * (1 - 0) = 3
    rw [hG]; norm_num
  have hz : P.NoZero := by
    intro j
    rw [Subsingleton.elim j 0, hden]
    norm_num
  refine (cdSweep_eq P hz 1 (List.finRange 1) b).trans ?_
  rw [show List.finRange 1 = [0] from rfl]
  simp only [pureSweep, List.foldl_cons, List.foldl_nil, pureStep]
  rw [if_pos (by left; omega), onlineCD_one_value rfl rfl rfl, hden]
  congr 1
  funext j
  rw [Subsingleton.elim j 0, Function.update_self, show P.h 0 = 2 from hh]
  exact (h4.trans (by norm_num)).symm

end Ondil
