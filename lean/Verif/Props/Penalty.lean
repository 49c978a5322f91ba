import Verif.Props.LinearModel

/-!
# What is penalised: C72 (the intercept), C73 (the strength used by `Ridge`)
-/

open scoped BigOperators Matrix

namespace Ondil

variable {p : ℕ} {fi : Bool}

/-! ## The objective of coordinate descent in terms of the data -/

theorem sum_isRegularized (fi ri : Bool) (g : Fin (designDim p fi) → ℝ) (alpha : ℝ) (b : Row (designDim p fi))
    (hg : ∀ j, g j = coefPenalty alpha (b j)) :
    (∑ j, if isRegularized p fi ri j then g j else 0) = totalPenalty alpha ri fi b := by
  obtain rfl : g = fun j => coefPenalty alpha (b j) := funext hg
  clear hg
  cases fi with
  | false =>
    simp only [isRegularized, if_true]
    rfl
  | true =>
    change (∑ j : Fin (p + 1), if (Fin.cons ri fun _ => true : Fin (p + 1) → Bool) j then
      coefPenalty alpha (b j) else 0) = _
    rw [Fin.sum_univ_succ]
    simp only [Fin.cons_zero, Fin.cons_succ, if_true]
    rw [add_comm]
    rfl

theorem discSSE_quad {q : ℕ} {forget : ℝ} (hf : forget ≤ 1) (d : List (Obs q)) (hw : NonnegWeights d) (b : Row q) :
    discSSE forget d b = b ⬝ᵥ (initGram (xs d) (ws d) forget *ᵥ b)
      - 2 * (initYGram (xs d) (ys d) (ws d) forget ⬝ᵥ b) + discSum forget d fun o => o.w * o.y ^ 2 := by
  have h2 : initYGram (xs d) (ys d) (ws d) forget ⬝ᵥ b =
      discSum forget d (fun o => o.w * o.y * (o.x ⬝ᵥ b)) := by
    simp only [dotProduct]
    simp_rw [initYGram_apply hf d hw, ← discSum_mul_right, Finset.mul_sum, discSum_sum]
    refine Finset.sum_congr rfl fun i _ => discSum_congr _ _ fun o _ => by ring
  rw [gram_quad hf d hw, h2]
  unfold discSSE
  have e : discSum forget d (fun o => o.w * (o.y - linPred o.x b) ^ 2) =
      discSum forget d (fun o => (o.w * (b ⬝ᵥ o.x) * (o.x ⬝ᵥ b) + (-2) * (o.w * o.y * (o.x ⬝ᵥ b))) +
        o.w * o.y ^ 2) := by
    refine discSum_congr _ _ fun o _ => ?_
    rw [linPred_eq_dotProduct, dotProduct_comm b]
    ring
  rw [e, discSum_add, discSum_add, discSum_mul_left]
  ring

/-- The objective of coordinate descent is penalised least squares up to a constant. -/
theorem enetObjective_data {forget : ℝ} (hf : forget ≤ 1) (d : List (Obs (designDim p fi)))
    (hw : NonnegWeights d) (lam alpha : ℝ) (ri : Bool) (b : Row (designDim p fi)) :
    enetObjective (initGram (xs d) (ws d) forget) (initYGram (xs d) (ys d) (ws d) forget) lam alpha
      (isRegularized p fi ri) b = penalisedLoss forget lam alpha ri fi d b
        - 1 / 2 * discSum forget d fun o => o.w * o.y ^ 2 := by
  unfold enetObjective penalisedLoss
  rw [discSSE_quad hf d hw, sum_isRegularized fi ri
    (fun j => alpha * |b j| + (1 - alpha) / 2 * b j ^ 2) alpha b fun j => rfl]
  have : (∑ i, ∑ j, b i * initGram (xs d) (ws d) forget i j * b j) =
      b ⬝ᵥ (initGram (xs d) (ws d) forget *ᵥ b) := by
    simp only [dotProduct, Matrix.mulVec, Finset.mul_sum, mul_assoc]
  rw [this]
  simp only [dotProduct]
  ring

theorem gram_psd {q : ℕ} {forget : ℝ} (hf : forget ≤ 1) (d : List (Obs q)) (hw : NonnegWeights d) :
    (initGram (xs d) (ws d) forget).IsSymm ∧ PSD (initGram (xs d) (ws d) forget) := by
  refine ⟨gram_transpose hf d hw, fun v => ?_⟩
  have h := gram_quad hf d hw v v
  have h2 : 0 ≤ v ⬝ᵥ (initGram (xs d) (ws d) forget *ᵥ v) := by
    rw [h]
    refine discSum_nonneg hf _ fun o ho => ?_
    rw [dotProduct_comm v o.x, mul_assoc]
    exact mul_nonneg (hw o ho) (mul_self_nonneg _)
  simpa [dotProduct, Matrix.mulVec] using h2

/-! ## The Gramians after any history, for the methods that keep the Gramian itself -/

/-- The state of a ridge or path model that has seen the data `h` and works with the design rows `d`. -/
structure GramInv (c : LMConfig p fi) (h : List (Obs p)) (d : List (Obs (designDim p fi)))
    (s : LM p fi) : Prop where
  weight : c.scaleInputs.selection = none ∨ 0 < totalWeight c.forget h
  nonneg : NonnegWeights d
  scaler : s.scaler = some (canonSc c.scaleInputs c.forget h)
  method : ∃ m, s.method = some m ∧ m ≠ .ols
  xGram : s.xGram = some (initGram (xs d) (ws d) c.forget)
  yGram : s.yGram = some (initYGram (xs d) (ys d) (ws d) c.forget)

theorem initXGram_of_ne {q : ℕ} {m : MethodObj q} (hm : m ≠ .ols) {X : List (Row q)} {w : List ℝ} {forget : ℝ}
    {G : Matrix (Fin q) (Fin q) ℝ} (h : m.initXGram X w forget = .ok G) : initGram X w forget = G := by
  cases m with
  | ols => exact absurd rfl hm
  | path a => exact Except.ok.inj h
  | ridge a => exact Except.ok.inj h

theorem updateXGram_of_ne {q : ℕ} {m : MethodObj q} (hm : m ≠ .ols) {G0 : Matrix (Fin q) (Fin q) ℝ}
    {X : List (Row q)} {w : List ℝ} {forget : ℝ} {G : Matrix (Fin q) (Fin q) ℝ}
    (h : m.updateXGram G0 X w forget = .ok G) : updateGram G0 X forget (.array w) = G := by
  cases m with
  | ols => exact absurd rfl hm
  | path a => exact Except.ok.inj h
  | ridge a => exact Except.ok.inj h

theorem GramInv.of_fit {c : LMConfig p fi} {perm : ℕ → ℕ → List (Fin (designDim p fi))}
    {data : List (Obs p)} {s s' : LM p fi} {m : MethodObj (designDim p fi)}
    (hm : getEstimationMethod c.method = .ok m) (hne : m ≠ .ols)
    (hw : NonnegWeights data) (h : LM.fit c perm data s = (.ok (), s')) :
    GramInv c data (designObs c.scaleInputs c.forget fi data data) s' := by
  obtain ⟨hv, h2, h3, h4, h5, m', sc, G, hm', hsc, hG, e1, e2, e3, e4, e5, _, e6, e7⟩ := LM.fit_ok h
  rw [hm] at hm'
  cases hm'
  obtain ⟨hlen, hW, rfl⟩ := scaler_fit_ok _ _ _ _ hsc
  rw [scaledDesign_canon] at hG e5
  have hG' := initXGram_of_ne hne hG
  subst hG'
  have hW' : c.scaleInputs.selection = none ∨ 0 < totalWeight c.forget data := by
    rcases hW with h | h
    · exact .inl h
    · exact .inr (lt_of_le_of_ne (totalWeight_nonneg hv.2.1.le data hw) h.symm)
  refine ⟨hW', designObs_nonneg _ _ _ _ hw, e1, ?_, ?_, ?_⟩
  · cases m with
    | ols => exact absurd rfl hne
    | path a => exact ⟨_, (e6 a rfl).1, by simp⟩
    | ridge a =>
      obtain ⟨_, _, _, h, _⟩ := e7 a rfl
      exact ⟨_, h, by simp⟩
  · rw [ws_designObs]; exact e4
  · rw [ws_designObs, ys_designObs]; exact e5

theorem GramInv.update {c : LMConfig p fi} {h : List (Obs p)} {d : List (Obs (designDim p fi))}
    {s s' : LM p fi} (inv : GramInv c h d s)
    {perm : ℕ → ℕ → List (Fin (designDim p fi))} {b : List (Obs p)} (hne : b ≠ [])
    (hb : NonnegWeights b) (hs' : LM.update c perm b s = (.ok (), s')) :
    GramInv c (h ++ b) (d ++ designObs c.scaleInputs c.forget fi (h ++ b) b) s' := by
  obtain ⟨hv, _, n0, sc0, sc, m, G0, G, h0, q1, q2, q3, q4, q5, q6, q7, r1, r2, r3, r4, r5, r6, _⟩ :=
    LM.update_ok hs'
  have hf := hv.2.1
  have hsc := scaler_update_canon c.scaleInputs hf h b hne hb inv.weight
  set b' := designObs c.scaleInputs c.forget fi (h ++ b) b with hb'
  have hbn : NonnegWeights b' := designObs_nonneg _ _ _ _ hb
  have hws : ws b' = ws b := ws_designObs _ _ _ _
  have hys : ys b' = ys b := ys_designObs _ _ _ _
  have hX : scaledDesign fi (canonSc c.scaleInputs c.forget (h ++ b)) (xs b) = xs b' :=
    scaledDesign_canon _ _ _ _
  obtain ⟨m', hm', hmne⟩ := inv.method
  rw [inv.scaler] at q2; cases q2
  rw [hm'] at q3; cases q3
  rw [inv.xGram] at q4; cases q4
  rw [inv.yGram] at q5; cases q5
  rw [hsc] at q6; cases q6
  have q7' := updateXGram_of_ne hmne q7
  rw [hX, ← hws, updateGram_initGram hf.le d b' inv.nonneg hbn] at q7'
  subst q7'
  rw [hX, ← hws, ← hys, updateYGram_initYGram hf.le d b' inv.nonneg hbn] at r6
  refine ⟨?_, inv.nonneg.append hbn, r2, ⟨_, r1, hmne⟩, r5, r6⟩
  rcases inv.weight with h1 | h1
  · exact .inl h1
  · exact .inr (totalWeight_append_pos hf h b h1 hb)

theorem GramInv.updates {c : LMConfig p fi}
    {rng : ℕ → ℕ → ℕ → List (Fin (designDim p fi))} (bs : List (List (Obs p)))
    (hne : ∀ b ∈ bs, b ≠ []) (hb : ∀ b ∈ bs, NonnegWeights b) {k : ℕ} {h : List (Obs p)}
    {d : List (Obs (designDim p fi))} {s s' : LM p fi} (inv : GramInv c h d s)
    (hs : LM.updates c rng k bs s = (.ok (), s')) :
    GramInv c (h ++ bs.flatten) (d ++ mixedDesign c.scaleInputs c.forget fi h bs) s' := by
  induction bs generalizing k h d s with
  | nil => rw [updates_nil hs]; simpa [mixedDesign] using inv
  | cons b bs ih =>
    obtain ⟨t, h1, h2⟩ := updates_cons hs
    have := ih (fun c hc => hne c (by simp [hc])) (fun c hc => hb c (by simp [hc]))
      (inv.update (hne b (by simp)) (hb b (by simp)) h1) h2
    simpa [mixedDesign] using this

/-- The design rows the model works with after a fit and a sequence of updates. -/
noncomputable def historyDesign (c : LMConfig p fi) (init : List (Obs p)) (batches : List (List (Obs p))) :
    List (Obs (designDim p fi)) :=
  designObs c.scaleInputs c.forget fi init init ++ mixedDesign c.scaleInputs c.forget fi init batches

/-! ## C72 The intercept is penalised exactly when asked for -/

/-- **C72.** A vector that a full coordinate descent sweep (in any order) does not change minimises penalised
least squares on the data, where the intercept is penalised if and only if `regularize_intercept` is set. -/
theorem C72_converged_minimises {forget : ℝ} (hf : forget ≤ 1) (d : List (Obs (designDim p fi)))
    (hw : NonnegWeights d) (lam alpha : ℝ) (hlam : 0 ≤ lam) (ha0 : 0 ≤ alpha) (ha1 : alpha ≤ 1) (ri : Bool)
    (lower upper : Fin (designDim p fi) → Option ℝ) (order : List (Fin (designDim p fi)))
    (ho : order.Perm (List.finRange _)) (b : Row (designDim p fi))
    (hfix : cdSweep ⟨initGram (xs d) (ws d) forget, initYGram (xs d) (ys d) (ws d) forget, lam, alpha,
      isRegularized p fi ri, lower, upper⟩ 1 order b = .ok b)
    (b' : Row (designDim p fi)) (hb' : Feasible lower upper b') :
    penalisedLoss forget lam alpha ri fi d b ≤ penalisedLoss forget lam alpha ri fi d b' := by
  obtain ⟨hs, hp⟩ := gram_psd hf d hw
  have := C24_fixed_point_optimal ⟨initGram (xs d) (ws d) forget, initYGram (xs d) (ys d) (ws d) forget, lam, alpha,
      isRegularized p fi ri, lower, upper⟩ hs hp hlam ha0 ha1 order ho b hfix b' hb'
  rw [enetObjective_data hf d hw, enetObjective_data hf d hw] at this
  linarith

theorem onlineCD_loss {forget : ℝ} (hf : forget ≤ 1) (d : List (Obs (designDim p fi)))
    (hw : NonnegWeights d) (lam alpha : ℝ) (hlam : 0 ≤ lam) (ha0 : 0 ≤ alpha) (ha1 : alpha ≤ 1) (ri : Bool)
    (lower upper : Fin (designDim p fi) → Option ℝ) (hb : BoundsOk lower upper) (sel : Selection)
    (perm : ℕ → List (Fin (designDim p fi))) (tol : ℝ) (m : ℕ) (b : Row (designDim p fi))
    (hfeas : Feasible lower upper b) (r : Row (designDim p fi) × ℕ)
    (hr : onlineCD ⟨initGram (xs d) (ws d) forget, initYGram (xs d) (ys d) (ws d) forget, lam, alpha,
      isRegularized p fi ri, lower, upper⟩ sel perm tol m b = .ok r) :
    penalisedLoss forget lam alpha ri fi d r.1 ≤ penalisedLoss forget lam alpha ri fi d b := by
  obtain ⟨hs, hp⟩ := gram_psd hf d hw
  have := C21_objective_nonincreasing ⟨initGram (xs d) (ws d) forget, initYGram (xs d) (ys d) (ws d) forget, lam,
    alpha, isRegularized p fi ri, lower, upper⟩ hs (psd_diag hp) hlam ha0 ha1 hb sel perm tol m b hfeas r.1 r.2 hr
  rw [enetObjective_data hf d hw, enetObjective_data hf d hw] at this
  linarith

/-- The average of the diagonal of the Gramian, from the data. -/
noncomputable def meanSquareColumn {q : ℕ} (forget : ℝ) (d : List (Obs q)) : ℝ :=
  (∑ j, discSum forget d fun o => o.w * o.x j ^ 2) / q

/-- **C72 and C73** for `Ridge` after a fit.  The penalty is `lambda_reg` if it was given, otherwise the average
over the coefficients of the discounted weighted sum of squares of their column; and the penalised squared
error of the fitted coefficients, with this penalty applied to every feature and to the intercept exactly if
`regularize_intercept` is set, is at most that of the (feasible) start value given to the constructor. -/
theorem C73_ridge_fit (c : LMConfig p fi) (a : RidgeArgs (designDim p fi))
    (ha : getEstimationMethod c.method = .ok (.ridge a)) (perm : ℕ → ℕ → List (Fin (designDim p fi)))
    (data : List (Obs p)) (hw : NonnegWeights data) (s s' : LM p fi)
    (hfit : LM.fit c perm data s = (.ok (), s')) :
    ∃ b lam, s'.coef = some b ∧ s'.method = some (.ridge { a with lambdaReg := some lam }) ∧
      (∀ l, a.lambdaReg = some l → lam = l) ∧
      (a.lambdaReg = none → lam = meanSquareColumn c.forget (historyDesign c data [])) ∧
      ∀ b0 lower upper, a.startBeta = some b0 → setBound _ a.lower = .ok lower →
        setBound _ a.upper = .ok upper → BoundsOk lower upper → Feasible lower upper b0 → 0 ≤ lam →
        penalisedLoss c.forget lam 0 c.regularizeIntercept fi (historyDesign c data []) b ≤
          penalisedLoss c.forget lam 0 c.regularizeIntercept fi (historyDesign c data []) b0 := by
  have inv := GramInv.of_fit ha (by simp) hw hfit
  obtain ⟨hv, _, _, _, _, m', sc, G, hm', _, _, _, _, _, e4, e5, _, _, e7⟩ := LM.fit_ok hfit
  rw [ha] at hm'; cases hm'
  obtain ⟨b, lam, hb, hm, hc⟩ := e7 a rfl
  rw [inv.xGram] at e4; cases e4
  have e5' := inv.yGram.symm.trans e5
  rw [← Option.some.inj e5'] at hb
  have hd : historyDesign c data [] = designObs c.scaleInputs c.forget fi data data := by
    simp [historyDesign, mixedDesign]
  rw [hd]
  unfold RidgeArgs.fitBeta at hb
  simp only [bind_ok] at hb
  obtain ⟨lo, h1, up, h2, r, hr, h3⟩ := hb
  cases h3
  refine ⟨r.1, _, hc, hm, fun l hl => ?_, fun hl => ?_, ?_⟩
  · unfold RidgeArgs.penalty; rw [hl]; rfl
  · unfold RidgeArgs.penalty meanSquareColumn
    rw [hl]
    simp only [Option.getD_none, Matrix.trace, Matrix.diag_apply]
    simp_rw [initGram_apply hv.2.1.le _ inv.nonneg, pow_two, mul_assoc]
  · intro b0 lower upper hs hlo hup hbd hfeas hlam
    rw [h1] at hlo; cases hlo
    rw [h2] at hup; cases hup
    have hst : a.start (initGram (xs (designObs c.scaleInputs c.forget fi data data))
        (ws (designObs c.scaleInputs c.forget fi data data)) c.forget)
        (initYGram (xs (designObs c.scaleInputs c.forget fi data data))
          (ys (designObs c.scaleInputs c.forget fi data data))
          (ws (designObs c.scaleInputs c.forget fi data data)) c.forget) = b0 := by
      unfold RidgeArgs.start; rw [hs]
    rw [hst] at hr
    exact onlineCD_loss hv.2.1.le _ inv.nonneg _ 0 hlam le_rfl zero_le_one _ _ _ hbd _ _ _ _ _ hfeas r hr

/-- The stored method never changes over updates. -/
theorem updates_method {c : LMConfig p fi} {rng : ℕ → ℕ → ℕ → List (Fin (designDim p fi))}
    (bs : List (List (Obs p))) {k : ℕ} {s s' : LM p fi} (h : LM.updates c rng k bs s = (.ok (), s')) :
    s'.method = s.method := by
  induction bs generalizing k s with
  | nil => rw [updates_nil h]
  | cons b bs ih =>
    obtain ⟨t, h1, h2⟩ := updates_cons h
    obtain ⟨_, _, _, _, _, m, _, _, _, _, _, hm, _, _, _, _, hm', _⟩ := LM.update_ok h1
    rw [ih h2, hm', hm]

/-- **C72 and C73** for `Ridge` along any history.  The penalty is the one determined by the fit; and each update
leaves coefficients whose penalised squared error on all data seen so far (the newest batch included, the intercept
penalised exactly if `regularize_intercept` is set) is at most that of the coefficients before the update, provided
those are within the bounds. -/
theorem C73_ridge_update (c : LMConfig p fi) (a : RidgeArgs (designDim p fi))
    (ha : getEstimationMethod c.method = .ok (.ridge a)) (perm perm' : ℕ → ℕ → List (Fin (designDim p fi)))
    (rng : ℕ → ℕ → ℕ → List (Fin (designDim p fi))) (init : List (Obs p)) (batches : List (List (Obs p)))
    (new : List (Obs p)) (hwi : NonnegWeights init) (hne : ∀ b ∈ batches ++ [new], b ≠ [])
    (hwb : ∀ b ∈ batches ++ [new], NonnegWeights b) (s₀ s s' s'' : LM p fi)
    (hfit : LM.fit c perm init s₀ = (.ok (), s)) (hup : LM.updates c rng 0 batches s = (.ok (), s'))
    (hnew : LM.update c perm' new s' = (.ok (), s'')) :
    ∃ lam b b', s.method = some (.ridge { a with lambdaReg := some lam }) ∧
      s''.method = some (.ridge { a with lambdaReg := some lam }) ∧ s'.coef = some b ∧ s''.coef = some b' ∧
      ∀ lower upper, setBound _ a.lower = .ok lower → setBound _ a.upper = .ok upper → BoundsOk lower upper →
        Feasible lower upper b → 0 ≤ lam →
        penalisedLoss c.forget lam 0 c.regularizeIntercept fi (historyDesign c init (batches ++ [new])) b' ≤
          penalisedLoss c.forget lam 0 c.regularizeIntercept fi (historyDesign c init (batches ++ [new])) b := by
  have inv := (GramInv.of_fit ha (by simp) hwi hfit).updates batches (fun b hb => hne b (by simp [hb]))
    (fun b hb => hwb b (by simp [hb])) hup
  have inv' := inv.update (hne new (by simp)) (hwb new (by simp)) hnew
  obtain ⟨_, _, _, _, _, m', _, _, hm', _, _, _, _, _, _, _, _, _, e7⟩ := LM.fit_ok hfit
  rw [ha] at hm'; cases hm'
  obtain ⟨_, lam, _, hm, _⟩ := e7 a rfl
  have hms := updates_method batches hup
  obtain ⟨hv, _, _, _, _, m, _, G, _, _, _, q3, _, _, _, _, r1, _, _, _, r5, r6, _, _, r8⟩ := LM.update_ok hnew
  rw [hms, hm] at q3; cases q3
  obtain ⟨b0, lam', b', h1, h2, h3, h4⟩ := r8 _ rfl
  cases h2
  rw [inv'.xGram] at r5; cases r5
  have e5' := inv'.yGram.symm.trans r6
  rw [← Option.some.inj e5'] at h3
  have hd : ∀ (bs : List (List (Obs p))) (h : List (Obs p)),
      mixedDesign c.scaleInputs c.forget fi h (bs ++ [new]) = mixedDesign c.scaleInputs c.forget fi h bs ++
        designObs c.scaleInputs c.forget fi (h ++ bs.flatten ++ new) new := by
    intro bs
    induction bs with
    | nil => intro h; simp [mixedDesign]
    | cons b bs ih => intro h; simp [mixedDesign, ih]
  refine ⟨lam, b0, b', hm, r1, h1, h4, ?_⟩
  intro lower upper hlo hup' hbd hfeas hlam
  unfold RidgeArgs.updateBeta at h3
  simp only [bind_ok] at h3
  obtain ⟨lo, g1, up, g2, r, hr, h3⟩ := h3
  cases h3
  rw [hlo] at g1; cases g1
  rw [hup'] at g2; cases g2
  unfold historyDesign
  rw [hd, ← List.append_assoc]
  exact onlineCD_loss hv.2.1.le _ inv'.nonneg _ 0 hlam le_rfl zero_le_one _ _ _ hbd _ _ _ _ _ hfeas r hr

/-- **C72** for path methods after a fit with warm starts along the path and no early stopping: the penalised
squared error of every row, for its own lambda, is at most that of the row before it (of the zero vector for
the first row), where the intercept is penalised exactly if `regularize_intercept` is set. -/
theorem C72_path_fit (c : LMConfig p fi) (a : EnetArgs)
    (ha : getEstimationMethod c.method = .ok (.path a)) (hst : a.startInitial = .previousLambda)
    (hes : a.earlyStop = 0) (ha0 : 0 ≤ a.alpha) (ha1 : a.alpha ≤ 1)
    (perm : ℕ → ℕ → List (Fin (designDim p fi))) (data : List (Obs p)) (hw : NonnegWeights data)
    (s s' : LM p fi) (hfit : LM.fit c perm data s = (.ok (), s'))
    (lower upper : Fin (designDim p fi) → Option ℝ) (hlo : setBound _ a.lower = .ok lower)
    (hup : setBound _ a.upper = .ok upper) (hbd : BoundsOk lower upper) (hzero : Feasible lower upper 0) :
    ∃ path lams, s'.coefPath = some path ∧
      a.lambdaPath (initGram (xs (historyDesign c data [])) (ws (historyDesign c data [])) c.forget)
        (initYGram (xs (historyDesign c data [])) (ys (historyDesign c data [])) (ws (historyDesign c data []))
          c.forget) (isRegularized p fi c.regularizeIntercept) = .ok lams ∧
      ∀ (i : ℕ) (lam : ℝ) (b b' : Row (designDim p fi)), lams[i]? = some lam → 0 ≤ lam →
        (0 :: path)[i]? = some b → path[i]? = some b' →
        penalisedLoss c.forget lam a.alpha c.regularizeIntercept fi (historyDesign c data []) b' ≤
          penalisedLoss c.forget lam a.alpha c.regularizeIntercept fi (historyDesign c data []) b := by
  have inv := GramInv.of_fit ha (by simp) hw hfit
  obtain ⟨hv, _, _, _, _, m', sc, G, hm', _, _, _, _, _, e4, e5, _, e6, _⟩ := LM.fit_ok hfit
  rw [ha] at hm'; cases hm'
  obtain ⟨_, path, _, hp, hpath, _⟩ := e6 a rfl
  rw [inv.xGram] at e4; cases e4
  have e5' := inv.yGram.symm.trans e5
  rw [← Option.some.inj e5'] at hp
  have hd : historyDesign c data [] = designObs c.scaleInputs c.forget fi data data := by
    simp [historyDesign, mixedDesign]
  rw [hd]
  obtain ⟨lo, h1, up, h2, lams, h3, rows, h4, rfl⟩ := fitBetaPath_ok.1 hp
  rw [hlo] at h1; cases h1
  rw [hup] at h2; cases h2
  refine ⟨_, lams, hpath, h3, ?_⟩
  intro i lam b b' hl hlam hb hb'
  have hfeas := C22_bounds_path _ hbd _ _ _ _ (by
    intro o ho; exact .inl (List.eq_of_mem_replicate ho)) rows h4
  rw [List.getElem?_map] at hb'
  cases hr : rows[i]? with
  | none => rw [hr] at hb'; cases hb'
  | some r =>
    rw [hr] at hb'
    cases hb'
    obtain ⟨lam', old, prev, g1, g2, g3, g4⟩ := cdPathLoop_row h4 i r hr
    rw [hl] at g1; cases g1
    rw [hb] at g3; cases g3
    have hbf : Feasible lower upper b := by
      cases i with
      | zero => cases hb; exact hzero
      | succ i =>
        rw [List.getElem?_cons_succ] at hb
        obtain ⟨r', hr', rfl⟩ := List.mem_map.1 (List.mem_of_getElem? hb)
        exact hfeas r' hr'
    unfold cdPathRow startValue at g4
    simp only [EnetArgs.pathConfig, hst, hes, if_true] at g4
    rw [if_neg (by omega)] at g4
    exact onlineCD_loss hv.2.1.le _ inv.nonneg _ _ hlam ha0 ha1 _ _ _ hbd _ _ _ _ _ hbf r g4

/-- A fixed point satisfies the normal equation of every coefficient that is neither penalised nor bounded. -/
theorem fixed_unpenalised {q : ℕ} (P : CDProblem q) (order : List (Fin q)) (ho : order.Perm (List.finRange q))
    (b : Row q) (hfix : cdSweep P 1 order b = .ok b) (j : Fin q) (hj : P.reg j = false)
    (hlo : P.lower j = none) (hup : P.upper j = none) : (∑ k, P.G j k * b k) = P.h j := by
  have hz : P.NoZero := by
    intro j hj
    rw [cdSweep_error P (by norm_num) order b ⟨j, ho.mem_iff.mpr (List.mem_finRange j), hj⟩] at hfix
    cases hfix
  rw [cdSweep_eq P hz] at hfix
  have hst := pureSweep_fixed P 1 order (ho.nodup_iff.mpr (List.nodup_finRange _)) b (Except.ok.inj hfix)
  have h0 := hst j (ho.mem_iff.mpr (List.mem_finRange _))
  rw [pureStep_eq_update P (Or.inl (by norm_num))] at h0
  have h1 := congrFun h0 j
  rw [Function.update_self] at h1
  unfold CDProblem.newValue at h1
  rw [hlo, hup] at h1
  simp only [clipHigh, clipLow] at h1
  rw [div_eq_iff (hz _)] at h1
  unfold CDProblem.target CDProblem.denom at h1
  rw [hj] at h1
  simp only [Bool.false_eq_true, if_false] at h1
  linarith

theorem residuals_of_unpenalised {q : ℕ} {forget : ℝ} (hf : forget ≤ 1) (d : List (Obs q))
    (hw : NonnegWeights d) (j : Fin q) (hint : ∀ o ∈ d, o.x j = 1) (b : Row q)
    (h : (∑ k, initGram (xs d) (ws d) forget j k * b k) = initYGram (xs d) (ys d) (ws d) forget j) :
    discSum forget d (fun o => o.w * (o.y - linPred o.x b)) = 0 := by
  change (initGram (xs d) (ws d) forget *ᵥ b) j = _ at h
  rw [gram_mulVec hf d hw, initYGram_apply hf d hw] at h
  have e1 : discSum forget d (fun o => o.w * (o.y - linPred o.x b)) =
      discSum forget d (fun o => o.w * o.y * o.x j + (-1) * (o.w * o.x j * (o.x ⬝ᵥ b))) := by
    refine discSum_congr _ _ fun o ho => ?_
    rw [hint o ho, linPred_eq_dotProduct]; ring
  rw [e1, discSum_add, discSum_mul_left, h]
  ring

/-- **C72.** With an intercept that is neither penalised nor bounded, the discounted weighted residuals of converged
coefficients sum to zero. -/
theorem C72_residuals_sum_to_zero {forget : ℝ} (hf : forget ≤ 1) (d : List (Obs (designDim p true)))
    (hw : NonnegWeights d) (hint : ∀ o ∈ d, o.x (0 : Fin (p + 1)) = 1) (lam alpha : ℝ)
    (lower upper : Fin (designDim p true) → Option ℝ) (hlo : lower (0 : Fin (p + 1)) = none)
    (hup : upper (0 : Fin (p + 1)) = none) (order : List (Fin (designDim p true)))
    (ho : order.Perm (List.finRange _)) (b : Row (designDim p true))
    (hfix : cdSweep ⟨initGram (xs d) (ws d) forget, initYGram (xs d) (ys d) (ws d) forget, lam, alpha,
      isRegularized p true false, lower, upper⟩ 1 order b = .ok b) :
    discSum forget d (fun o => o.w * (o.y - linPred o.x b)) = 0 := by
  exact residuals_of_unpenalised hf d hw _ hint b (fixed_unpenalised ⟨initGram (xs d) (ws d) forget,
    initYGram (xs d) (ys d) (ws d) forget, lam, alpha, isRegularized p true false, lower, upper⟩ order ho b hfix
    (0 : Fin (p + 1)) rfl hlo hup)

/-! ### A concrete ridge history -/

/-- `OnlineLinearModel(method=Ridge(), scale_inputs=False)`, everything else default. -/
noncomputable def ridgeConfig : LMConfig 1 true :=
  { forget := 0, scaleInputs := .off, regularizeIntercept := false,
    method := .obj (.ridge ⟨none, some 0, .cyclic, none, none, 1 / 10000, 1000⟩), ic := .bic }

theorem ridge_noZero {forget : ℝ} (hf : forget ≤ 1) (d : List (Obs (designDim p fi))) (hw : NonnegWeights d)
    (hd : ∀ j, 0 < initGram (xs d) (ws d) forget j j) (h : Row (designDim p fi)) (lam : ℝ) (hl : 0 ≤ lam) (reg)
    (lower upper) : CDProblem.NoZero ⟨initGram (xs d) (ws d) forget, h, lam, 0, reg, lower, upper⟩ := by
  intro j
  unfold CDProblem.denom
  have := hd j
  simp only [sub_zero, mul_one]
  split <;> linarith

/-- `fit` with `Ridge` succeeds when all its checks pass and no column is empty. -/
theorem LM.fit_ridge_succeeds (c : LMConfig p fi) (perm : ℕ → ℕ → List (Fin (designDim p fi)))
    (data : List (Obs p)) (s : LM p fi) (h1 : c.Valid)
    (h2 : ¬ (c.regularizeIntercept = true ∧ fi = false)) (h3 : ¬ (data = [] ∨ p = 0))
    (h4 : ¬ ((ws data).sum ≤ designDim p fi ∧ c.method = .str "ols")) (h5 : (ws data).sum ≠ 1)
    (a : RidgeArgs (designDim p fi)) (hm : getEstimationMethod c.method = .ok (.ridge a)) (sc : Scaler p)
    (hsc : Scaler.fit c.scaleInputs c.forget (xs data) (ws data) = .ok sc) (r : Row (designDim p fi) × ℝ)
    (hp : a.fitBeta (initGram (scaledDesign fi sc (xs data)) (ws data) c.forget)
      (initYGram (scaledDesign fi sc (xs data)) (ys data) (ws data) c.forget)
      (isRegularized p fi c.regularizeIntercept) (perm 0) = .ok r) :
    ∃ s', LM.fit c perm data s = (.ok (), s') := by
  unfold LM.fit
  rw [Py.bind_raiseIf_neg (not_not.2 h1), hm, Py.bind_call_ok, Py.bind_set, Py.bind_raiseIf_neg h2,
    Py.bind_raiseIf_neg h3]
  simp only
  rw [Py.bind_set, Py.bind_raiseIf_neg h4, Py.bind_raiseIf_neg h5, Py.bind_set, hsc, Py.bind_call_ok,
    Py.bind_set]
  simp only [MethodObj.initXGram]
  rw [Py.bind_call_ok, Py.bind_set, Py.bind_set, hp, Py.bind_call_ok]
  exact ⟨_, rfl⟩

/-- `update` with `Ridge` succeeds when the scaler accepts the batch and no column is empty. -/
theorem LM.update_ridge_succeeds (c : LMConfig p fi) (perm : ℕ → ℕ → List (Fin (designDim p fi)))
    (data : List (Obs p)) (s : LM p fi) (h1 : c.Valid) (h2 : ¬ (data = [] ∨ p = 0)) {n0 : ℝ}
    {sc0 sc : Scaler p} {G0 : Matrix (Fin (designDim p fi)) (Fin (designDim p fi)) ℝ}
    {h0 b0 : Row (designDim p fi)} (hn : s.nObs = some n0) (hsc0 : s.scaler = some sc0)
    {a : RidgeArgs (designDim p fi)} {lam : ℝ} (hl : a.lambdaReg = some lam)
    (hm : s.method = some (.ridge a)) (hG0 : s.xGram = some G0) (hh : s.yGram = some h0)
    (hb : s.coef = some b0) (hsc : sc0.update c.forget (xs data) (ws data) = .ok sc)
    (b : Row (designDim p fi))
    (hp : a.updateBeta lam (updateGram G0 (scaledDesign fi sc (xs data)) c.forget (.array (ws data)))
      (updateYGram h0 (scaledDesign fi sc (xs data)) (ys data) c.forget (.array (ws data))) b0
      (isRegularized p fi c.regularizeIntercept) (perm 0) = .ok b) :
    ∃ s', LM.update c perm data s = (.ok (), s') := by
  unfold LM.update
  rw [Py.bind_raiseIf_neg (not_not.2 h1), Py.bind_raiseIf_neg h2, Py.bind_self, hn, Py.bind_attr_some]
  simp only
  rw [Py.bind_set, Py.bind_set, hsc0, Py.bind_attr_some, hsc, Py.bind_call_ok, Py.bind_set, hm,
    Py.bind_attr_some, hG0, Py.bind_attr_some]
  simp only [MethodObj.updateXGram]
  rw [Py.bind_call_ok, Py.bind_set, hh, Py.bind_attr_some, Py.bind_set, hb, Py.bind_attr_some, hl,
    Py.bind_attr_some, hp, Py.bind_call_ok]
  exact ⟨_, rfl⟩

/-- Non-vacuity of `C73_ridge_fit` and `C73_ridge_update`: four points on a line, then a fifth one. -/
example (perm : ℕ → ℕ → List (Fin (designDim 1 true))) :
    ∃ s s', LM.fit ridgeConfig perm lineInit (LM.new 1 true) = (.ok (), s) ∧
      LM.update ridgeConfig perm lineNew s = (.ok (), s') := by
  have hv : ridgeConfig.Valid := by
    refine ⟨le_refl _, by norm_num [ridgeConfig], by simp [ridgeConfig], by simp [ridgeConfig]⟩
  have hstd : ∀ (h : List (Obs 1)) (x : Row 1), standardise .off 0 h x = x := fun h x => standardise_off rfl _ _ x
  set d := designObs (ToScale.off : ToScale 1) 0 true lineInit lineInit with hd
  set e := designObs (ToScale.off : ToScale 1) 0 true (lineInit ++ lineNew) lineNew with he
  have hdn : NonnegWeights d := designObs_nonneg _ _ _ _ lineInit_nonneg
  have hen : NonnegWeights e := designObs_nonneg _ _ _ _ lineNew_nonneg
  have hG : ∀ j, 0 < initGram (xs d) (ws d) 0 j j := by
    intro j
    rw [initGram_apply (by norm_num) d hdn]
    revert j
    change ∀ j : Fin 2, _
    rw [Fin.forall_fin_two]
    constructor
    · simp [d, designObs, hstd, lineInit, discSum_cons, designRow]
      change (0 : ℝ) < 1 * 1 + (1 * 1 + (1 * 1 + 1 * 1))
      norm_num
    · simp [d, designObs, hstd, lineInit, discSum_cons, designRow]
      change (0 : ℝ) < -1 * -1 + (-1 * -1 + (1 * 1 + 1 * 1))
      norm_num
  have hG' : ∀ j, 0 < initGram (xs (d ++ e)) (ws (d ++ e)) 0 j j := by
    intro j
    rw [initGram_apply (by norm_num) _ (hdn.append hen), discSum_append]
    have := hG j
    rw [initGram_apply (by norm_num) d hdn] at this
    have h2 : 0 ≤ discSum 0 e (fun o => o.w * o.x j * o.x j) := by
      refine discSum_nonneg (by norm_num) _ fun o ho => ?_
      rw [mul_assoc]
      exact mul_nonneg (hen o ho) (mul_self_nonneg _)
    have h3 : (0 : ℝ) < (1 - 0) ^ e.length := by norm_num
    positivity
  have hlam : 0 ≤ (⟨none, some 0, .cyclic, none, none, 1 / 10000, 1000⟩ : RidgeArgs (designDim 1 true)).penalty
      (initGram (xs d) (ws d) 0) := by
    unfold RidgeArgs.penalty
    simp only [Option.getD_none, Matrix.trace, Matrix.diag_apply]
    exact div_nonneg (Finset.sum_nonneg fun j _ => (hG j).le) (Nat.cast_nonneg _)
  obtain ⟨s, hs⟩ := LM.fit_ridge_succeeds ridgeConfig perm lineInit (LM.new 1 true) hv (by simp)
    (by simp [lineInit]) (by simp [ridgeConfig]) (by simp [lineInit, ws]; norm_num) _ rfl _
    (scaler_fit_canon .off 0 lineInit (by simp [lineInit]) (.inl rfl)) (_, _) (by
      rw [show ridgeConfig.forget = 0 from rfl, scaledDesign_canon, ← hd,
        show ws lineInit = ws d from (ws_designObs _ _ _ _).symm,
        show ys lineInit = ys d from (ys_designObs _ _ _ _).symm]
      unfold RidgeArgs.fitBeta
      simp only [setBound]
      simp only [bind, Except.bind]
      rw [onlineCD_eq _ (ridge_noZero (by norm_num) d hdn hG _ _ hlam _ _ _)]
      rfl)
  have inv := GramInv.of_fit (c := ridgeConfig) rfl (by simp) lineInit_nonneg hs
  obtain ⟨b, lam, hb, hm, _, hl, _⟩ := C73_ridge_fit ridgeConfig _ rfl perm lineInit lineInit_nonneg _ _ hs
  obtain ⟨_, _, _, _, _, m', sc, G, _, _, _, _, hn, _⟩ := LM.fit_ok hs
  have hlam' : 0 ≤ lam := by
    rw [hl rfl]
    unfold meanSquareColumn
    refine div_nonneg (Finset.sum_nonneg fun j _ => ?_) (Nat.cast_nonneg _)
    refine discSum_nonneg (by norm_num [ridgeConfig]) _ fun o ho => ?_
    have : historyDesign ridgeConfig lineInit [] = d := by simp [historyDesign, mixedDesign, hd]; rfl
    rw [this] at ho
    exact mul_nonneg (hdn o ho) (sq_nonneg _)
  obtain ⟨s', hs'⟩ := LM.update_ridge_succeeds ridgeConfig perm lineNew s hv (by simp [lineNew]) hn inv.scaler
    rfl hm inv.xGram inv.yGram hb
    (scaler_update_canon .off (by norm_num [ridgeConfig]) lineInit lineNew (by simp [lineNew]) lineNew_nonneg
      (.inl rfl)) _ (by
      have hX : scaledDesign true (canonSc ToScale.off ridgeConfig.forget (lineInit ++ lineNew)) (xs lineNew) =
        xs e := scaledDesign_canon _ _ _ _
      rw [hX, show ws lineNew = ws e from (ws_designObs _ _ _ _).symm,
        show ys lineNew = ys e from (ys_designObs _ _ _ _).symm,
        show designObs ridgeConfig.scaleInputs ridgeConfig.forget true lineInit lineInit = d from rfl,
        show ridgeConfig.forget = 0 from rfl, updateGram_initGram (by norm_num) d e hdn hen]
      unfold RidgeArgs.updateBeta
      simp only [setBound]
      simp only [bind, Except.bind]
      rw [onlineCD_eq _ (ridge_noZero (by norm_num) (d ++ e) (hdn.append hen) hG' _ _ hlam' _ _ _)]
      rfl)
  exact ⟨s, s', hs, hs'⟩

end Ondil
