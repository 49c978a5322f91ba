import Verif.Spec.PathTradeoff
import Verif.Props.Calibration

/-!
# C119: weaker penalties fit the training data at least as well
-/

open scoped BigOperators Matrix

namespace Ondil

variable {p : ℕ} {fi : Bool}

/-- A positive semi-definite Gramian is curved with constant zero for every penalty. -/
theorem curved_zero {q : ℕ} {G : Matrix (Fin q) (Fin q) ℝ} (hG : PSD G) {lam alpha : ℝ} (hlam : 0 ≤ lam) (ha1 : alpha ≤ 1)
    (reg : Fin q → Bool) : CurvedAtLeast G lam alpha reg 0 := by
  intro v
  unfold smoothForm
  have h := hG v
  have e : ∑ i, v i * ∑ j, G i j * v j = ∑ i, ∑ j, v i * G i j * v j := by simp only [Finset.mul_sum, mul_assoc]
  rw [e] at h
  have h2 : 0 ≤ lam * (1 - alpha) * ∑ j, if reg j then v j ^ 2 else 0 :=
    mul_nonneg (mul_nonneg hlam (by linarith)) (Finset.sum_nonneg fun j _ => by split <;> positivity)
  linarith

/-- Two vectors that are almost optimal for two penalties. -/
theorem tradeoff {R R' P P' lam lam' e e' : ℝ} (hl : lam' < lam) (h0 : 0 ≤ lam') (h : R + lam * P ≤ R' + lam * P' + e)
    (h' : R' + lam' * P' ≤ R + lam' * P + e') :
    R' ≤ R + (lam' * e + lam * e') / (lam - lam') ∧ P ≤ P' + (e + e') / (lam - lam') := by
  have hd : 0 < lam - lam' := by linarith
  constructor
  · rw [← sub_le_iff_le_add', le_div_iff₀ hd]
    nlinarith [mul_le_mul_of_nonneg_left h h0, mul_le_mul_of_nonneg_left h' (h0.trans hl.le)]
  · rw [← sub_le_iff_le_add', le_div_iff₀ hd]
    nlinarith

/-- A run of coordinate descent on the Gramians of data that ended by its convergence test, in terms of the data. -/
theorem near_optimal {forget : ℝ} (hf : forget ≤ 1) (d : List (Obs (designDim p fi))) (hw : NonnegWeights d) (lam alpha : ℝ)
    (hlam : 0 ≤ lam) (ha0 : 0 ≤ alpha) (ha1 : alpha ≤ 1) (ri : Bool) (lower upper : Fin (designDim p fi) → Option ℝ)
    (hbd : BoundsOk lower upper) (sel : Selection) (perm : ℕ → List (Fin (designDim p fi)))
    (hp : ∀ i, (perm i).Perm (List.finRange _)) (tol : ℝ) (m : ℕ) (b₀ r : Row (designDim p fi)) (n : ℕ)
    (hr : onlineCD ⟨initGram (xs d) (ws d) forget, initYGram (xs d) (ys d) (ws d) forget, lam, alpha,
      isRegularized p fi ri, lower, upper⟩ sel perm tol m b₀ = .ok (r, n)) (hn : n < m + 1) :
    Feasible lower upper r ∧ ∀ b, Feasible lower upper b → (n = 1 ∨ ∀ j, r j = 0 → b j = 0) →
      penalisedLoss forget lam alpha ri fi d r ≤
        penalisedLoss forget lam alpha ri fi d b + stoppingSlack tol (initGram (xs d) (ws d) forget) r b := by
  obtain ⟨hsym, hpsd⟩ := gram_psd hf d hw
  have obj := enetObjective_data hf d hw lam alpha ri
  generalize initGram (xs d) (ws d) forget = G at *
  generalize initYGram (xs d) (ys d) (ws d) forget = h at *
  refine ⟨C22_bounds _ hbd _ _ _ _ _ _ _ hr, fun b hb hz => ?_⟩
  have := C97_value ⟨G, h, lam, alpha, isRegularized p fi ri, lower, upper⟩ hsym hlam ha0 (curved_zero hpsd hlam ha1 _) sel perm hp tol m b₀
    r n hr hn b hb hz
  have this : enetObjective G h lam alpha (isRegularized p fi ri) r ≤ enetObjective G h lam alpha (isRegularized p fi ri) b +
    stoppingSlack tol G r b := this
  rw [obj r, obj b] at this
  linarith

/-- **C119** for two rows of a path, after a fit and any updates, without scaling.  Full statement: the row for the smaller lambda has the
smaller squared error and the larger penalty.  Proved: this holds up to what the tolerance leaves open, for rows that coordinate descent
ended by its convergence test and that have the same zeros (or were found in one sweep).  Missing: rows with other zeros
(`C119_start_value_fails`). -/
theorem C119_path_partial (c : LMConfig p fi) (a : EnetArgs) (ha : getEstimationMethod c.method = .ok (.path a))
    (hs : c.scaleInputs = .off) (ha0 : 0 ≤ a.alpha) (ha1 : a.alpha ≤ 1) (lower upper : Fin (designDim p fi) → Option ℝ)
    (hlo : setBound _ a.lower = .ok lower) (hup : setBound _ a.upper = .ok upper) (hbd : BoundsOk lower upper)
    (perm : ℕ → ℕ → List (Fin (designDim p fi))) (hp : ∀ i j, (perm i j).Perm (List.finRange _))
    (rng : ℕ → ℕ → ℕ → List (Fin (designDim p fi))) (hrng : ∀ k i j, (rng k i j).Perm (List.finRange _)) (init : List (Obs p))
    (batches : List (List (Obs p))) (hwi : NonnegWeights init) (hne : ∀ b ∈ batches, b ≠ []) (hwb : ∀ b ∈ batches, NonnegWeights b)
    (s₀ s t : LM p fi) (hfit : LM.fit c perm init s₀ = (.ok (), s)) (hups : LM.updates c rng 0 batches s = (.ok (), t)) :
    let data := plainObs fi (init ++ batches.flatten)
    let G := initGram (xs data) (ws data) c.forget
    let h := initYGram (xs data) (ys data) (ws data) c.forget
    ∃ (lams : List ℝ) (old : List (Row (designDim p fi))) (l : List (Row (designDim p fi) × ℕ)) (which : StartValue)
      (order : ℕ → ℕ → List (Fin (designDim p fi))), t.coefPath = some (l.map Prod.fst) ∧
      a.lambdaPath G h (isRegularized p fi c.regularizeIntercept) = .ok lams ∧
      onlineCDPath (a.pathConfig which (isRegularized p fi c.regularizeIntercept) lower upper order) G h lams old = .ok l ∧
      ∀ (i i' : ℕ) (lam lam' : ℝ) (r r' : Row (designDim p fi)) (n n' : ℕ), lams[i]? = some lam → lams[i']? = some lam' →
        lam' < lam → 0 ≤ lam' → l[i]? = some (r, n) → l[i']? = some (r', n') →
        1 ≤ n ∧ n < a.maxIterations + 1 → 1 ≤ n' ∧ n' < a.maxIterations + 1 →
        (n = 1 ∨ ∀ j, r j = 0 → r' j = 0) → (n' = 1 ∨ ∀ j, r' j = 0 → r j = 0) →
        1 / 2 * discSSE c.forget data r' ≤ 1 / 2 * discSSE c.forget data r +
            (lam' * stoppingSlack a.tolerance G r r' + lam * stoppingSlack a.tolerance G r' r) / (lam - lam') ∧
          totalPenalty a.alpha c.regularizeIntercept fi r ≤ totalPenalty a.alpha c.regularizeIntercept fi r' +
            (stoppingSlack a.tolerance G r r' + stoppingSlack a.tolerance G r' r) / (lam - lam') := by
  intro data G h
  obtain ⟨lams, old, l, which, order, h1, h2, h3, h4, h5⟩ := path_descent c a ha hs hlo hup hp hrng hwi hne hwb hfit hups
  have hf := (LM.fit_ok hfit).1.2.1.le
  have hD : NonnegWeights data := plainObs_nonneg (history_nonneg hwi hwb)
  refine ⟨lams, old, l, which, order, h1, h4, h5, ?_⟩
  intro i i' lam lam' r r' n n' hl hl' hlt h0 hi hi' hn hn' hz hz'
  have near : ∀ (i : ℕ) (lam : ℝ) (r : Row (designDim p fi)) (n : ℕ), lams[i]? = some lam → 0 ≤ lam → l[i]? = some (r, n) →
      1 ≤ n ∧ n < a.maxIterations + 1 → Feasible lower upper r ∧ ∀ b, Feasible lower upper b → (n = 1 ∨ ∀ j, r j = 0 → b j = 0) →
        penalisedLoss c.forget lam a.alpha c.regularizeIntercept fi data r ≤
          penalisedLoss c.forget lam a.alpha c.regularizeIntercept fi data b + stoppingSlack a.tolerance G r b := by
    intro i lam r n hl h0 hi hn
    obtain ⟨lam1, o, prev, g1, _, _, g4⟩ := cdPathLoop_row h5 i (r, n) hi
    rw [hl] at g1; cases g1
    unfold cdPathRow at g4
    simp only at g4
    split at g4
    · exact absurd (congrArg Prod.snd (Except.ok.inj g4)) (by simp only; omega)
    exact near_optimal hf data hD lam a.alpha h0 ha0 ha1 _ lower upper hbd _ _ (h2 _) _ _ _ _ _ g4 hn.2
  obtain ⟨hfr, hr⟩ := near i lam r n hl (h0.trans hlt.le) hi hn
  obtain ⟨hfr', hr'⟩ := near i' lam' r' n' hl' h0 hi' hn'
  have k1 := hr r' hfr' hz
  have k2 := hr' r hfr hz'
  unfold penalisedLoss at k1 k2
  exact tradeoff hlt h0 k1 k2

/-- **C119 for ridge regressions** with two penalties on the same data, after a fit and any updates, without scaling: up to what the
tolerances leave open, the smaller penalty has the smaller squared error and the larger coefficients.  The same conditions on the runs
of coordinate descent. -/
theorem C119_ridge_partial (c c' : LMConfig p fi) (a a' : RidgeArgs (designDim p fi)) (ha : getEstimationMethod c.method = .ok (.ridge a))
    (ha' : getEstimationMethod c'.method = .ok (.ridge a')) (hs : c.scaleInputs = .off) (hs' : c'.scaleInputs = .off)
    (hforget : c'.forget = c.forget) (hri : c'.regularizeIntercept = c.regularizeIntercept) (lam lam' : ℝ) (hl : a.lambdaReg = some lam)
    (hl' : a'.lambdaReg = some lam') (h0 : 0 ≤ lam') (hlt : lam' < lam) (lower upper : Fin (designDim p fi) → Option ℝ)
    (hlo : setBound _ a.lower = .ok lower) (hup : setBound _ a.upper = .ok upper) (hlo' : setBound _ a'.lower = .ok lower)
    (hup' : setBound _ a'.upper = .ok upper) (hbd : BoundsOk lower upper)
    (perm perm' : ℕ → ℕ → List (Fin (designDim p fi))) (hp : ∀ i j, (perm i j).Perm (List.finRange _))
    (hp' : ∀ i j, (perm' i j).Perm (List.finRange _)) (rng rng' : ℕ → ℕ → ℕ → List (Fin (designDim p fi)))
    (hrng : ∀ k i j, (rng k i j).Perm (List.finRange _)) (hrng' : ∀ k i j, (rng' k i j).Perm (List.finRange _)) (init : List (Obs p))
    (batches : List (List (Obs p))) (hwi : NonnegWeights init) (hne : ∀ b ∈ batches, b ≠ []) (hwb : ∀ b ∈ batches, NonnegWeights b)
    (s₀ s t s₀' s' t' : LM p fi) (hfit : LM.fit c perm init s₀ = (.ok (), s)) (hups : LM.updates c rng 0 batches s = (.ok (), t))
    (hfit' : LM.fit c' perm' init s₀' = (.ok (), s')) (hups' : LM.updates c' rng' 0 batches s' = (.ok (), t')) :
    let data := plainObs fi (init ++ batches.flatten)
    let G := initGram (xs data) (ws data) c.forget
    ∃ (b r b' r' : Row (designDim p fi)) (n n' : ℕ) (order order' : ℕ → List (Fin (designDim p fi))),
      t.coef = some r ∧ t'.coef = some r' ∧
      onlineCD (dataProblem c lam 0 lower upper (init ++ batches.flatten)) a.selection order a.tolerance a.maxIterations b = .ok (r, n) ∧
      onlineCD (dataProblem c' lam' 0 lower upper (init ++ batches.flatten)) a'.selection order' a'.tolerance a'.maxIterations b' =
        .ok (r', n') ∧
      (n < a.maxIterations + 1 → n' < a'.maxIterations + 1 → (n = 1 ∨ ∀ j, r j = 0 → r' j = 0) → (n' = 1 ∨ ∀ j, r' j = 0 → r j = 0) →
        1 / 2 * discSSE c.forget data r' ≤ 1 / 2 * discSSE c.forget data r +
            (lam' * stoppingSlack a.tolerance G r r' + lam * stoppingSlack a'.tolerance G r' r) / (lam - lam') ∧
          totalPenalty 0 c.regularizeIntercept fi r ≤ totalPenalty 0 c.regularizeIntercept fi r' +
            (stoppingSlack a.tolerance G r r' + stoppingSlack a'.tolerance G r' r) / (lam - lam')) := by
  intro data G
  have hlam : 0 ≤ lam := h0.trans hlt.le
  obtain ⟨l1, b, r, n, order, -, -, h1, h2, -, h3, h4⟩ := ridge_descent c a ha hs (fun l h => by rw [hl] at h; cases h; exact hlam)
    hlo hup hp hrng hwi hne hwb hfit hups
  obtain ⟨l1', b', r', n', order', -, -, h1', h2', -, h3', h4'⟩ := ridge_descent c' a' ha' hs'
    (fun l h => by rw [hl'] at h; cases h; exact h0) hlo' hup' hp' hrng' hwi hne hwb hfit' hups'
  obtain rfl : l1 = lam := by rw [h4]; unfold RidgeArgs.penalty; rw [hl]; rfl
  obtain rfl : l1' = lam' := by rw [h4']; unfold RidgeArgs.penalty; rw [hl']; rfl
  have hf := (LM.fit_ok hfit).1.2.1.le
  have hD : NonnegWeights data := plainObs_nonneg (history_nonneg hwi hwb)
  refine ⟨b, r, b', r', n, n', order, order', h1, h1', h3, h3', fun hn hn' hz hz' => ?_⟩
  obtain ⟨hfr, hr⟩ := near_optimal hf data hD l1 0 hlam le_rfl zero_le_one c.regularizeIntercept lower upper hbd _ _ h2 _ _ _ _ _ h3 hn
  unfold dataProblem at h3'
  rw [hforget, hri] at h3'
  obtain ⟨hfr', hr'⟩ := near_optimal hf data hD l1' 0 h0 le_rfl zero_le_one c.regularizeIntercept lower upper hbd _ _ h2' _ _ _ _ _ h3' hn'
  have k1 := hr r' hfr' hz
  have k2 := hr' r hfr hz'
  unfold penalisedLoss at k1 k2
  exact tradeoff hlt h0 k1 k2

/-- **C119 after a fit with warm starts along the path**, whatever the tolerance, the limits and the zeros, with or without scaling: a row
that is not penalised less than the row before it has no larger squared error. -/
theorem C119_no_dominated_row (c : LMConfig p fi) (a : EnetArgs) (ha : getEstimationMethod c.method = .ok (.path a))
    (hst : a.startInitial = .previousLambda) (hes : a.earlyStop = 0) (ha0 : 0 ≤ a.alpha) (ha1 : a.alpha ≤ 1)
    (perm : ℕ → ℕ → List (Fin (designDim p fi))) (data : List (Obs p)) (hw : NonnegWeights data)
    (s s' : LM p fi) (hfit : LM.fit c perm data s = (.ok (), s'))
    (lower upper : Fin (designDim p fi) → Option ℝ) (hlo : setBound _ a.lower = .ok lower)
    (hup : setBound _ a.upper = .ok upper) (hbd : BoundsOk lower upper) (hzero : Feasible lower upper 0) :
    ∃ path lams, s'.coefPath = some path ∧
      a.lambdaPath (initGram (xs (historyDesign c data [])) (ws (historyDesign c data [])) c.forget)
        (initYGram (xs (historyDesign c data [])) (ys (historyDesign c data [])) (ws (historyDesign c data [])) c.forget)
        (isRegularized p fi c.regularizeIntercept) = .ok lams ∧
      ∀ (i : ℕ) (lam : ℝ) (b b' : Row (designDim p fi)), lams[i + 1]? = some lam → 0 ≤ lam → path[i]? = some b → path[i + 1]? = some b' →
        totalPenalty a.alpha c.regularizeIntercept fi b ≤ totalPenalty a.alpha c.regularizeIntercept fi b' →
        discSSE c.forget (historyDesign c data []) b' ≤ discSSE c.forget (historyDesign c data []) b := by
  obtain ⟨path, lams, h1, h2, h3⟩ := C72_path_fit c a ha hst hes ha0 ha1 perm data hw s s' hfit lower upper hlo hup hbd hzero
  refine ⟨path, lams, h1, h2, fun i lam b b' hl h0 hb hb' hp => ?_⟩
  have := h3 (i + 1) lam b b' hl h0 hb hb'
  unfold penalisedLoss at this
  have := mul_le_mul_of_nonneg_left hp h0
  linarith

/-! ### The zeros matter -/

/-- Three observations of three features. -/
def tradeoffData : List (Obs 3) := [⟨![0, 0, 1], 0, 1⟩, ⟨![1, 1, 2], 5, 1⟩, ⟨![0, 2, -1], 4, 1⟩]

/-- The lasso for these data. -/
noncomputable def tradeoffProblem (lam : ℝ) : CDProblem 3 :=
  ⟨initGram (xs tradeoffData) (ws tradeoffData) 0, initYGram (xs tradeoffData) (ys tradeoffData) (ws tradeoffData) 0, lam, 1,
    fun _ => true, fun _ => none, fun _ => none⟩

theorem tradeoffData_nonneg : NonnegWeights tradeoffData := by simp [NonnegWeights, tradeoffData]

theorem tradeoff_gram : initGram (xs tradeoffData) (ws tradeoffData) 0 = !![1, 1, 2; 1, 5, 0; 2, 0, 6] := by
  ext i j
  rw [initGram_apply zero_le_one _ tradeoffData_nonneg]
  fin_cases i <;> fin_cases j <;> norm_num [tradeoffData, discSum_cons, discSum_nil]

theorem tradeoff_yGram : initYGram (xs tradeoffData) (ys tradeoffData) (ws tradeoffData) 0 = ![5, 13, 6] := by
  ext i
  rw [initYGram_apply zero_le_one _ tradeoffData_nonneg]
  fin_cases i <;> norm_num [tradeoffData, discSum_cons, discSum_nil]

theorem tradeoff_values (lam x y z : ℝ) :
    (tradeoffProblem lam).newValue ![x, y, z] 0 = softThreshold (5 - y - 2 * z) lam ∧
      (tradeoffProblem lam).newValue ![x, y, z] 1 = softThreshold (13 - x) lam / 5 ∧
      (tradeoffProblem lam).newValue ![x, y, z] 2 = softThreshold (6 - 2 * x) lam / 6 := by
  refine ⟨?_, ?_, ?_⟩ <;>
  · unfold CDProblem.newValue CDProblem.target CDProblem.denom tradeoffProblem
    simp only [tradeoff_gram, tradeoff_yGram, Fin.sum_univ_three, clipHigh, clipLow, if_true, Matrix.of_apply, Matrix.cons_val', Matrix.cons_val,
      one_mul, sub_self, mul_zero, add_zero, div_one]
    first
      | (congr 1; ring1)
      | (congr 2; ring1)

theorem tradeoff_noZero (lam : ℝ) : (tradeoffProblem lam).NoZero := by
  intro j
  unfold CDProblem.denom tradeoffProblem
  rw [tradeoff_gram]
  fin_cases j <;> norm_num

theorem tradeoff_sweep (lam : ℝ) (i : ℕ) {x y z x' y' z' : ℝ}
    (h0 : x' = if i < 2 ∨ x ≠ 0 then softThreshold (5 - y - 2 * z) lam else x)
    (h1 : y' = if i < 2 ∨ y ≠ 0 then softThreshold (13 - x') lam / 5 else y)
    (h2 : z' = if i < 2 ∨ z ≠ 0 then softThreshold (6 - 2 * x') lam / 6 else z) :
    pureSweep (tradeoffProblem lam) i (List.finRange 3) ![x, y, z] = ![x', y', z'] := by
  rw [show List.finRange 3 = [0, 1, 2] by decide, pureSweep_cons, pureSweep_cons, pureSweep_cons, pureSweep_nil]
  have e0 : pureStep (tradeoffProblem lam) i ![x, y, z] 0 = ![x', y, z] := by
    unfold pureStep
    rw [(tradeoff_values lam x y z).1, h0]
    by_cases hx : i < 2 ∨ x ≠ 0
    · rw [if_pos hx, if_pos (by simpa using hx)]
      ext k; fin_cases k <;> simp
    · rw [if_neg hx, if_neg (by simpa using hx)]
  have e1 : pureStep (tradeoffProblem lam) i ![x', y, z] 1 = ![x', y', z] := by
    unfold pureStep
    rw [(tradeoff_values lam x' y z).2.1, h1]
    by_cases hx : i < 2 ∨ y ≠ 0
    · rw [if_pos hx, if_pos (by simpa using hx)]
      ext k; fin_cases k <;> simp
    · rw [if_neg hx, if_neg (by simpa using hx)]
  have e2 : pureStep (tradeoffProblem lam) i ![x', y', z] 2 = ![x', y', z'] := by
    unfold pureStep
    rw [(tradeoff_values lam x' y' z).2.2, h2]
    by_cases hx : i < 2 ∨ z ≠ 0
    · rw [if_pos hx, if_pos (by simpa using hx)]
      ext k; fin_cases k <;> simp
    · rw [if_neg hx, if_neg (by simpa using hx)]
  rw [e0, e1, e2]

theorem tradeoff_not_converged {b b' : Row 3} (h : b' ≠ b) : ¬ cdConverged 0 b' b := fun hc => h (converged_zero hc)

theorem tradeoff_run5 (perm : ℕ → List (Fin 3)) {m : ℕ} (hm : 3 ≤ m) :
    onlineCD (tradeoffProblem 5) .cyclic perm 0 m 0 = .ok (![0, 8 / 5, 1 / 6], 2) := by
  have ho : ∀ i, cdOrder .cyclic perm i = List.finRange 3 := fun i => by unfold cdOrder; simp
  have s1 := tradeoff_sweep 5 1 (x := 0) (y := 0) (z := 0) (x' := 0) (y' := 8 / 5) (z' := 1 / 6)
    (by rw [softThreshold_eq_zero (by norm_num)]; simp) (by rw [softThreshold_of_pos (by norm_num)]; norm_num)
    (by rw [softThreshold_of_pos (by norm_num)]; norm_num)
  have s2 := tradeoff_sweep 5 2 (x := 0) (y := 8 / 5) (z := 1 / 6) (x' := 0) (y' := 8 / 5) (z' := 1 / 6)
    (by norm_num) (by rw [softThreshold_of_pos (by norm_num)]; norm_num) (by rw [softThreshold_of_pos (by norm_num)]; norm_num)
  have c1 : ¬ cdConverged 0 ![(0 : ℝ), 8 / 5, 1 / 6] ![0, 0, 0] := tradeoff_not_converged fun h => by simpa using congrFun h 1
  rw [show (0 : Row 3) = ![0, 0, 0] by ext k; fin_cases k <;> rfl, onlineCD_eq _ (tradeoff_noZero 5)]
  unfold pureCD
  simp only [ho]
  rw [pureLoop_eq]
  simp only [Nat.zero_add]
  rw [s1, if_neg c1, if_neg (by omega), pureLoop_eq]
  rw [s2, if_pos]
  unfold cdConverged
  rw [sub_self, maxAbs_zero, zero_mul]

theorem tradeoff_run4 (perm : ℕ → List (Fin 3)) {m : ℕ} (hm : 3 ≤ m) :
    onlineCD (tradeoffProblem 4) .cyclic perm 0 m 0 = .ok (![0, 9 / 5, 0], 3) := by
  have ho : ∀ i, cdOrder .cyclic perm i = List.finRange 3 := fun i => by unfold cdOrder; simp
  have s1 := tradeoff_sweep 4 1 (x := 0) (y := 0) (z := 0) (x' := 1) (y' := 8 / 5) (z' := 0)
    (by rw [softThreshold_of_pos (by norm_num)]; norm_num) (by rw [softThreshold_of_pos (by norm_num)]; norm_num)
    (by rw [softThreshold_eq_zero (by norm_num)]; simp)
  have s2 := tradeoff_sweep 4 2 (x := 1) (y := 8 / 5) (z := 0) (x' := 0) (y' := 9 / 5) (z' := 0)
    (by rw [softThreshold_eq_zero (by rw [abs_of_pos] <;> norm_num)]; simp) (by rw [softThreshold_of_pos (by norm_num)]; norm_num)
    (by norm_num)
  have s3 := tradeoff_sweep 4 3 (x := 0) (y := 9 / 5) (z := 0) (x' := 0) (y' := 9 / 5) (z' := 0)
    (by norm_num) (by rw [softThreshold_of_pos (by norm_num)]; norm_num) (by norm_num)
  have c1 : ¬ cdConverged 0 ![(1 : ℝ), 8 / 5, 0] ![0, 0, 0] := tradeoff_not_converged fun h => by simpa using congrFun h 1
  have c2 : ¬ cdConverged 0 ![(0 : ℝ), 9 / 5, 0] ![1, 8 / 5, 0] := tradeoff_not_converged fun h => by simpa using congrFun h 0
  rw [show (0 : Row 3) = ![0, 0, 0] by ext k; fin_cases k <;> rfl, onlineCD_eq _ (tradeoff_noZero 4)]
  unfold pureCD
  simp only [ho]
  rw [pureLoop_eq]
  simp only [Nat.zero_add]
  rw [s1, if_neg c1, if_neg (by omega), pureLoop_eq]
  rw [s2, if_neg c2, if_neg (by omega), pureLoop_eq]
  rw [s3, if_pos]
  unfold cdConverged
  rw [sub_self, maxAbs_zero, zero_mul]

/-- **C119 fails** for rows with other zeros: the lasso path of three observations for the penalties 5 and 4, every row started at the
previous coefficients (here zero) with tolerance zero.  Both runs end because their last sweep changed nothing, after two and three sweeps,
but the weaker penalty has the larger squared error: a coefficient that the first sweep sets to zero is not visited again. -/
theorem C119_start_value_fails (perm : ℕ → ℕ → List (Fin 3)) {m : ℕ} (hm : 3 ≤ m) :
    ∃ r r' : Row 3, onlineCDPath ⟨1, 0, .previousFit, .cyclic, 0, m, fun _ => true, fun _ => none, fun _ => none, perm⟩
        (initGram (xs tradeoffData) (ws tradeoffData) 0) (initYGram (xs tradeoffData) (ys tradeoffData) (ws tradeoffData) 0)
        [5, 4] [0, 0] = .ok [(r, 2), (r', 3)] ∧
      discSSE 0 tradeoffData r < discSSE 0 tradeoffData r' := by
  refine ⟨![0, 8 / 5, 1 / 6], ![0, 9 / 5, 0], ?_, ?_⟩
  · have h5 := tradeoff_run5 (perm 0) hm
    have h4 := tradeoff_run4 (perm 1) hm
    unfold tradeoffProblem at h4 h5
    unfold onlineCDPath
    simp only [cdPathLoop, cdPathRow, startValue, PathConfig.problem, Nat.zero_add, gt_iff_lt, lt_irrefl, false_and, if_false]
    simp [h5, h4]
  · simp only [discSSE, tradeoffData, discSum_cons, discSum_nil, linPred]
    simp only [Fin.sum_univ_three, Matrix.cons_val]
    norm_num

/-- Non-vacuity of `C119_path_partial` and `C119_no_dominated_row`: the default lasso on two observations of one column. -/
example : ∃ s : LM 1 false, LM.fit (onesConfig (.str "lasso")) (fun _ _ => List.finRange _) onesInit (LM.new 1 false) = (.ok (), s) ∧
    (∃ (lams : List ℝ) (l : List (Row 1 × ℕ)), s.coefPath = some (l.map Prod.fst) ∧ ∀ (i i' : ℕ) (lam lam' : ℝ) (r r' : Row 1) (n n' : ℕ), lams[i]? = some lam →
      lams[i']? = some lam' → lam' < lam → 0 ≤ lam' → l[i]? = some (r, n) → l[i']? = some (r', n') → 1 ≤ n ∧ n < 1001 → 1 ≤ n' ∧ n' < 1001 →
      (n = 1 ∨ ∀ j, r j = 0 → r' j = 0) → (n' = 1 ∨ ∀ j, r' j = 0 → r j = 0) →
      discSSE 0 onesInit r' ≤ discSSE 0 onesInit r ∧ |r 0| ≤ |r' 0|) ∧
    ∃ (path : List (Row 1)) (lams : List ℝ), s.coefPath = some path ∧ path.length = 100 ∧ ∀ (i : ℕ) (lam : ℝ) (b b' : Row 1), lams[i + 1]? = some lam → 0 ≤ lam →
      path[i]? = some b → path[i + 1]? = some b' → |b 0| ≤ |b' 0| → discSSE 0 onesInit b' ≤ discSSE 0 onesInit b := by
  have hm : getEstimationMethod (onesConfig (.str "lasso")).method = .ok (.path lassoDefault) := by
    simp [onesConfig, getEstimationMethod, methodFromString]
  obtain ⟨s, path, h1, h2, h3, -⟩ := lassoOne_fit (fun _ _ => List.finRange _) (d := onesInit) (by simp [onesInit])
    onesInit_nonneg (by simp [onesInit, ws]) (by rw [onesInit_gram zero_le_one]; norm_num)
    (by rw [onesInit_yGram zero_le_one]; norm_num) (LM.new 1 false)
  have pen : ∀ r : Row 1, totalPenalty (p := 1) lassoDefault.alpha (onesConfig (.str "lasso")).regularizeIntercept false r = |r 0| := by
    intro r
    simp [totalPenalty, coefPenalty, lassoDefault]
  have slack1 : ∀ r r' : Row 1, ∀ G : Fin 1 → Fin 1 → ℝ, stoppingSlack lassoDefault.tolerance G r r' = 0 := by
    intro r r' G
    simp [stoppingSlack, coupling]
  have slack : ∀ r r' : Row (designDim 1 false), ∀ G, stoppingSlack lassoDefault.tolerance G r r' = 0 := slack1
  have hb : BoundsOk (fun _ : Fin 1 => none) (fun _ => none) := fun j l u h => by simp at h
  refine ⟨s, h1, ?_, ?_⟩
  · obtain ⟨lams, old, l, which, order, g1, -, -, g4⟩ := C119_path_partial (onesConfig (.str "lasso")) lassoDefault hm rfl
      (by simp [lassoDefault]) (by simp [lassoDefault]) _ _ rfl rfl hb (fun _ _ => List.finRange _) (fun _ _ => List.Perm.refl _)
      (fun _ _ _ => List.finRange _) (fun _ _ _ => List.Perm.refl _) onesInit [] onesInit_nonneg (by simp) (by simp) _ _ _ h1 rfl
    refine ⟨lams, l, g1, fun i i' lam lam' r r' n n' k1 k2 k3 k4 k5 k6 k7 k8 k9 k10 => ?_⟩
    obtain ⟨e1, e2⟩ := g4 i i' lam lam' r r' n n' k1 k2 k3 k4 k5 k6 k7 k8 k9 k10
    erw [slack r r', slack r' r] at e1 e2
    erw [pen r, pen r'] at e2
    have hd : plainObs (p := 1) false (onesInit ++ ([] : List (List (Obs 1))).flatten) = onesInit := by
      rw [List.flatten_nil, List.append_nil]
      exact List.map_id onesInit
    erw [hd] at e1
    change 1 / 2 * discSSE 0 onesInit r' ≤ 1 / 2 * discSSE 0 onesInit r + _ at e1
    simp only [mul_zero, add_zero, zero_div] at e1 e2
    exact ⟨by linarith, e2⟩
  · obtain ⟨path', lams, g1, -, g3⟩ := C119_no_dominated_row (onesConfig (.str "lasso")) lassoDefault hm rfl rfl
      (by simp [lassoDefault]) (by simp [lassoDefault]) _ onesInit onesInit_nonneg _ _ h1 _ _ rfl rfl hb
      (fun j => ⟨fun l h => by simp at h, fun u h => by simp at h⟩)
    refine ⟨path', lams, g1, ?_, fun i lam b b' k1 k2 k3 k4 k5 => ?_⟩
    · rw [h2] at g1; cases g1; exact h3
    · have := g3 i lam b b' k1 k2 k3 k4 (by rw [pen, pen]; exact k5)
      have hd : historyDesign (onesConfig (.str "lasso")) onesInit [] = onesInit := by
        unfold historyDesign
        rw [show mixedDesign (onesConfig (.str "lasso")).scaleInputs (onesConfig (.str "lasso")).forget false onesInit [] = [] from rfl,
          List.append_nil]
        exact designObs_one _ _ _
      rwa [hd] at this

/-- Non-vacuity of `C119_ridge_partial`: the penalties two and one on two observations of one column give the coefficients 1/2 and 2/3. -/
example (perm : ℕ → ℕ → List (Fin (designDim 1 false))) : ∃ (s s' : LM 1 false) (b b' : Row 1),
    LM.fit (ridgeOne (some 2) 0) perm onesInit (LM.new 1 false) = (.ok (), s) ∧
    LM.fit (ridgeOne (some 1) 0) perm onesInit (LM.new 1 false) = (.ok (), s') ∧ s.coef = some b ∧ s'.coef = some b' ∧
    b 0 = 1 / 2 ∧ b' 0 = 2 / 3 ∧ discSSE 0 onesInit b' < discSSE 0 onesInit b := by
  obtain ⟨s, b, h1, -, h2, h3, -⟩ := ridgeOne_fit (some 2) (f := 0) le_rfl one_pos perm (d := onesInit) (by simp [onesInit])
    onesInit_nonneg (by simp [onesInit, ws]) (lam := 2) (by norm_num) rfl (by rw [onesInit_gram zero_le_one]; norm_num)
    (by rw [onesInit_yGram zero_le_one]; norm_num) (LM.new 1 false)
  obtain ⟨s', b', h1', -, h2', h3', -⟩ := ridgeOne_fit (some 1) (f := 0) le_rfl one_pos perm (d := onesInit) (by simp [onesInit])
    onesInit_nonneg (by simp [onesInit, ws]) (lam := 1) (by norm_num) rfl (by rw [onesInit_gram zero_le_one]; norm_num)
    (by rw [onesInit_yGram zero_le_one]; norm_num) (LM.new 1 false)
  rw [onesInit_gram zero_le_one, onesInit_yGram zero_le_one] at h3 h3'
  norm_num at h3 h3'
  refine ⟨s, s', b, b', h1, h1', h2, h2', h3, h3', ?_⟩
  simp only [discSSE, onesInit, discSum_cons, discSum_nil, linPred]
  norm_num [h3, h3']

end Ondil
