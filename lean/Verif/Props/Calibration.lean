import Verif.Spec.Calibration
import Verif.Props.PenalisedBatch

/-!
# C113: with an intercept the predictions are right on average
-/

open scoped BigOperators Matrix

namespace Ondil

variable {p : ℕ} {fi : Bool}

theorem residualSum_eq_product (f : ℝ) (d : List (Obs p)) (y : List ℝ) :
    residualSum f d y = residualProduct true f d y (0 : Fin (p + 1)) := by
  unfold residualSum residualProduct
  refine discSum_congr _ _ fun q _ => ?_
  change _ = _ * (Fin.cons 1 q.1.x : Fin (p + 1) → ℝ) 0
  rw [Fin.cons_zero, mul_one]

theorem residualProduct_gradient (f : ℝ) (d : List (Obs p)) (b : Row (designDim p fi)) (j : Fin (designDim p fi)) :
    residualProduct fi f d ((xs d).map fun x => linPred (designRow fi x) b) j = - sseGradient f (plainObs fi d) b j := by
  rw [residualProduct_linear]
  unfold sseGradient
  rw [← neg_one_mul, ← discSum_mul_left]
  exact discSum_congr _ _ fun o _ => by ring

theorem updates_snoc {c : LMConfig p fi} {rng} {bs : List (List (Obs p))} {new : List (Obs p)} {k : ℕ} {s t : LM p fi}
    (h : LM.updates c rng k (bs ++ [new]) s = (.ok (), t)) :
    ∃ u, LM.updates c rng k bs s = (.ok (), u) ∧ LM.update c (rng (k + bs.length)) new u = (.ok (), t) := by
  induction bs generalizing k s with
  | nil =>
    obtain ⟨u, h1, h2⟩ := updates_cons h
    rw [updates_nil h2]
    exact ⟨s, rfl, h1⟩
  | cons b bs ih =>
    obtain ⟨u, h1, h2⟩ := updates_cons h
    obtain ⟨v, h3, h4⟩ := ih h2
    refine ⟨v, ?_, by rw [List.length_cons, ← Nat.add_assoc, Nat.add_right_comm]; exact h4⟩
    unfold LM.updates
    rw [Py.bind_ok_iff]
    exact ⟨(), u, h1, h3⟩

/-- A coefficient that is neither penalised nor bounded nor stuck at zero satisfies its normal equation up to the tolerance. -/
theorem descent_normal {q : ℕ} {P : CDProblem q} (hG : P.G.IsSymm) (hpsd : PSD P.G) (hlam : 0 ≤ P.lam) (ha0 : 0 ≤ P.alpha)
    (ha1 : P.alpha ≤ 1) (hb : BoundsOk P.lower P.upper) {sel : Selection} {perm : ℕ → List (Fin q)}
    (hperm : ∀ i, (perm i).Perm (List.finRange q)) {tol : ℝ} {m : ℕ} {b r : Row q} {n : ℕ}
    (hr : onlineCD P sel perm tol m b = .ok (r, n)) (hn : n < m + 1) {j : Fin q} (hj : P.reg j = false) (hlo : P.lower j = none)
    (hup : P.upper j = none) (hz : n = 1 ∨ r j ≠ 0) :
    |(∑ k, P.G j k * r k) - P.h j| ≤ tol * maxAbs r * coupling P.G j := by
  have hcv : CurvedAtLeast P.G P.lam P.alpha P.reg 0 := by
    intro v
    rw [zero_mul]
    unfold smoothForm
    refine add_nonneg (by simpa [Finset.mul_sum, mul_assoc] using hpsd v) (mul_nonneg (mul_nonneg hlam (by linarith)) ?_)
    exact Finset.sum_nonneg fun k _ => by split <;> positivity
  have hf := C22_bounds P hb _ _ _ _ _ _ _ hr
  have key : ∀ t : ℝ, 0 ≤ grad P.G P.h r j * t + tol * maxAbs r * coupling P.G j * |t| := by
    intro t
    have hfc : Feasible P.lower P.upper (Function.update r j (r j + t)) := by
      intro k
      by_cases hk : k = j
      · subst hk
        rw [hlo, hup]
        exact ⟨(fun _ h => by cases h), (fun _ h => by cases h)⟩
      · rw [Function.update_of_ne hk]
        exact hf k
    have h := onlineCD_accuracy hG hlam ha0 hcv hperm hr hn hfc (hz.imp id fun h0 k hk => by
      have : k ≠ j := fun e => h0 (e ▸ hk)
      rw [Function.update_of_ne this, hk])
    have e := enetObjective_update P.G hG P.h P.lam P.alpha P.reg r j (r j + t)
    have hd : ∀ k, Function.update r j (r j + t) k - r k = if k = j then t else 0 := by
      intro k
      split_ifs with hk
      · subst hk; simp
      · simp [Function.update_of_ne hk]
    have hq : smoothForm P.G P.lam P.alpha P.reg (fun k => Function.update r j (r j + t) k - r k) = P.G j j * t ^ 2 := by
      unfold smoothForm
      simp only [hd]
      have h1 : ∀ k, (if P.reg k = true then (if k = j then t else 0) ^ 2 else 0) = (0 : ℝ) := by
        intro k
        by_cases hk : k = j
        · subst hk; simp [hj]
        · simp [hk]
      simp only [h1, Finset.sum_const_zero, mul_zero, add_zero]
      rw [Finset.sum_eq_single j (fun i _ hi => by simp [hi]) (by simp), Finset.sum_eq_single j (fun i _ hi => by simp [hi]) (by simp)]
      simp; ring
    have hs : ∑ k, coupling P.G k * |Function.update r j (r j + t) k - r k| = coupling P.G j * |t| := by
      simp only [hd]
      rw [Finset.sum_eq_single j (fun i _ hi => by simp [hi]) (by simp)]
      simp
    rw [hq, hs] at h
    simp only [pen, hj, Bool.false_eq_true, if_false, sub_self, add_zero, add_sub_cancel_left] at e
    nlinarith
  have h1 := key 1
  have h2 := key (-1)
  rw [abs_neg] at h2
  rw [abs_one] at h1 h2
  have hg : grad P.G P.h r j = (∑ k, P.G j k * r k) - P.h j := rfl
  rw [← hg, abs_le]
  constructor <;> linarith

theorem history_nonneg {init : List (Obs p)} {batches : List (List (Obs p))} (hi : NonnegWeights init)
    (hb : ∀ b ∈ batches, NonnegWeights b) : NonnegWeights (init ++ batches.flatten) := by
  intro o ho
  rw [List.mem_append, List.mem_flatten] at ho
  rcases ho with h | ⟨b, hb', h⟩
  · exact hi o h
  · exact hb b hb' o h

theorem GramInv.predict_plain {c : LMConfig p fi} (hs : c.scaleInputs = .off) {h : List (Obs p)} {e : List (Obs (designDim p fi))}
    {s : LM p fi} (inv : GramInv c h e s) {b : Row (designDim p fi)} (hb : s.coef = some b) (X : List (Row p)) :
    s.predict X = .ok (X.map fun x => linPred (designRow fi x) b) := by
  have hsel : c.scaleInputs.selection = none := by rw [hs]; rfl
  unfold LM.predict
  rw [inv.scaler, hb]
  simp only [scaledDesign, transform_canon, List.map_map]
  congr 1
  refine List.map_congr_left fun x _ => ?_
  simp only [Function.comp]
  rw [standardise_off hsel]
  rfl

theorem GramInv.predictPath_plain {c : LMConfig p fi} (hs : c.scaleInputs = .off) {h : List (Obs p)} {e : List (Obs (designDim p fi))}
    {s : LM p fi} (inv : GramInv c h e s) {path : List (Row (designDim p fi))} (hb : s.coefPath = some path) (X : List (Row p)) :
    s.predictPath X = .ok (X.map fun x => path.map fun b => linPred (designRow fi x) b) := by
  have hsel : c.scaleInputs.selection = none := by rw [hs]; rfl
  unfold LM.predictPath
  rw [inv.scaler, hb]
  simp only [scaledDesign, transform_canon, List.map_map]
  congr 1
  refine List.map_congr_left fun x _ => ?_
  simp only [Function.comp]
  rw [standardise_off hsel]
  rfl

/-- The coefficients of a ridge regression without scaling, after a fit and any updates, are the result of coordinate descent on the
problem of all data. -/
theorem ridge_descent (c : LMConfig p fi) (a : RidgeArgs (designDim p fi)) (ha : getEstimationMethod c.method = .ok (.ridge a))
    (hs : c.scaleInputs = .off) (hlam : ∀ l, a.lambdaReg = some l → 0 ≤ l)
    {lower upper : Fin (designDim p fi) → Option ℝ} (hlo : setBound _ a.lower = .ok lower) (hup : setBound _ a.upper = .ok upper)
    {perm : ℕ → ℕ → List (Fin (designDim p fi))} (hp : ∀ i j, (perm i j).Perm (List.finRange _))
    {rng : ℕ → ℕ → ℕ → List (Fin (designDim p fi))} (hrng : ∀ k i j, (rng k i j).Perm (List.finRange _)) {init : List (Obs p)}
    {batches : List (List (Obs p))} (hwi : NonnegWeights init) (hne : ∀ b ∈ batches, b ≠ []) (hwb : ∀ b ∈ batches, NonnegWeights b)
    {s₀ s t : LM p fi} (hfit : LM.fit c perm init s₀ = (.ok (), s)) (hups : LM.updates c rng 0 batches s = (.ok (), t)) :
    ∃ (lam : ℝ) (b r : Row (designDim p fi)) (n : ℕ) (order : ℕ → List (Fin (designDim p fi))), 0 ≤ lam ∧
      t.method = some (.ridge { a with lambdaReg := some lam }) ∧ t.coef = some r ∧ (∀ i, (order i).Perm (List.finRange _)) ∧
      GramInv c (init ++ batches.flatten) (plainObs fi (init ++ batches.flatten)) t ∧
      onlineCD (dataProblem c lam 0 lower upper (init ++ batches.flatten)) a.selection order a.tolerance a.maxIterations b = .ok (r, n) ∧
      lam = a.penalty (initGram (xs (plainObs fi init)) (ws (plainObs fi init)) c.forget) := by
  have hsel : c.scaleInputs.selection = none := by rw [hs]; rfl
  have inv0 := GramInv.of_fit ha (by simp) hwi hfit
  have inv := (inv0.updates batches hne hwb hups).plain hs
  rw [designObs_off hsel] at inv0
  have hv := (LM.fit_ok hfit).1
  obtain ⟨_, _, _, _, _, m', _, G', hm', _, _, _, _, _, e4, e5, _, _, e7⟩ := LM.fit_ok hfit
  rw [ha] at hm'; cases hm'
  obtain ⟨r', lam, hfb, hm, hc⟩ := e7 a rfl
  rw [inv0.xGram] at e4; cases e4
  rw [← Option.some.inj (inv0.yGram.symm.trans e5)] at hfb
  unfold RidgeArgs.fitBeta at hfb
  simp only [bind_ok] at hfb
  obtain ⟨lo, k1, up, k2, x', hx', k3⟩ := hfb
  rw [hlo] at k1; cases k1
  rw [hup] at k2; cases k2
  obtain ⟨hk3, rfl⟩ := Prod.mk.inj (Except.ok.inj k3)
  have hpos : 0 ≤ a.penalty (initGram (xs (plainObs fi init)) (ws (plainObs fi init)) c.forget) := by
    unfold RidgeArgs.penalty
    cases hl : a.lambdaReg with
    | some l => exact hlam l hl
    | none =>
      refine div_nonneg (Finset.sum_nonneg fun j _ => ?_) (Nat.cast_nonneg _)
      exact psd_diag (gram_psd hv.2.1.le _ (plainObs_nonneg hwi)).2 j
  have hmt : t.method = some (.ridge { a with lambdaReg := some (a.penalty (initGram (xs (plainObs fi init)) (ws (plainObs fi init)) c.forget)) }) :=
    (updates_method batches hups).trans hm
  rcases List.eq_nil_or_concat batches with rfl | ⟨bs, new, rfl⟩
  · rw [updates_nil hups] at inv hmt ⊢
    refine ⟨_, a.start (initGram (xs (plainObs fi init)) (ws (plainObs fi init)) c.forget)
      (initYGram (xs (plainObs fi init)) (ys (plainObs fi init)) (ws (plainObs fi init)) c.forget), _, x'.2, _, hpos, hmt, hc, hp 0, inv, ?_⟩
    rw [← hk3]
    exact ⟨by simpa [dataProblem] using hx', rfl⟩
  · rw [List.concat_eq_append] at hups hne hwb inv ⊢
    obtain ⟨u, hu, hnew⟩ := updates_snoc hups
    obtain ⟨_, _, _, _, _, m, _, G, _, _, _, q3, _, _, _, _, r1, _, _, _, r5, r6, _, _, r8⟩ := LM.update_ok hnew
    rw [updates_method bs hu, hm] at q3; cases q3
    obtain ⟨b, lam', r, h1, h2, h3, h4⟩ := r8 _ rfl
    cases h2
    rw [inv.xGram] at r5; cases r5
    rw [← Option.some.inj (inv.yGram.symm.trans r6)] at h3
    unfold RidgeArgs.updateBeta at h3
    simp only [bind_ok] at h3
    obtain ⟨lo, g1, up, g2, x, hx, h3⟩ := h3
    cases h3
    rw [hlo] at g1; cases g1
    rw [hup] at g2; cases g2
    exact ⟨_, b, _, x.2, _, hpos, hmt, h4, hrng _ 0, inv, hx, rfl⟩

/-- The same for the rows of a path. -/
theorem path_descent (c : LMConfig p fi) (a : EnetArgs) (ha : getEstimationMethod c.method = .ok (.path a))
    (hs : c.scaleInputs = .off) {lower upper : Fin (designDim p fi) → Option ℝ} (hlo : setBound _ a.lower = .ok lower)
    (hup : setBound _ a.upper = .ok upper) {perm : ℕ → ℕ → List (Fin (designDim p fi))} (hp : ∀ i j, (perm i j).Perm (List.finRange _))
    {rng : ℕ → ℕ → ℕ → List (Fin (designDim p fi))} (hrng : ∀ k i j, (rng k i j).Perm (List.finRange _)) {init : List (Obs p)}
    {batches : List (List (Obs p))} (hwi : NonnegWeights init) (hne : ∀ b ∈ batches, b ≠ []) (hwb : ∀ b ∈ batches, NonnegWeights b)
    {s₀ s t : LM p fi} (hfit : LM.fit c perm init s₀ = (.ok (), s)) (hups : LM.updates c rng 0 batches s = (.ok (), t)) :
    ∃ (lams : List ℝ) (old : List (Row (designDim p fi))) (l : List (Row (designDim p fi) × ℕ)) (which : StartValue)
      (order : ℕ → ℕ → List (Fin (designDim p fi))), t.coefPath = some (l.map Prod.fst) ∧ (∀ i j, (order i j).Perm (List.finRange _)) ∧
      GramInv c (init ++ batches.flatten) (plainObs fi (init ++ batches.flatten)) t ∧
      a.lambdaPath (dataProblem c 0 0 lower upper (init ++ batches.flatten)).G (dataProblem c 0 0 lower upper (init ++ batches.flatten)).h
        (isRegularized p fi c.regularizeIntercept) = .ok lams ∧
      onlineCDPath (a.pathConfig which (isRegularized p fi c.regularizeIntercept) lower upper order)
        (dataProblem c 0 0 lower upper (init ++ batches.flatten)).G (dataProblem c 0 0 lower upper (init ++ batches.flatten)).h lams old =
          .ok l := by
  have hsel : c.scaleInputs.selection = none := by rw [hs]; rfl
  have inv0 := GramInv.of_fit ha (by simp) hwi hfit
  have inv := (inv0.updates batches hne hwb hups).plain hs
  rw [designObs_off hsel] at inv0
  obtain ⟨_, _, _, _, _, m', _, G', hm', _, _, _, _, _, e4, e5, _, e6, _⟩ := LM.fit_ok hfit
  rw [ha] at hm'; cases hm'
  obtain ⟨hm, path', _, hfb', hc', _⟩ := e6 a rfl
  rcases List.eq_nil_or_concat batches with rfl | ⟨bs, new, rfl⟩
  · rw [inv0.xGram] at e4; cases e4
    rw [← Option.some.inj (inv0.yGram.symm.trans e5)] at hfb'
    obtain ⟨lo, k1, up, k2, lams, k3, l, k4, rfl⟩ := fitBetaPath_ok.1 hfb'
    rw [hlo] at k1; cases k1
    rw [hup] at k2; cases k2
    rw [updates_nil hups] at inv ⊢
    refine ⟨lams, List.replicate a.lambdaN 0, l, a.startInitial, perm, hc', hp, inv, ?_, ?_⟩
    · simpa [dataProblem] using k3
    · simpa [dataProblem] using k4
  · rw [List.concat_eq_append] at hups hne hwb inv ⊢
    obtain ⟨u, hu, hnew⟩ := updates_snoc hups
    obtain ⟨_, _, _, _, _, m, _, G, _, _, _, q3, _, _, _, _, r1, _, _, _, r5, r6, _, r7, _⟩ := LM.update_ok hnew
    rw [updates_method bs hu, hm] at q3; cases q3
    obtain ⟨old, path, _, _, h1, _, h3, h4, _⟩ := r7 _ rfl
    rw [inv.xGram] at r5; cases r5
    rw [← Option.some.inj (inv.yGram.symm.trans r6)] at h3
    obtain ⟨lo, g1, up, g2, lams, g3, l, g4, rfl⟩ := updateBetaPath_ok.1 h3
    rw [hlo] at g1; cases g1
    rw [hup] at g2; cases g2
    exact ⟨lams, old, l, _, _, h4, hrng _, inv, g3, g4⟩

/-! ### Least squares -/

/-- **C113, least squares** without scaling, after a fit and any updates: the residuals of all data seen so far, discounted and weighted,
are orthogonal to every regressor, and with an intercept they sum to zero. -/
theorem C113_least_squares (c : LMConfig p fi) (hm : c.method = .str "ols") (hs : c.scaleInputs = .off)
    (rng : ℕ → ℕ → ℕ → List (Fin (designDim p fi))) (perm : ℕ → ℕ → List (Fin (designDim p fi))) (init : List (Obs p))
    (batches : List (List (Obs p))) (hne : ∀ b ∈ batches, b ≠ []) (hi : NonnegWeights init) (hb : ∀ b ∈ batches, NonnegWeights b)
    (s₀ s : LM p fi) (hfit : LM.fit c perm init s₀ = (.ok (), s)) :
    ∃ t y, LM.updates c rng 0 batches s = (.ok (), t) ∧ t.predict (xs (init ++ batches.flatten)) = .ok y ∧
      (∀ j, residualProduct fi c.forget (init ++ batches.flatten) y j = 0) ∧
      (fi = true → residualSum c.forget (init ++ batches.flatten) y = 0) := by
  have hm' : getEstimationMethod c.method = .ok .ols := by rw [hm]; exact getEstimationMethod_ols
  have hsel : c.scaleInputs.selection = none := by rw [hs]; rfl
  obtain ⟨hv, _, h3, _⟩ := LM.fit_ok hfit
  obtain ⟨t, ht, inv⟩ := (OlsInv.of_fit hm' hi hfit).updates hv (fun h => h3 (.inr h)) rng batches hne hb 0
  rw [designObs_off hsel, mixedDesign_off hsel, ← plainObs_append] at inv
  obtain ⟨b, hcoef, normal⟩ : ∃ b, t.coef = some b ∧ sseGradient c.forget (plainObs fi (init ++ batches.flatten)) b = 0 :=
    ⟨_, inv.coef, sseGradient_of_normal hv.2.1.le inv.nonneg (by
      unfold olsBeta
      rw [Matrix.mulVec_mulVec, Matrix.mul_nonsing_inv _ inv.isUnit, Matrix.one_mulVec])⟩
  have hp : t.predict (xs (init ++ batches.flatten)) =
      .ok ((xs (init ++ batches.flatten)).map fun x => linPred (designRow fi x) b) := by
    unfold LM.predict
    rw [inv.scaler, hcoef]
    simp only [scaledDesign, transform_canon, List.map_map]
    congr 1
    refine List.map_congr_left fun x _ => ?_
    simp only [Function.comp]
    rw [standardise_off hsel]
    rfl
  have hall : ∀ j, residualProduct fi c.forget (init ++ batches.flatten) ((xs (init ++ batches.flatten)).map fun x =>
      linPred (designRow fi x) b) j = 0 := by
    intro j
    rw [residualProduct_gradient, normal]
    simp
  refine ⟨t, _, ht, hp, hall, ?_⟩
  rintro rfl
  exact (residualSum_eq_product _ _ _).trans (hall _)

/-- **C113, least squares after a fit**, whatever columns are scaled. -/
theorem C113_fit (c : LMConfig p true) (hm : c.method = .str "ols") (perm : ℕ → ℕ → List (Fin (designDim p true))) (init : List (Obs p))
    (hi : NonnegWeights init) (s₀ s : LM p true) (hfit : LM.fit c perm init s₀ = (.ok (), s)) :
    ∃ y, s.predict (xs init) = .ok y ∧ residualSum c.forget init y = 0 := by
  have hm' : getEstimationMethod c.method = .ok .ols := by rw [hm]; exact getEstimationMethod_ols
  obtain ⟨hv, _⟩ := LM.fit_ok hfit
  have inv := OlsInv.of_fit hm' hi hfit
  obtain ⟨b, hcoef, normal⟩ : ∃ b, s.coef = some b ∧ sseGradient c.forget (designObs c.scaleInputs c.forget true init init) b = 0 :=
    ⟨_, inv.coef, sseGradient_of_normal hv.2.1.le inv.nonneg (by
      unfold olsBeta
      rw [Matrix.mulVec_mulVec, Matrix.mul_nonsing_inv _ inv.isUnit, Matrix.one_mulVec])⟩
  have hp : s.predict (xs init) =
      .ok (init.map fun o => linPred (designRow true (standardise c.scaleInputs c.forget init o.x)) b) := by
    unfold LM.predict
    rw [inv.scaler, hcoef]
    simp only [scaledDesign, transform_canon, List.map_map, xs]
    rfl
  refine ⟨_, hp, ?_⟩
  have h0 := congrFun normal (0 : Fin (p + 1))
  have key : ∀ d : List (Obs p), residualSum c.forget d
      (d.map fun o => linPred (designRow true (standardise c.scaleInputs c.forget init o.x)) b) =
        - sseGradient c.forget (designObs c.scaleInputs c.forget true init d) b (0 : Fin (p + 1)) := by
    intro d
    unfold residualSum sseGradient designObs
    rw [zip_map_self, discSum_map, discSum_map, ← neg_one_mul, ← discSum_mul_left]
    refine discSum_congr _ _ fun o _ => ?_
    have h1 : designRow true (standardise c.scaleInputs c.forget init o.x) (0 : Fin (p + 1)) = 1 := rfl
    simp only [h1]
    ring
  rw [key]
  exact (congrArg Neg.neg h0).trans neg_zero

/-! ### Penalised methods -/

theorem coupling_intercept (c : LMConfig p true) (hf : c.forget ≤ 1) (lam alpha : ℝ) (lower upper : Fin (p + 1) → Option ℝ)
    {d : List (Obs p)} (hd : NonnegWeights d) :
    coupling (dataProblem c lam alpha lower upper d).G (0 : Fin (p + 1)) = ∑ k, |discSum c.forget d fun o => o.w * o.x k| := by
  have hG : ∀ k : Fin p, (dataProblem c lam alpha lower upper d).G (0 : Fin (p + 1)) k.succ = discSum c.forget d fun o => o.w * o.x k := by
    intro k
    refine (initGram_apply hf _ (plainObs_nonneg (fi := true) hd) (0 : Fin (p + 1)) k.succ).trans ?_
    unfold plainObs
    rw [discSum_map]
    refine discSum_congr _ _ fun o _ => ?_
    change o.w * (Fin.cons 1 o.x : Fin (p + 1) → ℝ) 0 * (Fin.cons 1 o.x : Fin (p + 1) → ℝ) k.succ = _
    rw [Fin.cons_zero, Fin.cons_succ, mul_one]
  unfold coupling
  refine (Fin.sum_univ_succ (n := p) fun k : Fin (p + 1) =>
    if k = 0 then (0 : ℝ) else |(dataProblem c lam alpha lower upper d).G (0 : Fin (p + 1)) k|).trans ?_
  rw [if_pos rfl, zero_add]
  exact Finset.sum_congr rfl fun k _ => by rw [if_neg (Fin.succ_ne_zero k), hG]

theorem residualSum_normal (c : LMConfig p true) (hf : c.forget ≤ 1) (lam alpha : ℝ) (lower upper : Fin (p + 1) → Option ℝ)
    {d : List (Obs p)} (hd : NonnegWeights d) (r : Row (designDim p true)) :
    |residualSum c.forget d ((xs d).map fun x => linPred (designRow true x) r)| =
      |(∑ k, (dataProblem c lam alpha lower upper d).G (0 : Fin (p + 1)) k * r k) -
        (dataProblem c lam alpha lower upper d).h (0 : Fin (p + 1))| := by
  have h1 := residualProduct_gradient (fi := true) c.forget d r (0 : Fin (p + 1))
  rw [sseGradient_eq hf (plainObs_nonneg hd)] at h1
  rw [residualSum_eq_product]
  refine (congrArg abs h1).trans ?_
  rw [abs_neg]
  rfl

/-- **C113, ridge regression** without scaling and with an intercept that is neither penalised nor bounded, after a fit and any updates.
The coefficients `r` are the result of coordinate descent on all data; if the descent was ended by the convergence test and the intercept
is not zero (or one sweep was enough), the discounted weighted residuals of all data sum to zero up to
`tolerance * max|coefficient| * ∑ |weighted sums of the features|`. -/
theorem C113_ridge_partial (c : LMConfig p true) (a : RidgeArgs (designDim p true)) (ha : getEstimationMethod c.method = .ok (.ridge a))
    (hs : c.scaleInputs = .off) (hri : c.regularizeIntercept = false) (hlam : ∀ l, a.lambdaReg = some l → 0 ≤ l)
    (lower upper : Fin (p + 1) → Option ℝ) (hlo : setBound _ a.lower = .ok lower) (hup : setBound _ a.upper = .ok upper)
    (hbd : BoundsOk lower upper) (hlo0 : lower 0 = none) (hup0 : upper 0 = none)
    (perm : ℕ → ℕ → List (Fin (p + 1))) (hp : ∀ i j, (perm i j).Perm (List.finRange _))
    (rng : ℕ → ℕ → ℕ → List (Fin (p + 1))) (hrng : ∀ k i j, (rng k i j).Perm (List.finRange _)) (init : List (Obs p))
    (batches : List (List (Obs p))) (hwi : NonnegWeights init) (hne : ∀ b ∈ batches, b ≠ []) (hwb : ∀ b ∈ batches, NonnegWeights b)
    (s₀ s t : LM p true) (hfit : LM.fit c perm init s₀ = (.ok (), s)) (hups : LM.updates c rng 0 batches s = (.ok (), t)) :
    ∃ (lam : ℝ) (b r : Row (p + 1)) (n : ℕ) (order : ℕ → List (Fin (p + 1))) (y : List ℝ),
      t.method = some (.ridge { a with lambdaReg := some lam }) ∧ t.coef = some r ∧ t.predict (xs (init ++ batches.flatten)) = .ok y ∧
      onlineCD (dataProblem c lam 0 lower upper (init ++ batches.flatten)) a.selection order a.tolerance a.maxIterations b = .ok (r, n) ∧
      (n < a.maxIterations + 1 → n = 1 ∨ r 0 ≠ 0 → |residualSum c.forget (init ++ batches.flatten) y| ≤
        a.tolerance * maxAbs r * ∑ k, |discSum c.forget (init ++ batches.flatten) fun o => o.w * o.x k|) := by
  obtain ⟨lam, b, r, n, order, h1, hmt, h3, h4, h5, h6, _⟩ := ridge_descent c a ha hs hlam hlo hup hp hrng hwi hne hwb hfit hups
  have hf := (LM.fit_ok hfit).1.2.1.le
  have hD := history_nonneg hwi hwb
  refine ⟨lam, b, r, n, order, _, hmt, h3, h5.predict_plain hs h3 _, h6, fun hn hz => ?_⟩
  obtain ⟨g1, g2⟩ := gram_psd hf _ (plainObs_nonneg (fi := true) hD)
  have := descent_normal (P := dataProblem c lam 0 lower upper (init ++ batches.flatten)) g1 g2 h1 le_rfl zero_le_one hbd h4 h6 hn
    (j := (0 : Fin (p + 1))) (by simp [dataProblem, isRegularized, hri]) hlo0 hup0 hz
  refine (residualSum_normal c hf lam 0 lower upper hD r).trans_le (this.trans_eq ?_)
  exact congrArg _ (coupling_intercept c hf lam 0 lower upper hD)

theorem lambdaPath_nonneg {q : ℕ} {a : EnetArgs} (he : 0 ≤ a.lambdaEps) {G : Matrix (Fin q) (Fin q) ℝ} {h : Row q} {reg : Fin q → Bool}
    {j : Fin q} (hj : reg j = false) {lams : List ℝ} (hl : a.lambdaPath G h reg = .ok lams) : ∀ lam ∈ lams, 0 ≤ lam := by
  obtain ⟨m, hm, hg⟩ := lambdaPath_ok.1 hl
  obtain ⟨m0, _, rfl⟩ := geomspace_ok hg
  have hpos : 0 ≤ m := by
    unfold getLambdaMax at hm
    have hmem : j ∈ (List.finRange q).filter (fun j => !reg j) := by simp [hj]
    split at hm
    · rename_i e
      rw [e] at hmem
      cases hmem
    · rename_i j0 e
      obtain ⟨k, _, rfl⟩ := List.mem_map.1 (npMax_mem hm)
      exact abs_nonneg _
    · cases hm
  intro lam hlam
  obtain ⟨i, _, rfl⟩ := List.mem_map.1 hlam
  exact mul_nonneg hpos (Real.rpow_nonneg (div_nonneg (mul_nonneg hpos he) hpos) _)

/-- **C113, path methods** (`LassoPath`, `ElasticNetPath`), the same for every row of the path that coordinate descent computed and ended
by its convergence test. -/
theorem C113_path_partial (c : LMConfig p true) (a : EnetArgs) (ha : getEstimationMethod c.method = .ok (.path a))
    (hs : c.scaleInputs = .off) (hri : c.regularizeIntercept = false) (ha0 : 0 ≤ a.alpha) (ha1 : a.alpha ≤ 1) (he : 0 ≤ a.lambdaEps)
    (lower upper : Fin (p + 1) → Option ℝ) (hlo : setBound _ a.lower = .ok lower) (hup : setBound _ a.upper = .ok upper)
    (hbd : BoundsOk lower upper) (hlo0 : lower 0 = none) (hup0 : upper 0 = none)
    (perm : ℕ → ℕ → List (Fin (p + 1))) (hp : ∀ i j, (perm i j).Perm (List.finRange _))
    (rng : ℕ → ℕ → ℕ → List (Fin (p + 1))) (hrng : ∀ k i j, (rng k i j).Perm (List.finRange _)) (init : List (Obs p))
    (batches : List (List (Obs p))) (hwi : NonnegWeights init) (hne : ∀ b ∈ batches, b ≠ []) (hwb : ∀ b ∈ batches, NonnegWeights b)
    (s₀ s t : LM p true) (hfit : LM.fit c perm init s₀ = (.ok (), s)) (hups : LM.updates c rng 0 batches s = (.ok (), t)) :
    ∃ (lams : List ℝ) (old : List (Row (p + 1))) (l : List (Row (p + 1) × ℕ)) (which : StartValue)
      (order : ℕ → ℕ → List (Fin (p + 1))) (Y : List (List ℝ)), t.coefPath = some (l.map Prod.fst) ∧
      t.predictPath (xs (init ++ batches.flatten)) = .ok Y ∧
      onlineCDPath (a.pathConfig which (isRegularized p true false) lower upper order)
        (dataProblem c 0 0 lower upper (init ++ batches.flatten)).G (dataProblem c 0 0 lower upper (init ++ batches.flatten)).h lams old =
          .ok l ∧
      ∀ (i : ℕ) (r : Row (p + 1)) (n : ℕ), l[i]? = some (r, n) → 1 ≤ n → n < a.maxIterations + 1 → n = 1 ∨ r 0 ≠ 0 →
        |residualSum c.forget (init ++ batches.flatten) (Y.map fun row => row.getD i 0)| ≤
          a.tolerance * maxAbs r * ∑ k, |discSum c.forget (init ++ batches.flatten) fun o => o.w * o.x k| := by
  obtain ⟨lams, old, l, which, order, h1, h2, h3, h4, h5⟩ := path_descent c a ha hs hlo hup hp hrng hwi hne hwb hfit hups
  have hf := (LM.fit_ok hfit).1.2.1.le
  have hD := history_nonneg hwi hwb
  rw [hri] at h4 h5
  refine ⟨lams, old, l, which, order, _, h1, h3.predictPath_plain hs h1 _, h5, fun i r n hi hn1 hn hz => ?_⟩
  obtain ⟨lam, o, prev, hlam, _, _, hrow⟩ := cdPathLoop_row h5 i _ hi
  have hpos : 0 ≤ lam := lambdaPath_nonneg he (j := (0 : Fin (p + 1))) (by simp [isRegularized]) h4 lam (List.mem_of_getElem? hlam)
  have hcd : onlineCD (dataProblem c lam a.alpha lower upper (init ++ batches.flatten)) a.selection (order (0 + i)) a.tolerance
      a.maxIterations (startValue which prev o) = .ok (r, n) := by
    unfold cdPathRow at hrow
    simp only at hrow
    split at hrow
    · cases hrow
      omega
    · refine Eq.trans ?_ hrow
      unfold dataProblem
      rw [hri]
      rfl
  obtain ⟨g1, g2⟩ := gram_psd hf _ (plainObs_nonneg (fi := true) hD)
  have := descent_normal (P := dataProblem c lam a.alpha lower upper (init ++ batches.flatten)) g1 g2 hpos ha0 ha1 hbd (h2 _) hcd hn
    (j := (0 : Fin (p + 1))) (by simp [dataProblem, isRegularized, hri]) hlo0 hup0 hz
  have hcol : ((xs (init ++ batches.flatten)).map fun x => (l.map Prod.fst).map fun b => linPred (designRow true x) b).map
      (fun row => row.getD i 0) = (xs (init ++ batches.flatten)).map fun x => linPred (designRow true x) r := by
    rw [List.map_map]
    refine List.map_congr_left fun x _ => ?_
    simp only [Function.comp]
    rw [List.getD_eq_getElem?_getD, List.getElem?_map, List.getElem?_map]
    exact congrArg (fun o : Option (Row (designDim p true) × ℕ) =>
      ((o.map Prod.fst).map fun b => linPred (designRow true x) b).getD 0) hi
  rw [hcol]
  refine (residualSum_normal c hf lam a.alpha lower upper hD r).trans_le (this.trans_eq ?_)
  exact congrArg _ (coupling_intercept c hf lam a.alpha lower upper hD)

/-! ### Where it fails -/

/-- **C113 fails with input scaling.** Five points of the line `y = x`, the first four in the fit, the fifth in an update: least squares with
an intercept predicts them with a mean of `6/61`, their mean is `2/5`. -/
theorem C113_scaling_fails (perm perm' : ℕ → ℕ → List (Fin (designDim 1 true))) :
    ∃ s t y, LM.fit (olsConfig .all) perm lineInit (LM.new 1 true) = (.ok (), s) ∧
      LM.update (olsConfig .all) perm' lineNew s = (.ok (), t) ∧ t.predict (xs (lineInit ++ lineNew)) = .ok y ∧
      residualSum (olsConfig .all).forget (lineInit ++ lineNew) y = 2 - 30 / 61 := by
  obtain ⟨s, hs⟩ := lineInit_fit perm .all (.inl rfl) (LM.new 1 true)
  have inv0 := OlsInv.of_fit getEstimationMethod_ols lineInit_nonneg hs
  obtain ⟨t, ht, inv⟩ := inv0.update (olsConfig_valid _) (by norm_num) perm' lineNew (by simp [lineNew]) lineNew_nonneg
  have hd : designObs (olsConfig .all).scaleInputs (olsConfig .all).forget true lineInit lineInit ++
      designObs (olsConfig .all).scaleInputs (olsConfig .all).forget true (lineInit ++ lineNew) lineNew = lineMixed := by
    have h := lineMixed_eq
    simp only [mixedDesign, List.append_nil] at h
    exact h
  rw [hd] at inv
  have hmn : NonnegWeights (lineMixed : List (Obs 2)) := inv.nonneg
  have hc : t.coef = some (![6 / 61, 69 / 61] : Row 2) := by
    rw [inv.coef]
    congr 1
    refine olsBeta_eq_of_normal inv.isUnit ?_
    change initGram (xs lineMixed) (ws lineMixed) 0 *ᵥ (![6 / 61, 69 / 61] : Row 2) = initYGram (xs lineMixed) (ys lineMixed) (ws lineMixed) 0
    funext a
    rw [gram_mulVec (by norm_num) lineMixed hmn, initYGram_apply (by norm_num) lineMixed hmn]
    fin_cases a
    · simp [lineMixed, discSum_cons]; norm_num
    · simp [lineMixed, discSum_cons]; norm_num
  have hrow : ∀ z : ℝ, rowDot (designRow true (standardise (olsConfig .all).scaleInputs (olsConfig .all).forget (lineInit ++ lineNew)
      fun _ => z)) (![6 / 61, 69 / 61] : Row 2) = 6 / 61 + (z - 2 / 5) / (6 / 5) * (69 / 61) := by
    intro z
    change rowDot (designRow true (standardise .all 0 (lineInit ++ lineNew) fun _ => z)) _ = _
    rw [standardise_all]
    change ∑ j : Fin 2, (Fin.cons 1 (fun _ => (z - 2 / 5) / (6 / 5)) : Row 2) j * (![6 / 61, 69 / 61] : Row 2) j = _
    rw [Fin.sum_univ_two]
    simp
  have hp : t.predict (xs (lineInit ++ lineNew)) = .ok ((xs (lineInit ++ lineNew)).map fun x =>
      rowDot (designRow true (standardise (olsConfig .all).scaleInputs (olsConfig .all).forget (lineInit ++ lineNew) x))
        (![6 / 61, 69 / 61] : Row 2)) := by
    unfold LM.predict
    rw [inv.scaler, hc]
    simp only [scaledDesign, transform_canon, List.map_map]
    rfl
  refine ⟨s, t, _, hs, ht, hp, ?_⟩
  simp only [xs, lineInit, lineNew, List.cons_append, List.nil_append, List.map_cons, List.map_nil] at hrow ⊢
  simp only [hrow]
  change residualSum 0 _ _ = _
  simp [residualSum, discSum_cons]
  norm_num

/-- One feature and an intercept, `Ridge(lambda_reg=l)` with default start values and no bounds. -/
noncomputable def ridgeLine (l tol : ℝ) (m : ℕ) : LMConfig 1 true :=
  { forget := 0, scaleInputs := .off, regularizeIntercept := false,
    method := .obj (.ridge ⟨some l, none, .cyclic, none, none, tol, m⟩), ic := .bic }

/-- The coordinate descent of `ridgeLine` on a Gramian `[[a, b], [b, c]]`. -/
noncomputable def lineProblem (a b c u v l : ℝ) : CDProblem 2 :=
  ⟨!![a, b; b, c], ![u, v], l, 0, isRegularized 1 true false, fun _ => none, fun _ => none⟩

theorem softThreshold_no_penalty (u : ℝ) : softThreshold u 0 = u := by
  rcases softThreshold_cases (v := u) le_rfl with ⟨h, e⟩ | ⟨h, e⟩ | ⟨h, e⟩
  · rw [e]; ring
  · rw [e]; ring
  · rw [e]; exact (abs_eq_zero.mp (le_antisymm h (abs_nonneg u))).symm

theorem lineProblem_zero (a b c u v l x y : ℝ) : (lineProblem a b c u v l).newValue ![x, y] 0 = (u - b * y) / a := by
  unfold CDProblem.newValue CDProblem.target CDProblem.denom lineProblem
  simp [isRegularized, clipLow, clipHigh, Fin.sum_univ_two]
  ring

theorem lineProblem_one (a b c u v l x y : ℝ) : (lineProblem a b c u v l).newValue ![x, y] 1 = (v - b * x) / (c + l) := by
  have hr : (lineProblem a b c u v l).reg 1 = true := by simp [lineProblem, isRegularized]
  unfold CDProblem.newValue CDProblem.target CDProblem.denom
  simp only [hr, if_true]
  unfold lineProblem
  simp [clipLow, clipHigh, Fin.sum_univ_two, softThreshold_no_penalty]
  ring

theorem cyclic_two (perm : ℕ → List (Fin 2)) (i : ℕ) : cdOrder .cyclic perm i = [0, 1] := by
  unfold cdOrder
  rw [if_neg (by simp)]
  rfl

theorem lineProblem_sweep (a b c u v l x y : ℝ) {i : ℕ} (hi : i < 2) (perm : ℕ → List (Fin 2)) :
    pureSweep (lineProblem a b c u v l) i (cdOrder .cyclic perm i) ![x, y] =
      ![(u - b * y) / a, (v - b * ((u - b * y) / a)) / (c + l)] := by
  rw [cyclic_two]
  simp only [pureSweep, List.foldl_cons, List.foldl_nil, pureStep, hi, true_or, if_true]
  rw [lineProblem_zero]
  have h1 : Function.update (![x, y] : Row 2) 0 ((u - b * y) / a) = ![(u - b * y) / a, y] := by
    funext k; fin_cases k <;> simp
  rw [h1, lineProblem_one]
  funext k; fin_cases k <;> simp

theorem lineProblem_still (a b c u v l x y : ℝ) (h0 : x = 0 ∨ x = (u - b * y) / a) (h1 : y = (v - b * x) / (c + l)) {i : ℕ} (hi : 2 ≤ i)
    (perm : ℕ → List (Fin 2)) : pureSweep (lineProblem a b c u v l) i (cdOrder .cyclic perm i) ![x, y] = ![x, y] := by
  rw [cyclic_two]
  have e0 : pureStep (lineProblem a b c u v l) i ![x, y] 0 = ![x, y] := by
    unfold pureStep
    split_ifs with h
    · rw [lineProblem_zero]
      rcases h0 with h0 | h0
      · rcases h with h | h
        · omega
        · simp [h0] at h
      · rw [← h0]
        exact Function.update_eq_self (0 : Fin 2) (![x, y] : Row 2)
    · rfl
  have e1 : pureStep (lineProblem a b c u v l) i ![x, y] 1 = ![x, y] := by
    unfold pureStep
    split_ifs with h
    · rw [lineProblem_one, ← h1]
      exact Function.update_eq_self (1 : Fin 2) (![x, y] : Row 2)
    · rfl
  simp only [pureSweep, List.foldl_cons, List.foldl_nil, e0, e1]

/-- A fit of `ridgeLine` is the coordinate descent of `lineProblem` from the least squares solution. -/
theorem ridgeLine_run {a b c u v l x y : ℝ} (tol : ℝ) (m : ℕ) (hl : 0 ≤ l) (ha : 0 < a) (hcc : 0 < c) (hdet : a * c - b * b ≠ 0)
    (perm : ℕ → ℕ → List (Fin (designDim 1 true))) {d : List (Obs 1)} (hne : 2 ≤ d.length) (hd : NonnegWeights d) (hsum : (ws d).sum ≠ 1)
    (hG : initGram (xs (plainObs true d)) (ws (plainObs true d)) 0 = (!![a, b; b, c] : Matrix (Fin 2) (Fin 2) ℝ))
    (hh : initYGram (xs (plainObs true d)) (ys (plainObs true d)) (ws (plainObs true d)) 0 = (![u, v] : Row 2))
    (hu : a * x + b * y = u) (hv : b * x + c * y = v) (s₀ : LM 1 true) :
    ∃ (s : LM 1 true) (r : Row 2) (n : ℕ) (order : ℕ → List (Fin 2)), LM.fit (ridgeLine l tol m) perm d s₀ = (.ok (), s) ∧
      GramInv (ridgeLine l tol m) d (plainObs true d) s ∧ s.coef = some r ∧
      onlineCD (lineProblem a b c u v l) .cyclic order tol m ![x, y] = .ok (r, n) := by
  have hsel : (ToScale.off : ToScale 1).selection = none := rfl
  have hz : (lineProblem a b c u v l).NoZero := by
    intro j
    unfold CDProblem.denom lineProblem
    fin_cases j
    · simp [isRegularized]; exact ha.ne'
    · simp [isRegularized]; exact (by positivity : (0 : ℝ) < c + l).ne'
  have hst : (!![a, b; b, c] : Matrix (Fin 2) (Fin 2) ℝ)⁻¹ *ᵥ (![u, v] : Row 2) = ![x, y] := by
    have hunit : IsUnit (!![a, b; b, c] : Matrix (Fin 2) (Fin 2) ℝ).det := by
      rw [Matrix.det_fin_two_of]
      exact isUnit_iff_ne_zero.2 hdet
    have : (![u, v] : Row 2) = (!![a, b; b, c] : Matrix (Fin 2) (Fin 2) ℝ) *ᵥ ![x, y] := by
      funext k
      fin_cases k <;> simp [Matrix.mulVec, dotProduct, Fin.sum_univ_two, hu, hv]
    rw [this, Matrix.mulVec_mulVec, Matrix.nonsing_inv_mul _ hunit, Matrix.one_mulVec]
  have hrank : (!![a, b; b, c] : Matrix (Fin 2) (Fin 2) ℝ).rank = 2 := by
    have hunit : IsUnit (!![a, b; b, c] : Matrix (Fin 2) (Fin 2) ℝ) := by
      rw [Matrix.isUnit_iff_isUnit_det, Matrix.det_fin_two_of]
      exact isUnit_iff_ne_zero.2 hdet
    rw [Matrix.rank_of_isUnit _ hunit]
    simp
  have hstart : RidgeArgs.start (⟨some l, none, .cyclic, none, none, tol, m⟩ : RidgeArgs 2) !![a, b; b, c] ![u, v] = ![x, y] := by
    unfold RidgeArgs.start
    simp only [hrank, if_true]
    exact hst
  obtain ⟨⟨r, n⟩, hn⟩ : ∃ r, onlineCD (lineProblem a b c u v l) .cyclic (perm 0) tol m ![x, y] = .ok r := ⟨_, onlineCD_eq _ hz _ _ _ _ _⟩
  have hX : scaledDesign true (canonSc (ToScale.off : ToScale 1) 0 d) (xs d) = xs (plainObs true d) := by
    rw [scaledDesign_canon, designObs_off hsel]
  have hfb : RidgeArgs.fitBeta (⟨some l, none, .cyclic, none, none, tol, m⟩ : RidgeArgs 2) !![a, b; b, c] ![u, v]
      (isRegularized 1 true false) (perm 0) = .ok (r, l) := by
    unfold RidgeArgs.fitBeta
    simp only [setBound, RidgeArgs.penalty, Option.getD_some]
    simp only [bind, Except.bind]
    rw [hstart]
    erw [hn]
    rfl
  obtain ⟨s, hs⟩ := LM.fit_ridge_succeeds (ridgeLine l tol m) perm d s₀ ⟨le_rfl, one_pos, by simp [ridgeLine], by simp [ridgeLine]⟩
    (by simp) (by rintro (h | h)
                  · simp [h] at hne
                  · simp at h) (by simp [ridgeLine]) hsum _ rfl _ (scaler_fit_canon .off 0 d hne (.inl rfl)) (_, _) (by
      erw [hX, show ws d = ws (plainObs true d) from (ws_plainObs d).symm, show ys d = ys (plainObs true d) from (ys_plainObs d).symm, hG, hh]
      exact hfb)
  have inv := GramInv.of_fit (c := ridgeLine l tol m) rfl (by simp) hd hs
  change GramInv (ridgeLine l tol m) d (designObs (ToScale.off : ToScale 1) 0 true d d) s at inv
  rw [designObs_off hsel] at inv
  obtain ⟨_, _, _, _, _, m', sc, G, hm', _, _, _, _, _, e4, e5, _, _, e7⟩ := LM.fit_ok hs
  cases hm'
  obtain ⟨b', lam', hb, hm, hc⟩ := e7 _ rfl
  rw [inv.xGram] at e4; cases e4
  rw [← Option.some.inj (inv.yGram.symm.trans e5)] at hb
  refine ⟨s, r, n, perm 0, hs, inv, hc.trans ?_, hn⟩
  have key : ∀ (G : Matrix (Fin 2) (Fin 2) ℝ) (h : Row 2), G = !![a, b; b, c] → h = ![u, v] →
      RidgeArgs.fitBeta (⟨some l, none, .cyclic, none, none, tol, m⟩ : RidgeArgs 2) G h (isRegularized 1 true false) (perm 0) =
        .ok (b', lam') → b' = r := by
    rintro _ _ rfl rfl h
    rw [hfb] at h
    cases h
    rfl
  exact congrArg some (key _ _ hG hh hb)

/-- A fit of `ridgeLine` whose first sweep already gives the final coefficients. -/
theorem ridgeLine_fit {a b c u v l x y r0 r1 : ℝ} (tol : ℝ) (m : ℕ) (hl : 0 ≤ l) (ha : 0 < a) (hcc : 0 < c) (hdet : a * c - b * b ≠ 0)
    (perm : ℕ → ℕ → List (Fin (designDim 1 true))) {d : List (Obs 1)} (hne : 2 ≤ d.length) (hd : NonnegWeights d) (hsum : (ws d).sum ≠ 1)
    (hG : initGram (xs (plainObs true d)) (ws (plainObs true d)) 0 = (!![a, b; b, c] : Matrix (Fin 2) (Fin 2) ℝ))
    (hh : initYGram (xs (plainObs true d)) (ys (plainObs true d)) (ws (plainObs true d)) 0 = (![u, v] : Row 2))
    (hu : a * x + b * y = u) (hv : b * x + c * y = v) (h0 : r0 = x) (h1 : r1 = (v - b * x) / (c + l))
    (h2 : r0 = 0 ∨ r0 = (u - b * r1) / a) (s₀ : LM 1 true) :
    ∃ s : LM 1 true, LM.fit (ridgeLine l tol m) perm d s₀ = (.ok (), s) ∧ GramInv (ridgeLine l tol m) d (plainObs true d) s ∧
      s.coef = some (![r0, r1] : Row 2) := by
  obtain ⟨s, r, n, order, hs, inv, hc, hn⟩ := ridgeLine_run (x := x) (y := y) tol m hl ha hcc hdet perm hne hd hsum hG hh hu hv s₀
  have hseq : ∀ (q : ℕ → List (Fin 2)) (n : ℕ), cdSeq (lineProblem a b c u v l) .cyclic q ![x, y] (n + 1) = ![r0, r1] := by
    intro q n
    induction n with
    | zero =>
      rw [cdSeq_succ]
      change pureSweep _ 1 (cdOrder .cyclic q 1) ![x, y] = _
      rw [lineProblem_sweep _ _ _ _ _ _ _ _ (by norm_num)]
      have : (u - b * y) / a = x := by rw [div_eq_iff ha.ne']; linarith
      rw [this, h0, h1]
    | succ n ih =>
      rw [cdSeq_succ, ih]
      exact lineProblem_still _ _ _ _ _ _ _ _ h2 (by rw [h0]; exact h1) (by omega) _
  obtain ⟨_, k1, _, k2, _⟩ := onlineCD_seq hn
  obtain ⟨k, rfl⟩ := Nat.exists_eq_add_of_le' k1
  rw [hseq] at k2
  exact ⟨s, hs, inv, hc.trans (congrArg some k2)⟩

/-- Two observations of weight one. -/
noncomputable def pairOf (x y x' y' : ℝ) : List (Obs 1) := [⟨fun _ => x, y, 1⟩, ⟨fun _ => x', y', 1⟩]

theorem pairOf_nonneg (x y x' y' : ℝ) : NonnegWeights (pairOf x y x' y') := by simp [NonnegWeights, pairOf]

theorem pairOf_plain (x y x' y' : ℝ) :
    plainObs true (pairOf x y x' y') = ([⟨![1, x], y, 1⟩, ⟨![1, x'], y', 1⟩] : List (Obs 2)) := by
  simp only [plainObs, pairOf, List.map_cons, List.map_nil, designRow_one]
  rfl

theorem pairOf_gram (x y x' y' : ℝ) :
    initGram (xs (plainObs true (pairOf x y x' y'))) (ws (plainObs true (pairOf x y x' y'))) 0 =
      (!![2, x + x'; x + x', x ^ 2 + x' ^ 2] : Matrix (Fin 2) (Fin 2) ℝ) := by
  have hn := plainObs_nonneg (fi := true) (pairOf_nonneg x y x' y')
  rw [pairOf_plain] at hn ⊢
  have hn' : NonnegWeights ([⟨![1, x], y, 1⟩, ⟨![1, x'], y', 1⟩] : List (Obs 2)) := hn
  have key : ∀ i j : Fin 2, initGram (xs ([⟨![1, x], y, 1⟩, ⟨![1, x'], y', 1⟩] : List (Obs 2)))
      (ws ([⟨![1, x], y, 1⟩, ⟨![1, x'], y', 1⟩] : List (Obs 2))) 0 i j =
        (!![2, x + x'; x + x', x ^ 2 + x' ^ 2] : Matrix (Fin 2) (Fin 2) ℝ) i j := by
    intro i j
    rw [initGram_apply (by norm_num) _ hn']
    fin_cases i <;> fin_cases j <;> simp [discSum_cons] <;> ring
  exact Matrix.ext key

theorem pairOf_yGram (x y x' y' : ℝ) :
    initYGram (xs (plainObs true (pairOf x y x' y'))) (ys (plainObs true (pairOf x y x' y')))
      (ws (plainObs true (pairOf x y x' y'))) 0 = (![y + y', y * x + y' * x'] : Row 2) := by
  have hn := plainObs_nonneg (fi := true) (pairOf_nonneg x y x' y')
  rw [pairOf_plain] at hn ⊢
  have hn' : NonnegWeights ([⟨![1, x], y, 1⟩, ⟨![1, x'], y', 1⟩] : List (Obs 2)) := hn
  have key : ∀ i : Fin 2, initYGram (xs ([⟨![1, x], y, 1⟩, ⟨![1, x'], y', 1⟩] : List (Obs 2)))
      (ys ([⟨![1, x], y, 1⟩, ⟨![1, x'], y', 1⟩] : List (Obs 2)))
      (ws ([⟨![1, x], y, 1⟩, ⟨![1, x'], y', 1⟩] : List (Obs 2))) 0 i = (![y + y', y * x + y' * x'] : Row 2) i := by
    intro i
    rw [initYGram_apply (by norm_num) _ hn']
    fin_cases i <;> simp [discSum_cons]
  exact funext key

theorem linPred_line (z r0 r1 : ℝ) : linPred (designRow true (fun _ : Fin 1 => z)) (![r0, r1] : Row 2) = r0 + z * r1 := by
  rw [designRow_one]
  change ∑ j : Fin 2, (![1, z] : Row 2) j * (![r0, r1] : Row 2) j = _
  rw [Fin.sum_univ_two]
  simp

/-- **C113 fails when the descent passes an intercept of exactly zero.** `Ridge(lambda_reg=10)` on the points `(1, 1)` and `(3, 3)`: the
start values are the least squares solution `(0, 1)`, the intercept stays zero in the first sweep and is skipped in all later ones.
Whatever the tolerance and the number of iterations, the fit ends at `(0, 1/2)` and the residuals sum to `2`. -/
theorem C113_zero_intercept_fails (tol : ℝ) (m : ℕ) (perm : ℕ → ℕ → List (Fin (designDim 1 true))) (s₀ : LM 1 true) :
    ∃ s y, LM.fit (ridgeLine 10 tol m) perm (pairOf 1 1 3 3) s₀ = (.ok (), s) ∧ s.predict (xs (pairOf 1 1 3 3)) = .ok y ∧
      residualSum (ridgeLine 10 tol m).forget (pairOf 1 1 3 3) y = 2 := by
  obtain ⟨s, hs, inv, hc⟩ := ridgeLine_fit (l := 10) (x := 0) (y := 1) (r0 := 0) (r1 := 1 / 2) tol m (by norm_num) (by norm_num)
    (by norm_num) (by norm_num) perm (d := pairOf 1 1 3 3) (by simp [pairOf]) (pairOf_nonneg _ _ _ _) (by simp [pairOf, ws])
    (pairOf_gram _ _ _ _) (pairOf_yGram _ _ _ _) (by norm_num) (by norm_num) rfl (by norm_num) (.inl rfl) s₀
  refine ⟨s, _, hs, inv.predict_plain rfl hc _, ?_⟩
  change residualSum 0 _ _ = _
  simp only [pairOf, xs, List.map_cons, List.map_nil]
  erw [linPred_line, linPred_line]
  simp [residualSum, discSum_cons]
  norm_num

/-! ### The hypotheses are satisfiable -/

/-- Least squares with an intercept, a fit and an update. -/
example (perm : ℕ → ℕ → List (Fin (designDim 1 true))) (rng : ℕ → ℕ → ℕ → List (Fin (designDim 1 true))) :
    ∃ s t y, LM.fit (olsConfig .off) perm lineInit (LM.new 1 true) = (.ok (), s) ∧
      LM.updates (olsConfig .off) rng 0 [[⟨fun _ => 2, 5, 3⟩]] s = (.ok (), t) ∧
      t.predict (xs (lineInit ++ [⟨fun _ => 2, 5, 3⟩])) = .ok y ∧ residualSum 0 (lineInit ++ [⟨fun _ => 2, 5, 3⟩]) y = 0 := by
  obtain ⟨s, hs⟩ := lineInit_fit perm .off (.inr rfl) (LM.new 1 true)
  obtain ⟨t, y, h1, h2, _, h4⟩ := C113_least_squares (olsConfig .off) rfl rfl rng perm lineInit [[⟨fun _ => 2, 5, 3⟩]] (by simp)
    lineInit_nonneg (by simp [NonnegWeights]) _ s hs
  exact ⟨s, t, y, hs, h1, h2, h4 rfl⟩

/-- A fit with scaled inputs. -/
example (perm : ℕ → ℕ → List (Fin (designDim 1 true))) : ∃ s y, LM.fit (olsConfig .all) perm lineInit (LM.new 1 true) = (.ok (), s) ∧
    s.predict (xs lineInit) = .ok y ∧ residualSum 0 lineInit y = 0 := by
  obtain ⟨s, hs⟩ := lineInit_fit perm .all (.inl rfl) (LM.new 1 true)
  obtain ⟨y, h1, h2⟩ := C113_fit (olsConfig .all) rfl perm lineInit lineInit_nonneg _ s hs
  exact ⟨s, y, hs, h1, h2⟩

/-- When the second sweep changes nothing it is the last one. -/
theorem onlineCD_two {q : ℕ} {P : CDProblem q} {sel : Selection} {order : ℕ → List (Fin q)} {tol : ℝ} {m : ℕ} (hm : 1 ≤ m) {b r : Row q}
    {n : ℕ} (hr : onlineCD P sel order tol m b = .ok (r, n))
    (hc : cdConverged tol (cdSeq P sel order b 2) (cdSeq P sel order b 1)) : n ≤ 2 := by
  obtain ⟨_, e⟩ := (onlineCD_ok_iff ..).mp hr
  unfold pureCD at e
  rw [pureLoop_eq] at e
  split_ifs at e with h1 h2
  · exact (congrArg Prod.snd e).symm.le.trans (by norm_num)
  · omega
  · rw [pureLoop_eq, if_pos] at e
    · exact (congrArg Prod.snd e).symm.le
    · exact hc

/-- Ridge regression with a penalised slope and an intercept different from zero: the points `(-1, 0)` and `(1, 2)` with
`Ridge(lambda_reg=2)`.  The descent ends by the convergence test after at most two sweeps. -/
example (perm : ℕ → ℕ → List (Fin (designDim 1 true))) (hp : ∀ i j, (perm i j).Perm (List.finRange _)) :
    ∃ (s : LM 1 true) (y : List ℝ), LM.fit (ridgeLine 2 (1 / 10000) 1000) perm (pairOf (-1) 0 1 2) (LM.new 1 true) = (.ok (), s) ∧
      s.coef = some (![1, 1 / 2] : Row 2) ∧ s.predict (xs (pairOf (-1) 0 1 2)) = .ok y ∧
      residualSum 0 (pairOf (-1) 0 1 2) y = 0 := by
  obtain ⟨s, hs, inv, hc⟩ := ridgeLine_fit (l := 2) (x := 1) (y := 1) (r0 := 1) (r1 := 1 / 2) (1 / 10000) 1000 (by norm_num) (by norm_num)
    (by norm_num) (by norm_num) perm (d := pairOf (-1) 0 1 2) (by simp [pairOf]) (pairOf_nonneg _ _ _ _) (by simp [pairOf, ws])
    (pairOf_gram _ _ _ _) (pairOf_yGram _ _ _ _) (by norm_num) (by norm_num) rfl (by norm_num) (.inr (by norm_num)) (LM.new 1 true)
  obtain ⟨lam, b, r, n, order, y, h0, h1, h2, h3, h4⟩ := C113_ridge_partial (ridgeLine 2 (1 / 10000) 1000) _ rfl rfl rfl (by simp)
    (fun _ => none) (fun _ => none) rfl rfl (fun _ _ _ h => by cases h) rfl rfl perm hp (fun _ => perm) (fun _ => hp) (pairOf (-1) 0 1 2) []
    (pairOf_nonneg _ _ _ _) (by simp) (by simp) _ s s hs rfl
  rw [List.flatten_nil, List.append_nil] at h2 h3 h4
  obtain rfl : r = (![1, 1 / 2] : Row 2) := Option.some.inj (h1.symm.trans hc)
  have hn : n ≤ 2 := by
    refine onlineCD_two (by norm_num) h3 ?_
    have hP : dataProblem (ridgeLine 2 (1 / 10000) 1000) lam 0 (fun _ => none) (fun _ => none) (pairOf (-1) 0 1 2) =
        lineProblem 2 (-1 + 1) ((-1) ^ 2 + 1 ^ 2) (0 + 2) (0 * -1 + 2 * 1) lam := by
      have e1 := pairOf_gram (-1) 0 1 2
      have e2 := pairOf_yGram (-1) 0 1 2
      unfold dataProblem lineProblem
      change (⟨initGram (xs (plainObs true (pairOf (-1) 0 1 2))) (ws (plainObs true (pairOf (-1) 0 1 2))) 0,
        initYGram (xs (plainObs true (pairOf (-1) 0 1 2))) (ys (plainObs true (pairOf (-1) 0 1 2)))
          (ws (plainObs true (pairOf (-1) 0 1 2))) 0, lam, 0, _, _, _⟩ : CDProblem 2) = _
      erw [e1, e2]
      rfl
    have key : ∀ (P : CDProblem 2) (b : Row 2), P = lineProblem 2 (-1 + 1) ((-1) ^ 2 + 1 ^ 2) (0 + 2) (0 * -1 + 2 * 1) lam →
        cdConverged (1 / 10000) (cdSeq P .cyclic order b 2) (cdSeq P .cyclic order b 1) := by
      rintro _ b rfl
      obtain ⟨b0, b1, rfl⟩ : ∃ b0 b1, b = ![b0, b1] := ⟨b 0, b 1, by funext k; fin_cases k <;> rfl⟩
      have e1 : cdSeq (lineProblem 2 (-1 + 1) ((-1) ^ 2 + 1 ^ 2) (0 + 2) (0 * -1 + 2 * 1) lam) .cyclic order ![b0, b1] 1 = _ :=
        lineProblem_sweep _ _ _ _ _ _ _ _ (by norm_num) order
      have e2 : cdSeq (lineProblem 2 (-1 + 1) ((-1) ^ 2 + 1 ^ 2) (0 + 2) (0 * -1 + 2 * 1) lam) .cyclic order ![b0, b1] 2 =
          cdSeq (lineProblem 2 (-1 + 1) ((-1) ^ 2 + 1 ^ 2) (0 + 2) (0 * -1 + 2 * 1) lam) .cyclic order ![b0, b1] 1 := by
        rw [cdSeq_succ, e1]
        exact lineProblem_still _ _ _ _ _ _ _ _ (.inr (by norm_num)) (by norm_num) le_rfl _
      rw [e2]
      unfold cdConverged
      rw [sub_self]
      exact (maxAbs_le le_rfl fun k => by simp).trans (mul_nonneg (by norm_num) (maxAbs_nonneg _))
    exact key _ b hP
  have := h4 (lt_of_le_of_lt hn (by norm_num)) (.inr (by norm_num))
  refine ⟨s, y, hs, hc, h2, ?_⟩
  have hz : ∑ k : Fin 1, |discSum (0 : ℝ) (pairOf (-1) 0 1 2) fun o => o.w * o.x k| = 0 := by
    simp [pairOf, discSum_cons]
  change |residualSum 0 _ _| ≤ _ * _ * ∑ k : Fin 1, |discSum (0 : ℝ) (pairOf (-1) 0 1 2) fun o => o.w * o.x k| at this
  rw [hz, mul_zero] at this
  exact abs_eq_zero.1 (le_antisymm this (abs_nonneg _))

/-- `OnlineLinearModel(method="lasso", scale_inputs=False)`, everything else default. -/
noncomputable def lassoLine : LMConfig 1 true :=
  { forget := 0, scaleInputs := .off, regularizeIntercept := false, method := .str "lasso", ic := .bic }

/-- The fit of `lassoLine` to the points `(-1, c)` and `(1, c + 2)` succeeds. -/
theorem lassoLine_fit (c : ℝ) (perm : ℕ → ℕ → List (Fin (designDim 1 true))) (s₀ : LM 1 true) :
    ∃ (s : LM 1 true) (path : List (Row 2)), LM.fit lassoLine perm (pairOf (-1) c 1 (c + 2)) s₀ = (.ok (), s) ∧ s.coefPath = some path ∧
      path.length = 100 := by
  have hsel : (ToScale.off : ToScale 1).selection = none := rfl
  have hm : getEstimationMethod (q := designDim 1 true) lassoLine.method = .ok (.path lassoDefault) := rfl
  have hG := pairOf_gram (-1) c 1 (c + 2)
  have hh := pairOf_yGram (-1) c 1 (c + 2)
  have hX : scaledDesign true (canonSc (ToScale.off : ToScale 1) 0 (pairOf (-1) c 1 (c + 2))) (xs (pairOf (-1) c 1 (c + 2))) =
      xs (plainObs true (pairOf (-1) c 1 (c + 2))) := by
    rw [scaledDesign_canon, designObs_off hsel]
  have hmax : getLambdaMax (!![2, -1 + 1; -1 + 1, (-1) ^ 2 + 1 ^ 2] : Matrix (Fin 2) (Fin 2) ℝ) ![c + (c + 2), c * -1 + (c + 2) * 1]
      (isRegularized 1 true false) = .ok 2 := by
    have hfil : (List.finRange 2).filter (fun j : Fin 2 => !(isRegularized 1 true false : Fin 2 → Bool) j) = [(0 : Fin 2)] := rfl
    unfold getLambdaMax
    rw [hfil]
    have hr : List.finRange 2 = [0, 1] := rfl
    have hv : c * -1 + (c + 2) * 1 = 2 := by ring
    simp [hr, npMax, hv]
    rw [mul_div_cancel₀ _ two_ne_zero, sub_self, abs_zero]
    norm_num
  obtain ⟨lams, hl⟩ : ∃ lams, lassoDefault.lambdaPath (!![2, -1 + 1; -1 + 1, (-1) ^ 2 + 1 ^ 2] : Matrix (Fin 2) (Fin 2) ℝ)
      ![c + (c + 2), c * -1 + (c + 2) * 1] (isRegularized 1 true false) = .ok lams := by
    have hg : ∃ lams, geomspace 2 (2 * lassoDefault.lambdaEps) lassoDefault.lambdaN = .ok lams := by
      unfold geomspace
      rw [if_neg (by norm_num [lassoDefault])]
      exact ⟨_, rfl⟩
    obtain ⟨lams, hg⟩ := hg
    exact ⟨lams, lambdaPath_ok.mpr ⟨_, hmax, hg⟩⟩
  obtain ⟨path, hpath, hlen⟩ := fitBetaPath_total (p := 2) (a := lassoDefault) perm (rfl : setBound 2 lassoDefault.lower = .ok fun _ => none)
    (rfl : setBound 2 lassoDefault.upper = .ok fun _ => none) hl (by
      intro lam _ j
      have ha : lassoDefault.alpha = 1 := rfl
      rw [ha]
      fin_cases j <;> simp <;> norm_num)
  obtain ⟨s, hs, hc, _⟩ := LM.fit_path_succeeds lassoLine perm (pairOf (-1) c 1 (c + 2)) s₀
    ⟨le_rfl, one_pos, by simp [lassoLine], by simp [lassoLine]⟩ (by simp [lassoLine]) (by simp [pairOf]) (by simp [lassoLine])
    (by simp [pairOf, ws]) lassoDefault hm _ (scaler_fit_canon .off 0 _ (by simp [pairOf]) (.inl rfl)) path (by
      erw [hX, show ws (pairOf (-1) c 1 (c + 2)) = ws (plainObs true (pairOf (-1) c 1 (c + 2))) from (ws_plainObs _).symm,
        show ys (pairOf (-1) c 1 (c + 2)) = ys (plainObs true (pairOf (-1) c 1 (c + 2))) from (ys_plainObs _).symm, hG, hh]
      exact hpath) (by
      intro h0
      rw [h0] at hlen
      simp [lassoDefault] at hlen)
  exact ⟨s, path, hs, hc, hlen⟩

/-- The fit of `lassoLine` to the points `(-1, 0)` and `(1, 2)` succeeds, and `C113_path_partial` applies to it. -/
example (perm : ℕ → ℕ → List (Fin (designDim 1 true))) (hp : ∀ i j, (perm i j).Perm (List.finRange _)) :
    ∃ (s : LM 1 true) (l : List (Row 2 × ℕ)) (Y : List (List ℝ)), LM.fit lassoLine perm (pairOf (-1) 0 1 2) (LM.new 1 true) = (.ok (), s) ∧
      s.coefPath = some (l.map Prod.fst) ∧ l.length = 100 ∧ s.predictPath (xs (pairOf (-1) 0 1 2)) = .ok Y ∧
      ∀ (i : ℕ) (r : Row 2) (n : ℕ), l[i]? = some (r, n) → 1 ≤ n → n < 1000 + 1 → n = 1 ∨ r 0 ≠ 0 →
        residualSum 0 (pairOf (-1) 0 1 2) (Y.map fun row => row.getD i 0) = 0 := by
  have hm : getEstimationMethod (q := designDim 1 true) lassoLine.method = .ok (.path lassoDefault) := rfl
  obtain ⟨s, path, hs, hc, hlen⟩ := lassoLine_fit 0 perm (LM.new 1 true)
  rw [zero_add] at hs
  obtain ⟨lams', old, l, which, order, Y, h1, h2, h3, h4⟩ := C113_path_partial lassoLine lassoDefault hm rfl rfl (by norm_num [lassoDefault])
    (by norm_num [lassoDefault]) (by norm_num [lassoDefault]) (fun _ => none) (fun _ => none) rfl rfl (fun _ _ _ h => by cases h) rfl rfl
    perm hp (fun _ => perm) (fun _ => hp) (pairOf (-1) 0 1 2) [] (pairOf_nonneg _ _ _ _) (by simp) (by simp) _ s s hs rfl
  rw [List.flatten_nil, List.append_nil] at h2 h4
  refine ⟨s, l, Y, hs, h1, ?_, h2, fun i r n hi hn1 hn hz => ?_⟩
  · have := congrArg List.length (Option.some.inj (h1.symm.trans hc))
    rw [List.length_map] at this
    exact this.trans hlen
  · have := h4 i r n hi hn1 hn hz
    have hz' : ∑ k : Fin 1, |discSum (0 : ℝ) (pairOf (-1) 0 1 2) fun o => o.w * o.x k| = 0 := by
      simp [pairOf, discSum_cons]
    change |residualSum 0 _ _| ≤ _ * _ * ∑ k : Fin 1, |discSum (0 : ℝ) (pairOf (-1) 0 1 2) fun o => o.w * o.x k| at this
    rw [hz', mul_zero] at this
    exact abs_eq_zero.1 (le_antisymm this (abs_nonneg _))

end Ondil
