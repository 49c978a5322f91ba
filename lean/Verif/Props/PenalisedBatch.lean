import Verif.Props.Improvement
import Verif.Props.CDAccuracy

/-!
# C111: penalised fits along a stream agree with a fit on all data up to the tolerance
-/

open scoped BigOperators Matrix

namespace Ondil

variable {p : ℕ} {fi : Bool}

theorem euclid_comm {q : ℕ} (b c : Row q) : euclid b c = euclid c b := by
  unfold euclid
  congr 1
  exact Finset.sum_congr rfl fun j _ => by ring

/-- Two runs of coordinate descent on one problem, both ended by the convergence test. -/
theorem descents_close {q : ℕ} {P : CDProblem q} (hG : P.G.IsSymm) (hlam : 0 ≤ P.lam) (ha0 : 0 ≤ P.alpha) {mu : ℝ}
    (hmu : 0 < mu) (hcv : CurvedAtLeast P.G P.lam P.alpha P.reg mu) (hb : BoundsOk P.lower P.upper) {sel : Selection}
    {perm perm' : ℕ → List (Fin q)} (hperm : ∀ i, (perm i).Perm (List.finRange q)) (hperm' : ∀ i, (perm' i).Perm (List.finRange q))
    {tol : ℝ} (htol : 0 ≤ tol) {m : ℕ} {b b' r r' : Row q} {n n' : ℕ} (hr : onlineCD P sel perm tol m b = .ok (r, n))
    (hr' : onlineCD P sel perm' tol m b' = .ok (r', n')) (hn : n < m + 1) (hn' : n' < m + 1) (hz : ∀ j, r j = 0 ↔ r' j = 0) :
    euclid r r' ≤ 2 * tol * max (maxAbs r) (maxAbs r') * Real.sqrt (∑ j, coupling P.G j ^ 2) / mu := by
  have hS := Real.sqrt_nonneg (∑ j, coupling P.G j ^ 2)
  have mono : ∀ x, x ≤ max (maxAbs r) (maxAbs r') →
      2 * tol * x * Real.sqrt (∑ j, coupling P.G j ^ 2) / mu ≤
        2 * tol * max (maxAbs r) (maxAbs r') * Real.sqrt (∑ j, coupling P.G j ^ 2) / mu := by
    intro x hx
    gcongr
  rcases le_total (enetObjective P.G P.h P.lam P.alpha P.reg r') (enetObjective P.G P.h P.lam P.alpha P.reg r) with h | h
  · exact (C97_distance P hG hlam ha0 mu hmu hcv sel perm hperm tol htol m b r n hr hn r' (C22_bounds P hb _ _ _ _ _ _ _ hr')
      (.inr fun j hj => (hz j).1 hj) h).trans (mono _ (le_max_left _ _))
  · rw [euclid_comm]
    exact (C97_distance P hG hlam ha0 mu hmu hcv sel perm' hperm' tol htol m b' r' n' hr' hn' r (C22_bounds P hb _ _ _ _ _ _ _ hr)
      (.inr fun j hj => (hz j).2 hj) h).trans (mono _ (le_max_right _ _))

theorem GramInv.plain {c : LMConfig p fi} (hs : c.scaleInputs = .off) {init : List (Obs p)} {batches : List (List (Obs p))} {s : LM p fi}
    (inv : GramInv c (init ++ batches.flatten)
      (designObs c.scaleInputs c.forget fi init init ++ mixedDesign c.scaleInputs c.forget fi init batches) s) :
    GramInv c (init ++ batches.flatten) (plainObs fi (init ++ batches.flatten)) s := by
  have hsel : c.scaleInputs.selection = none := by rw [hs]; rfl
  rwa [designObs_off hsel, mixedDesign_off hsel, ← plainObs_append] at inv

/-- The penalised regression problem of the data `d`: Gramians of the data, penalty, bounds. -/
noncomputable def dataProblem (c : LMConfig p fi) (lam alpha : ℝ) (lower upper : Fin (designDim p fi) → Option ℝ) (d : List (Obs p)) :
    CDProblem (designDim p fi) :=
  ⟨initGram (xs (plainObs fi d)) (ws (plainObs fi d)) c.forget,
    initYGram (xs (plainObs fi d)) (ys (plainObs fi d)) (ws (plainObs fi d)) c.forget, lam, alpha,
    isRegularized p fi c.regularizeIntercept, lower, upper⟩

/-- **C111, ridge regression** with a given penalty, without scaling.  The coefficients `r` after a fit, updates and a last update, and
the coefficients `r'` of one fit on all the data are both results of coordinate descent on the same problem; if both
descents were ended by the convergence test (`n`, `n'` sweeps, fewer than the limit) and have the same zeros, they differ by at
most `2 * tolerance * max|coefficient| * ‖coupling‖ / mu`, where `mu` is the curvature of the penalised criterion. -/
theorem C111_ridge (c : LMConfig p fi) (a : RidgeArgs (designDim p fi)) (ha : getEstimationMethod c.method = .ok (.ridge a))
    (hs : c.scaleInputs = .off) (lam : ℝ) (hl : a.lambdaReg = some lam) (hlam : 0 ≤ lam) (htol : 0 ≤ a.tolerance)
    (lower upper : Fin (designDim p fi) → Option ℝ) (hlo : setBound _ a.lower = .ok lower) (hup : setBound _ a.upper = .ok upper)
    (hbd : BoundsOk lower upper) (perm perm' perm'' : ℕ → ℕ → List (Fin (designDim p fi)))
    (hp' : ∀ i j, (perm' i j).Perm (List.finRange _)) (hp'' : ∀ i j, (perm'' i j).Perm (List.finRange _))
    (rng : ℕ → ℕ → ℕ → List (Fin (designDim p fi))) (init : List (Obs p)) (batches : List (List (Obs p))) (new : List (Obs p))
    (hwi : NonnegWeights init) (hne : ∀ b ∈ batches ++ [new], b ≠ []) (hwb : ∀ b ∈ batches ++ [new], NonnegWeights b)
    (s₀ s₁ s t sOnline sBatch : LM p fi) (hfit : LM.fit c perm init s₀ = (.ok (), s))
    (hups : LM.updates c rng 0 batches s = (.ok (), t)) (hnew : LM.update c perm' new t = (.ok (), sOnline))
    (hbatch : LM.fit c perm'' (init ++ (batches ++ [new]).flatten) s₁ = (.ok (), sBatch)) (mu : ℝ) (hmu : 0 < mu)
    (hcv : CurvedAtLeast (initGram (xs (plainObs fi (init ++ (batches ++ [new]).flatten)))
      (ws (plainObs fi (init ++ (batches ++ [new]).flatten))) c.forget) lam 0 (isRegularized p fi c.regularizeIntercept) mu) :
    ∃ r r' b b' n n', t.coef = some b ∧ sOnline.coef = some r ∧ sBatch.coef = some r' ∧
      onlineCD (dataProblem c lam 0 lower upper (init ++ (batches ++ [new]).flatten)) a.selection (perm' 0) a.tolerance a.maxIterations b =
        .ok (r, n) ∧
      onlineCD (dataProblem c lam 0 lower upper (init ++ (batches ++ [new]).flatten)) a.selection (perm'' 0) a.tolerance a.maxIterations b' =
        .ok (r', n') ∧
      (n < a.maxIterations + 1 → n' < a.maxIterations + 1 → (∀ j, r j = 0 ↔ r' j = 0) →
        euclid r r' ≤ 2 * a.tolerance * max (maxAbs r) (maxAbs r') *
          Real.sqrt (∑ j, coupling (dataProblem c lam 0 lower upper (init ++ (batches ++ [new]).flatten)).G j ^ 2) / mu) := by
  have hsel : c.scaleInputs.selection = none := by rw [hs]; rfl
  have inv := (GramInv.of_fit ha (by simp) hwi hfit).updates batches (fun b hb => hne b (by simp [hb]))
    (fun b hb => hwb b (by simp [hb])) hups
  have inv' := (inv.plain hs).update (hne new (by simp)) (hwb new (by simp)) hnew
  rw [designObs_off hsel, ← plainObs_append, show init ++ batches.flatten ++ new = init ++ (batches ++ [new]).flatten by simp] at inv'
  set D := init ++ (batches ++ [new]).flatten with hD
  have hDn : NonnegWeights D := by
    intro o ho
    rw [hD, List.mem_append, List.mem_flatten] at ho
    rcases ho with h | ⟨b, hb, h⟩
    · exact hwi o h
    · exact hwb b hb o h
  have invB := GramInv.of_fit ha (by simp) hDn hbatch
  rw [designObs_off hsel] at invB
  obtain ⟨_, _, _, _, _, m', _, _, hm', _, _, _, _, _, _, _, _, _, e7⟩ := LM.fit_ok hfit
  rw [ha] at hm'; cases hm'
  obtain ⟨_, lam1, hfb, hm, _⟩ := e7 a rfl
  have hlam1 : lam1 = lam := by
    unfold RidgeArgs.fitBeta at hfb
    simp only [bind_ok] at hfb
    obtain ⟨lo, h1, up, h2, r, hr, h3⟩ := hfb
    cases h3
    unfold RidgeArgs.penalty
    rw [hl]; rfl
  subst hlam1
  have hms := updates_method batches hups
  obtain ⟨hv, _, _, _, _, m, _, G, _, _, _, q3, _, _, _, _, r1, _, _, _, r5, r6, _, _, r8⟩ := LM.update_ok hnew
  rw [hms, hm] at q3; cases q3
  obtain ⟨b, lam', r, h1, h2, h3, h4⟩ := r8 _ rfl
  cases h2
  rw [inv'.xGram] at r5; cases r5
  have e5' := inv'.yGram.symm.trans r6
  rw [← Option.some.inj e5'] at h3
  unfold RidgeArgs.updateBeta at h3
  simp only [bind_ok] at h3
  obtain ⟨lo, g1, up, g2, x, hx, h3⟩ := h3
  cases h3
  rw [hlo] at g1; cases g1
  rw [hup] at g2; cases g2
  obtain ⟨_, _, _, _, _, m'', _, G', hm'', _, _, _, _, _, e4, e5, _, _, e7'⟩ := LM.fit_ok hbatch
  rw [ha] at hm''; cases hm''
  obtain ⟨r', lam2, hfb', _, hc'⟩ := e7' a rfl
  rw [invB.xGram] at e4; cases e4
  have e6' := invB.yGram.symm.trans e5
  rw [← Option.some.inj e6'] at hfb'
  unfold RidgeArgs.fitBeta at hfb'
  simp only [bind_ok] at hfb'
  obtain ⟨lo, k1, up, k2, x', hx', k3⟩ := hfb'
  cases k3
  rw [hlo] at k1; cases k1
  rw [hup] at k2; cases k2
  have hpen : ∀ G, a.penalty G = lam1 := fun G => by unfold RidgeArgs.penalty; rw [hl]; rfl
  rw [hpen] at hx'
  refine ⟨x.1, x'.1, b, _, x.2, x'.2, h1, h4, hc', hx, hx', fun hn hn' hz => ?_⟩
  exact descents_close (P := dataProblem c lam1 0 lower upper D) (gram_psd hv.2.1.le _ (plainObs_nonneg hDn)).1 hlam le_rfl hmu hcv hbd
    (hp' 0) (hp'' 0) htol hx hx' hn hn' hz

/-- With a penalty on every coefficient the curvature is at least the penalty, whatever the data. -/
theorem ridge_curved {forget : ℝ} (hf : forget ≤ 1) (d : List (Obs (designDim p fi))) (hw : NonnegWeights d) (lam : ℝ) (ri : Bool)
    (h : fi = false ∨ ri = true) : CurvedAtLeast (initGram (xs d) (ws d) forget) lam 0 (isRegularized p fi ri) lam := by
  intro v
  have hreg : ∀ j, isRegularized p fi ri j = true := by
    intro j
    rcases h with rfl | rfl
    · simp [isRegularized]
    · cases fi
      · simp [isRegularized]
      · exact Fin.cases rfl (fun _ => rfl) j
  unfold smoothForm
  simp only [hreg, if_true, sub_zero, mul_one]
  have := (gram_psd hf d hw).2 v
  have e : ∑ i, v i * ∑ j, initGram (xs d) (ws d) forget i j * v j = ∑ i, ∑ j, v i * initGram (xs d) (ws d) forget i j * v j := by
    simp only [Finset.mul_sum, mul_assoc]
  rw [e] at this
  linarith

/-- **C111, ridge regression** with a penalty on every coefficient (no intercept, or `regularize_intercept`): the bound holds with the
penalty in place of the curvature, without any condition on the data. -/
theorem C111_ridge_penalised (c : LMConfig p fi) (a : RidgeArgs (designDim p fi)) (ha : getEstimationMethod c.method = .ok (.ridge a))
    (hs : c.scaleInputs = .off) (hfi : fi = false ∨ c.regularizeIntercept = true) (lam : ℝ) (hl : a.lambdaReg = some lam) (hlam : 0 < lam)
    (htol : 0 ≤ a.tolerance) (lower upper : Fin (designDim p fi) → Option ℝ) (hlo : setBound _ a.lower = .ok lower)
    (hup : setBound _ a.upper = .ok upper) (hbd : BoundsOk lower upper) (perm perm' perm'' : ℕ → ℕ → List (Fin (designDim p fi)))
    (hp' : ∀ i j, (perm' i j).Perm (List.finRange _)) (hp'' : ∀ i j, (perm'' i j).Perm (List.finRange _))
    (rng : ℕ → ℕ → ℕ → List (Fin (designDim p fi))) (init : List (Obs p)) (batches : List (List (Obs p))) (new : List (Obs p))
    (hwi : NonnegWeights init) (hne : ∀ b ∈ batches ++ [new], b ≠ []) (hwb : ∀ b ∈ batches ++ [new], NonnegWeights b)
    (s₀ s₁ s t sOnline sBatch : LM p fi) (hfit : LM.fit c perm init s₀ = (.ok (), s))
    (hups : LM.updates c rng 0 batches s = (.ok (), t)) (hnew : LM.update c perm' new t = (.ok (), sOnline))
    (hbatch : LM.fit c perm'' (init ++ (batches ++ [new]).flatten) s₁ = (.ok (), sBatch)) :
    ∃ r r' b b' n n', t.coef = some b ∧ sOnline.coef = some r ∧ sBatch.coef = some r' ∧
      onlineCD (dataProblem c lam 0 lower upper (init ++ (batches ++ [new]).flatten)) a.selection (perm' 0) a.tolerance a.maxIterations b =
        .ok (r, n) ∧
      onlineCD (dataProblem c lam 0 lower upper (init ++ (batches ++ [new]).flatten)) a.selection (perm'' 0) a.tolerance a.maxIterations b' =
        .ok (r', n') ∧
      (n < a.maxIterations + 1 → n' < a.maxIterations + 1 → (∀ j, r j = 0 ↔ r' j = 0) →
        euclid r r' ≤ 2 * a.tolerance * max (maxAbs r) (maxAbs r') *
          Real.sqrt (∑ j, coupling (dataProblem c lam 0 lower upper (init ++ (batches ++ [new]).flatten)).G j ^ 2) / lam) := by
  refine C111_ridge c a ha hs lam hl hlam.le htol lower upper hlo hup hbd perm perm' perm'' hp' hp'' rng init batches new hwi hne hwb
    s₀ s₁ s t sOnline sBatch hfit hups hnew hbatch lam hlam (ridge_curved (LM.fit_ok hfit).1.2.1.le _ (plainObs_nonneg ?_) lam _ hfi)
  intro o ho
  rw [List.mem_append, List.mem_flatten] at ho
  rcases ho with h | ⟨b, hb, h⟩
  · exact hwi o h
  · exact hwb b hb o h

/-- **C111, path methods** (`LassoPath`, `ElasticNetPath`) with any start values, without scaling.  The rows of the paths of the online
and of the batch fit belong to the same lambdas; every row that both descents ended by the convergence test with the same
zeros differs by at most `2 * tolerance * max|coefficient| * ‖coupling‖ / mu`, where `mu` is the curvature of the criterion. -/
theorem C111_path (c : LMConfig p fi) (a : EnetArgs) (ha : getEstimationMethod c.method = .ok (.path a))
    (hs : c.scaleInputs = .off) (ha0 : 0 ≤ a.alpha) (htol : 0 ≤ a.tolerance)
    (lower upper : Fin (designDim p fi) → Option ℝ) (hlo : setBound _ a.lower = .ok lower) (hup : setBound _ a.upper = .ok upper)
    (hbd : BoundsOk lower upper) (perm perm' perm'' : ℕ → ℕ → List (Fin (designDim p fi)))
    (hp' : ∀ i j, (perm' i j).Perm (List.finRange _)) (hp'' : ∀ i j, (perm'' i j).Perm (List.finRange _))
    (rng : ℕ → ℕ → ℕ → List (Fin (designDim p fi))) (init : List (Obs p)) (batches : List (List (Obs p))) (new : List (Obs p))
    (hwi : NonnegWeights init) (hne : ∀ b ∈ batches ++ [new], b ≠ []) (hwb : ∀ b ∈ batches ++ [new], NonnegWeights b)
    (s₀ s₁ s t sOnline sBatch : LM p fi) (hfit : LM.fit c perm init s₀ = (.ok (), s))
    (hups : LM.updates c rng 0 batches s = (.ok (), t)) (hnew : LM.update c perm' new t = (.ok (), sOnline))
    (hbatch : LM.fit c perm'' (init ++ (batches ++ [new]).flatten) s₁ = (.ok (), sBatch)) :
    ∃ old lams l l', t.coefPath = some old ∧ sOnline.coefPath = some (l.map Prod.fst) ∧ sBatch.coefPath = some (l'.map Prod.fst) ∧
      a.lambdaPath (dataProblem c 0 0 lower upper (init ++ (batches ++ [new]).flatten)).G
        (dataProblem c 0 0 lower upper (init ++ (batches ++ [new]).flatten)).h (isRegularized p fi c.regularizeIntercept) = .ok lams ∧
      onlineCDPath (a.pathConfig a.startUpdate (isRegularized p fi c.regularizeIntercept) lower upper perm')
        (dataProblem c 0 0 lower upper (init ++ (batches ++ [new]).flatten)).G
        (dataProblem c 0 0 lower upper (init ++ (batches ++ [new]).flatten)).h lams old = .ok l ∧
      onlineCDPath (a.pathConfig a.startInitial (isRegularized p fi c.regularizeIntercept) lower upper perm'')
        (dataProblem c 0 0 lower upper (init ++ (batches ++ [new]).flatten)).G
        (dataProblem c 0 0 lower upper (init ++ (batches ++ [new]).flatten)).h lams (List.replicate a.lambdaN 0) = .ok l' ∧
      ∀ (i : ℕ) (lam : ℝ) (r r' : Row (designDim p fi)) (n n' : ℕ) (mu : ℝ), lams[i]? = some lam → l[i]? = some (r, n) → l'[i]? = some (r', n') → 1 ≤ n → 1 ≤ n' →
        n < a.maxIterations + 1 → n' < a.maxIterations + 1 → (∀ j, r j = 0 ↔ r' j = 0) → 0 ≤ lam → 0 < mu →
        CurvedAtLeast (dataProblem c 0 0 lower upper (init ++ (batches ++ [new]).flatten)).G lam a.alpha
          (isRegularized p fi c.regularizeIntercept) mu →
        euclid r r' ≤ 2 * a.tolerance * max (maxAbs r) (maxAbs r') *
          Real.sqrt (∑ j, coupling (dataProblem c 0 0 lower upper (init ++ (batches ++ [new]).flatten)).G j ^ 2) / mu := by
  have hsel : c.scaleInputs.selection = none := by rw [hs]; rfl
  have inv := (GramInv.of_fit ha (by simp) hwi hfit).updates batches (fun b hb => hne b (by simp [hb]))
    (fun b hb => hwb b (by simp [hb])) hups
  have inv' := (inv.plain hs).update (hne new (by simp)) (hwb new (by simp)) hnew
  rw [designObs_off hsel, ← plainObs_append, show init ++ batches.flatten ++ new = init ++ (batches ++ [new]).flatten by simp] at inv'
  set D := init ++ (batches ++ [new]).flatten with hD
  have hDn : NonnegWeights D := by
    intro o ho
    rw [hD, List.mem_append, List.mem_flatten] at ho
    rcases ho with h | ⟨b, hb, h⟩
    · exact hwi o h
    · exact hwb b hb o h
  have invB := GramInv.of_fit ha (by simp) hDn hbatch
  rw [designObs_off hsel] at invB
  obtain ⟨_, _, _, _, _, m', _, _, hm', _, _, _, _, _, _, _, _, e6, _⟩ := LM.fit_ok hfit
  rw [ha] at hm'; cases hm'
  obtain ⟨hm, _⟩ := e6 a rfl
  have hms := updates_method batches hups
  obtain ⟨hv, _, _, _, _, m, _, G, _, _, _, q3, _, _, _, _, r1, _, _, _, r5, r6, _, r7, _⟩ := LM.update_ok hnew
  rw [hms, hm] at q3; cases q3
  obtain ⟨old, path, _, _, h1, _, h3, h4, _⟩ := r7 _ rfl
  rw [inv'.xGram] at r5; cases r5
  have e5' := inv'.yGram.symm.trans r6
  rw [← Option.some.inj e5'] at h3
  obtain ⟨lo, g1, up, g2, lams, g3, l, g4, rfl⟩ := updateBetaPath_ok.1 h3
  rw [hlo] at g1; cases g1
  rw [hup] at g2; cases g2
  obtain ⟨_, _, _, _, _, m'', _, G', hm'', _, _, _, _, _, e4, e5, _, e6', _⟩ := LM.fit_ok hbatch
  rw [ha] at hm''; cases hm''
  obtain ⟨_, path', _, hfb', hc', _⟩ := e6' a rfl
  rw [invB.xGram] at e4; cases e4
  have e7' := invB.yGram.symm.trans e5
  rw [← Option.some.inj e7'] at hfb'
  obtain ⟨lo, k1, up, k2, lams', k3, l', k4, rfl⟩ := fitBetaPath_ok.1 hfb'
  rw [hlo] at k1; cases k1
  rw [hup] at k2; cases k2
  rw [g3] at k3; cases k3
  refine ⟨old, lams, l, l', h1, h4, hc', g3, g4, k4, ?_⟩
  intro i lam r r' n n' mu hl hi hi' h1n h1n' hn hn' hz hlam hmu hcv
  obtain ⟨lam1, o1, p1, f1, _, _, f4⟩ := cdPathLoop_row g4 i (r, n) hi
  obtain ⟨lam2, o2, p2, f1', _, _, f4'⟩ := cdPathLoop_row k4 i (r', n') hi'
  rw [hl] at f1 f1'; cases f1; cases f1'
  unfold cdPathRow at f4 f4'
  simp only at f4 f4'
  split at f4
  · exact absurd (congrArg Prod.snd (Except.ok.inj f4)) (by simp only; omega)
  split at f4'
  · exact absurd (congrArg Prod.snd (Except.ok.inj f4')) (by simp only; omega)
  exact descents_close (P := dataProblem c lam a.alpha lower upper D) (gram_psd hv.2.1.le _ (plainObs_nonneg hDn)).1 hlam ha0 hmu hcv hbd
    (hp' _) (hp'' _) htol f4 f4' hn hn' hz

/-- **C111 fails for `Ridge()` with its default penalty.** The penalty is fixed by the first fit, to the mean of the diagonal of the
Gramian; a fit on all data chooses another one.  Two observations of the response one are fitted, then a third one: the online coefficient
is 3/5, that of the fit on all three is 1/2. -/
theorem C111_default_penalty_fails (perm perm' perm'' : ℕ → ℕ → List (Fin (designDim 1 false))) :
    ∃ (s t u : LM 1 false) (b b' : Row 1), LM.fit (ridgeOne none 0) perm onesInit (LM.new 1 false) = (.ok (), s) ∧
      LM.update (ridgeOne none 0) perm' (oneNew 1) s = (.ok (), t) ∧
      LM.fit (ridgeOne none 0) perm'' (onesInit ++ oneNew 1) (LM.new 1 false) = (.ok (), u) ∧
      t.coef = some b ∧ u.coef = some b' ∧ b 0 = 3 / 5 ∧ b' 0 = 1 / 2 := by
  obtain ⟨s, t, b, b', h1, h2, -, h3, -, h4, -⟩ := ridgeOne_run none (f := 0) (y := 1) le_rfl one_pos (by norm_num) (lam := 2)
    (by norm_num) (by norm_num) perm perm'
  obtain ⟨u, b'', g1, -, g2, g3, -⟩ := ridgeOne_fit none (f := 0) le_rfl one_pos perm'' (d := onesInit ++ oneNew 1)
    (by simp [onesInit, oneNew]) (onesInit_nonneg.append (oneNew_nonneg 1)) (by norm_num [onesInit, oneNew, ws]) (lam := 3)
    (by norm_num) (by rw [onesNew_gram zero_le_one]; norm_num) (by rw [onesNew_gram zero_le_one]; norm_num)
    (by rw [onesNew_yGram zero_le_one]; norm_num) (LM.new 1 false)
  rw [onesNew_gram zero_le_one, onesNew_yGram zero_le_one] at g3
  exact ⟨s, t, u, b', b'', h1, h2, g1, h3, g2, h4.trans (by norm_num), g3.trans (by norm_num)⟩

/-- Non-vacuity of `C111_ridge_penalised`: with the penalty one both ways of fitting the three observations succeed, and both end in the
optimum 3/4. -/
example (perm perm' perm'' : ℕ → ℕ → List (Fin (designDim 1 false))) :
    ∃ (s t u : LM 1 false) (b b' : Row 1), LM.fit (ridgeOne (some 1) 0) perm onesInit (LM.new 1 false) = (.ok (), s) ∧
      LM.update (ridgeOne (some 1) 0) perm' (oneNew 1) s = (.ok (), t) ∧
      LM.fit (ridgeOne (some 1) 0) perm'' (onesInit ++ oneNew 1) (LM.new 1 false) = (.ok (), u) ∧
      t.coef = some b ∧ u.coef = some b' ∧ b 0 = 3 / 4 ∧ b' 0 = 3 / 4 := by
  obtain ⟨s, t, b, b', h1, h2, -, h3, -, h4, -⟩ := ridgeOne_run (some 1) (f := 0) (y := 1) le_rfl one_pos (by norm_num) (lam := 1)
    (by norm_num) rfl perm perm'
  obtain ⟨u, b'', g1, -, g2, g3, -⟩ := ridgeOne_fit (some 1) (f := 0) le_rfl one_pos perm'' (d := onesInit ++ oneNew 1)
    (by simp [onesInit, oneNew]) (onesInit_nonneg.append (oneNew_nonneg 1)) (by norm_num [onesInit, oneNew, ws]) (lam := 1)
    (by norm_num) rfl (by rw [onesNew_gram zero_le_one]; norm_num)
    (by rw [onesNew_yGram zero_le_one]; norm_num) (LM.new 1 false)
  rw [onesNew_gram zero_le_one, onesNew_yGram zero_le_one] at g3
  exact ⟨s, t, u, b', b'', h1, h2, g1, h3, g2, h4.trans (by norm_num), g3.trans (by norm_num)⟩

/-! ### A concrete stream for the lasso -/

/-- `update` with a path method succeeds when the scaler accepts the batch and the path can be computed. -/
theorem LM.update_path_succeeds (c : LMConfig p fi) (perm : ℕ → ℕ → List (Fin (designDim p fi))) (data : List (Obs p)) (s : LM p fi)
    (h1 : c.Valid) (h2 : ¬ (data = [] ∨ p = 0)) {n0 : ℝ} {sc0 sc : Scaler p} {G0 : Matrix (Fin (designDim p fi)) (Fin (designDim p fi)) ℝ}
    {h0 : Row (designDim p fi)} {old path : List (Row (designDim p fi))} {rss : List ℝ} (hn : s.nObs = some n0) (hsc0 : s.scaler = some sc0)
    {a : EnetArgs} (hm : s.method = some (.path a)) (hG0 : s.xGram = some G0) (hh : s.yGram = some h0) (hold : s.coefPath = some old)
    (hrss : s.rss = some rss) (hlen : rss.length = path.length) (hne : path ≠ [])
    (hsc : sc0.update c.forget (xs data) (ws data) = .ok sc)
    (hp : a.updateBetaPath (updateGram G0 (scaledDesign fi sc (xs data)) c.forget (.array (ws data)))
      (updateYGram h0 (scaledDesign fi sc (xs data)) (ys data) c.forget (.array (ws data))) old
      (isRegularized p fi c.regularizeIntercept) perm = .ok path) :
    ∃ s', LM.update c perm data s = (.ok (), s') ∧ s'.coefPath = some path := by
  obtain ⟨i, hi⟩ := C31_select_succeeds c.ic h1.2.2.1 (effectiveTrainingLength c.forget (n0 + (ws data).sum))
    (path.map fun b => (nParams b : ℝ)) (rssUpdate c.forget rss path (scaledDesign fi sc (xs data)) (ys data))
    (by simp [rssUpdate, hlen]) (by simpa using hne)
  obtain ⟨pi, ri, v, g1, _⟩ := C31_selected_is_best (by simp [rssUpdate, hlen]) hi
  rw [List.getElem?_map] at g1
  cases hg : path[i]? with
  | none => rw [hg] at g1; cases g1
  | some b =>
    have hb : selectCoef c.ic (effectiveTrainingLength c.forget (n0 + (ws data).sum)) path
        (rssUpdate c.forget rss path (scaledDesign fi sc (xs data)) (ys data)) = .ok b := by
      unfold selectCoef
      rw [bind_ok]
      exact ⟨i, hi, by rw [hg]; rfl⟩
    unfold LM.update
    rw [Py.bind_raiseIf_neg (not_not.2 h1), Py.bind_raiseIf_neg h2, Py.bind_self, hn, Py.bind_attr_some]
    simp only
    rw [Py.bind_set, Py.bind_set, hsc0, Py.bind_attr_some, hsc, Py.bind_call_ok, Py.bind_set, hm,
      Py.bind_attr_some, hG0, Py.bind_attr_some]
    simp only [MethodObj.updateXGram]
    rw [Py.bind_call_ok, Py.bind_set, hh, Py.bind_attr_some, Py.bind_set, hold, Py.bind_attr_some, hp, Py.bind_call_ok, Py.bind_set,
      hrss, Py.bind_attr_some, Py.bind_set, hb, Py.bind_call_ok]
    exact ⟨_, rfl, rfl⟩

theorem lassoOne_path (G : Matrix (Fin 1) (Fin 1) ℝ) (h : Row 1) (h0 : h 0 ≠ 0) : ∃ l, lassoDefault.lambdaPath G h (fun _ : Fin 1 => true) = .ok l := by
  have hmax : getLambdaMax G h (fun _ : Fin 1 => true) = .ok (h 0) := by
    unfold getLambdaMax
    rw [show (List.finRange 1).filter (fun _ => !true) = [] by decide, show List.finRange 1 = [0] by decide]
    rfl
  exact ⟨_, lambdaPath_ok.mpr ⟨_, hmax, by unfold geomspace; rw [if_neg (by simp [lassoDefault, h0])]⟩⟩

/-- The default lasso on one column without intercept can be fitted. -/
theorem lassoOne_fit (perm : ℕ → ℕ → List (Fin (designDim 1 false))) {d : List (Obs 1)} (hne : 2 ≤ d.length) (hd : NonnegWeights d)
    (hsum : (ws d).sum ≠ 1) (hG : 0 < initGram (xs d) (ws d) 0 0 0)
    (hh : initYGram (xs d) (ys d) (ws d) 0 0 ≠ 0) (s₀ : LM 1 false) :
    ∃ s path, LM.fit (onesConfig (.str "lasso")) perm d s₀ = (.ok (), s) ∧ s.coefPath = some path ∧ path.length = 100 ∧
      s.nObs = some (ws d).sum ∧ s.method = some (.path lassoDefault) ∧ ∃ rss, s.rss = some rss ∧ rss.length = 100 := by
  have hX : scaledDesign false (canonSc (ToScale.off : ToScale 1) 0 d) (xs d) = xs d := List.map_id (xs d)
  obtain ⟨l, hl⟩ := lassoOne_path (initGram (xs d) (ws d) 0) (initYGram (xs d) (ys d) (ws d) 0) hh
  obtain ⟨path, hp, hlen⟩ := fitBetaPath_total (p := 1) (a := lassoDefault) perm (rfl : setBound 1 none = _) (rfl : setBound 1 none = _) hl (by
    intro lam _ j
    rw [Subsingleton.elim j 0]
    simpa [lassoDefault] using hG.ne')
  have hlen' : path.length = 100 := hlen.trans (by simp [lassoDefault])
  obtain ⟨s, hs, h1, -, -, -, h2, h3, h4⟩ := LM.fit_path_succeeds (onesConfig (.str "lasso")) perm d s₀
    ⟨le_refl _, by norm_num [onesConfig], by simp [onesConfig], by simp [onesConfig]⟩ (by simp [onesConfig])
    (by rintro (h | h); · simp [h] at hne
        · simp at h) (by simp [onesConfig]) hsum lassoDefault
    (by simp [onesConfig, getEstimationMethod, methodFromString]) _
    (scaler_fit_canon (ToScale.off : ToScale 1) 0 d hne (.inl rfl)) path (by rw [hX]; exact hp)
    (by intro h0; rw [h0] at hlen'; simp at hlen')
  exact ⟨s, path, hs, h1, hlen', h2, h3, _, h4, (List.length_map _).trans hlen'⟩

/-- Non-vacuity of `C111_path` and `C67_linear_model`: the default lasso, two observations, a third one, and all three at once; the
criterion is curved with the Gramian of the one column. -/
example : ∃ (s t u : LM 1 false), getEstimationMethod (onesConfig (.str "lasso")).method = .ok (.path lassoDefault) ∧
      LM.fit (onesConfig (.str "lasso")) (fun _ _ => List.finRange _) onesInit (LM.new 1 false) = (.ok (), s) ∧
      LM.update (onesConfig (.str "lasso")) (fun _ _ => List.finRange _) (oneNew 1) s = (.ok (), t) ∧
      LM.fit (onesConfig (.str "lasso")) (fun _ _ => List.finRange _) (onesInit ++ oneNew 1) (LM.new 1 false) = (.ok (), u) ∧
      CurvedAtLeast (p := 1) (initGram (xs (onesInit ++ oneNew 1)) (ws (onesInit ++ oneNew 1)) 0) 1 1 (fun _ => true) 3 := by
  have hm : getEstimationMethod (onesConfig (.str "lasso")).method = .ok (.path lassoDefault) := by
    simp [onesConfig, getEstimationMethod, methodFromString]
  obtain ⟨s, path, h1, h2, h3, h4, h5, rss, h6, h7⟩ := lassoOne_fit (fun _ _ => List.finRange _) (d := onesInit) (by simp [onesInit])
    onesInit_nonneg (by simp [onesInit, ws]) (by rw [onesInit_gram zero_le_one]; norm_num)
    (by rw [onesInit_yGram zero_le_one]; norm_num) (LM.new 1 false)
  obtain ⟨u, -, g1, -⟩ := lassoOne_fit (fun _ _ => List.finRange _) (d := onesInit ++ oneNew 1) (by simp [onesInit, oneNew])
    (onesInit_nonneg.append (oneNew_nonneg 1)) (by norm_num [onesInit, oneNew, ws]) (by rw [onesNew_gram zero_le_one]; norm_num)
    (by rw [onesNew_yGram zero_le_one]; norm_num) (LM.new 1 false)
  have inv := GramInv.of_fit hm (by simp) onesInit_nonneg h1
  rw [show designObs (onesConfig (.str "lasso")).scaleInputs (onesConfig (.str "lasso")).forget false onesInit onesInit =
    (onesInit : List (Obs 1)) from designObs_one _ _ _] at inv
  have hX : scaledDesign false (canonSc (ToScale.off : ToScale 1) 0 (onesInit ++ oneNew 1)) (xs (oneNew 1)) = xs (oneNew 1) :=
    List.map_id (xs (oneNew 1))
  obtain ⟨l, hl⟩ := lassoOne_path (initGram (xs (onesInit ++ oneNew 1)) (ws (onesInit ++ oneNew 1)) 0)
    (updateYGram (initYGram (xs onesInit) (ys onesInit) (ws onesInit) 0) (xs (oneNew 1)) (ys (oneNew 1)) 0 (.array (ws (oneNew 1))))
    (by rw [updateYGram_initYGram zero_le_one onesInit (oneNew 1) onesInit_nonneg (oneNew_nonneg 1), onesNew_yGram zero_le_one]; norm_num)
  obtain ⟨path', hp, hlen⟩ := updateBetaPath_total (p := 1) (a := lassoDefault) (fun _ _ => List.finRange _) (rfl : setBound 1 none = _) (rfl : setBound 1 none = _) hl (by
    intro lam _ j
    rw [Subsingleton.elim j 0, onesNew_gram zero_le_one]
    norm_num [lassoDefault]) path (h3.trans (by simp [lassoDefault]))
  have hlen' : path'.length = 100 := hlen.trans (by simp [lassoDefault])
  obtain ⟨t, k1, -⟩ := LM.update_path_succeeds (onesConfig (.str "lasso")) (fun _ _ => List.finRange _) (oneNew 1) s (path := path')
    ⟨le_refl _, by norm_num [onesConfig], by simp [onesConfig], by simp [onesConfig]⟩ (by simp [oneNew]) h4 inv.scaler h5 inv.xGram
    inv.yGram h2 h6 (h7.trans hlen'.symm) (by intro h0; rw [h0] at hlen'; simp at hlen')
    (scaler_update_canon .off one_pos onesInit (oneNew 1) (by simp [oneNew]) (oneNew_nonneg 1) (.inl rfl)) (by
      rw [hX]
      change EnetArgs.updateBetaPath (p := 1) _ (updateGram (initGram (xs onesInit) (ws onesInit) 0) (xs (oneNew 1)) 0
        (.array (ws (oneNew 1)))) _ _ _ _ = _
      rw [updateGram_initGram zero_le_one onesInit (oneNew 1) onesInit_nonneg (oneNew_nonneg 1)]
      exact hp)
  refine ⟨s, t, u, hm, h1, k1, g1, fun v => ?_⟩
  unfold smoothForm
  simp only [Finset.univ_unique, Fin.default_eq_zero, Finset.sum_singleton]
  rw [onesNew_gram zero_le_one]
  norm_num
  linarith [sq_nonneg (v 0), sq (v 0)]

end Ondil
