import Verif.Lemmas.Methods
import Verif.Props.CoordinateDescent
import Verif.Props.Gram

/-!
# Properties of the estimation methods (C22 on histories, C26, C27, C30, C67, C68)
-/

open scoped BigOperators

namespace Ondil

variable {p : ℕ}

/-- The data of one update: Gramian, y-Gramian and the oracle for the random coordinate orders. -/
structure GramUpdate (p : ℕ) where
  G : Matrix (Fin p) (Fin p) ℝ
  h : Row p
  perm : ℕ → ℕ → List (Fin p)

/-- An initial fit followed by a history of updates. -/
noncomputable def enetHistory (a : EnetArgs) (reg : Fin p → Bool) (first : GramUpdate p)
    (updates : List (GramUpdate p)) : Except PyErr (List (Row p)) := do
  let path ← a.fitBetaPath first.G first.h reg first.perm
  updates.foldlM (fun path u => a.updateBetaPath u.G u.h path reg u.perm) path

theorem map_fst_mem {α β : Type*} {l : List (α × β)} {Q : α → Prop} (h : ∀ r ∈ l, Q r.1) :
    ∀ x ∈ l.map Prod.fst, Q x := by
  intro x hx
  obtain ⟨r, hr, rfl⟩ := List.mem_map.mp hx
  exact h r hr

/-- C22: after an initial fit and any number of updates, every coefficient on every row of the path
lies within the bounds given to the method. -/
theorem C22_bounds_history (a : EnetArgs) (reg : Fin p → Bool) (first : GramUpdate p)
    (updates : List (GramUpdate p)) (lo up : Fin p → Option ℝ) (hlo : setBound p a.lower = .ok lo)
    (hup : setBound p a.upper = .ok up) (hb : BoundsOk lo up) (path : List (Row p))
    (h : enetHistory a reg first updates = .ok path) : ∀ r ∈ path, Feasible lo up r := by
  unfold enetHistory at h
  obtain ⟨path0, h0, h1⟩ := bind_ok.mp h
  obtain ⟨lo', e1, up', e2, lams, _, rows, hrows, rfl⟩ := fitBetaPath_ok.mp h0
  rw [hlo] at e1; rw [hup] at e2
  cases e1; cases e2
  have hpath0 : ∀ r ∈ rows.map Prod.fst, Feasible lo up r :=
    map_fst_mem (C22_bounds_path _ hb _ _ _ _ (fun o ho => Or.inl (List.eq_of_mem_replicate ho)) _ hrows)
  clear h0 hrows h
  generalize rows.map Prod.fst = q at hpath0 h1
  induction updates generalizing q with
  | nil => cases h1; exact hpath0
  | cons u us ih =>
    rw [List.foldlM_cons] at h1
    obtain ⟨q', h2, h3⟩ := bind_ok.mp h1
    refine ih q' ?_ h3
    obtain ⟨lo', e1, up', e2, lams', _, rows', hrows', rfl⟩ := updateBetaPath_ok.mp h2
    rw [hlo] at e1; rw [hup] at e2
    cases e1; cases e2
    exact map_fst_mem (C22_bounds_path _ hb _ _ _ _ (fun o ho => Or.inr (hpath0 o ho)) _ hrows')

/-- C22: bounds of the wrong length are rejected, correct ones are used position by position. -/
theorem C22_bound_validation (bound : List (Option ℝ)) :
    (bound.length ≠ p → setBound p (some bound) = .error .valueError) ∧
    (∀ h : bound.length = p, ∃ f, setBound p (some bound) = .ok f ∧
      ∀ j : Fin p, f j = bound.get (j.cast h.symm)) := by
  constructor
  · intro h; unfold setBound; simp [h]
  · intro h
    exact ⟨fun j => bound.get (j.cast h.symm), by unfold setBound; simp [h], fun _ => rfl⟩

/-- C22: the coefficients of `Ridge` also lie within the bounds after a fit. -/
theorem C22_ridge (a : RidgeArgs p) (G : Matrix (Fin p) (Fin p) ℝ) (h : Row p) (reg : Fin p → Bool)
    (perm : ℕ → List (Fin p)) (lo up : Fin p → Option ℝ) (hlo : setBound p a.lower = .ok lo)
    (hup : setBound p a.upper = .ok up) (hb : BoundsOk lo up) :
    (∀ b lam, a.fitBeta G h reg perm = .ok (b, lam) → Feasible lo up b) ∧
    (∀ lam b0 b, a.updateBeta lam G h b0 reg perm = .ok b → Feasible lo up b) := by
  constructor
  · intro b lam hf
    unfold RidgeArgs.fitBeta at hf
    simp only [bind_ok] at hf
    obtain ⟨lo', e1, up', e2, r, hr, e3⟩ := hf
    rw [hlo] at e1; rw [hup] at e2
    cases e1; cases e2
    cases e3
    exact C22_bounds _ hb _ _ _ _ _ r.1 r.2 hr
  · intro lam b0 b hf
    unfold RidgeArgs.updateBeta at hf
    simp only [bind_ok] at hf
    obtain ⟨lo', e1, up', e2, r, hr, e3⟩ := hf
    rw [hlo] at e1; rw [hup] at e2
    cases e1; cases e2
    cases e3
    exact C22_bounds _ hb _ _ _ _ _ r.1 r.2 hr

/-! ## C26 the largest lambda -/

/-- If a vector is left unchanged by all later sweeps and is the result of the first, it is returned. -/
theorem pureCD_eq_of_fixed (P : CDProblem p) (sel : Selection) (perm : ℕ → List (Fin p)) (tol : ℝ) (m : ℕ)
    (b0 b : Row p) (h1 : pureSweep P 1 (List.finRange p) b0 = b)
    (h2 : ∀ i j, 2 ≤ i → pureStep P i b j = b) : (pureCD P sel perm tol m b0).1 = b := by
  have hs : ∀ i JJ, 2 ≤ i → pureSweep P i JJ b = b := by
    intro i JJ hi
    induction JJ with
    | nil => rfl
    | cons j JJ ih => rw [pureSweep_cons, h2 i j hi, ih]
  refine pureLoop_invariant (fun i b => pureSweep P i (cdOrder sel perm i) b) (cdConverged tol) m
    (fun s => s = b) 0 b0 ?_ ?_
  · simp only [Nat.zero_add]; rw [cdOrder_one, h1]
  · intro k s hk hs'
    subst hs'
    rw [ hs _ _ (by omega)]

/-- The value of a coordinate when the penalty dominates and zero is allowed. -/
theorem newValue_zero (P : CDProblem p) (b : Row p) (j : Fin p) (hreg : P.reg j = true)
    (hle : |P.h j - (∑ k, P.G j k * b k) + P.G j j * b j| ≤ P.alpha * P.lam)
    (h0 : InBounds (P.lower j) (P.upper j) 0) : P.newValue b j = 0 := by
  unfold CDProblem.newValue CDProblem.target
  simp only [hreg, if_true]
  rw [softThreshold_eq_zero hle, zero_div]
  have h1 : clipLow (P.lower j) 0 = 0 := by
    cases hl : P.lower j with
    | none => rfl
    | some l => exact max_eq_left (h0.1 l hl)
  rw [h1]
  cases hl : P.upper j with
  | none => rfl
  | some l => exact min_eq_left (h0.2 l hl)

theorem first_row_start {c : PathConfig p} {G : Matrix (Fin p) (Fin p) ℝ} {h : Row p}
    {lams : List ℝ} {n : ℕ} {rows : List (Row p × ℕ)} {r : Row p × ℕ}
    (hrows : onlineCDPath c G h lams (List.replicate n 0) = .ok rows) (hr : rows[0]? = some r) :
    ∃ lam, lams[0]? = some lam ∧ onlineCD (c.problem G h lam) c.selection (c.perm 0) c.tolerance
      c.maxIterations 0 = .ok r := by
  obtain ⟨lam, old, prev, h1, h2, h3, he⟩ := cdPathLoop_row hrows 0 r hr
  have hold : old = 0 := List.eq_of_mem_replicate (List.mem_of_getElem? h2)
  have hprev : prev = 0 := by simpa using h3.symm
  subst hold; subst hprev
  have hs : startValue c.which (0 : Row p) 0 = 0 := by unfold startValue; simp
  unfold cdPathRow at he
  simp only [hs, countNonzero_zero] at he
  rw [if_neg (by omega)] at he
  exact ⟨lam, h1, he⟩

/-- C26, partial, lasso with an unregularised intercept in column 0.  Full statement: for every
`alpha` in (0,1] and with or without an intercept, the first row of a freshly fitted path contains only
zeros for regularised coefficients.  Proved here: it does for `alpha = 1` with an unregularised
unbounded first coefficient and bounds that allow zero; that coefficient is then `y_gram[0] / x_gram[0,0]`.
Missing: `alpha < 1` and purely regularised problems with negative entries, where it is false, see
`C26_alpha_fails` and `C26_sign_fails`. -/
theorem C26_intercept_partial {n : ℕ} (a : EnetArgs) (ha : a.alpha = 1)
    (G : Matrix (Fin (n + 1)) (Fin (n + 1)) ℝ) (hG : G.IsSymm) (h : Row (n + 1)) (reg : Fin (n + 1) → Bool)
    (hreg0 : reg 0 = false) (hreg : ∀ j, j ≠ 0 → reg j = true)
    (lo up : Fin (n + 1) → Option ℝ) (hlo : setBound (n + 1) a.lower = .ok lo)
    (hup : setBound (n + 1) a.upper = .ok up) (hlo0 : lo 0 = none) (hup0 : up 0 = none)
    (hz : ∀ j, InBounds (lo j) (up j) 0)
    (perm : ℕ → ℕ → List (Fin (n + 1))) (path : List (Row (n + 1)))
    (hpath : a.fitBetaPath G h reg perm = .ok path) (row : Row (n + 1)) (hrow : path[0]? = some row) :
    row 0 = h 0 / G 0 0 ∧ ∀ j, j ≠ 0 → row j = 0 := by
  obtain ⟨lo', e1, up', e2, lams, hlams, rows, hrows, rfl⟩ := fitBetaPath_ok.mp hpath
  rw [hlo] at e1; rw [hup] at e2
  cases e1; cases e2
  rw [List.getElem?_map] at hrow
  obtain ⟨r, hr, rfl⟩ := Option.map_eq_some_iff.mp hrow
  obtain ⟨lam, hlam, hcd⟩ := first_row_start hrows hr
  obtain ⟨m, hm, hgeo⟩ := lambdaPath_ok.mp hlams
  have hlm : lam = m := lambdaPath_head hlams hm hlam
  subst hlm
  -- the maximum bounds every residual correlation
  have hfilter : (List.finRange (n + 1)).filter (fun j => !reg j) = [0] := by
    rw [List.finRange_succ, List.filter_cons_of_pos (by simp [hreg0])]
    congr 1
    rw [List.filter_eq_nil_iff]
    intro j hj
    obtain ⟨k, _, rfl⟩ := List.mem_map.mp hj
    simp [hreg k.succ (Fin.succ_ne_zero k)]
  unfold getLambdaMax at hm
  rw [hfilter] at hm
  have hmax : ∀ k, |h k - G 0 k * (h 0 / G 0 0)| ≤ lam := fun k =>
    npMax_le hm _ (List.mem_map.mpr ⟨k, List.mem_finRange k, rfl⟩)
  obtain ⟨hnz, hcd'⟩ := (onlineCD_ok_iff ..).mp hcd
  set P := (a.pathConfig a.startInitial reg lo up perm).problem G h lam with hP
  have hPr0 : P.reg 0 = false := hreg0
  have hG00 : G 0 0 ≠ 0 := by
    have := hnz 0
    unfold CDProblem.denom at this
    rw [hPr0] at this
    exact this
  set b : Row (n + 1) := Function.update 0 0 (h 0 / G 0 0) with hbdef
  have hb0 : b 0 = h 0 / G 0 0 := Function.update_self ..
  have hbj : ∀ j, j ≠ 0 → b j = 0 := fun j hj => by rw [hbdef, Function.update_of_ne hj]; rfl
  have hsum : ∀ j, ∑ k, P.G j k * b k = G j 0 * (h 0 / G 0 0) := by
    intro j
    rw [sum_update_diff (j := 0) _ (fun k hk => by rw [hbj k hk, mul_zero]), hb0]
    rfl
  -- value of coordinate 0
  have hval0 : ∀ v : Row (n + 1), (∑ k, P.G 0 k * v k) = G 0 0 * v 0 → P.newValue v 0 = h 0 / G 0 0 := by
    intro v hv
    unfold CDProblem.newValue CDProblem.target CDProblem.denom
    rw [hv]
    change clipHigh (up 0) (clipLow (lo 0) _) = _
    rw [hlo0, hup0, hPr0]
    simp only [clipHigh, clipLow, Bool.false_eq_true, if_false]
    change (h 0 - G 0 0 * v 0 + G 0 0 * v 0) / G 0 0 = _
    congr 1; ring
  have hvalj : ∀ j, j ≠ 0 → P.newValue b j = 0 := by
    intro j hj
    refine newValue_zero P b j (hreg j hj) ?_ (hz j)
    rw [hsum, hbj j hj, mul_zero, add_zero]
    change |h j - G j 0 * (h 0 / G 0 0)| ≤ a.alpha * lam
    rw [ha, one_mul, hG.apply]
    exact hmax j
  have hstepj : ∀ i j, j ≠ 0 → pureStep P i b j = b := by
    intro i j hj
    unfold pureStep
    split
    · rw [hvalj j hj, ← hbj j hj, Function.update_eq_self]
    · rfl
  have hstep0 : ∀ i, pureStep P i b 0 = b := by
    intro i
    unfold pureStep
    split
    · rw [hval0 b (by rw [hsum, hb0]), ← hb0, Function.update_eq_self]
    · rfl
  have key := pureCD_eq_of_fixed P a.selection (perm 0) a.tolerance a.maxIterations 0 b ?_ ?_
  · have : r.1 = b := by rw [← key, ← hcd']; rfl
    rw [this]
    exact ⟨hb0, hbj⟩
  · rw [List.finRange_succ, pureSweep_cons]
    have : pureStep P 1 0 0 = b := by
      rw [pureStep_eq_update P (Or.inl (by norm_num)), hval0 0 (by simp)]
    rw [this]
    have hall : ∀ JJ : List (Fin (n + 1)), (∀ j ∈ JJ, j ≠ 0) → pureSweep P 1 JJ b = b := by
      intro JJ hJ
      induction JJ with
      | nil => rfl
      | cons j JJ ih =>
        rw [pureSweep_cons, hstepj 1 j (hJ j (List.mem_cons_self ..))]
        exact ih fun k hk => hJ k (List.mem_cons_of_mem _ hk)
    refine hall _ fun j hj => ?_
    obtain ⟨k, _, rfl⟩ := List.mem_map.mp hj
    exact Fin.succ_ne_zero k
  · intro i j _
    by_cases hj : j = 0
    · subst hj; exact hstep0 i
    · exact hstepj i j hj

/-- C26, partial, all coefficients regularised: the first row of a lasso path is zero provided the largest
entry of the y-Gramian is the largest one in magnitude (the code takes `max`, not `max(abs)`). -/
theorem C26_all_regularized_partial (a : EnetArgs) (ha : a.alpha = 1)
    (G : Matrix (Fin p) (Fin p) ℝ) (h : Row p) (reg : Fin p → Bool) (hreg : ∀ j, reg j = true)
    (j0 : Fin p) (hj0 : ∀ k, |h k| ≤ h j0)
    (lo up : Fin p → Option ℝ) (hlo : setBound p a.lower = .ok lo)
    (hup : setBound p a.upper = .ok up) (hz : ∀ j, InBounds (lo j) (up j) 0)
    (perm : ℕ → ℕ → List (Fin p)) (path : List (Row p))
    (hpath : a.fitBetaPath G h reg perm = .ok path) (row : Row p) (hrow : path[0]? = some row) :
    row = 0 := by
  obtain ⟨lo', e1, up', e2, lams, hlams, rows, hrows, rfl⟩ := fitBetaPath_ok.mp hpath
  rw [hlo] at e1; rw [hup] at e2
  cases e1; cases e2
  rw [List.getElem?_map] at hrow
  obtain ⟨r, hr, rfl⟩ := Option.map_eq_some_iff.mp hrow
  obtain ⟨lam, hlam, hcd⟩ := first_row_start hrows hr
  obtain ⟨m, hm, hgeo⟩ := lambdaPath_ok.mp hlams
  have hlm : lam = m := lambdaPath_head hlams hm hlam
  subst hlm
  have hfilter : (List.finRange p).filter (fun j => !reg j) = [] := by
    rw [List.filter_eq_nil_iff]; intro j _; simp [hreg j]
  unfold getLambdaMax at hm
  rw [hfilter] at hm
  have hmax : ∀ k, |h k| ≤ lam := fun k =>
    le_trans (hj0 k) (npMax_le hm _ (List.mem_map.mpr ⟨j0, List.mem_finRange j0, rfl⟩))
  obtain ⟨hnz, hcd'⟩ := (onlineCD_ok_iff ..).mp hcd
  set P := (a.pathConfig a.startInitial reg lo up perm).problem G h lam with hP
  have hval : ∀ j, P.newValue 0 j = 0 := by
    intro j
    refine newValue_zero P 0 j (hreg j) ?_ (hz j)
    simp only [Pi.zero_apply, mul_zero, Finset.sum_const_zero, sub_zero, add_zero]
    change |h j| ≤ a.alpha * lam
    rw [ha, one_mul]; exact hmax j
  have hstep : ∀ i j, pureStep P i 0 j = 0 := by
    intro i j
    unfold pureStep
    split
    · rw [hval j]; exact Function.update_eq_self j (0 : Row p)
    · rfl
  have key := pureCD_eq_of_fixed P a.selection (perm 0) a.tolerance a.maxIterations 0 0 ?_
    (fun i j _ => hstep i j)
  · rw [← key, ← hcd']; rfl
  · generalize List.finRange p = JJ
    induction JJ with
    | nil => rfl
    | cons j JJ ih => rw [pureSweep_cons, hstep, ih]

/-- Lasso arguments with the defaults of `LassoPath` except for `alpha` and the number of lambdas. -/
noncomputable def defaultArgs (alpha : ℝ) (n : ℕ) : EnetArgs :=
  { alpha := alpha, lambdaN := n, lambdaEps := 1 / 10000, earlyStop := 0, startInitial := .previousLambda,
    startUpdate := .previousFit, selection := .cyclic, lower := none, upper := none,
    tolerance := 1 / 10000, maxIterations := 1000 }

theorem oneDim_newValue (P : CDProblem 1) (hr : P.reg 0 = true) (hlo : P.lower 0 = none)
    (hup : P.upper 0 = none) (b : Row 1) :
    P.newValue b 0 = softThreshold (P.h 0) (P.alpha * P.lam) / (P.G 0 0 + P.lam * (1 - P.alpha)) := by
  unfold CDProblem.newValue CDProblem.target CDProblem.denom
  simp [hr, hlo, hup, clipHigh, clipLow]

/-- C26 fails without an intercept: for one regularised coefficient with `y_gram < 0` the "largest lambda"
is the negative number `y_gram`, and the first row of the lasso path is twice the least squares
coefficient instead of zero — for all such data and any grid length. -/
theorem C26_sign_fails (g hh : ℝ) (hg : 0 < g) (hh0 : hh < 0) (n : ℕ) (perm : ℕ → ℕ → List (Fin 1))
    (path : List (Row 1))
    (hpath : (defaultArgs 1 n).fitBetaPath !![g] ![hh] (fun _ => true) perm = .ok path)
    (row : Row 1) (hrow : path[0]? = some row) : row 0 = 2 * (hh / g) ∧ row 0 ≠ 0 := by
  obtain ⟨lo', e1, up', e2, lams, hlams, rows, hrows, rfl⟩ := fitBetaPath_ok.mp hpath
  cases e1; cases e2
  rw [List.getElem?_map] at hrow
  obtain ⟨r, hr, rfl⟩ := Option.map_eq_some_iff.mp hrow
  obtain ⟨lam, hlam, hcd⟩ := first_row_start hrows hr
  obtain ⟨m, hm, hgeo⟩ := lambdaPath_ok.mp hlams
  have hlm : lam = m := lambdaPath_head hlams hm hlam
  subst hlm
  have hlam' : lam = hh := by
    have : getLambdaMax !![g] ![hh] (fun _ : Fin 1 => true) = .ok hh := by
      unfold getLambdaMax
      rw [show (List.finRange 1).filter (fun _ => !true) = [] by decide]
      rw [show List.finRange 1 = [0] by decide]; rfl
    rw [this] at hm; exact (Except.ok.inj hm).symm
  subst hlam'
  obtain ⟨hnz, hcd'⟩ := (onlineCD_ok_iff ..).mp hcd
  set P := ((defaultArgs 1 n).pathConfig (defaultArgs 1 n).startInitial (fun _ => true)
    (fun _ => none) (fun _ => none) perm).problem !![g] ![lam] lam with hP
  have hval : ∀ b, P.newValue b 0 = 2 * (lam / g) := by
    intro b
    rw [oneDim_newValue P rfl rfl rfl]
    change softThreshold lam (1 * lam) / (g + lam * (1 - 1)) = _
    rw [softThreshold_of_neg hh0, max_eq_left (by linarith)]
    rw [sub_self, mul_zero, add_zero]; ring
  have hne : 2 * (lam / g) ≠ 0 := by
    have := div_neg_of_neg_of_pos hh0 hg; linarith
  have key := pureCD_eq_of_fixed P (defaultArgs 1 n).selection (perm 0) (defaultArgs 1 n).tolerance
    (defaultArgs 1 n).maxIterations 0 (fun _ => 2 * (lam / g)) ?_ ?_
  · have : r.1 = fun _ => 2 * (lam / g) := by rw [← key, ← hcd']; rfl
    rw [this]; exact ⟨rfl, hne⟩
  · rw [show List.finRange 1 = [0] by decide, pureSweep_cons, pureSweep_nil,
      pureStep_eq_update P (Or.inl (by norm_num)), hval]
    funext k; fin_cases k; simp
  · intro i j _
    fin_cases j
    unfold pureStep
    rw [if_pos (Or.inr hne)]
    change Function.update (fun _ => 2 * (lam / g) : Row 1) 0 (P.newValue _ 0) = _
    rw [hval]
    funext k; fin_cases k; simp

/-- The fit of `C26_sign_fails` does succeed, e.g. for `g = 1`, `hh = -5` and the default 100 lambdas. -/
example : ∃ path row, (defaultArgs 1 100).fitBetaPath !![(1 : ℝ)] ![(-5 : ℝ)] (fun _ => true)
    (fun _ _ => []) = .ok path ∧ path[0]? = some row := by
  have hmax : getLambdaMax !![(1 : ℝ)] ![(-5 : ℝ)] (fun _ : Fin 1 => true) = .ok (-5) := by
    unfold getLambdaMax
    rw [show (List.finRange 1).filter (fun _ => !true) = [] by decide]
    rw [show List.finRange 1 = [0] by decide]; rfl
  have hlams : ∃ l, (defaultArgs 1 100).lambdaPath !![(1 : ℝ)] ![(-5 : ℝ)] (fun _ : Fin 1 => true) = .ok l :=
    ⟨_, lambdaPath_ok.mpr ⟨_, hmax, by unfold geomspace; rw [if_neg (by simp [defaultArgs])]⟩⟩
  obtain ⟨l, hl⟩ := hlams
  obtain ⟨path, h1, h2⟩ := fitBetaPath_total (fun _ _ => []) (rfl : setBound 1 none = _)
    (rfl : setBound 1 none = _) hl (by
      intro lam _ j; fin_cases j; simp [defaultArgs])
  exact ⟨path, path[0]'(by rw [h2]; decide), h1, List.getElem?_eq_getElem _⟩

/-- Soft thresholding keeps the sign of a value that exceeds the threshold. -/
theorem softThreshold_mul_pos {v u t : ℝ} (ht : 0 ≤ t) (hv : t < |v|) (huv : 0 < v * u) :
    0 < softThreshold v t * u := by
  rcases softThreshold_cases (v := v) ht with ⟨h, e⟩ | ⟨h, e⟩ | ⟨h, _⟩
  · have hv0 : 0 < v := by linarith
    have hu : 0 < u := (pos_iff_pos_of_mul_pos huv).mp hv0
    rw [e]; exact mul_pos (by linarith) hu
  · have hv0 : v < 0 := by linarith
    have hu : u < 0 := (neg_iff_neg_of_mul_pos huv).mp hv0
    rw [e]; exact mul_pos_of_neg_of_neg (by linarith) hu
  · linarith

/-- C26 fails for `alpha < 1`: with an intercept and one regularised coefficient whose residual correlation
`u` is not zero, the regularised coefficient of the first row is never zero, for all data, all `alpha < 1`
and all schedules. -/
theorem C26_alpha_fails (g00 g01 g11 h0 h1 alpha : ℝ) (hg0 : 0 < g00) (hg1 : 0 ≤ g11) (ha0 : 0 ≤ alpha)
    (ha1 : alpha < 1) (hu : h1 - g01 * (h0 / g00) ≠ 0) (n : ℕ) (perm : ℕ → ℕ → List (Fin 2))
    (path : List (Row 2))
    (hpath : (defaultArgs alpha n).fitBetaPath !![g00, g01; g01, g11] ![h0, h1] ![false, true] perm = .ok path)
    (row : Row 2) (hrow : path[0]? = some row) : row 1 ≠ 0 := by
  obtain ⟨lo', e1, up', e2, lams, hlams, rows, hrows, rfl⟩ := fitBetaPath_ok.mp hpath
  cases e1; cases e2
  rw [List.getElem?_map] at hrow
  obtain ⟨r, hr, rfl⟩ := Option.map_eq_some_iff.mp hrow
  obtain ⟨lam, hlam, hcd⟩ := first_row_start hrows hr
  obtain ⟨m, hm, hgeo⟩ := lambdaPath_ok.mp hlams
  have hlm : lam = m := lambdaPath_head hlams hm hlam
  subst hlm
  set u := h1 - g01 * (h0 / g00) with hudef
  have hlam' : lam = |u| := by
    have : getLambdaMax !![g00, g01; g01, g11] ![h0, h1] ![false, true] = .ok |u| := by
      unfold getLambdaMax
      rw [show (List.finRange 2).filter (fun j => !(![false, true] : Fin 2 → Bool) j) = [0] by decide]
      rw [show List.finRange 2 = [0, 1] by decide]
      change Except.ok (max |h0 - g00 * (h0 / g00)| |u|) = _
      rw [mul_div_cancel₀ _ hg0.ne', sub_self, abs_zero, max_eq_right (abs_nonneg u)]
    rw [this] at hm; exact (Except.ok.inj hm).symm
  obtain ⟨hnz, hcd'⟩ := (onlineCD_ok_iff ..).mp hcd
  set P := ((defaultArgs alpha n).pathConfig (defaultArgs alpha n).startInitial ![false, true]
    (fun _ => none) (fun _ => none) perm).problem !![g00, g01; g01, g11] ![h0, h1] lam with hP
  have hupos : 0 < |u| := abs_pos.mpr hu
  have hv0 : ∀ b : Row 2, P.newValue b 0 = (h0 - g01 * b 1) / g00 := by
    intro b
    unfold CDProblem.newValue CDProblem.target CDProblem.denom
    rw [Fin.sum_univ_two]
    change (h0 - (g00 * b 0 + g01 * b 1) + g00 * b 0) / g00 = _
    congr 1; ring
  have hv1 : ∀ b : Row 2, P.newValue b 1
      = softThreshold (h1 - g01 * b 0) (alpha * lam) / (g11 + lam * (1 - alpha)) := by
    intro b
    unfold CDProblem.newValue CDProblem.target CDProblem.denom
    rw [Fin.sum_univ_two]
    change softThreshold (h1 - (g01 * b 0 + g11 * b 1) + g11 * b 1) (alpha * lam) / _ = _
    congr 2; ring
  have hden : 0 < g11 + lam * (1 - alpha) := by
    have := mul_pos hupos (by linarith : 0 < 1 - alpha)
    rw [hlam']; linarith
  -- invariant
  let Inv0 : Row 2 → Prop := fun b => ∃ c, 0 ≤ c * u ∧ b 0 = (h0 - g01 * c) / g00
  let Inv : Row 2 → Prop := fun b => Inv0 b ∧ 0 < b 1 * u
  have hgood : ∀ b, Inv0 b → 0 < P.newValue b 1 * u := by
    rintro b ⟨c, hc, hb⟩
    have hu' : (h1 - g01 * b 0) = u + g01 ^ 2 / g00 * c := by
      rw [hb, hudef]; field_simp; ring
    have hnn : 0 ≤ g01 ^ 2 / g00 * (c * u) := mul_nonneg (by positivity) hc
    have hprod : u * u ≤ (h1 - g01 * b 0) * u := by rw [hu']; nlinarith
    have huu : 0 < u * u := mul_self_pos.mpr hu
    have habs : |u| ≤ |h1 - g01 * b 0| := by
      have h3 : |u| * |u| ≤ |h1 - g01 * b 0| * |u| := by
        rw [← abs_mul, ← abs_mul, abs_of_pos huu]
        exact le_trans hprod (le_abs_self _)
      exact le_of_mul_le_mul_right h3 hupos
    have := softThreshold_mul_pos (v := h1 - g01 * b 0) (u := u) (t := alpha * lam)
      (by rw [hlam']; positivity) (by rw [hlam']; nlinarith) (by linarith)
    rw [hv1, div_mul_eq_mul_div]
    exact div_pos this hden
  have hstep : ∀ i b j, Inv b → Inv (pureStep P i b j) := by
    intro i b j hb
    unfold pureStep
    split
    · fin_cases j
      · refine ⟨⟨b 1, hb.2.le, ?_⟩, ?_⟩
        · change Function.update b 0 (P.newValue b 0) 0 = _
          rw [Function.update_self, hv0]
        · change 0 < Function.update b 0 (P.newValue b 0) 1 * u
          rw [Function.update_of_ne (by decide)]; exact hb.2
      · refine ⟨?_, ?_⟩
        · obtain ⟨c, hc, e⟩ := hb.1
          refine ⟨c, hc, ?_⟩
          change Function.update b 1 (P.newValue b 1) 0 = _
          rw [Function.update_of_ne (by decide)]; exact e
        · change 0 < Function.update b 1 (P.newValue b 1) 1 * u
          rw [Function.update_self]; exact hgood b hb.1
    · exact hb
  have hsweep : ∀ i JJ b, Inv b → Inv (pureSweep P i JJ b) := by
    intro i JJ
    induction JJ with
    | nil => intro b hb; exact hb
    | cons j JJ ih => intro b hb; rw [pureSweep_cons]; exact ih _ (hstep i b j hb)
  have hfirst : Inv (pureSweep P 1 (List.finRange 2) 0) := by
    rw [show List.finRange 2 = [0, 1] by decide, pureSweep_cons, pureSweep_cons, pureSweep_nil]
    have hI0 : Inv0 (pureStep P 1 0 0) := by
      refine ⟨0, by simp, ?_⟩
      rw [pureStep_eq_update P (Or.inl (by norm_num)), Function.update_self, hv0]; rfl
    refine ⟨?_, ?_⟩
    · obtain ⟨c, hc, e⟩ := hI0
      exact ⟨c, hc, by rw [pureStep_apply_ne _ _ _ (by decide)]; exact e⟩
    · rw [pureStep_eq_update P (Or.inl (by norm_num)), Function.update_self]
      exact hgood _ hI0
  have hfin : Inv r.1 := by
    rw [← hcd']
    refine pureLoop_invariant (fun i b => pureSweep P i (cdOrder _ _ i) b) _ _ Inv 0 0 ?_ ?_
    · rw [Nat.zero_add, cdOrder_one]; exact hfirst
    · intro k s _ hs; exact hsweep _ _ _ hs
  intro h0'
  have := hfin.2
  rw [h0', zero_mul] at this
  exact lt_irrefl _ this

/-! ## C27 the grid -/

/-- C27: the grid of a fit or update: `n` points from `lambda_max` to `lambda_max * lambda_eps`, all positive,
strictly decreasing, with a constant ratio. -/
theorem C27_grid (a : EnetArgs) (G : Matrix (Fin p) (Fin p) ℝ) (h : Row p) (reg : Fin p → Bool) (m : ℝ)
    (hm : getLambdaMax G h reg = .ok m) (hpos : 0 < m) (he0 : 0 < a.lambdaEps) (he1 : a.lambdaEps < 1)
    (hn : 2 ≤ a.lambdaN) :
    ∃ l, a.lambdaPath G h reg = .ok l ∧ l.length = a.lambdaN ∧ l[0]? = some m ∧
      l[a.lambdaN - 1]? = some (m * a.lambdaEps) ∧ (∀ x ∈ l, 0 < x) ∧
      ∃ q : ℝ, 0 < q ∧ q < 1 ∧ ∀ (i : ℕ) (x y : ℝ), l[i]? = some x → l[i + 1]? = some y → y = x * q ∧ y < x := by
  have hN : (0 : ℝ) < (a.lambdaN : ℝ) - 1 := by
    have : (2 : ℝ) ≤ a.lambdaN := by exact_mod_cast hn
    linarith
  have hratio : m * a.lambdaEps / m = a.lambdaEps := by field_simp
  refine ⟨_, lambdaPath_ok.mpr ⟨m, hm, by
    unfold geomspace; rw [if_neg (by
      push Not; exact ⟨hpos.ne', (mul_pos hpos he0).ne'⟩)]⟩, ?_, ?_, ?_, ?_, ?_⟩
  · simp
  · rw [List.getElem?_map, List.getElem?_range (by omega)]
    simp
  · rw [List.getElem?_map, List.getElem?_range (by omega), hratio]
    simp only [Option.map_some, Option.some.injEq]
    rw [Nat.cast_sub (by omega), Nat.cast_one, div_self hN.ne', Real.rpow_one]
  · intro x hx
    obtain ⟨i, _, rfl⟩ := List.mem_map.mp hx
    rw [hratio]
    exact mul_pos hpos (Real.rpow_pos_of_pos he0 _)
  · refine ⟨a.lambdaEps ^ (1 / ((a.lambdaN : ℝ) - 1)), Real.rpow_pos_of_pos he0 _,
      Real.rpow_lt_one he0.le he1 (by positivity), ?_⟩
    intro i x y hx hy
    have hq1 : a.lambdaEps ^ (1 / ((a.lambdaN : ℝ) - 1)) < 1 :=
      Real.rpow_lt_one he0.le he1 (by positivity)
    rw [List.getElem?_map] at hx hy
    obtain ⟨i', hi', rfl⟩ := Option.map_eq_some_iff.mp hx
    obtain ⟨j', hj', rfl⟩ := Option.map_eq_some_iff.mp hy
    obtain ⟨_, rfl⟩ := List.getElem?_eq_some_iff.mp hi'
    obtain ⟨_, rfl⟩ := List.getElem?_eq_some_iff.mp hj'
    simp only [List.getElem_range, hratio]
    have e : m * a.lambdaEps ^ (((i + 1 : ℕ) : ℝ) / ((a.lambdaN : ℝ) - 1))
        = m * a.lambdaEps ^ ((i : ℝ) / ((a.lambdaN : ℝ) - 1)) * a.lambdaEps ^ (1 / ((a.lambdaN : ℝ) - 1)) := by
      rw [mul_assoc, ← Real.rpow_add he0]
      congr 2; push_cast; ring
    rw [e]
    refine ⟨rfl, ?_⟩
    have := mul_pos hpos (Real.rpow_pos_of_pos he0 ((i : ℝ) / ((a.lambdaN : ℝ) - 1)))
    nlinarith

/-- C27: the grid cannot be built when the maximum is zero (all correlations zero): numpy raises. -/
theorem C27_zero_raises (a : EnetArgs) (G : Matrix (Fin p) (Fin p) ℝ) (h : Row p) (reg : Fin p → Bool)
    (hm : getLambdaMax G h reg = .ok 0) : a.lambdaPath G h reg = .error .valueError := by
  unfold EnetArgs.lambdaPath
  rw [hm]
  change geomspace 0 (0 * a.lambdaEps) a.lambdaN = _
  unfold geomspace
  rw [if_pos (Or.inl rfl)]

/-- Non-vacuity of C27. -/
example : getLambdaMax !![(1 : ℝ)] ![(5 : ℝ)] (fun _ : Fin 1 => true) = .ok 5 ∧
    0 < (defaultArgs 1 100).lambdaEps ∧ (defaultArgs 1 100).lambdaEps < 1 ∧ 2 ≤ (defaultArgs 1 100).lambdaN := by
  refine ⟨?_, ?_, ?_, ?_⟩
  · unfold getLambdaMax
    rw [show (List.finRange 1).filter (fun _ => !true) = [] by decide]
    rw [show List.finRange 1 = [0] by decide]; rfl
  · norm_num [defaultArgs]
  · norm_num [defaultArgs]
  · norm_num [defaultArgs]

/-! ## C30 rescaling of the weights -/

theorem cdStep_scale (P : CDProblem p) {c : ℝ} (hc : 0 < c) (i : ℕ) (b : Row p) (j : Fin p) :
    cdStep { P with G := c • P.G, h := c • P.h, lam := c * P.lam } i b j = cdStep P i b j := by
  set Q : CDProblem p := { P with G := c • P.G, h := c • P.h, lam := c * P.lam } with hQ
  have hden : Q.denom j = c * P.denom j := by
    unfold CDProblem.denom
    change (if P.reg j then c * P.G j j + c * P.lam * (1 - P.alpha) else c * P.G j j) = _
    split <;> ring
  have hsum : (∑ k, Q.G j k * b k) = c * ∑ k, P.G j k * b k := by
    rw [Finset.mul_sum]
    exact Finset.sum_congr rfl fun k _ => by change c * P.G j k * b k = _; ring
  have htar : Q.target b j = c * P.target b j := by
    unfold CDProblem.target
    simp only [hsum]
    change (if P.reg j then softThreshold (c * P.h j - c * (∑ k, P.G j k * b k) + c * P.G j j * b j)
      (P.alpha * (c * P.lam)) else c * P.h j - c * (∑ k, P.G j k * b k) + c * P.G j j * b j) = _
    have e1 : c * P.h j - c * (∑ k, P.G j k * b k) + c * P.G j j * b j
        = c * (P.h j - (∑ k, P.G j k * b k) + P.G j j * b j) := by ring
    have e2 : P.alpha * (c * P.lam) = c * (P.alpha * P.lam) := by ring
    rw [e1, e2]
    split
    · exact softThreshold_mul hc
    · rfl
  have hval : Q.newValue b j = P.newValue b j := by
    unfold CDProblem.newValue
    rw [htar, hden, mul_div_mul_left _ _ hc.ne']
  unfold cdStep
  rw [hval, hden]
  have : (c * P.denom j = 0) ↔ P.denom j = 0 := by
    rw [mul_eq_zero]; exact or_iff_right hc.ne'
  simp only [this]

theorem onlineCD_scale (P : CDProblem p) {c : ℝ} (hc : 0 < c) (sel : Selection) (perm : ℕ → List (Fin p))
    (tol : ℝ) (m : ℕ) (b : Row p) :
    onlineCD { P with G := c • P.G, h := c • P.h, lam := c * P.lam } sel perm tol m b
      = onlineCD P sel perm tol m b := by
  have h : ∀ i JJ b, cdSweep { P with G := c • P.G, h := c • P.h, lam := c * P.lam } i JJ b
      = cdSweep P i JJ b := by
    intro i JJ b
    unfold cdSweep
    congr 1
    funext b j
    exact cdStep_scale P hc i b j
  unfold onlineCD
  simp only [h]

/-- C30: multiplying both Gramians and the grid by `c > 0` leaves all rows, iteration counts and exceptions
unchanged. -/
theorem C30_path (cfg : PathConfig p) (G : Matrix (Fin p) (Fin p) ℝ) (h : Row p) (lams : List ℝ)
    (olds : List (Row p)) {c : ℝ} (hc : 0 < c) :
    onlineCDPath cfg (c • G) (c • h) (lams.map (c * ·)) olds = onlineCDPath cfg G h lams olds := by
  have hrow : ∀ i lam np old, cdPathRow cfg (c • G) (c • h) i (c * lam) np old
      = cdPathRow cfg G h i lam np old := by
    intro i lam np old
    unfold cdPathRow
    simp only
    split
    · rfl
    · exact onlineCD_scale (cfg.problem G h lam) hc _ _ _ _ _
  unfold onlineCDPath
  generalize (0 : ℕ) = k
  generalize (0 : Row p) = np
  induction lams generalizing k np olds with
  | nil => rw [List.map_nil, cdPathLoop_nil_left, cdPathLoop_nil_left]
  | cons lam lams ih =>
    cases olds with
    | nil => rw [cdPathLoop_nil_right, cdPathLoop_nil_right]
    | cons old olds =>
      rw [List.map_cons, cdPathLoop, cdPathLoop, hrow]
      split
      · rfl
      · rw [ih]

/-- C30: the grid itself scales with the Gramians. -/
theorem C30_grid (a : EnetArgs) (G : Matrix (Fin p) (Fin p) ℝ) (h : Row p) (reg : Fin p → Bool)
    {c : ℝ} (hc : 0 < c) :
    a.lambdaPath (c • G) (c • h) reg = (a.lambdaPath G h reg).map (fun l => l.map (c * ·)) := by
  have hmax : getLambdaMax (c • G) (c • h) reg = (getLambdaMax G h reg).map (c * ·) := by
    unfold getLambdaMax
    split
    · rw [← npMax_map_mul hc, List.map_map]; rfl
    · rename_i j0 _
      rw [← npMax_map_mul hc, List.map_map]
      congr 1
      refine List.map_congr_left fun k _ => ?_
      change |c * h k - c * G j0 k * (c * h j0 / (c * G j0 j0))| = c * |h k - G j0 k * (h j0 / G j0 j0)|
      rw [mul_div_mul_left _ _ hc.ne', ← abs_of_pos hc, ← abs_mul, abs_of_pos hc]
      congr 1; ring
    · rfl
  unfold EnetArgs.lambdaPath
  rw [hmax]
  cases getLambdaMax G h reg with
  | error e => rfl
  | ok m =>
    change geomspace (c * m) (c * m * a.lambdaEps) a.lambdaN
      = (geomspace m (m * a.lambdaEps) a.lambdaN).map (fun l => l.map (c * ·))
    unfold geomspace
    have h1 : (c * m = 0 ∨ c * m * a.lambdaEps = 0) ↔ (m = 0 ∨ m * a.lambdaEps = 0) := by
      rw [mul_assoc, mul_eq_zero, mul_eq_zero (a := c)]
      simp [hc.ne']
    simp only [h1]
    split
    · rfl
    · change Except.ok _ = Except.ok _
      simp only [List.map_map]
      congr 1
      refine List.map_congr_left fun i _ => ?_
      change c * m * (c * m * a.lambdaEps / (c * m)) ^ _ = c * (m * (m * a.lambdaEps / m) ^ _)
      rw [mul_assoc c m a.lambdaEps, mul_div_mul_left _ _ hc.ne', mul_assoc]

/-- C30: the fitted coefficient path does not change when all weights are multiplied by `c > 0`. -/
theorem C30_fit (a : EnetArgs) (G : Matrix (Fin p) (Fin p) ℝ) (h : Row p) (reg : Fin p → Bool)
    (perm : ℕ → ℕ → List (Fin p)) {c : ℝ} (hc : 0 < c) :
    a.fitBetaPath (c • G) (c • h) reg perm = a.fitBetaPath G h reg perm := by
  unfold EnetArgs.fitBetaPath
  rw [C30_grid a G h reg hc]
  cases setBound p a.lower with
  | error e => rfl
  | ok lo =>
    cases setBound p a.upper with
    | error e => rfl
    | ok up =>
      cases a.lambdaPath G h reg with
      | error e => rfl
      | ok l =>
        change (onlineCDPath _ (c • G) (c • h) (l.map (c * ·)) _ >>= _) = (onlineCDPath _ G h l _ >>= _)
        rw [C30_path _ _ _ _ _ hc]

/-- C30: the same for updates of an existing path. -/
theorem C30_update (a : EnetArgs) (G : Matrix (Fin p) (Fin p) ℝ) (h : Row p) (old : List (Row p))
    (reg : Fin p → Bool) (perm : ℕ → ℕ → List (Fin p)) {c : ℝ} (hc : 0 < c) :
    a.updateBetaPath (c • G) (c • h) old reg perm = a.updateBetaPath G h old reg perm := by
  unfold EnetArgs.updateBetaPath
  rw [C30_grid a G h reg hc]
  cases setBound p a.lower with
  | error e => rfl
  | ok lo =>
    cases setBound p a.upper with
    | error e => rfl
    | ok up =>
      cases a.lambdaPath G h reg with
      | error e => rfl
      | ok l =>
        change (onlineCDPath _ (c • G) (c • h) (l.map (c * ·)) _ >>= _) = (onlineCDPath _ G h l _ >>= _)
        rw [C30_path _ _ _ _ _ hc]

/-- C30: the OLS coefficients do not change either. -/
theorem C30_ols (G : Matrix (Fin p) (Fin p) ℝ) (h : Row p) {c : ℝ} (hc : 0 < c) :
    olsBeta (c • G)⁻¹ (c • h) = olsBeta G⁻¹ h := by
  unfold olsBeta
  by_cases hG : IsUnit G.det
  · have := invertibleOfNonzero hc.ne'
    rw [Matrix.inv_smul G c hG, Matrix.smul_mulVec, Matrix.mulVec_smul, smul_smul]
    simp
  · have h2 : ¬ IsUnit (c • G).det := by
      rw [Matrix.det_smul, isUnit_iff_ne_zero, not_not, mul_eq_zero]
      right
      rwa [isUnit_iff_ne_zero, not_not] at hG
    rw [Matrix.nonsing_inv_apply_not_isUnit _ hG, Matrix.nonsing_inv_apply_not_isUnit _ h2]
    simp

/-! ## C67 warm starting on the previous lambda is batch fitting -/

theorem cdPathLoop_previousLambda (c : PathConfig p) (hw : c.which = .previousLambda)
    (G : Matrix (Fin p) (Fin p) ℝ) (h : Row p) (k : ℕ) (np : Row p) (lams : List ℝ)
    (olds olds' : List (Row p)) (hlen : olds.length = olds'.length) :
    cdPathLoop c G h k np lams olds = cdPathLoop c G h k np lams olds' := by
  induction lams generalizing k np olds olds' with
  | nil => rw [cdPathLoop_nil_left, cdPathLoop_nil_left]
  | cons lam lams ih =>
    cases olds with
    | nil =>
      cases olds' with
      | nil => rfl
      | cons o os => simp at hlen
    | cons o os =>
      cases olds' with
      | nil => simp at hlen
      | cons o' os' =>
        rw [cdPathLoop, cdPathLoop]
        have : cdPathRow c G h k lam np o = cdPathRow c G h k lam np o' := by
          unfold cdPathRow startValue; simp only [hw, if_true]
        rw [this]
        split
        · rfl
        · rw [ih _ _ _ _ (by simpa using hlen)]

/-- C67: when fits and updates warm-start on the previous lambda, the path after any history of updates is
exactly the path of a batch fit on the whole stream: same coefficients, same exceptions, whatever
the previous path was. -/
theorem C67_update_eq_batch_fit (a : EnetArgs) (hi : a.startInitial = .previousLambda)
    (hu : a.startUpdate = .previousLambda) {forget : ℝ} (hf : forget ≤ 1) (init : List (Obs p))
    (batches : List (List (Obs p))) (hne : ∀ b ∈ batches, b ≠ []) (hwi : NonnegWeights init)
    (hwb : ∀ b ∈ batches, NonnegWeights b) (reg : Fin p → Bool) (perm : ℕ → ℕ → List (Fin p))
    (old : List (Row p)) (hold : old.length = a.lambdaN) :
    a.updateBetaPath (onlineGram forget init batches) (onlineYGram forget init batches) old reg perm
      = a.fitBetaPath (initGram (xs (init ++ batches.flatten)) (ws (init ++ batches.flatten)) forget)
          (initYGram (xs (init ++ batches.flatten)) (ys (init ++ batches.flatten))
            (ws (init ++ batches.flatten)) forget) reg perm := by
  rw [C03_online_eq_batch hf init batches hne hwi hwb, C03_online_eq_batch_y hf init batches hne hwi hwb]
  unfold EnetArgs.updateBetaPath EnetArgs.fitBetaPath
  rw [hi, hu]
  unfold onlineCDPath
  have key : ∀ lo up G h lams, cdPathLoop (a.pathConfig .previousLambda reg lo up perm) G h 0 0 lams old
      = cdPathLoop (a.pathConfig .previousLambda reg lo up perm) G h 0 0 lams (List.replicate a.lambdaN 0) :=
    fun lo up G h lams => cdPathLoop_previousLambda _ rfl _ _ _ _ _ _ _ (by simp [hold])
  simp only [key]

/-- Non-vacuity of C67. -/
example : ∃ a : EnetArgs, a.startInitial = .previousLambda ∧ a.startUpdate = .previousLambda ∧
    (List.replicate a.lambdaN (0 : Row 2)).length = a.lambdaN :=
  ⟨{ defaultArgs 1 100 with startUpdate := .previousLambda }, rfl, rfl, by simp⟩

/-! ## C68 early stopping in updates -/

/-- C68 fails: with early stopping at `k` non-zeros and the default warm start on the previous fit, a row
that has at least `k` non-zero coefficients is copied by every update, whatever the new data are. -/
theorem C68_frozen_fails (a : EnetArgs) (hu : a.startUpdate = .previousFit) (hk : 0 < a.earlyStop)
    (reg : Fin p → Bool) (path0 : List (Row p)) (updates : List (GramUpdate p)) (path : List (Row p))
    (h : updates.foldlM (fun path u => a.updateBetaPath u.G u.h path reg u.perm) path0 = .ok path)
    (i : ℕ) (row : Row p) (hi : path[i]? = some row) (row0 : Row p) (hrow0 : path0[i]? = some row0)
    (hnz : a.earlyStop ≤ countNonzero row0) : row = row0 := by
  induction updates generalizing path0 row0 with
  | nil =>
    cases h
    rw [hi] at hrow0
    exact Option.some.inj hrow0
  | cons u us ih =>
    rw [List.foldlM_cons] at h
    obtain ⟨q, h1, h2⟩ := bind_ok.mp h
    obtain ⟨lo, _, up, _, lams, hl, rows, hrows, rfl⟩ := updateBetaPath_ok.mp h1
    -- the path keeps its length along successful updates, so row `i` exists
    have hlen : ∀ (us : List (GramUpdate p)) (q q' : List (Row p)),
        us.foldlM (fun path u => a.updateBetaPath u.G u.h path reg u.perm) q = .ok q' →
        q'.length ≤ q.length := by
      intro us
      induction us with
      | nil => intro q q' hq; cases hq; exact le_rfl
      | cons u us ih =>
        intro q q' hq
        rw [List.foldlM_cons] at hq
        obtain ⟨q1, e1, e2⟩ := bind_ok.mp hq
        obtain ⟨_, _, _, _, _, _, rows, hrows, rfl⟩ := updateBetaPath_ok.mp e1
        have h3 := ih _ _ e2
        rw [List.length_map, cdPathLoop_length hrows] at h3
        omega
    have hi' : i < (rows.map Prod.fst).length :=
      lt_of_lt_of_le (List.getElem?_eq_some_iff.mp hi).1 (hlen us _ _ h2)
    rw [List.length_map] at hi'
    have hr : rows[i]? = some rows[i] := List.getElem?_eq_getElem hi'
    obtain ⟨lam, old, prev, _, e2, _, he⟩ := cdPathLoop_row hrows i _ hr
    rw [hrow0] at e2
    cases e2
    have hs : startValue (a.pathConfig a.startUpdate reg lo up u.perm).which prev row0 = row0 := by
      change startValue a.startUpdate prev row0 = row0
      rw [hu]; rfl
    unfold cdPathRow at he
    simp only [hs] at he
    rw [if_pos ⟨hk, hnz⟩] at he
    refine ih _ h2 row0 ?_ hnz
    rw [List.getElem?_map, hr, ← Except.ok.inj he]; rfl

/-- Witness for C68: one row, a new Gramian pair that a fresh fit answers with the coefficient 0 (or any
other); the update returns the old row `7`. -/
example : (exConfig .previousFit 1 10).earlyStop = 1 ∧
    onlineCDPath (exConfig .previousFit 1 10) exProblem.G exProblem.h [1] [![7, 7]] = .ok [(![7, 7], 0)] := by
  refine ⟨rfl, ?_⟩
  have hs : startValue (exConfig .previousFit 1 10).which (0 : Row 2) ![7, 7] = ![7, 7] := rfl
  have h1 : cdPathRow (exConfig .previousFit 1 10) exProblem.G exProblem.h 0 1 0 ![7, 7]
      = .ok (![7, 7], 0) := by
    unfold cdPathRow
    simp only [hs]
    have : countNonzero (![7, 7] : Row 2) = 2 := by
      unfold countNonzero
      rw [show List.finRange 2 = [0, 1] by decide, List.filter_cons_of_pos (by simp),
        List.filter_cons_of_pos (by simp)]
      rfl
    simp only [this]
    rw [if_pos (by change 1 > 0 ∧ 2 ≥ 1; decide)]
  unfold onlineCDPath
  rw [cdPathLoop, h1]
  simp only
  rw [cdPathLoop_nil_left]

/-- Non-vacuity of `C26_alpha_fails`: default elastic net (`alpha = 0.5`), `G = [[2,0],[0,1]]`, `h = (0,3)`. -/
example : ∃ path row, (defaultArgs (1 / 2) 100).fitBetaPath !![(2 : ℝ), 0; 0, 1] ![0, 3] ![false, true]
    (fun _ _ => []) = .ok path ∧ path[0]? = some row := by
  have hmax : getLambdaMax !![(2 : ℝ), 0; 0, 1] ![(0 : ℝ), 3] ![false, true] = .ok 3 := by
    unfold getLambdaMax
    rw [show (List.finRange 2).filter (fun j => !(![false, true] : Fin 2 → Bool) j) = [0] by decide]
    rw [show List.finRange 2 = [0, 1] by decide]
    change Except.ok (max |(0 : ℝ) - 2 * (0 / 2)| |3 - 0 * (0 / 2)|) = _
    norm_num
  obtain ⟨l, hl, _, _, _, hpos, _⟩ := C27_grid (defaultArgs (1 / 2) 100) _ _ _ 3 hmax (by norm_num)
    (by norm_num [defaultArgs]) (by norm_num [defaultArgs]) (by norm_num [defaultArgs])
  obtain ⟨path, h1, h2⟩ := fitBetaPath_total (fun _ _ => []) (rfl : setBound 2 none = _)
    (rfl : setBound 2 none = _) hl (by
      intro lam hlam j
      have := hpos lam hlam
      fin_cases j
      · simp
      · change (1 : ℝ) + lam * (1 - 1 / 2) ≠ 0
        have : 0 < (1 : ℝ) + lam * (1 - 1 / 2) := by linarith
        exact this.ne')
  exact ⟨path, path[0]'(by rw [h2]; decide), h1, List.getElem?_eq_getElem _⟩

end Ondil
