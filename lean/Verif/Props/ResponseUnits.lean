import Verif.Lemmas.LinearModelUnits

/-!
# The unit of the response (C93)
-/

open scoped BigOperators

namespace Ondil

variable {p : ℕ} {fi : Bool} {k : ℝ}

/-- In both units the same coefficients of the path are counted as non-zero, and no row fits perfectly.  There is nothing to
require of a method without a path. -/
def SizesKept (k : ℝ) (s : LM p fi) : Prop :=
  ∀ a, s.method = some (.path a) → ∀ path rss, s.coefPath = some path → s.rss = some rss →
    (∀ b ∈ path, ∀ j, b j = 0 ∨ (1 / 10 ^ 8 < |b j| ∧ 1 / 10 ^ 8 < |k * b j|)) ∧ ∀ r ∈ rss, 0 < r

theorem nParams_kept {b : Row p} (h : ∀ j, b j = 0 ∨ ((1 : ℝ) / 10 ^ 8 < |b j| ∧ (1 : ℝ) / 10 ^ 8 < |k * b j|)) :
    nParams (k • b) = nParams b := by
  rw [nParams_eq, nParams_eq]
  unfold modelSize
  congr 1
  refine Finset.filter_congr fun j _ => ?_
  rcases h j with h | ⟨h1, h2⟩
  · simp [h]
  · simp only [Pi.smul_apply, smul_eq_mul, h1, h2]

theorem predict_scaled {s t : LM p fi} (hs : t.scaler = s.scaler) (hc : t.coef = s.coef.map (k • ·)) (X : List (Row p)) :
    t.predict X = (s.predict X).map (List.map (k * ·)) := by
  unfold LM.predict
  rw [hs, hc]
  cases s.scaler with
  | none => cases s.coef <;> rfl
  | some sc =>
    cases s.coef with
    | none => rfl
    | some b =>
      simp only [Option.map, Except.map, List.map_map, Except.ok.injEq]
      exact List.map_congr_left fun x _ => rowDot_scale ..

theorem sum_scale (k : ℝ) (l : List ℝ) : (l.map (k * ·)).sum = k * l.sum := by
  induction l with
  | nil => simp
  | cons a l ih => rw [List.map_cons, List.sum_cons, List.sum_cons, ih, mul_add]

theorem score_scaled (hk : 0 < k) {s t : LM p fi} (h : ∀ X, t.predict X = (s.predict X).map (List.map (k * ·))) (X : List (Row p))
    (y : List ℝ) : t.score X (y.map (k * ·)) = s.score X y := by
  unfold LM.score
  rw [h]
  cases s.predict X with
  | error e => rfl
  | ok l =>
    change Except.ok _ = Except.ok _
    have h1 : List.zipWith (fun a b => (a - b) ^ 2) (y.map (k * ·)) (l.map (k * ·)) =
        (List.zipWith (fun a b => (a - b) ^ 2) y l).map (k ^ 2 * ·) := by
      rw [List.zipWith_map, List.map_zipWith]
      congr 1
      funext a b
      ring
    have h2 : ((y.map (k * ·)).map fun a => (a - (y.map (k * ·)).sum / (y.map (k * ·)).length) ^ 2) =
        (y.map fun a => (a - y.sum / y.length) ^ 2).map (k ^ 2 * ·) := by
      rw [List.map_map, List.map_map, sum_scale, List.length_map]
      refine List.map_congr_left fun a _ => ?_
      simp only [Function.comp]
      ring
    rw [h1, h2, sum_scale, sum_scale, mul_div_mul_left _ _ (by positivity)]

/-- With a method that has no units of its own, a linear model of the response in another unit raises alike, or all
coefficients of the path, the selected coefficients and the predictions are multiplied by the factor, and the score is the same. -/
theorem C93_response_units_partial (hk : 0 < k) (c : LMConfig p fi) (hm : ∀ m, getEstimationMethod c.method = .ok m → m.UnitFree)
    (perm : ℕ → ℕ → List (Fin (designDim p fi))) (rng : ℕ → ℕ → ℕ → List (Fin (designDim p fi))) (data : List (Obs p))
    (batches : List (List (Obs p))) (s s' : LM p fi) :
    let run := fun (d : List (Obs p)) (bs : List (List (Obs p))) => (do
      LM.fit c perm d
      LM.updates c rng 0 bs : Py (LM p fi) Unit)
    let r := run data batches s
    let r' := run (data.map (Obs.scaleY k)) (batches.map fun d => d.map (Obs.scaleY k)) s'
    r'.1 = r.1 ∧ (r.1 = .ok () →
      ((∃ a, r.2.method = some (.path a)) → ∀ X, r'.2.predictPath X = (r.2.predictPath X).map (List.map (List.map (k * ·)))) ∧
      (SizesKept k r.2 → r'.2.coef = r.2.coef.map (k • ·) ∧ (∀ X, r'.2.predict X = (r.2.predict X).map (List.map (k * ·))) ∧
        ∀ X y, r'.2.score X (y.map (k * ·)) = r.2.score X y)) := by
  intro run r r'
  by_cases hv : c.Valid
  · have h := Py.RelTo.bind (LM.fit_scaled hk c hv hm perm data) (fun _ => LM.updates_scaled hk c hv rng batches 0) s s' trivial
    refine ⟨h.1.symm, fun hok => ?_⟩
    have h2 : ScaledLM k r.2 r'.2 := h.2 () hok
    refine ⟨fun ⟨a, ha⟩ X => ?_, fun hsel => ?_⟩
    · obtain ⟨path, rss, _, _, f1, _, _, f4, _⟩ := h2.path a ha
      unfold LM.predictPath
      rw [h2.scaler, f1, f4]
      cases r.2.scaler with
      | none => rfl
      | some sc =>
        simp only [Except.map, List.map_map, Except.ok.injEq]
        refine List.map_congr_left fun x _ => ?_
        simp only [Function.comp, List.map_map]
        exact List.map_congr_left fun b _ => rowDot_scale ..
    · have hc : r'.2.coef = r.2.coef.map (k • ·) := by
        by_cases hp : ∃ a, r.2.method = some (.path a)
        · obtain ⟨a, ha⟩ := hp
          obtain ⟨path, rss, b, b', f1, f2, _, _, _, f6, f7, f8⟩ := h2.path a ha
          obtain ⟨g1, g2⟩ := hsel a ha path rss f1 f2
          rw [f6, f7, f8 (fun b hb => nParams_kept (g1 b hb)) g2]
          rfl
        · exact h2.coef fun a ha => hp ⟨a, ha⟩
      have hp := predict_scaled h2.scaler hc
      exact ⟨hc, hp, fun X y => score_scaled hk hp X y⟩
  · have key : ∀ (d : List (Obs p)) (bs : List (List (Obs p))) (s : LM p fi), (run d bs s).1 = .error .valueError := by
      intro d bs s
      have : LM.fit c perm d s = (.error .valueError, s) := by
        unfold LM.fit
        rw [Py.bind_raiseIf_pos hv]
      simp only [run]
      rw [Py.bind_of_error this]
    refine ⟨(key ..).trans (key ..).symm, fun h => ?_⟩
    rw [show r.1 = _ from key ..] at h
    cases h

/-! ### One column -/

/-- Coordinate descent in one dimension finds its value in the first sweep. -/
theorem oneColumn_cd (P : CDProblem 1) (hd : P.denom 0 ≠ 0) (perm : ℕ → List (Fin 1)) {tol : ℝ} (ht : 0 ≤ tol) (m : ℕ) (b : Row 1) :
    ∃ n, onlineCD P .cyclic perm tol m b = .ok (fun _ => P.newValue 0 0, n) := by
  have hv : ∀ b : Row 1, P.newValue b 0 = P.newValue 0 0 := by
    intro b
    have : P.target b 0 = P.target 0 0 := by
      unfold CDProblem.target
      simp
    unfold CDProblem.newValue
    rw [this]
  have hfin : List.finRange 1 = [0] := by decide
  have hsweep : ∀ i b, (i < 2 ∨ b (0 : Fin 1) ≠ 0) → cdSweep P i [0] b = .ok fun _ => P.newValue 0 0 := by
    intro i b h
    unfold cdSweep
    rw [List.foldlM_cons]
    unfold cdStep
    rw [if_pos h, if_neg hd, hv]
    change Except.ok _ = Except.ok _
    congr 1
    funext j
    rw [Subsingleton.elim j 0, Function.update_self]
  have hord : ∀ i, cdOrder (p := 1) .cyclic perm i = [0] := by
    intro i
    unfold cdOrder
    rw [if_neg (by simp), hfin]
  unfold onlineCD
  rw [whileLoop, hord, hsweep 1 b (.inl (by norm_num))]
  simp only
  split_ifs
  · exact ⟨1, rfl⟩
  · exact ⟨1, rfl⟩
  · refine ⟨2, ?_⟩
    have h2 : cdSweep P 2 [0] (fun _ => P.newValue 0 0) = .ok fun _ => P.newValue 0 0 := by
      by_cases h0 : P.newValue 0 0 = 0
      · unfold cdSweep
        rw [List.foldlM_cons]
        unfold cdStep
        rw [if_neg (by simp [h0])]
        rfl
      · exact hsweep 2 _ (.inr h0)
    rw [whileLoop, hord, h2]
    simp only
    have hc : cdConverged tol (fun _ : Fin 1 => P.newValue 0 0) (fun _ => P.newValue 0 0) := by
      unfold cdConverged maxAbs
      rw [hfin]
      simp only [List.foldl_cons, List.foldl_nil, sub_self, Pi.zero_apply, abs_zero, max_self]
      exact mul_nonneg ht (le_max_left _ _)
    rw [if_pos hc]

/-- Two observations of the column 1. -/
noncomputable def pairData (y y' : ℝ) : List (Obs 1) := [⟨fun _ => 1, y, 1⟩, ⟨fun _ => 1, y', 1⟩]

/-- The penalty of row `i`. -/
noncomputable def pairLam (a : EnetArgs) (h : ℝ) (i : ℕ) : ℝ := h * a.lambdaEps ^ ((i : ℝ) / ((a.lambdaN : ℝ) - 1))

/-- The fit of a path on two such observations. -/
theorem pair_fit_general (m : MethodArg (designDim 1 false)) (a : EnetArgs) (hm : getEstimationMethod m = .ok (.path a))
    (hn : 0 < a.lambdaN) (he : 0 < a.lambdaEps) (hs : a.selection = .cyclic) (hst : a.earlyStop = 0)
    (hlo : a.lower = none) (hup : a.upper = none) (ht : 0 ≤ a.tolerance) {y y' : ℝ} (hy : y + y' ≠ 0)
    (hden : ∀ i, 2 + pairLam a (y + y') i * (1 - a.alpha) ≠ 0) (s : LM 1 false) :
    ∃ (s' : LM 1 false) (path : List (Row 1)) (b : Row 1), LM.fit (onesConfig m) (fun _ _ => []) (pairData y y') s = (.ok (), s') ∧
      s'.coefPath = some path ∧ path.length = a.lambdaN ∧
      (∀ i < a.lambdaN, path[i]? = some fun _ =>
        softThreshold (y + y') (a.alpha * pairLam a (y + y') i) / (2 + pairLam a (y + y') i * (1 - a.alpha))) ∧
      s'.coef = some b ∧ IsBestRow (q := 1) .bic 2 path (path.map fun b => (y - b 0) ^ 2 + (y' - b 0) ^ 2) b ∧
      s'.rss = some (path.map fun b => (y - b 0) ^ 2 + (y' - b 0) ^ 2) := by
  let c : LMConfig 1 false := onesConfig m
  let data : List (Obs 1) := pairData y y'
  have hmo : m ≠ .other := by rintro rfl; cases hm
  have hms : m ≠ .str "ols" := by
    rintro rfl
    rw [getEstimationMethod_ols] at hm
    cases hm
  have hn' : NonnegWeights data := by
    intro o ho
    simp only [data, pairData, List.mem_cons, List.not_mem_nil, or_false] at ho
    rcases ho with rfl | rfl <;> norm_num
  have hsc := scaler_fit_canon (ToScale.off : ToScale 1) 0 data (by simp [data, pairData]) (.inl rfl)
  have hG : ∀ i j : Fin 1, initGram (xs data) (ws data) 0 i j = 2 := by
    intro i j
    rw [initGram_apply (by norm_num) data hn']
    simp [data, pairData, discSum_cons]; norm_num
  have hh : ∀ j : Fin 1, initYGram (xs data) (ys data) (ws data) 0 j = y + y' := by
    intro j
    rw [initYGram_apply (by norm_num) data hn']
    simp [data, pairData, discSum_cons]
  have hX : scaledDesign false (canonSc (ToScale.off : ToScale 1) 0 data) (xs data) = xs data :=
    (List.map_id (xs data) : _)
  have hmax : getLambdaMax (initGram (xs data) (ws data) 0) (initYGram (xs data) (ys data) (ws data) 0)
      (fun _ : Fin 1 => true) = .ok (y + y') := by
    unfold getLambdaMax
    rw [show (List.finRange 1).filter (fun _ => !true) = [] by decide]
    rw [show List.finRange 1 = [0] by decide]
    change Except.ok (initYGram (xs data) (ys data) (ws data) 0 0) = _
    rw [hh]
  have hl : a.lambdaPath (initGram (xs data) (ws data) 0) (initYGram (xs data) (ys data) (ws data) 0) (fun _ : Fin 1 => true) =
      .ok ((List.range a.lambdaN).map (pairLam a (y + y'))) := by
    refine lambdaPath_ok.mpr ⟨_, hmax, ?_⟩
    unfold geomspace
    rw [if_neg (by
      rintro (h | h)
      · exact hy h
      · exact mul_ne_zero hy he.ne' h)]
    refine congrArg Except.ok (List.map_congr_left fun i _ => ?_)
    unfold pairLam
    rw [mul_div_cancel_left₀ _ hy]
  obtain ⟨path, hp, hlen⟩ := fitBetaPath_total (a := a) (fun _ _ => []) (by rw [hlo]; rfl : setBound 1 a.lower = .ok fun _ => none)
    (by rw [hup]; rfl : setBound 1 a.upper = .ok fun _ => none) hl (by
      intro lam hlam' j
      rw [hG]
      obtain ⟨i, _, rfl⟩ := List.mem_map.1 hlam'
      simpa using hden i)
  obtain ⟨s', hs', hpath, _, _, _, _, _, g2⟩ := LM.fit_path_succeeds c (fun _ _ => []) data s
    ⟨le_refl _, by norm_num [c, onesConfig], by simp [c, onesConfig], hmo⟩ (by simp [c, onesConfig])
    (by simp [data, pairData]) (fun h => hms h.2) (by simp [ws, data, pairData]) a hm _ hsc path
    (by rw [hX]; exact hp) (by
      intro h0
      rw [h0] at hlen
      exact hn.ne hlen)
  obtain ⟨_, path', rss, n, b, i1, i2, i3, i4, i5, i6, i7⟩ := PathInv.of_fit (c := c) hm hs'
  rw [hpath] at i1
  cases i1
  obtain ⟨_, _, _, _, _, _, _, _, _, _, _, _, _, h3, _⟩ := LM.fit_ok hs'
  rw [h3] at i3
  rw [g2] at i2
  have hN : n = 2 := by
    cases i3
    simp [effectiveTrainingLength, data, pairData, ws, c, onesConfig]
    norm_num
  have hrow : ∀ b : Row 1, rssFit (xs data) (ys data) (ws data) b = (y - b 0) ^ 2 + (y' - b 0) ^ 2 := by
    intro b
    simp [rssFit, rowDot, data, pairData, xs, ys, ws]
  have hrss : rss = path.map fun b : Row 1 => (y - b 0) ^ 2 + (y' - b 0) ^ 2 := by
    cases i2
    rw [hX]
    refine List.map_congr_left fun b _ => ?_
    exact hrow b
  have hrss' : s'.rss = some rss := g2.trans i2
  refine ⟨s', path, b, hs', hpath, hlen, fun i hi => ?_, i4, ?_, hrss ▸ hrss'⟩
  · obtain ⟨lo, hlo', up, hup', lams, hl', rows, hrows, rfl⟩ := fitBetaPath_ok.mp hp
    rw [hlo] at hlo'
    rw [hup] at hup'
    cases hlo'
    cases hup'
    rw [hl] at hl'
    cases hl'
    have hir : i < rows.length := by rw [List.length_map] at hlen; omega
    obtain ⟨lam, old, prev, k1, k2, k3, k4⟩ := cdPathLoop_row hrows i rows[i] (List.getElem?_eq_getElem hir)
    rw [List.getElem?_map, List.getElem?_eq_getElem hir]
    rw [List.getElem?_map, List.getElem?_range hi] at k1
    cases k1
    unfold cdPathRow at k4
    simp only at k4
    rw [if_neg (by simp [EnetArgs.pathConfig, hst])] at k4
    have k4' : onlineCD ((a.pathConfig a.startInitial (fun _ => true) (fun _ => none) (fun _ => none) fun _ _ => []).problem
        (initGram (xs data) (ws data) 0) (initYGram (xs data) (ys data) (ws data) 0) (pairLam a (y + y') i)) .cyclic
        (fun _ => []) a.tolerance a.maxIterations (startValue a.startInitial prev old) = .ok rows[i] := by rw [← hs]; exact k4
    obtain ⟨n, hn⟩ := oneColumn_cd ((a.pathConfig a.startInitial (fun _ => true) (fun _ => none) (fun _ => none) fun _ _ => []).problem
        (initGram (xs data) (ws data) 0) (initYGram (xs data) (ys data) (ws data) 0) (pairLam a (y + y') i)) (by
          simp only [CDProblem.denom, PathConfig.problem, EnetArgs.pathConfig, hG, if_true]
          exact hden i) (fun _ => []) ht a.maxIterations (startValue a.startInitial prev old)
    have hrow' := Except.ok.inj (k4'.symm.trans hn)
    rw [hrow']
    simp only [Option.map, Option.some.injEq]
    funext j
    simp only [CDProblem.newValue, CDProblem.target, CDProblem.denom, PathConfig.problem, EnetArgs.pathConfig, hG, hh, clipHigh,
      clipLow, if_true, Pi.zero_apply, mul_zero, Finset.sum_const_zero, sub_zero, add_zero]
  · rw [← hN, ← hrss]; exact i7

/-- With a positive sum of the responses the penalties are positive. -/
theorem pair_fit (m : MethodArg (designDim 1 false)) (a : EnetArgs) (hm : getEstimationMethod m = .ok (.path a)) (h0 : 0 ≤ a.alpha)
    (h1 : a.alpha ≤ 1) (hn : 0 < a.lambdaN) (he : 0 < a.lambdaEps) (hs : a.selection = .cyclic) (hst : a.earlyStop = 0)
    (hlo : a.lower = none) (hup : a.upper = none) (ht : 0 ≤ a.tolerance) {y y' : ℝ} (hy : 0 < y + y') (s : LM 1 false) :
    ∃ (s' : LM 1 false) (path : List (Row 1)) (b : Row 1), LM.fit (onesConfig m) (fun _ _ => []) (pairData y y') s = (.ok (), s') ∧
      s'.coefPath = some path ∧ path.length = a.lambdaN ∧
      (∀ i < a.lambdaN, path[i]? = some fun _ =>
        softThreshold (y + y') (a.alpha * pairLam a (y + y') i) / (2 + pairLam a (y + y') i * (1 - a.alpha))) ∧
      s'.coef = some b ∧ IsBestRow (q := 1) .bic 2 path (path.map fun b => (y - b 0) ^ 2 + (y' - b 0) ^ 2) b ∧
      s'.rss = some (path.map fun b => (y - b 0) ^ 2 + (y' - b 0) ^ 2) := by
  exact pair_fit_general m a hm hn he hs hst hlo hup ht hy.ne'
    (fun i => by have := mul_pos hy (Real.rpow_pos_of_pos he ((i : ℝ) / ((a.lambdaN : ℝ) - 1))); unfold pairLam; nlinarith) s

/-- The theorem for a fit without updates. -/
theorem C93_fit_partial (hk : 0 < k) (c : LMConfig p fi) (hm : ∀ m, getEstimationMethod c.method = .ok m → m.UnitFree)
    (perm : ℕ → ℕ → List (Fin (designDim p fi))) (data : List (Obs p)) {s s' s1 : LM p fi}
    (hs : LM.fit c perm data s = (.ok (), s1)) :
    ∃ t1, LM.fit c perm (data.map (Obs.scaleY k)) s' = (.ok (), t1) ∧ (SizesKept k s1 → t1.coef = s1.coef.map (k • ·) ∧
      ∀ X, t1.predict X = (s1.predict X).map (List.map (k * ·))) := by
  obtain ⟨h1, h2⟩ := C93_response_units_partial hk c hm perm (fun _ => perm) data [] s s'
  have e : ∀ (m : Py (LM p fi) Unit), (do m; LM.updates c (fun _ => perm) 0 [] : Py (LM p fi) Unit) = m := by
    intro m
    funext t
    unfold LM.updates
    rcases hm : m t with ⟨_ | _, t'⟩
    · rw [Py.bind_of_error hm]
    · rw [Py.bind_of_ok hm]; rfl
  beta_reduce at h1 h2
  rw [List.map_nil, e, e, hs] at h1
  rw [List.map_nil, e, e, hs] at h2
  exact ⟨(LM.fit c perm (data.map (Obs.scaleY k)) s').2, Prod.ext h1 rfl, fun h => ⟨((h2 rfl).2 h).1, ((h2 rfl).2 h).2.1⟩⟩

/-- Least squares through four points, in two units. -/
example (perm : ℕ → ℕ → List (Fin (designDim 1 true))) :
    ∃ s t : LM 1 true, LM.fit (olsConfig .all) perm lineInit (LM.new 1 true) = (.ok (), s) ∧
      LM.fit (olsConfig .all) perm (lineInit.map (Obs.scaleY 1000)) (LM.new 1 true) = (.ok (), t) ∧
      t.coef = s.coef.map ((1000 : ℝ) • ·) ∧ ∀ X, t.predict X = (s.predict X).map (List.map ((1000 : ℝ) * ·)) := by
  obtain ⟨s, hs⟩ := lineInit_fit perm .all (.inl rfl) (LM.new 1 true)
  have hm : ∀ m, getEstimationMethod (olsConfig .all).method = .ok m → m = .ols := by
    intro m hm
    rw [show (olsConfig .all).method = .str "ols" from rfl, getEstimationMethod_ols] at hm
    cases hm
    rfl
  obtain ⟨t, ht, h⟩ := C93_fit_partial (k := 1000) (by norm_num) (olsConfig .all) (fun m h => by rw [hm m h]; trivial) perm lineInit
    (s' := LM.new 1 true) hs
  obtain ⟨_, _, _, _, _, m, _, _, hm', _, _, _, _, _, _, _, h3, _⟩ := LM.fit_ok hs
  obtain ⟨h4, h5⟩ := h fun a ha => by
    rw [(h3 (hm m hm')).1] at ha
    cases ha
  exact ⟨s, t, hs, ht, h4, h5⟩

/-- A lasso path of two rows whose sizes are the same in both units. -/
example : ∃ (s t : LM 1 false) (b : Row 1),
    LM.fit (onesConfig (.obj (.path { lassoDefault with lambdaN := 2 }))) (fun _ _ => []) (pairData 6 (-5)) (LM.new 1 false) =
      (.ok (), s) ∧ SizesKept 1000 s ∧
    LM.fit (onesConfig (.obj (.path { lassoDefault with lambdaN := 2 }))) (fun _ _ => []) ((pairData 6 (-5)).map (Obs.scaleY 1000))
      (LM.new 1 false) = (.ok (), t) ∧ s.coef = some b ∧ t.coef = some ((1000 : ℝ) • b) := by
  obtain ⟨s, path, b, h1, h2, h3, h4, h5, h6, h7⟩ := pair_fit (.obj (.path { lassoDefault with lambdaN := 2 })) _ rfl
    (by norm_num [lassoDefault]) (by norm_num [lassoDefault]) (by simp) (by norm_num [lassoDefault]) (by simp [lassoDefault])
    (by simp [lassoDefault]) (by simp [lassoDefault]) (by simp [lassoDefault]) (by norm_num [lassoDefault]) (y := 6) (y' := -5)
    (by norm_num) (LM.new 1 false)
  have hrow : ∀ x ∈ path, x 0 = 0 ∨ x 0 = (1 - 1 / 10000) / 2 := by
    intro x hx
    obtain ⟨i, hi, rfl⟩ := List.mem_iff_getElem.1 hx
    have hi' : i < 2 := by rw [h3] at hi; exact hi
    have := h4 i hi'
    rw [List.getElem?_eq_getElem hi] at this
    rw [Option.some.inj this]
    interval_cases i
    · left
      norm_num [pairLam, lassoDefault, softThreshold]
    · right
      norm_num [pairLam, lassoDefault, softThreshold, Real.sign_of_pos]
  have hk : SizesKept 1000 s := by
    intro a _ path' rss hp hr
    rw [h2] at hp
    rw [h7] at hr
    cases hp
    cases hr
    refine ⟨fun x hx j => ?_, fun r hr => ?_⟩
    · have hj : x j = x (0 : Fin 1) := congrArg x (Subsingleton.elim (α := Fin 1) _ _)
      rw [hj]
      rcases hrow x hx with h | h
      · exact .inl h
      · right
        rw [h]
        constructor <;> rw [abs_of_pos (by norm_num)] <;> norm_num
    · obtain ⟨x, _, rfl⟩ := List.mem_map.1 hr
      nlinarith [sq_nonneg (2 * x 0 - 1)]
  obtain ⟨t, ht, h⟩ := C93_fit_partial (k := 1000) (by norm_num) (onesConfig (.obj (.path { lassoDefault with lambdaN := 2 })))
    (fun m h => by cases h; exact ⟨rfl, rfl, rfl⟩) (fun _ _ => []) (pairData 6 (-5)) (s' := LM.new 1 false) h1
  refine ⟨s, t, b, h1, hk, ht, h5, ?_⟩
  rw [(h hk).1, h5]
  rfl

/-- **C93 fails** for the elastic net: its penalty grows with the unit of the response, and the quadratic part of the penalty
is not a penalty on squares in that unit.  Doubling the response changes the first row of the path from 1/3 to 1/2. -/
theorem C93_elasticnet_fails : ∃ (s t : LM 1 false) (path path' : List (Row 1)),
    LM.fit (onesConfig (.str "elasticnet")) (fun _ _ => []) (pairData 1 1) (LM.new 1 false) = (.ok (), s) ∧
    LM.fit (onesConfig (.str "elasticnet")) (fun _ _ => []) ((pairData 1 1).map (Obs.scaleY 2)) (LM.new 1 false) = (.ok (), t) ∧
    s.coefPath = some path ∧ t.coefPath = some path' ∧ path[0]? = some (fun _ => 1 / 3) ∧ path'[0]? = some (fun _ => 1 / 2) := by
  have hm : getEstimationMethod (.str "elasticnet" : MethodArg (designDim 1 false)) =
      .ok (.path { lassoDefault with alpha := 1 / 2 }) := by
    simp [getEstimationMethod, methodFromString]
  have he : (pairData 1 1).map (Obs.scaleY 2) = pairData 2 2 := by
    simp [pairData, Obs.scaleY]
  have key : ∀ y : ℝ, 0 < y → ∃ (s : LM 1 false) (path : List (Row 1)),
      LM.fit (onesConfig (.str "elasticnet")) (fun _ _ => []) (pairData y y) (LM.new 1 false) = (.ok (), s) ∧
      s.coefPath = some path ∧ path[0]? = some (fun _ => y / (2 + y)) := by
    intro y hy
    obtain ⟨s, path, b, h1, h2, h3, h4, _⟩ := pair_fit (.str "elasticnet") _ hm (by norm_num) (by norm_num) (by simp [lassoDefault])
      (by norm_num [lassoDefault]) (by simp [lassoDefault]) (by simp [lassoDefault]) (by simp [lassoDefault]) (by simp [lassoDefault])
      (by norm_num [lassoDefault]) (y := y) (y' := y) (by linarith) (LM.new 1 false)
    refine ⟨s, path, h1, h2, ?_⟩
    rw [h4 0 (by simp [lassoDefault])]
    congr 1
    funext j
    have hl : pairLam { lassoDefault with alpha := 1 / 2 } (y + y) 0 = y + y := by simp [pairLam]
    rw [hl]
    have e : softThreshold (y + y) (1 / 2 * (y + y)) = y := by
      unfold softThreshold
      rw [Real.sign_of_pos (by linarith), abs_of_pos (by linarith), max_eq_left (by linarith)]
      ring
    simp only [e]
    congr 1
    ring
  obtain ⟨s, path, h1, h2, h3⟩ := key 1 one_pos
  obtain ⟨t, path', g1, g2, g3⟩ := key 2 two_pos
  refine ⟨s, t, path, path', h1, he ▸ g1, h2, g2, ?_, ?_⟩
  · rw [h3]; norm_num
  · rw [g3]; norm_num

/-- **C93 fails** for the selection on a lasso path: coefficients below `1e-8` are counted as zero whatever the unit.  With the
responses 6 and -5 of one column the model without coefficients is selected; with the same responses in a unit that is `10^10`
times larger all rows count as empty and the row with the smallest residuals is selected. -/
theorem C93_selection_fails : ∃ (s t : LM 1 false) (b b' : Row 1),
    LM.fit (onesConfig (.str "lasso")) (fun _ _ => []) (pairData 6 (-5)) (LM.new 1 false) = (.ok (), s) ∧
    LM.fit (onesConfig (.str "lasso")) (fun _ _ => []) ((pairData 6 (-5)).map (Obs.scaleY (1 / 10 ^ 10))) (LM.new 1 false) =
      (.ok (), t) ∧
    s.coef = some b ∧ t.coef = some b' ∧ b 0 ≤ 1 / 10 ^ 8 ∧ 1 / 10 ^ 10 * (1 / 4) ≤ b' 0 := by
  have hm : getEstimationMethod (.str "lasso" : MethodArg (designDim 1 false)) = .ok (.path lassoDefault) := by
    simp [getEstimationMethod, methodFromString]
  have he : (pairData 6 (-5)).map (Obs.scaleY (1 / 10 ^ 10)) = pairData (1 / 10 ^ 10 * 6) (1 / 10 ^ 10 * -5) := by
    simp [pairData, Obs.scaleY]
  have key : ∀ k : ℝ, 0 < k → ∃ (s : LM 1 false) (path : List (Row 1)) (b : Row 1),
      LM.fit (onesConfig (.str "lasso")) (fun _ _ => []) (pairData (k * 6) (k * -5)) (LM.new 1 false) = (.ok (), s) ∧
      s.coef = some b ∧ (∀ x ∈ path, 0 ≤ x 0 ∧ x 0 ≤ k / 2) ∧ path[0]? = some (fun _ => 0) ∧
      path[99]? = some (fun _ => k * (1 - 1 / 10000) / 2) ∧
      IsBestRow (q := 1) .bic 2 path (path.map fun b => (k * 6 - b 0) ^ 2 + (k * -5 - b 0) ^ 2) b := by
    intro k hk
    obtain ⟨s, path, b, h1, h2, h3, h4, h5, h6, _⟩ := pair_fit (.str "lasso") _ hm (by norm_num [lassoDefault]) (by norm_num [lassoDefault])
      (by simp [lassoDefault]) (by norm_num [lassoDefault]) (by simp [lassoDefault]) (by simp [lassoDefault]) (by simp [lassoDefault])
      (by simp [lassoDefault]) (by norm_num [lassoDefault]) (y := k * 6) (y' := k * -5) (by linarith) (LM.new 1 false)
    have hk' : k * 6 + k * -5 = k := by ring
    rw [hk'] at h4
    have hrow : ∀ i < 100, path[i]? = some fun _ => (k - pairLam lassoDefault k i) / 2 := by
      intro i hi
      rw [h4 i (by simpa [lassoDefault] using hi)]
      congr 1
      funext j
      have h01 : pairLam lassoDefault k i ≤ k := by
        unfold pairLam
        have : lassoDefault.lambdaEps ^ ((i : ℝ) / ((lassoDefault.lambdaN : ℝ) - 1)) ≤ 1 :=
          Real.rpow_le_one (by norm_num [lassoDefault]) (by norm_num [lassoDefault])
            (div_nonneg (by positivity) (by norm_num [lassoDefault]))
        nlinarith
      have e : softThreshold k (lassoDefault.alpha * pairLam lassoDefault k i) = k - pairLam lassoDefault k i := by
        have ha : lassoDefault.alpha = 1 := rfl
        unfold softThreshold
        rw [ha, one_mul, Real.sign_of_pos hk, abs_of_pos hk, max_eq_left (by linarith), one_mul]
      rw [e, show lassoDefault.alpha = 1 from rfl]
      simp
    refine ⟨s, path, b, h1, h5, ?_, ?_, ?_, h6⟩
    · intro x hx
      obtain ⟨i, hi, rfl⟩ := List.mem_iff_getElem.1 hx
      have hi' : i < 100 := by rw [h3] at hi; simpa [lassoDefault] using hi
      have := hrow i hi'
      rw [List.getElem?_eq_getElem hi] at this
      rw [Option.some.inj this]
      have h01 : pairLam lassoDefault k i ≤ k := by
        unfold pairLam
        have : lassoDefault.lambdaEps ^ ((i : ℝ) / ((lassoDefault.lambdaN : ℝ) - 1)) ≤ 1 :=
          Real.rpow_le_one (by norm_num [lassoDefault]) (by norm_num [lassoDefault])
            (div_nonneg (by positivity) (by norm_num [lassoDefault]))
        nlinarith
      have h00 : 0 < pairLam lassoDefault k i := mul_pos hk (Real.rpow_pos_of_pos (by norm_num [lassoDefault]) _)
      constructor <;> simp only <;> linarith
    · rw [hrow 0 (by norm_num)]
      simp [pairLam]
    · rw [hrow 99 (by norm_num)]
      congr 1
      funext j
      have : pairLam lassoDefault k 99 = k * (1 / 10000) := by
        unfold pairLam
        have h99 : (((99 : ℕ) : ℝ) / ((lassoDefault.lambdaN : ℝ) - 1)) = 1 := by norm_num [lassoDefault]
        rw [h99, Real.rpow_one]
        rfl
      rw [this]
      ring
  have hic := fun q (r : ℝ) (hr : 0 < r) => fromRss_bic (n := 2) (by norm_num) q hr
  have hlog2 : 0 < Real.log 2 := Real.log_pos (by norm_num)
  obtain ⟨s, path, b, h1, h2, h3, h4, h5, h6⟩ := key 1 one_pos
  obtain ⟨t, path', b', g1, g2, g3, g4, g5, g6⟩ := key (1 / 10 ^ 10) (by norm_num)
  refine ⟨s, t, b, b', by simpa using h1, he ▸ g1, h2, g2, ?_, ?_⟩
  · obtain ⟨i, hi, r, v, hr, hv, hbest⟩ := h6
    rw [List.getElem?_map, hi] at hr
    cases hr
    obtain ⟨u, hu, hvu, _⟩ := hbest 0 _ _ h4 (by rw [List.getElem?_map, h4]; rfl)
    have hpos : ∀ x : ℝ, 0 < (1 * 6 - x) ^ 2 + (1 * -5 - x) ^ 2 := by
      intro x
      nlinarith [sq_nonneg (2 * x - 1)]
    have hv' := (hic _ _ (hpos (b 0))).symm.trans hv
    have hu' := (hic _ _ (hpos (0))).symm.trans hu
    cases hv'
    cases hu'
    replace hvu := Flt.fin_le_of_not_preferred hvu
    by_contra hcon
    rw [not_le] at hcon
    have hsz : modelSize b = 1 := by
      unfold modelSize
      rw [Finset.filter_true_of_mem]
      · simp
      · intro j _
        rw [Subsingleton.elim j 0]
        exact lt_of_lt_of_le hcon (le_abs_self _)
    have hsz0 : modelSize (fun _ : Fin 1 => (0 : ℝ)) = 0 := by
      unfold modelSize
      rw [Finset.filter_false_of_mem]
      · simp
      · intro j _
        rw [abs_zero, not_lt]
        positivity
    rw [hsz, hsz0] at hvu
    have hr : 60.5 / 2 ≤ ((1 * 6 - b 0) ^ 2 + (1 * -5 - b 0) ^ 2) / 2 := by nlinarith [sq_nonneg (2 * b 0 - 1)]
    have hl1 := Real.log_le_log (by norm_num) hr
    have hl2 : 2 * Real.log (61 / 2) < 2 * Real.log (60.5 / 2) + Real.log 2 := by
      have e1 : 2 * Real.log (61 / 2) = Real.log ((61 / 2) ^ 2) := by rw [Real.log_pow]; norm_num
      have e2 : 2 * Real.log (60.5 / 2) + Real.log 2 = Real.log ((60.5 / 2) ^ 2 * 2) := by
        rw [Real.log_mul (by norm_num) (by norm_num), Real.log_pow]; norm_num
      rw [e1, e2]
      exact Real.log_lt_log (by norm_num) (by norm_num)
    have e0 : ((1 * 6 - 0 : ℝ) ^ 2 + (1 * -5 - 0) ^ 2) / 2 = 61 / 2 := by norm_num
    rw [e0] at hvu
    norm_num at hvu
    linarith
  · obtain ⟨i, hi, r, v, hr, hv, hbest⟩ := g6
    rw [List.getElem?_map, hi] at hr
    cases hr
    obtain ⟨u, hu, hvu, _⟩ := hbest 99 _ _ g5 (by rw [List.getElem?_map, g5]; rfl)
    have hpos : ∀ x : ℝ, 0 < ((1 / 10 ^ 10) * 6 - x) ^ 2 + ((1 / 10 ^ 10) * -5 - x) ^ 2 := by
      intro x
      nlinarith [sq_nonneg (2 * x - (1 / 10 ^ 10))]
    have hv' := (hic _ _ (hpos (b' 0))).symm.trans hv
    have hu' := (hic _ _ (hpos ((1 / 10 ^ 10) * (1 - 1 / 10000) / 2))).symm.trans hu
    cases hv'
    cases hu'
    replace hvu := Flt.fin_le_of_not_preferred hvu
    have hsz : ∀ x ∈ path', modelSize x = 0 := by
      intro x hx
      unfold modelSize
      rw [Finset.filter_false_of_mem]
      · simp
      · intro j _
        obtain ⟨k1, k2⟩ := g3 x hx
        rw [Subsingleton.elim j 0, not_lt, abs_of_nonneg k1]
        exact k2.trans (by norm_num)
    rw [hsz _ (List.mem_of_getElem? hi), hsz _ (List.mem_of_getElem? g5)] at hvu
    simp only [Nat.cast_zero, zero_mul, add_zero] at hvu
    set k : ℝ := 1 / 10 ^ 10 with hk
    have hk0 : 0 < k := by norm_num [hk]
    have hpos : 0 < ((k * 6 - b' 0) ^ 2 + (k * -5 - b' 0) ^ 2) / 2 := by nlinarith [sq_nonneg (2 * b' 0 - k), mul_pos hk0 hk0]
    have hll : Real.log (((k * 6 - b' 0) ^ 2 + (k * -5 - b' 0) ^ 2) / 2) ≤
        Real.log (((k * 6 - k * (1 - 1 / 10000) / 2) ^ 2 + (k * -5 - k * (1 - 1 / 10000) / 2) ^ 2) / 2) := by linarith
    have hr := (Real.log_le_log_iff hpos (by nlinarith [mul_pos hk0 hk0])).1 hll
    by_contra hcon
    rw [not_le] at hcon
    nlinarith [mul_pos hk0 hk0]

end Ondil
