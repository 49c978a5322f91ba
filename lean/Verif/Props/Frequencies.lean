import Verif.Lemmas.Frequencies
import Verif.Props.ResponseUnits
import Verif.Props.Refit

/-!
# C98: without forgetting, sample weights are frequencies

Two histories with the same frequencies differ by splitting observations into parts that share the weight, by merging
equal observations, by leaving out observations of weight zero, and by the order within the calls.
-/

open scoped BigOperators

namespace Ondil

variable {p : ℕ} {fi : Bool}

/-- Least squares and ridge regression, for every scaling and every intercept: a fit and any number of updates give the same
exception or the same object, for histories with the same frequencies in every call. -/
theorem C98_frequencies (c : LMConfig p fi) (hc : c.forget = 0)
    (hm : ∀ m, getEstimationMethod c.method = .ok m → ∀ a, m ≠ .path a)
    (perm : ℕ → ℕ → List (Fin (designDim p fi))) (rng : ℕ → ℕ → ℕ → List (Fin (designDim p fi)))
    {data data' : List (Obs p)} (h : SameFrequencies data data') (hl : 2 ≤ data.length) (hl' : 2 ≤ data'.length)
    (hw : NonnegWeights data) (hw' : NonnegWeights data')
    {batches batches' : List (List (Obs p))} (hb : List.Forall₂ SameFrequencies batches batches')
    (hn : ∀ b ∈ batches, b ≠ [] ∧ NonnegWeights b) (hn' : ∀ b ∈ batches', b ≠ [] ∧ NonnegWeights b) (s : LM p fi) :
    (do LM.fit c perm data; LM.updates c rng 0 batches : Py (LM p fi) Unit) s =
      (do LM.fit c perm data'; LM.updates c rng 0 batches' : Py (LM p fi) Unit) s := by
  rw [Py.bind_apply, Py.bind_apply, ← LM.fit_mass h.mass hw hw' c hc hm perm hl hl']
  rcases hs : LM.fit c perm data s with ⟨r, s'⟩
  cases r with
  | error e => rfl
  | ok u =>
    have inv := OrderInv.of_fit hc hw hs
    have hnp : ∀ a, s'.method ≠ some (.path a) := by
      obtain ⟨_, _, _, _, _, m, sc, G, hm1, _, _, _, _, _, _, _, e6, _, e8⟩ := LM.fit_ok hs
      intro a ha
      cases m with
      | ols => rw [(e6 rfl).1] at ha; cases ha
      | path a' => exact hm _ hm1 a' rfl
      | ridge a' =>
        obtain ⟨_, _, _, h2, _⟩ := e8 a' rfl
        rw [h2] at ha; cases ha
    clear hs h hl hl' hw hw'
    simp only
    generalize 0 = k
    induction hb generalizing k s' with
    | nil => rfl
    | @cons b b' bs bs' h1 h2 ih =>
      rw [LM.updates, LM.updates, Py.bind_apply, Py.bind_apply,
        ← LM.update_mass h1.mass (hn b (by simp)).2 (hn' b' (by simp)).2 hc inv hnp (rng k) (hn b (by simp)).1 (hn' b' (by simp)).1]
      rcases hu : LM.update c (rng k) b s' with ⟨r, s2⟩
      cases r with
      | error e => rfl
      | ok u =>
        refine ih (fun g hg => hn g (by simp [hg])) (fun g hg => hn' g (by simp [hg])) s2 (inv.update hc (hn b (by simp)).2 hu)
          (fun a ha => ?_) (k + 1)
        obtain ⟨_, _, _, _, _, m, _, _, _, _, _, q3, _, _, _, _, r1, _⟩ := LM.update_ok hu
        rw [r1] at ha
        exact hnp a (q3.trans ha)

/-- Lasso and elastic net: whenever both runs succeed, the whole coefficient path, the Gramians, the scaler and the numbers of
observations agree.  Missing for the full claim: the selected coefficients, see `C98_selection_fails`. -/
theorem C98_path_partial (c : LMConfig p fi) (hc : c.forget = 0) {a : EnetArgs}
    (hm : getEstimationMethod c.method = .ok (.path a))
    (perm : ℕ → ℕ → List (Fin (designDim p fi))) (rng : ℕ → ℕ → ℕ → List (Fin (designDim p fi)))
    {data data' : List (Obs p)} (h : SameFrequencies data data') (hw : NonnegWeights data) (hw' : NonnegWeights data')
    {batches batches' : List (List (Obs p))} (hb : List.Forall₂ SameFrequencies batches batches')
    (hn : ∀ b ∈ batches, NonnegWeights b) (hn' : ∀ b ∈ batches', NonnegWeights b) {s s' t t' : LM p fi}
    (hs : (do LM.fit c perm data; LM.updates c rng 0 batches : Py (LM p fi) Unit) s = (.ok (), s'))
    (ht : (do LM.fit c perm data'; LM.updates c rng 0 batches' : Py (LM p fi) Unit) t = (.ok (), t')) :
    t'.coefPath = s'.coefPath ∧ t'.xGram = s'.xGram ∧ t'.yGram = s'.yGram ∧ t'.scaler = s'.scaler ∧
      t'.nObs = s'.nObs ∧ t'.nTraining = s'.nTraining ∧ t'.method = s'.method := by
  rw [Py.bind_ok_iff] at hs ht
  obtain ⟨_, s1, hs1, hs2⟩ := hs
  obtain ⟨_, t1, ht1, ht2⟩ := ht
  have same := LM.fit_mass_path h.mass hw hw' c hc perm hs1 ht1 fun m h => ⟨a, Except.ok.inj (h.symm.trans hm)⟩
  have inv := OrderInv.of_fit hc hw hs1
  have hma : s1.method = some (.path a) := by
    obtain ⟨_, _, _, _, _, m, sc, G, hm1, _, _, _, _, _, _, _, _, e7, _⟩ := LM.fit_ok hs1
    exact (e7 a (Except.ok.inj (hm1.symm.trans hm))).1
  clear hs1 ht1 h hw hw'
  generalize 0 = k at hs2 ht2
  induction hb generalizing k s1 t1 with
  | nil =>
    cases hs2; cases ht2
    exact ⟨same.path a hma, same.xGram, same.yGram, same.scaler, same.nObs, same.nTraining, same.method⟩
  | @cons b b' bs bs' h1 h2 ih =>
    rw [LM.updates, Py.bind_ok_iff] at hs2 ht2
    obtain ⟨_, s2, hs1, hs2⟩ := hs2
    obtain ⟨_, t2, ht1, ht2⟩ := ht2
    obtain ⟨same', hma'⟩ := LM.update_mass_path h1.mass (hn b (by simp)) (hn' b' (by simp)) hc inv same hma (rng k) hs1 ht1
    exact ih (fun g hg => hn g (by simp [hg])) (fun g hg => hn' g (by simp [hg])) s2 t2 same'
      (inv.update hc (hn b (by simp)) hs1) hma' (k + 1) hs2 ht2

/-! ### The selection -/

/-- Observations of the column 1 with responses and weights. -/
noncomputable def columnData (l : List (ℝ × ℝ)) : List (Obs 1) := l.map fun v => ⟨fun _ => 1, v.1, v.2⟩

theorem column_disc (l : List (ℝ × ℝ)) (g : ℝ → ℝ → ℝ) :
    discSum 0 (columnData l) (fun o => g o.y o.w) = (l.map fun v => g v.1 v.2).sum := by
  rw [discSum_forget_zero, columnData, List.map_map]; rfl

/-- The lasso of one column. -/
theorem column_fit (l : List (ℝ × ℝ)) (hl : 2 ≤ l.length) (hw : ∀ v ∈ l, 0 ≤ v.2) {N h : ℝ} (hN : (l.map Prod.snd).sum = N)
    (hN1 : 1 < N) (hh : (l.map fun v => v.2 * v.1).sum = h) (hpos : 0 < h) (s : LM 1 false) :
    ∃ (s' : LM 1 false) (path : List (Row 1)) (b : Row 1),
      LM.fit (onesConfig (.str "lasso")) (fun _ _ => []) (columnData l) s = (.ok (), s') ∧
      path.length = 100 ∧ (∀ i < 100, path[i]? = some fun _ => (h - pairLam lassoDefault h i) / N) ∧
      s'.coef = some b ∧
      IsBestRow (q := 1) .bic N path (path.map fun b => (l.map fun v => (v.2 * (v.1 - b 0)) ^ 2).sum) b := by
  have hm : getEstimationMethod (.str "lasso" : MethodArg (designDim 1 false)) = .ok (.path lassoDefault) := by
    simp [getEstimationMethod, methodFromString]
  let c : LMConfig 1 false := onesConfig (.str "lasso")
  let data : List (Obs 1) := columnData l
  have hN0 : 0 < N := by linarith
  have hn' : NonnegWeights data := by
    intro o ho
    obtain ⟨v, hv, rfl⟩ := List.mem_map.1 ho
    exact hw v hv
  have hws : (ws data).sum = N := by
    rw [← hN]; simp [data, columnData, ws, Function.comp_def]
  have hsc := scaler_fit_canon (ToScale.off : ToScale 1) 0 data (by simpa [data, columnData] using hl) (.inl rfl)
  have hG : ∀ i j : Fin 1, initGram (xs data) (ws data) 0 i j = N := by
    intro i j
    rw [initGram_apply (by norm_num) data hn', ← hN]
    have : ∀ o ∈ data, o.x i = 1 := by
      intro o ho
      obtain ⟨v, _, rfl⟩ := List.mem_map.1 ho
      rfl
    rw [discSum_forget_zero]
    simp [data, columnData, Function.comp_def]
  have hhj : ∀ j : Fin 1, initYGram (xs data) (ys data) (ws data) 0 j = h := by
    intro j
    rw [initYGram_apply (by norm_num) data hn', ← hh, discSum_forget_zero]
    simp [data, columnData, Function.comp_def]
  have hX : scaledDesign false (canonSc (ToScale.off : ToScale 1) 0 data) (xs data) = xs data :=
    (List.map_id (xs data) : _)
  have hmax : getLambdaMax (initGram (xs data) (ws data) 0) (initYGram (xs data) (ys data) (ws data) 0)
      (fun _ : Fin 1 => true) = .ok h := by
    unfold getLambdaMax
    rw [show (List.finRange 1).filter (fun _ => !true) = [] by decide]
    rw [show List.finRange 1 = [0] by decide]
    change Except.ok (initYGram (xs data) (ys data) (ws data) 0 0) = _
    rw [hhj]
  have he : 0 < lassoDefault.lambdaEps := by norm_num [lassoDefault]
  have hlp : lassoDefault.lambdaPath (initGram (xs data) (ws data) 0) (initYGram (xs data) (ys data) (ws data) 0) (fun _ : Fin 1 => true) =
      .ok ((List.range lassoDefault.lambdaN).map (pairLam lassoDefault h)) := by
    refine lambdaPath_ok.mpr ⟨_, hmax, ?_⟩
    unfold geomspace
    rw [if_neg (by
      rintro (h | h)
      · exact hpos.ne' h
      · exact (mul_pos hpos he).ne' h)]
    refine congrArg Except.ok (List.map_congr_left fun i _ => ?_)
    unfold pairLam
    rw [mul_div_cancel_left₀ _ hpos.ne']
  have ha : lassoDefault.alpha = 1 := rfl
  obtain ⟨path, hp, hlen⟩ := fitBetaPath_total (a := lassoDefault) (fun _ _ => []) (rfl : setBound 1 lassoDefault.lower = .ok fun _ => none)
    (rfl : setBound 1 lassoDefault.upper = .ok fun _ => none) hlp (by
      intro lam _ j
      rw [hG, ha]
      simpa using hN0.ne')
  obtain ⟨s', hs', hpath, _, _, _, _, _, g2⟩ := LM.fit_path_succeeds c (fun _ _ => []) data s
    ⟨le_refl _, by norm_num [c, onesConfig], by simp [c, onesConfig], by simp [c, onesConfig]⟩ (by simp [c, onesConfig])
    (by
      rintro (h0 | h0)
      · have : l = [] := by simpa [data, columnData] using h0
        simp [this] at hl
      · omega) (fun h => by simp [c, onesConfig] at h) (by rw [hws]; exact hN1.ne') lassoDefault hm _ hsc path
    (by rw [hX]; exact hp) (by
      intro h0
      rw [h0] at hlen
      simp [lassoDefault] at hlen)
  obtain ⟨_, path', rss, n, b, i1, i2, i3, i4, i5, i6, i7⟩ := PathInv.of_fit (c := c) hm hs'
  rw [hpath] at i1
  cases i1
  obtain ⟨_, _, _, _, _, _, _, _, _, _, _, _, _, h3, _⟩ := LM.fit_ok hs'
  rw [h3, hws] at i3
  rw [g2] at i2
  have hNn : n = N := by
    cases i3
    simp [effectiveTrainingLength, c, onesConfig]
  have hrow : ∀ b : Row 1, rssFit (xs data) (ys data) (ws data) b = (l.map fun v => (v.2 * (v.1 - b 0)) ^ 2).sum := by
    intro b
    have : ∀ l : List (ℝ × ℝ), rssFit (xs (columnData l)) (ys (columnData l)) (ws (columnData l)) b =
        (l.map fun v => (v.2 * (v.1 - b 0)) ^ 2).sum := by
      intro l
      induction l with
      | nil => simp [rssFit, columnData, xs, ys, ws]
      | cons v l ih =>
        simp only [rssFit, columnData, xs, ys, ws, List.map_map, List.map_cons, List.zip_cons_cons, List.zipWith_cons_cons,
          List.sum_cons] at ih ⊢
        rw [ih]
        simp [rowDot]
    exact this l
  have hrss : rss = path.map fun b : Row 1 => (l.map fun v => (v.2 * (v.1 - b 0)) ^ 2).sum := by
    cases i2
    rw [hX]
    refine List.map_congr_left fun b _ => ?_
    exact hrow b
  have hle : ∀ i, pairLam lassoDefault h i ≤ h := by
    intro i
    unfold pairLam
    have : lassoDefault.lambdaEps ^ ((i : ℝ) / ((lassoDefault.lambdaN : ℝ) - 1)) ≤ 1 :=
      Real.rpow_le_one (by norm_num [lassoDefault]) (by norm_num [lassoDefault])
        (div_nonneg (by positivity) (by norm_num [lassoDefault]))
    nlinarith
  have hlen' : path.length = 100 := hlen
  refine ⟨s', path, b, hs', hlen', fun i hi => ?_, i4, ?_⟩
  · obtain ⟨lo, hlo', up, hup', lams, hl', rows, hrows, rfl⟩ := fitBetaPath_ok.mp hp
    cases hlo'
    cases hup'
    rw [hlp] at hl'
    cases hl'
    have hir : i < rows.length := by rw [List.length_map] at hlen'; omega
    obtain ⟨lam, old, prev, k1, k2, k3, k4⟩ := cdPathLoop_row hrows i rows[i] (List.getElem?_eq_getElem hir)
    rw [List.getElem?_map, List.getElem?_eq_getElem hir]
    rw [List.getElem?_map, List.getElem?_range (show i < lassoDefault.lambdaN from hi)] at k1
    cases k1
    unfold cdPathRow at k4
    simp only at k4
    rw [if_neg (by simp [EnetArgs.pathConfig, lassoDefault])] at k4
    obtain ⟨n, hn⟩ := oneColumn_cd ((lassoDefault.pathConfig lassoDefault.startInitial (fun _ => true) (fun _ => none) (fun _ => none) fun _ _ => []).problem
        (initGram (xs data) (ws data) 0) (initYGram (xs data) (ys data) (ws data) 0) (pairLam lassoDefault h i)) (by
          simp only [CDProblem.denom, PathConfig.problem, EnetArgs.pathConfig, hG, if_true, ha]
          simpa using hN0.ne') (fun _ => []) (tol := lassoDefault.tolerance) (by norm_num [lassoDefault]) lassoDefault.maxIterations
          (startValue lassoDefault.startInitial prev old)
    have hrow' := Except.ok.inj (k4.symm.trans hn)
    rw [hrow']
    simp only [Option.map, Option.some.injEq]
    funext j
    simp only [CDProblem.newValue, CDProblem.target, CDProblem.denom, PathConfig.problem, EnetArgs.pathConfig, hG, hhj, clipHigh,
      clipLow, if_true, Pi.zero_apply, mul_zero, Finset.sum_const_zero, sub_zero, add_zero, ha, one_mul, sub_self]
    unfold softThreshold
    rw [Real.sign_of_pos hpos, abs_of_pos hpos, max_eq_left (by linarith [hle i]), one_mul]
  · rw [← hNn, ← hrss]; exact i7

/-- The response 1 with weight 20 and the response -1 with weight 10. -/
noncomputable def merged : List (Obs 1) := columnData [(1, 20), (-1, 10)]

/-- The same, with the response 1 observed four times with weight 5. -/
noncomputable def split : List (Obs 1) := columnData [(1, 5), (1, 5), (1, 5), (1, 5), (-1, 10)]

theorem merged_split : SameFrequencies merged split := by
  intro x y
  simp only [merged, split, columnData, List.map_cons, List.map_nil, weightAt_cons]
  split_ifs <;> ring

theorem modelSize_zero_one : modelSize (fun _ : Fin 1 => (0 : ℝ)) = 0 := by
  unfold modelSize
  rw [Finset.filter_false_of_mem]
  · simp
  · intro j _
    rw [abs_zero, not_lt]
    positivity

theorem modelSize_le_one (b : Row 1) : (modelSize b : ℝ) ≤ 1 := by
  have : modelSize b ≤ 1 := by
    unfold modelSize
    exact (Finset.card_filter_le _ _).trans (by simp)
  exact_mod_cast this

/-- **C98 fails** for the selection on a path: the residuals are multiplied with the weights before they are squared, so that an
observation counts with its squared weight.  With the lasso the intercept-like column is selected when the response 1 is
given once with weight 20, and dropped when it is given four times with weight 5. -/
theorem C98_selection_fails : SameFrequencies merged split ∧ ∃ (s t : LM 1 false) (b b' : Row 1),
    LM.fit (onesConfig (.str "lasso")) (fun _ _ => []) merged (LM.new 1 false) = (.ok (), s) ∧
    LM.fit (onesConfig (.str "lasso")) (fun _ _ => []) split (LM.new 1 false) = (.ok (), t) ∧
    s.coef = some b ∧ t.coef = some b' ∧ 1 / 10 ^ 8 < b 0 ∧ b' 0 ≤ 1 / 10 ^ 8 := by
  refine ⟨merged_split, ?_⟩
  obtain ⟨s, path, b, h1, h2, h3, h4, h5⟩ := column_fit [(1, 20), (-1, 10)] (by simp) (by simp) (N := 30) (h := 10)
    (by norm_num) (by norm_num) (by norm_num) (by norm_num) (LM.new 1 false)
  obtain ⟨t, path', b', g1, g2, g3, g4, g5⟩ := column_fit [(1, 5), (1, 5), (1, 5), (1, 5), (-1, 10)] (by simp) (by simp) (N := 30)
    (h := 10) (by norm_num) (by norm_num) (by norm_num) (by norm_num) (LM.new 1 false)
  have l0 : pairLam lassoDefault 10 0 = 10 := by simp [pairLam]
  have l99 : pairLam lassoDefault 10 99 = 1 / 1000 := by
    unfold pairLam
    have h99 : (((99 : ℕ) : ℝ) / ((lassoDefault.lambdaN : ℝ) - 1)) = 1 := by norm_num [lassoDefault]
    rw [h99, Real.rpow_one]
    norm_num [lassoDefault]
  have hic := fun q (r : ℝ) (hr : 0 < r) => fromRss_bic (n := 30) (by norm_num) q hr
  have hlog30 : 0 < Real.log 30 := Real.log_pos (by norm_num)
  refine ⟨s, t, b, b', h1, g1, h4, g4, ?_, ?_⟩
  · have hr0 := h3 99 (by norm_num)
    rw [l99] at hr0
    obtain ⟨i, hi, r, v, hr, hv, hbest⟩ := h5
    rw [List.getElem?_map, hi] at hr
    cases hr
    obtain ⟨u, hu, hvu, _⟩ := hbest 99 _ _ hr0 (by rw [List.getElem?_map, hr0]; rfl)
    have hpos : ∀ x : ℝ, 0 < (([(1, 20), (-1, 10)] : List (ℝ × ℝ)).map fun v => (v.2 * (v.1 - x)) ^ 2).sum := by
      intro x
      simp only [List.map_cons, List.map_nil, List.sum_cons, List.sum_nil, add_zero]
      nlinarith [sq_nonneg x]
    have hv' := (hic _ _ (hpos (b 0))).symm.trans hv
    have hu' := (hic _ _ (hpos ((10 - 1 / 1000) / 30))).symm.trans hu
    cases hv'
    cases hu'
    replace hvu := Flt.fin_le_of_not_preferred hvu
    by_contra hcon
    rw [not_lt] at hcon
    have hq := modelSize_le_one (fun _ : Fin 1 => ((10 : ℝ) - 1 / 1000) / 30)
    have hq0 : (0 : ℝ) ≤ modelSize b := Nat.cast_nonneg _
    simp only [List.map_cons, List.map_nil, List.sum_cons, List.sum_nil, add_zero] at hvu
    have k1 : Real.log 16 ≤ Real.log (((20 * (1 - b 0)) ^ 2 + (10 * (-1 - b 0)) ^ 2) / 30) := by
      refine Real.log_le_log (by norm_num) ?_
      rw [le_div_iff₀ (by norm_num)]
      nlinarith [sq_nonneg (b 0)]
    have k2 : Real.log (((20 * (1 - (10 - 1 / 1000) / 30)) ^ 2 + (10 * (-1 - (10 - 1 / 1000) / 30)) ^ 2) / 30) ≤ Real.log 12 :=
      Real.log_le_log (by norm_num) (by norm_num)
    have k3 : Real.log 30 + 30 * Real.log 12 < 30 * Real.log 16 := by
      have e1 : Real.log 30 + 30 * Real.log 12 = Real.log (30 * 12 ^ 30) := by
        rw [Real.log_mul (by norm_num) (by norm_num), Real.log_pow]; norm_num
      have e2 : 30 * Real.log 16 = Real.log (16 ^ 30) := by rw [Real.log_pow]; norm_num
      rw [e1, e2]
      exact Real.log_lt_log (by norm_num) (by norm_num)
    nlinarith [mul_le_mul_of_nonneg_right hq hlog30.le, mul_nonneg hq0 hlog30.le]
  · have hr0 := g3 0 (by norm_num)
    rw [l0, sub_self, zero_div] at hr0
    obtain ⟨i, hi, r, v, hr, hv, hbest⟩ := g5
    rw [List.getElem?_map, hi] at hr
    cases hr
    obtain ⟨u, hu, hvu, _⟩ := hbest 0 _ _ hr0 (by rw [List.getElem?_map, hr0]; rfl)
    have hpos : ∀ x : ℝ, 0 < (([(1, 5), (1, 5), (1, 5), (1, 5), (-1, 10)] : List (ℝ × ℝ)).map fun v => (v.2 * (v.1 - x)) ^ 2).sum := by
      intro x
      simp only [List.map_cons, List.map_nil, List.sum_cons, List.sum_nil, add_zero]
      nlinarith [sq_nonneg x]
    have hv' := (hic _ _ (hpos (b' 0))).symm.trans hv
    have hu' := (hic _ _ (hpos (0))).symm.trans hu
    cases hv'
    cases hu'
    replace hvu := Flt.fin_le_of_not_preferred hvu
    by_contra hcon
    rw [not_le] at hcon
    have hsz : modelSize b' = 1 := by
      unfold modelSize
      rw [Finset.filter_true_of_mem]
      · simp
      · intro j _
        rw [Subsingleton.elim j 0]
        exact lt_of_lt_of_le hcon (le_abs_self _)
    rw [hsz, modelSize_zero_one] at hvu
    simp only [List.map_cons, List.map_nil, List.sum_cons, List.sum_nil, add_zero] at hvu
    have k1 : Real.log (((5 * (1 - 0)) ^ 2 + ((5 * (1 - 0)) ^ 2 + ((5 * (1 - 0)) ^ 2 + ((5 * (1 - 0)) ^ 2 + (10 * (-1 - 0)) ^ 2)))) / 30) ≤
        Real.log (((5 * (1 - b' 0)) ^ 2 + ((5 * (1 - b' 0)) ^ 2 + ((5 * (1 - b' 0)) ^ 2 + ((5 * (1 - b' 0)) ^ 2 +
          (10 * (-1 - b' 0)) ^ 2)))) / 30) := by
      refine Real.log_le_log (by norm_num) ?_
      rw [div_le_div_iff_of_pos_right (by norm_num)]
      nlinarith [sq_nonneg (b' 0)]
    push_cast at hvu
    nlinarith

/-! ### Cases -/

theorem merged_ols (s : LM 1 false) : ∃ s', LM.fit (onesConfig (.str "ols")) (fun _ _ => []) merged s = (.ok (), s') := by
  have hw : NonnegWeights merged := by
    intro o ho; simp [merged, columnData] at ho; rcases ho with rfl | rfl <;> norm_num
  have hX : scaledDesign false (canonSc (ToScale.off : ToScale 1) 0 merged) (xs merged) = xs merged :=
    (List.map_id (xs merged) : _)
  have hdet : (initGram (xs merged) (ws merged) 0).det = 30 := by
    change Matrix.det (n := Fin 1) _ = _
    rw [Matrix.det_fin_one, initGram_apply zero_le_one _ hw, discSum_forget_zero]
    simp [merged, columnData]; norm_num
  refine LM.fit_ols_succeeds _ _ _ _ ⟨le_refl _, by norm_num [onesConfig], by simp [onesConfig], by simp [onesConfig]⟩ (by simp [onesConfig])
    (by simp [merged, columnData]) (by norm_num [merged, columnData, ws, designDim]) (by norm_num [merged, columnData, ws])
    getEstimationMethod_ols _ (scaler_fit_canon (ToScale.off : ToScale 1) 0 merged (by simp [merged, columnData]) (.inl rfl))
    (initGram (xs merged) (ws merged) 0)⁻¹ ?_
  rw [hX]
  unfold initInvertedGram
  refine if_pos ?_
  change (initGram (xs merged) (ws merged) 0).rank = 1
  rw [Matrix.rank_of_isUnit _ ((Matrix.isUnit_iff_isUnit_det _).2 (by rw [hdet]; norm_num))]
  simp

/-- Least squares on the column of ones: the two histories of the counterexample give the same object (the fit succeeds,
`merged_ols`). -/
example (s : LM 1 false) : LM.fit (onesConfig (.str "ols")) (fun _ _ => []) merged s =
    LM.fit (onesConfig (.str "ols")) (fun _ _ => []) split s := by
  have key := C98_frequencies (onesConfig (.str "ols")) rfl (fun m h a hm => by
    subst hm
    have h' := getEstimationMethod_ols.symm.trans h
    cases h') (fun _ _ => []) (fun _ _ _ => []) merged_split (by simp [merged, columnData]) (by simp [split, columnData])
    (by intro o ho; simp [merged, columnData] at ho; rcases ho with rfl | rfl <;> norm_num)
    (by intro o ho; simp [split, columnData] at ho; rcases ho with rfl | rfl <;> norm_num)
    (batches := []) (batches' := []) .nil (by simp) (by simp) s
  rw [Py.bind_apply, Py.bind_apply] at key
  rcases h1 : LM.fit (onesConfig (.str "ols")) (fun _ _ => []) merged s with ⟨r, s1⟩
  rcases h2 : LM.fit (onesConfig (.str "ols")) (fun _ _ => []) split s with ⟨r', s2⟩
  rw [h1, h2] at key
  cases r <;> cases r' <;> simpa [LM.updates, Pure.pure] using key

/-- Both fits of the lasso succeed on the histories of the counterexample, and their paths agree. -/
example : ∃ s t : LM 1 false, LM.fit (onesConfig (.str "lasso")) (fun _ _ => []) merged (LM.new 1 false) = (.ok (), s) ∧
    LM.fit (onesConfig (.str "lasso")) (fun _ _ => []) split (LM.new 1 false) = (.ok (), t) ∧ t.coefPath = s.coefPath := by
  obtain ⟨_, s, t, _, _, h1, h2, _⟩ := C98_selection_fails
  refine ⟨s, t, h1, h2, (C98_path_partial (onesConfig (.str "lasso")) rfl (a := lassoDefault)
    (by simp [onesConfig, getEstimationMethod, methodFromString]) (fun _ _ => []) (fun _ _ _ => []) merged_split
    (by intro o ho; simp [merged, columnData] at ho; rcases ho with rfl | rfl <;> norm_num)
    (by intro o ho; simp [split, columnData] at ho; rcases ho with rfl | rfl <;> norm_num)
    (batches := []) (batches' := []) .nil (by simp) (by simp) (s := LM.new 1 false) (t := LM.new 1 false) (s' := s) (t' := t) ?_ ?_).1⟩
  · rw [Py.bind_ok_iff]; exact ⟨(), s, h1, rfl⟩
  · rw [Py.bind_ok_iff]; exact ⟨(), t, h2, rfl⟩

end Ondil
