import Verif.Props.GamlssFitted
import Verif.Props.GamlssDebug

/-!
# Cases that meet the hypotheses of the theorems about the distributional regression

Runs of the small estimator of `Verif.Lemmas.GamlssToy`: a fit followed by updates, with various options.
-/

namespace Ondil

/-- A fit and an update of the walk succeed, whatever options satisfy `GoodOptions`. -/
theorem walk_run (g : ℝ → Flt) (c : GConfig Unit 1) (h : GoodOptions false (walkDist g) c () true fun _ => 1)
    (ho : c.paramOrder = none) (hcond : c.condStartVal = false) (b : List (Obs 1)) (hb : GoodBatch (walkDist g) c b) :
    ∃ t u, GState.fit false (walkDist g) firstMethod c walkData (GState.new Unit 1) = (.ok (), t) ∧
      GState.update (walkDist g) firstMethod c b t = (.ok (), u) ∧ t.paramOrder = [0] ∧ t.isFitted = true := by
  obtain ⟨⟨⟩, t, ht, hft⟩ := fit_total (walk_regular g) (fun e => by rw [hcond] at e; cases e) (fun _ => firstContract 1)
    (fun _ _ => trivial) h one_ne_zero (data := walkData) (by simp [walkData]) (by simp [walkData]) (walk_support g _)
    (fun _ _ _ _ _ _ _ _ => trivial) (fun _ _ _ => trivial) (GState.new Unit 1) trivial
  obtain ⟨⟨⟩, u, hu, _⟩ := update_total (walk_regular g) (fun e => by rw [hcond] at e; cases e) (fun _ => firstContract 1)
    h.valid h.minIt.2 h.prefit.2 one_ne_zero hb (fun _ _ _ _ _ _ _ _ => trivial) t hft
  refine ⟨t, u, ht, hu, ?_, ?_⟩
  · obtain ⟨r⟩ := fit_ok ht
    obtain ⟨q⟩ := prepare_ok r.hprepare
    have hset := (outerFit_setup _ _ _).ok (SameSetup.refl _) r.hloop
    have e1 : t.paramOrder = r.sP.paramOrder :=
      ((congrArg GState.paramOrder r.ht).trans rfl).trans (hset.paramOrder.trans (fitStart_paramOrder ..))
    rw [e1, q.ht]
    change c.paramOrder.getD (List.range 1) = _
    rw [ho]
    rfl
  · obtain ⟨v, hv⟩ := hft.nObs
    simp [GState.isFitted, hv]

theorem walk_batch (g : ℝ → Flt) (c : GConfig Unit 1) (hc : c.cautiousUpdates = false) (b : List (Obs 1)) (hb : b ≠ []) :
    GoodBatch (walkDist g) c b := ⟨hb, walk_support g _, fun h => by rw [hc] at h; cases h⟩

/-- The options with debugging. -/
noncomputable def walkDebug (n : ℕ) : GConfig Unit 1 := { walkConfig 1 n with debug := true }

theorem walkDebug_options (g : ℝ → Flt) (n : ℕ) (hn : 1 ≤ n) :
    GoodOptions false (walkDist g) (walkDebug n) () true fun _ => 1 :=
  have h := walk_options g 1 n hn
  ⟨h.valid, h.method, h.intercept, h.columns, h.order, h.minIt, h.prefit⟩

/-- A fit and an update with `n` outer iterations each. -/
theorem walkDebug_run (g : ℝ → Flt) (n : ℕ) (hn : 1 ≤ n) :
    ∃ t u, GState.fit false (walkDist g) firstMethod (walkDebug n) walkData (GState.new Unit 1) = (.ok (), t) ∧
      GState.update (walkDist g) firstMethod (walkDebug n) walkData t = (.ok (), u) ∧ t.paramOrder = [0] ∧
      t.isFitted = true ∧ u.itOuter = some n := by
  obtain ⟨t, u, ht, hu, ho, hf⟩ := walk_run g (walkDebug n) (walkDebug_options g n hn) rfl rfl walkData
    (walk_batch g _ rfl _ (by simp [walkData]))
  refine ⟨t, u, ht, hu, ho, hf, ?_⟩
  obtain ⟨it, hit, h1, h2⟩ := C58_update_outer hu (by rw [ho]; simp)
  obtain ⟨r⟩ := fit_ok ht
  obtain ⟨r'⟩ := update_ok hu
  have hset := (outerFit_setup _ _ _).ok (SameSetup.refl _) r.hloop
  have e1 : t.minIt = n := by
    refine ((congrArg GState.minIt r.ht).trans rfl).trans (hset.minIt.trans ?_)
    unfold_start
    simp [walkDebug, walkConfig]
  have hs2 : SameSetup r'.s1 r'.s2 := (Py.Triple.ok (outerUpdate_committed _ _ r'.s1) (SameCommitted.refl _) r'.hloop).setup
  have e2 : u.minIt = n := by
    refine ((congrArg GState.minIt r'.ht).trans rfl).trans (hs2.minIt.trans ?_)
    obtain ⟨_, e⟩ | ⟨e, _⟩ := cautious_ok r'.hcautious
    · rw [e]
      exact Eq.trans rfl e1
    · cases e
  have hm : (walkDebug n).maxOuter = n := rfl
  rw [hit]
  congr 1
  omega

/-! ### C35, C38, C57, C58, C59, C76, C77, C81, C83 -/

/-- C57, C58, C77, C83: after three outer iterations of an update the statistics were updated once, the stored values are
the predictions and the stored deviance is theirs. -/
example : ∃ t u sc forget0 old th, GState.update (walkDist fun v => .fin (-v ^ 2)) firstMethod (walkDebug 3) walkData t = (.ok (), u) ∧
    u.scaler = some sc ∧ (∃ it, u.itOuter = some it ∧ it ≤ 3) ∧
    predictParams (walkDist fun v => .fin (-v ^ 2)) u (xs walkData) .response = .ok th ∧ th.col 0 = u.fv.col 0 ∧
    u.globalDev = some (Flt.add (deviance (walkDist fun v => .fin (-v ^ 2)) (ys walkData) (ws walkData) u.fv)
      (Flt.mul (.fin ((1 - forget0) ^ walkData.length)) old)) := by
  obtain ⟨t, u, ht, hu, ho, hf, hit⟩ := walkDebug_run (fun v => .fin (-v ^ 2)) 3 (by norm_num)
  obtain ⟨sc, hsc, _⟩ := C57_statistics_once hu 3 hit (by norm_num)
  obtain ⟨f0, old, _, _, hd⟩ := C83_update (fun _ _ _ h => by rw [← Except.ok.inj h]) hu (by rw [ho]; simp)
  obtain ⟨th, hth, _, hc⟩ := C77_update (fun _ _ _ h => by rw [← Except.ok.inj h]) hu 3 hit (by norm_num)
    (fun k hk => by rw [ho]; simpa [walkDist] using hk) Nat.one_pos
  obtain ⟨it, h1, h2, _⟩ := C58_update_outer hu (by rw [ho]; simp)
  exact ⟨t, u, sc, f0, old, th, hu, hsc, ⟨it, h1, h2⟩, hth, hc 0 Nat.one_pos, hd⟩

/-- C57: the sum of the weights. -/
example : ∃ t u, GState.update (walkDist fun v => .fin (-v ^ 2)) firstMethod (walkDebug 2) walkData t = (.ok (), u) ∧
    ∃ forget sumW, t.forget.get? 0 = some forget ∧ t.sumW 0 = some sumW := by
  obtain ⟨t, u, ht, hu, ho, hf, hit⟩ := walkDebug_run (fun v => .fin (-v ^ 2)) 2 (by norm_num)
  obtain ⟨_, _, f, s, _, h1, h2, _⟩ := C57_weight_sum hu 2 hit (by norm_num) 0 (by rw [ho]; simp)
  exact ⟨t, u, hu, f, s, h1, h2⟩

/-- C81: the weights recorded for the only inner iteration of an update exist, and the look-up raises. -/
example : ∃ t u, GState.update (walkDist fun v => .fin (-v ^ 2)) firstMethod (walkDebug 2) walkData t = (.ok (), u) ∧
    u.debugEntry .weights (0, 2, u.itInner 0) ≠ none ∧
      u.debugInformation (walkDebug 2) .weights 0 2 (u.itInner 0) = .error .keyError := by
  obtain ⟨t, u, ht, hu, ho, hf, hit⟩ := walkDebug_run (fun v => .fin (-v ^ 2)) 2 (by norm_num)
  obtain ⟨sc, _, hall⟩ := C57_statistics_once hu 2 hit (by norm_num)
  obtain ⟨X, fv, wk, m, forget, x0, y0, xg, yg, _, _, _, _, _, _, _, _, _, hdb⟩ := hall 0 (by rw [ho]; simp)
  have hrec : u.debugWeights (0, 2, u.itInner 0) ≠ none := by rw [(hdb rfl).1]; simp
  have hlast : u.itInner 0 + 1 = (walkDebug 2).maxInner := by
    have hm : (walkDebug 2).maxInner = 1 := rfl
    by_cases h0 : t.debugWeights (0, 2, u.itInner 0) = none
    · have := C58_update_iterations (D := walkDist fun v => .fin (-v ^ 2)) (M := firstMethod) (c := walkDebug 2)
        (data := walkData) (s := t) 0 2 (u.itInner 0) (by rw [hu]; exact hrec) h0
      simp [walkDebug, walkConfig] at this
      omega
    · have := C58_fit_iterations (frames := false) (D := walkDist fun v => .fin (-v ^ 2)) (M := firstMethod) (c := walkDebug 2)
        (data := walkData) (s := GState.new Unit 1) (fun _ => rfl) 0 2 (u.itInner 0) (by rw [ht]; exact h0)
      simp [walkDebug, walkConfig] at this
      omega
  exact ⟨t, u, hu, C81_last_iteration_fails rfl hu 2 hit (by norm_num) 0 (by rw [ho]; simp) hlast⟩

/-- C35 and C38: a first call of `partial_fit` fits, further calls update; the observations are counted. -/
example : ∃ t u, GState.partialFits false (walkDist fun _ => .fin 0) firstMethod (walkConfig 1 2) [walkData, walkData]
      (GState.new Unit 1) = (.ok (), u) ∧
    GState.fit false (walkDist fun _ => .fin 0) firstMethod (walkConfig 1 2) walkData (GState.new Unit 1) = (.ok (), t) ∧
    u.nObs = some 4 := by
  obtain ⟨t, u, ht, hu, _⟩ := walk_run (fun _ => .fin 0) (walkConfig 1 2) (walk_options _ 1 2 (by norm_num)) rfl rfl walkData
    (walk_batch _ _ rfl _ (by simp [walkData]))
  have hus : GState.updates (walkDist fun _ => .fin 0) firstMethod (walkConfig 1 2) [walkData] t = (.ok (), u) := by
    unfold GState.updates
    rw [Py.bind_of_ok hu]
    rfl
  refine ⟨t, u, ?_, ht, ?_⟩
  · rw [C38_gamlss_partial_fit _ _ _ _ _ _ _ ht]; exact hus
  · obtain ⟨h1, _⟩ := C35_gamlss_counters false _ _ _ _ walkData [walkData] _ _ _ ht hus
    rw [h1]
    norm_num [walkData]

/-- C59: after three outer iterations. -/
example : ∃ t, GState.fit false (walkDist fun v => .fin (-v ^ 2)) firstMethod (walkConfig 1 3) walkData (GState.new Unit 1) =
    (.ok (), t) ∧ ∃ (s1 s2 : GState Unit 1) (c : Call Unit 1) (l : List (GState Unit 1)),
      FitPath c s1 l s2 ∧ s2.fv = t.fv := by
  obtain ⟨t, ht⟩ := walk_fit (fun v => .fin (-v ^ 2)) 1 3 (by norm_num) (GState.new Unit 1)
  obtain ⟨it, h1, _, h2⟩ := C58_fit_outer ht
  refine ⟨t, ht, ?_⟩
  obtain ⟨X, _, s1, s2, _, _, l, _, hl, he, _⟩ := C59_fit_partial ht (by
    rw [h1]
    simp [walkConfig] at h2
    simp
    omega)
  exact ⟨s1, s2, _, l, hl, he⟩

/-- C58, C76: more iterations required than allowed. -/
example (s : GState Unit 1) : ∃ err t, GState.fit false (walkDist fun _ => .fin 0) firstMethod
    { walkConfig 1 2 with minItOuter := 3 } walkData s = (.error err, t) :=
  C76_min_above_max_fails (by simp [walkConfig]) s

/-- C63: the step sizes 1 and 1/10 give the same update. -/
example (t : GState Unit 1) (h : t.stepSize = [(0, 1)]) :
    SameModel (GState.update (walkDist fun _ => .fin 0) firstMethod (walkConfig 1 2) walkData t).2
      (GState.update (walkDist fun _ => .fin 0) firstMethod { walkConfig 1 2 with stepSize := .value (1 / 10) } walkData
        (t.setStepSize [(0, 1 / 10)])).2 :=
  (C63_update_ignores_step_size_fails _ _ _ _ [(0, 1 / 10)] _ _ (by rw [h]; rfl)).2

/-- C60: a dictionary of forgetting factors is rejected. -/
example (s : GState Unit 1) : (GState.fit false (walkDist fun _ => .fin 0) firstMethod
    { walkConfig 1 2 with forget := .dict [(0, 1 / 100)] } walkData s).1 = .error .valueError :=
  congrArg Prod.fst (C60_dict_rejected_fails _ _ _ _ _ _ (.inl ⟨_, rfl⟩)).1

/-! ### C55, C56, C78, C79: rejected observations -/

/-- The distribution object on the positive half line. -/
noncomputable def halfDist : DistOps := { walkDist fun _ => .fin 0 with support := (0, ⊤) }

theorem half_regular : Regular halfDist :=
  have h := walk_regular fun _ => .fin 0
  ⟨h.pos, h.link, h.linkInverse, h.linkInverseDerivative, h.dl1, h.dl2, h.initialValues⟩

theorem half_options (n : ℕ) (hn : 1 ≤ n) : GoodOptions false halfDist (walkConfig 1 n) () true fun _ => 1 :=
  have h := walk_options (fun _ => .fin 0) 1 n hn
  ⟨h.valid, h.method, h.intercept, h.columns, h.order, h.minIt, h.prefit⟩

theorem half_in : ¬ OutOfSupport halfDist (ys walkData) := by
  simp [OutOfSupport, halfDist, ys, walkData]

/-- A batch with an observation below the support. -/
def badBatch : List (Obs 1) := [⟨fun _ => 0, 2, 1⟩, ⟨fun _ => 0, -1, 1⟩]

theorem half_out : OutOfSupport halfDist (ys badBatch) := by
  refine .inl ⟨-1, by simp [ys, badBatch], ?_⟩
  simp only [halfDist]
  exact_mod_cast (by norm_num : (-1 : ℝ) < 0)

theorem half_fit (s : GState Unit 1) :
    ∃ t, GState.fit false halfDist firstMethod (walkConfig 1 4) walkData s = (.ok (), t) ∧
      GFitted halfDist (walkConfig 1 4) (fun _ => firstContract 1) t := by
  obtain ⟨⟨⟩, t, ht, hft⟩ := fit_total half_regular (fun e => by cases e) (fun _ => firstContract 1)
    (fun _ _ => trivial) (half_options 4 (by norm_num)) one_ne_zero (data := walkData) (by simp [walkData]) (by simp [walkData])
    half_in (fun _ _ _ _ _ _ _ _ => trivial) (fun _ _ _ => trivial) s trivial
  exact ⟨t, ht, hft⟩

/-- C55, C56: an update of a fitted estimator with that batch raises and changes nothing. -/
example : ∃ t, GState.fit false halfDist firstMethod (walkConfig 1 4) walkData (GState.new Unit 1) = (.ok (), t) ∧
    GState.update halfDist firstMethod (walkConfig 1 4) badBatch t = (.error .outOfSupport, t) := by
  obtain ⟨t, ht, _⟩ := half_fit (GState.new Unit 1)
  exact ⟨t, ht, C55_update_rejects _ _ _ (half_options 4 (by norm_num)).valid Nat.one_pos _ half_out _⟩

/-- C78: a rejected fit of a fitted estimator destroys it. -/
example : ∃ t sP, GState.fit false halfDist firstMethod (walkConfig 1 4) walkData (GState.new Unit 1) = (.ok (), t) ∧
    GState.fit false halfDist firstMethod (walkConfig 1 4) badBatch t = (.error .outOfSupport, sP) ∧ sP.isFitted = true ∧
    ∀ x X what, predictParams halfDist sP (x :: X) what = .error .notFitted := by
  obtain ⟨t, ht, hft⟩ := half_fit (GState.new Unit 1)
  obtain ⟨t', ht', _⟩ := half_fit t
  obtain ⟨r⟩ := fit_ok ht'
  have hf : t.isFitted = true := by
    obtain ⟨v, hv⟩ := hft.nObs
    simp [GState.isFitted, hv]
  obtain ⟨h1, h2, h3, _⟩ := C78_rejected_refit_fails false halfDist firstMethod (walkConfig 1 4)
    (half_options 4 (by norm_num)).valid Nat.one_pos badBatch half_out t r.sP hf r.hprepare
  exact ⟨t, r.sP, ht, h1, h2, h3⟩

/-- C56, C79: with cautious updates a batch of two observations raises after the observations were counted. -/
example : ∃ t u n, GState.fit false halfDist firstMethod (walkConfig 1 4) walkData (GState.new Unit 1) = (.ok (), t) ∧
    GState.update halfDist firstMethod { walkConfig 1 4 with cautiousUpdates := true } walkData t = (.error .valueError, u) ∧
    t.nObs = some n ∧ u.nObs = some (n + 2) := by
  obtain ⟨t, ht, hft⟩ := half_fit (GState.new Unit 1)
  obtain ⟨n, hn⟩ := hft.nObs
  obtain ⟨sc, hsc⟩ := hft.scaler
  have hforget : ∀ k < halfDist.nParams, (t.forget.get? k).isSome := by
    obtain ⟨_, _, h⟩ := C35_gamlss_counters false _ _ _ (walkConfig 1 4) walkData [] _ _ _ ht rfl
    intro k hk
    obtain ⟨f, hf, _⟩ := h k hk
    simp [hf]
  obtain ⟨u, hu, hu'⟩ := C56_cautious_fails halfDist firstMethod { walkConfig 1 4 with cautiousUpdates := true }
    (half_options 4 (by norm_num)).valid rfl Nat.one_pos walkData (by simp [walkData]) half_in
    (fun q fv => by simp [halfDist, walkDist, Fv.col]) t n hn
    (by
      obtain ⟨th, h, _⟩ := predictParams_ok half_regular hft (X := xs walkData) (by simp [xs, walkData])
      exact ⟨th, h⟩) hforget Nat.one_pos sc hsc
    (fun sc' k hk => by
      obtain ⟨eq, fi, h1, h2, h3⟩ := hft.design k hk
      obtain ⟨A, hA, _⟩ := designFor_ok h1 h2 h3 sc' (xs walkData)
      exact ⟨A, hA⟩)
  refine ⟨t, u, n, ht, hu, hn, ?_⟩
  rw [hu']
  norm_num [ws, walkData]

/-! ### C57: an update without an outer iteration -/

/-- The options of the update: no iteration required, a wide tolerance, cautious updates. -/
noncomputable def walkIdle : GConfig Unit 1 := { walkConfig 1 4 with minItOuter := 0, absTolOuter := 2000, cautiousUpdates := true }

/-- One observation at the fitted value. -/
def walkPoint (v : ℝ) : List (Obs 1) := [⟨fun _ => 0, v, 1⟩]

theorem walkIdle_valid : walkIdle.Valid := by
  simp [GConfig.Valid, walkIdle, walkConfig, OptArg.OnlyValue]

/-- After a fit of the walk with one outer iteration, the prediction for one row is one. -/
theorem walk_point {g : ℝ → Flt} {s t : GState Unit 1}
    (h : GState.fit false (walkDist g) firstMethod (walkConfig 1 1) walkData s = (.ok (), t)) (m : ℝ) (nt : PyDict ℝ) (x : Row 1) :
    ∃ r, predictParams (walkDist g) ((t.setNObs (some m)).setNTraining nt) [x] .response = .ok [r] ∧ r 0 = .fin 1 := by
  obtain ⟨_, hb, _⟩ := walk_one h
  obtain ⟨r⟩ := fit_ok h
  obtain ⟨q⟩ := prepare_ok r.hprepare
  have heq : q.eq = [(0, .str "intercept")] := (Except.ok.inj q.heq).symm
  have hfi : q.fi = [(0, true)] := (Except.ok.inj q.hfi).symm
  have hset := (outerFit_setup _ _ _).ok (SameSetup.refl _) r.hloop
  have e1 : t.scaler = some r.sc := ((congrArg GState.scaler r.ht).trans rfl).trans (hset.scaler.trans (by unfold_start))
  have e2 : t.equation = [(0, .str "intercept")] := by
    rw [← heq]
    refine ((congrArg GState.equation r.ht).trans rfl).trans (hset.equation.trans ?_)
    unfold_start
    exact (congrArg GState.equation q.ht).trans rfl
  have e3 : t.fitIntercept = [(0, true)] := by
    rw [← hfi]
    refine ((congrArg GState.fitIntercept r.ht).trans rfl).trans (hset.fitIntercept.trans ?_)
    unfold_start
    exact (congrArg GState.fitIntercept q.ht).trans rfl
  obtain ⟨m', hm⟩ : ∃ m, r.sc = .off m := by
    have h' : Scaler.fit (walkConfig 1 1).scaleInputs r.forget0 (xs walkData) (ws walkData) =
        .ok (.off (ws walkData).sum) := by
      simp [Scaler.fit, ToScale.selection, walkConfig, xs, walkData]
    exact ⟨_, Except.ok.inj (r.hsc.symm.trans h')⟩
  have hd : designFor ((t.setNObs (some m)).setNTraining nt) r.sc [x] 0 = .ok [[.fin 1]] := by
    unfold designFor
    change (match t.equation.get? 0, t.fitIntercept.get? 0 with
      | some eq, some fi => modelArray (Flt.fin 1) fi eq (r.sc.transformFlt [x])
      | _, _ => Except.error PyErr.keyError) = _
    rw [e2, e3, hm]
    rfl
  have hl : linearPredictors (walkDist g) ((t.setNObs (some m)).setNTraining nt) [x] = .ok [[.fin 1]] := by
    unfold linearPredictors
    have e0 : ((t.setNObs (some m)).setNTraining nt).nObs = some m := rfl
    have e1' : ((t.setNObs (some m)).setNTraining nt).scaler = some r.sc := e1
    rw [e0, e1']
    change ([0].mapM fun k => do
      let A ← designFor ((t.setNObs (some m)).setNTraining nt) r.sc [x] k
      match t.coef k with
      | none => Except.error PyErr.attributeError
      | some b => matVec A b) = _
    rw [List.mapM_cons, hd, hb]
    simp [bind, Except.bind, matVec, dot, asum, Dist.npSum, Flt.mul, Flt.add, pure, Except.pure]
  exact ⟨_, by unfold predictParams; rw [hl]; rfl, rfl⟩

theorem updateStart_globalDev {μ : Type} {p : ℕ} (c : GConfig μ p) (n : ℝ) (nt : PyDict ℝ) (fv : Fv) (sc : Scaler p)
    (s : GState μ p) (m : ℕ) : ((updateStart c n nt fv sc s).setMinIt m).globalDev = s.globalDev := by
  unfold updateStart resetUpdate GState.setMinIt GState.setScaler GState.setFv GState.setNTraining GState.setNObs
  rfl

theorem updateStart_fv {μ : Type} {p : ℕ} (c : GConfig μ p) (n : ℝ) (nt : PyDict ℝ) (fv : Fv) (sc : Scaler p)
    (s : GState μ p) (m : ℕ) : ((updateStart c n nt fv sc s).setMinIt m).fv = fv := rfl

/-- An outer loop of an update that starts converged. -/
theorem idle_loop {c : Call Unit 1} {n : ℕ} {s t : GState Unit 1} {dev old : Flt} {it : ℕ} (h1 : s.globalDev = some old)
    (h2 : s.minIt = 0) (h3 : c.cfg.absTolOuter = 2000) (h4 : ∀ f, updateDeviance c f old s.fv = .fin 0)
    (h : outerUpdate c (n + 1) s = (.ok (some (dev, it)), t)) : it = 0 := by
  unfold outerUpdate at h
  rw [Py.bind_self, h1, h2] at h
  obtain ⟨f0, s2, hh, h⟩ := Py.bind_ok_iff.1 h
  rw [Py.bind_attr_some, h4] at h
  unfold outerLoop at h
  rw [if_pos ?_] at h
  · exact (Prod.mk.inj (Option.some.inj (Py.pure_ok_iff.1 h).1)).2.symm
  · refine ⟨le_rfl, .inl (.inr ?_)⟩
    rw [h3]
    norm_num [Flt.add, Flt.sub, Flt.neg, Flt.abs, Flt.lt]

/-- C57 fails: after changing the options, an update with one observation makes no iteration. -/
example : ∃ t u, GState.fit false (walkDist fun _ => .fin 0) firstMethod (walkConfig 1 1) walkData (GState.new Unit 1) = (.ok (), t) ∧
    GState.update (walkDist fun _ => .fin 0) firstMethod walkIdle (walkPoint 1) t = (.ok (), u) ∧
    u.xGram = t.xGram ∧ u.yGram = t.yGram ∧ u.coef = t.coef := by
  obtain ⟨⟨⟩, t, ht, hft⟩ := fit_total (walk_regular fun _ => .fin 0) (fun e => by cases e) (fun _ => firstContract 1)
    (fun _ _ => trivial) (walk_options (fun _ => .fin 0) 1 1 le_rfl) one_ne_zero (data := walkData) (by simp [walkData])
    (by simp [walkData]) (walk_support _ _) (fun _ _ _ _ _ _ _ _ => trivial) (fun _ _ _ => trivial)
    (GState.new Unit 1) trivial
  have hft' : GFitted (walkDist fun _ => .fin 0) walkIdle (fun _ => firstContract 1) t :=
    ⟨hft.setup, hft.stored, hft.nObs, hft.globalDev, hft.scaler, fun k hk => by
      obtain ⟨eq, fi, h1, h2, h3⟩ := hft.design k hk
      refine ⟨eq, fi, h1, h2, fun X => ?_⟩
      obtain ⟨A, a1, a2, a3⟩ := h3 X
      exact ⟨A, a1, a2, fun r hr => ⟨(a3 r hr).length, fun _ => (a3 r hr).one rfl⟩⟩, hft.minIt.trans (by simp [walkIdle, walkConfig])⟩
  have hb : GoodBatch (walkDist fun _ => .fin 0) walkIdle (walkPoint 1) :=
    ⟨by simp [walkPoint], walk_support _ _, fun _ => ⟨rfl, le_rfl, fun q fv => by simp [walkDist, Fv.col]⟩⟩
  obtain ⟨⟨⟩, u, hu, _⟩ := update_total (walk_regular fun _ => .fin 0) (fun e => by cases e) (fun _ => firstContract 1)
    walkIdle_valid (Nat.zero_le _) (Nat.zero_le _) one_ne_zero hb (fun _ _ _ _ _ _ _ _ => trivial) t hft'
  have hit : u.itOuter = some 0 := by
    obtain ⟨r⟩ := update_ok hu
    obtain ⟨_, _, hdev⟩ := walk_one ht
    obtain ⟨row, hrow, h1⟩ := walk_point ht (r.nObs0 + (ws (walkPoint 1)).sum) r.nt (fun _ => 0)
    have hfv : r.fv = [row] := Except.ok.inj (r.hfv.symm.trans hrow)
    have hs1 : r.s1 = (updateStart walkIdle (r.nObs0 + (ws (walkPoint 1)).sum) r.nt r.fv r.sc t).setMinIt 0 := by
      have hc := r.hcautious
      generalize hS : updateStart walkIdle (r.nObs0 + (ws (walkPoint 1)).sum) r.nt r.fv r.sc t = S at *
      have hfvS : S.fv = [row] := by rw [← hS]; exact hfv
      unfold cautious at hc
      rw [Py.bind_self, if_pos (show walkIdle.cautiousUpdates = true from rfl)] at hc
      have hi : ∀ q, item ((walkDist fun _ => .fin 0).ppf q S.fv) = .ok (.fin 1) := by
        intro q
        rw [hfvS]
        simp [walkDist, Fv.col, item, h1]
      rw [hi, hi] at hc
      obtain ⟨lo, s1, hh1, hc⟩ := Py.bind_ok_iff.1 hc
      obtain ⟨e1, e2⟩ := Py.call_ok_iff.1 hh1
      obtain ⟨hi, s2, hh2, hc⟩ := Py.bind_ok_iff.1 hc
      obtain ⟨e3, e4⟩ := Py.call_ok_iff.1 hh2
      rw [← Except.ok.inj e1, ← Except.ok.inj e3, if_neg (by simp [walkPoint, ys, Flt.lt])] at hc
      rw [Py.set_ok_iff.1 hc, e4, e2]
      rfl
    have hl := r.hloop
    have hS1 : r.s1.fv = [row] := by rw [hs1, updateStart_fv]; exact hfv
    have hS2 : r.s1.globalDev = some (walkDev (fun _ => .fin 0) 1) := by rw [hs1, updateStart_globalDev]; exact hdev
    have hS3 : r.s1.minIt = 0 := by rw [hs1]; rfl
    have h2 : u.itOuter = some r.it := (congrArg GState.itOuter r.ht).trans rfl
    rw [h2]
    congr 1
    refine idle_loop (n := walkIdle.fuel r.s1.minIt - 1) hS2 hS3 rfl (fun f => ?_) hl
    rw [hS1]
    simp [updateDeviance, deviance, walkDist, h1, wmul, asum, Dist.npSum, walkDev, Flt.mul, Flt.add, ws, walkPoint]
  obtain ⟨h1, h2, _, h3, _⟩ := C57_skipped_fails hu hit
  exact ⟨t, u, ht, hu, h1, h2, h3⟩

end Ondil
