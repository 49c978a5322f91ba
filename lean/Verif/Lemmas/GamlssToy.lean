import Verif.Props.GamlssSuccess

/-!
# A small estimator whose runs can be followed

A distribution object with one parameter, identity link, score one and information one, whose log density is a given
function of the parameter, and a method object that returns the first entry of the working vector.  Every iteration of
the estimator then moves the fitted parameter by the step size.  These are witnesses for the negative results: the
estimator accepts any distribution and method object.
-/

namespace Ondil

/-- The distribution object. -/
noncomputable def walkDist (g : ℝ → Flt) : DistOps where
  nParams := 1
  support := (⊥, ⊤)
  link := fun _ a => .ok a
  linkInverse := fun _ a => .ok a
  linkInverseDerivative := fun _ a => .ok (a.map fun _ => .fin 1)
  dl1 := fun y _ _ => .ok (y.map fun _ => .fin 1)
  dl2 := fun y _ _ => .ok (y.map fun _ => .fin (-1))
  logpdf := fun _ fv => fv.map fun r =>
    match r 0 with
    | .fin v => g v
    | _ => .nan
  initialValues := fun y => .ok (y.map fun _ _ => .fin 0)
  conditionalInitialValues := fun _ fv _ => .ok fv
  ppf := fun _ fv => fv.col 0
  mean := none
  median := none

/-- The method object. -/
def firstMethod : MethodOps Unit where
  ols := ()
  pathBased := fun _ => false
  initX := fun _ X _ _ => .ok X
  initY := fun _ X y _ _ => .ok (List.replicate (width X) (y.headD .nan))
  updateX := fun _ G _ _ _ => .ok G
  updateY := fun _ _ X y _ _ => .ok (List.replicate (width X) (y.headD .nan))
  fitBeta := fun _ _ h _ => .ok (h, ())
  updateBeta := fun _ _ h _ _ => .ok (h, ())
  fitPath := fun _ _ _ _ => .error .notImplemented
  updatePath := fun _ _ _ _ _ => .error .notImplemented

/-- The options: an intercept, `n` outer iterations with one inner iteration each, and the given step size. -/
noncomputable def walkConfig (st : ℝ) (n : ℕ) : GConfig Unit 1 where
  equation := some [(0, .str "intercept")]
  forget := .value 0
  method := .value (some ())
  scaleInputs := .off
  fitIntercept := .value true
  regularizeIntercept := .value false
  ic := .value .aic
  modelSelection := .localRss
  prefitInitial := 0
  prefitUpdate := 0
  stepSize := .value st
  debug := false
  paramOrder := none
  cautiousUpdates := false
  condStartVal := false
  maxOuter := n
  maxInner := 1
  absTolOuter := 0
  absTolInner := 0
  relTolOuter := 0
  relTolInner := 0
  minItOuter := n

/-- Two observations. -/
def walkData : List (Obs 1) := [⟨fun _ => 0, 0, 1⟩, ⟨fun _ => 0, 0, 1⟩]

theorem width_of {X : Arr2} {J : ℕ} (hX : X ≠ []) (h : ∀ x ∈ X, x.length = J) : width X = J := by
  obtain ⟨x, X, rfl⟩ := List.exists_cons_of_ne_nil hX
  exact h x (List.mem_cons_self ..)

/-- The method object behaves as the estimator expects. -/
def firstContract (J : ℕ) : MethodContract firstMethod J where
  Ok := fun _ => True
  Gx := fun _ => True
  Gy := fun h => h.length = J
  L := 1
  isPath := false
  pos := Nat.one_pos
  path := fun _ _ => rfl
  initX := fun _ _ X _ _ _ _ _ _ _ _ => ⟨X, rfl, trivial⟩
  initY := fun _ _ X hX hJ y _ _ _ _ _ _ _ => ⟨_, rfl, by simp [width_of hX hJ]⟩
  updateX := fun _ _ g _ _ _ _ _ _ _ _ _ _ => ⟨g, rfl, trivial⟩
  updateY := fun _ _ _ _ X hX hJ y _ _ _ _ _ _ _ => ⟨_, rfl, by simp [width_of hX hJ]⟩
  fitBeta := fun _ _ _ _ h _ hh _ _ _ => ⟨h, (), rfl, hh, trivial⟩
  updateBeta := fun _ _ _ _ h _ hh _ _ _ _ _ => ⟨h, (), rfl, hh, trivial⟩
  fitPath := fun h => by cases h
  updatePath := fun h => by cases h

theorem walk_regular (g : ℝ → Flt) : Regular (walkDist g) where
  pos := Nat.one_pos
  link := fun _ _ a => ⟨a, rfl, rfl⟩
  linkInverse := fun _ _ a => ⟨a, rfl, rfl⟩
  linkInverseDerivative := fun _ _ a => ⟨_, rfl, by simp⟩
  dl1 := fun _ _ y _ _ => ⟨_, rfl, by simp⟩
  dl2 := fun _ _ y _ _ => ⟨_, rfl, by simp⟩
  initialValues := fun y _ => ⟨_, rfl, by simp⟩

theorem walk_options (g : ℝ → Flt) (st : ℝ) (n : ℕ) (hn : 1 ≤ n) :
    GoodOptions false (walkDist g) (walkConfig st n) () true fun _ => 1 where
  valid := by simp [GConfig.Valid, walkConfig, OptArg.OnlyValue, hn]
  method := rfl
  intercept := rfl
  columns := fun k hk => by
    have : k = 0 := by simpa [walkDist] using hk
    subst this
    have e : (walkConfig st n).equationFor 0 = .str "intercept" := rfl
    rw [e]
    exact ⟨rfl, by simp, fun _ => rfl, [], .intercept, rfl⟩
  order := fun o h => by cases h
  minIt := ⟨hn, le_rfl⟩
  prefit := ⟨Nat.zero_le _, Nat.zero_le _⟩

theorem walk_support (g : ℝ → Flt) (y : List ℝ) : ¬ OutOfSupport (walkDist g) y := by
  rintro (⟨v, _, h⟩ | ⟨v, _, h⟩)
  · exact absurd h not_lt_bot
  · exact absurd h not_top_lt

/-- The fit of the walk succeeds. -/
theorem walk_fit (g : ℝ → Flt) (st : ℝ) (n : ℕ) (hn : 1 ≤ n) (s : GState Unit 1) :
    ∃ t, GState.fit false (walkDist g) firstMethod (walkConfig st n) walkData s = (.ok (), t) := by
  obtain ⟨t, h, _⟩ := C76_no_exception (c := walkConfig st n) (walk_regular g) (fun h => by cases h) (fun _ => firstContract 1) (fun _ _ => trivial)
    (walk_options g st n hn) one_ne_zero (data := walkData) (by simp [walkData]) (by simp [walkData])
    (walk_support g _) [] (by simp) (fun _ _ _ _ _ _ _ _ => trivial) (by simp) (fun _ _ _ => trivial) s
  exact ⟨t, h⟩

/-- Both rows of the fitted values have the parameter `v`. -/
def AtVal (v : ℝ) (fv : Fv) : Prop := ∃ r1 r2, fv = [r1, r2] ∧ r1 0 = .fin v ∧ r2 0 = .fin v

/-- The deviance of two observations. -/
noncomputable def walkDev (g : ℝ → Flt) (v : ℝ) : Flt :=
  Flt.add (Flt.mul (.fin 1) (Flt.mul (.fin (-2)) (g v)))
    (Flt.add (Flt.mul (.fin 1) (Flt.mul (.fin (-2)) (g v))) (.fin 0))

theorem walk_deviance {g : ℝ → Flt} {v : ℝ} {fv : Fv} (h : AtVal v fv) (y : List ℝ) :
    deviance (walkDist g) y [1, 1] fv = walkDev g v := by
  obtain ⟨r1, r2, rfl, h1, h2⟩ := h
  simp [deviance, walkDist, h1, h2, wmul, asum, Dist.npSum, walkDev]

theorem walk_working {g : ℝ → Flt} {v : ℝ} {fv : Fv} (h : AtVal v fv) :
    working (walkDist g) fitClip [0, 0] fv 0 = .ok ⟨[.fin v, .fin v], [.fin 1, .fin 1], [.fin (v + 1), .fin (v + 1)]⟩ := by
  obtain ⟨r1, r2, rfl, h1, h2⟩ := h
  have hc : max (1 : ℝ) fitClip = 1 := max_eq_left (by norm_num [fitClip])
  simp [working, walkDist, Fv.col, h1, h2, bind, Except.bind, pure, Except.pure, Flt.div, Flt.mul, Flt.neg, Flt.clip, Flt.add, hc]

/-- The call inside `fit`. -/
noncomputable def walkCall (g : ℝ → Flt) (st : ℝ) (n : ℕ) (X : ℕ → Option Arr2) : Call Unit 1 :=
  ⟨walkDist g, firstMethod, walkConfig st n, X, [0, 0], [1, 1]⟩

theorem fitIteration_scheduleStep (c : Call Unit 1) (k itO itI scheduled : ℕ) (h : ¬ itI < scheduled - 1) (a : Inner)
    (f : ℕ → ℕ → ℕ → Option ℝ) : Py.Inv (fun s => s.scheduleStep = f) (fitIteration c k itO itI scheduled a) := by
  unfold fitIteration
  py_inv
  all_goals first
    | exact fitCoefs_keeps c k itO itI _ _ _ _ _ _ fun s m hs => hs
    | (intro s hs; unfold debugWork; split <;> exact hs)
    | (intro s hs; unfold debugBeta; split <;> exact hs)
    | (intro s hs; simp [h]; exact hs)

theorem fitIteration_coef (c : Call Unit 1) (k itO itI scheduled : ℕ) (a : Inner)
    (f : ℕ → Option Arr1) : Py.Inv (fun s => s.coef = f) (fitIteration c k itO itI scheduled a) := by
  unfold fitIteration
  py_inv
  all_goals first
    | exact fitCoefs_keeps c k itO itI _ _ _ _ _ _ fun s m hs => hs
    | (intro s hs; unfold debugWork; split <;> exact hs)
    | (intro s hs; unfold debugBeta; split <;> exact hs)
    | (intro s hs; split <;> exact hs)

/-- One inner loop of the walk: the parameter moves by the step size; from the second outer iteration on the move is
taken back when the deviance increased. -/
theorem walk_innerFit {g : ℝ → Flt} {st : ℝ} {n itO : ℕ} {X : ℕ → Option Arr2} (hX : X 0 = some [[.fin 1], [.fin 1]])
    {s t : GState Unit 1} {d : Flt} {v : ℝ} (hfv : AtVal v s.fv) (hstep : s.stepSize = [(0, st)])
    (hsched : s.scheduleStep = fun _ _ _ => none) (hit : s.scheduleIteration = fun _ => 1)
    (h : innerFit (walkCall g st n X) itO 0 s = (.ok d, t)) :
    d = walkDev g (v + st) ∧ t.scheduleStep = (fun _ _ _ => none) ∧
    (itO = 1 ∨ ¬ Flt.lt (walkDev g v) (walkDev g (v + st)) → AtVal (v + st) t.fv ∧ t.coef 0 = some [.fin (v + 1)]) ∧
    (itO ≠ 1 ∧ Flt.lt (walkDev g v) (walkDev g (v + st)) → AtVal v t.fv ∧ t.coef = s.coef) := by
  unfold innerFit at h
  rw [Py.bind_self] at h
  obtain ⟨m, s1, h1, h⟩ := Py.bind_ok_iff.1 h
  obtain ⟨hm, rfl⟩ := Py.call_ok_iff.1 h1
  obtain rfl : m = 1 := by
    unfold iterationsAt at hm
    split at hm
    · rw [hit] at hm
      exact (Except.ok.inj hm).symm
    · cases hm
  obtain ⟨a, s2, h2, h⟩ := Py.bind_ok_iff.1 h
  unfold fitInnerLoop at h2
  obtain ⟨r, s3, hr, h2⟩ := Py.bind_ok_iff.1 h2
  obtain ⟨rfl, rfl⟩ : r.1 = a ∧ s3 = s2 := by
    split at h2
    · exact Py.pure_ok_iff.1 h2
    · unfold fitInnerLoop at h2
      exact Py.pure_ok_iff.1 h2
  clear h2
  have hs3 : s3.fv = s1.fv := (fitIteration_fv _ _ _ _ _ _ s1.fv).ok rfl hr
  have hs3' : s3.scheduleStep = s1.scheduleStep := (fitIteration_scheduleStep _ _ _ _ _ (by simp) _ s1.scheduleStep).ok rfl hr
  have hs3'' : s3.coef = s1.coef := (fitIteration_coef _ _ _ _ _ _ s1.coef).ok rfl hr
  obtain ⟨S⟩ := fitIteration_ok hr
  have e1 : S.step = st := by
    have := S.hstep
    unfold stepAt stepSchedule at this
    rw [hstep, hsched] at this
    split at this
    · simp [PyDict.values, bind, Except.bind, pure, Except.pure] at this
      exact this.symm
    · cases this
  have e2 : S.fvIt = s1.fv := by
    have := S.hfvIt
    unfold startValues at this
    rw [if_neg (by simp)] at this
    exact (Except.ok.inj this).symm
  have e3 : S.wk = ⟨[.fin v, .fin v], [.fin 1, .fin 1], [.fin (v + 1), .fin (v + 1)]⟩ := by
    have := S.hwk
    rw [e2] at this
    exact Except.ok.inj (this.symm.trans (walk_working hfv))
  have e4 : S.X = [[.fin 1], [.fin 1]] := Option.some.inj (S.hX.symm.trans hX)
  have e5 : S.yg = [.fin (v + 1)] := by
    have := S.hyg
    rw [e3, e4] at this
    exact (Except.ok.inj this).symm
  have e6 : S.co.beta = S.yg := by
    have := S.hco
    unfold fitCoefs at this
    rw [Py.bind_self] at this
    obtain ⟨_, _, _, this⟩ := Py.bind_ok_iff.1 this
    obtain ⟨_, _, _, this⟩ := Py.bind_ok_iff.1 this
    obtain ⟨_, _, _, this⟩ := Py.bind_ok_iff.1 this
    rw [if_neg (by simp [walkCall, firstMethod])] at this
    obtain ⟨b, _, hb, this⟩ := Py.bind_ok_iff.1 this
    obtain ⟨hb, _⟩ := Py.call_ok_iff.1 hb
    obtain ⟨_, _, _, this⟩ := Py.bind_ok_iff.1 this
    obtain ⟨this, _⟩ := Py.pure_ok_iff.1 this
    rw [← this]
    have hb' : (Except.ok (S.yg, ()) : Except PyErr (Arr1 × Unit)) = .ok b := hb
    rw [← Except.ok.inj hb']
  have e7 : S.xb = [.fin (v + 1), .fin (v + 1)] := by
    have := S.hxb
    rw [e6, e5, e4] at this
    unfold matVec at this
    rw [if_pos (by simp)] at this
    rw [← Except.ok.inj this]
    simp [dot, asum, Dist.npSum, Flt.mul, Flt.add]
  have e8 : S.v = [.fin (v + st), .fin (v + st)] := by
    have := S.hv
    rw [e7, e3, e1] at this
    have h' : (Except.ok _ : Except PyErr Arr1) = .ok S.v := this
    rw [← Except.ok.inj h']
    simp only [List.zipWith_cons_cons, List.zipWith_nil_left, Flt.mul, Flt.add, List.cons.injEq, Flt.fin.injEq, and_true]
    constructor <;> ring
  have e9 : AtVal (v + st) r.1.fvNew := by
    rw [S.fvNew, e8]
    obtain ⟨r1, r2, hr12, _, _⟩ := hfv
    change AtVal _ (Fv.setCol s1.fv 0 _)
    rw [hr12]
    exact ⟨_, _, rfl, by simp, by simp⟩
  have hdv : deviance (walkDist g) [0, 0] [1, 1] r.1.fvNew = walkDev g (v + st) := walk_deviance e9 _
  rw [S.out, Py.bind_attr_some, Py.bind_set, Py.bind_set] at h
  obtain ⟨rfl, rfl⟩ := Py.pure_ok_iff.1 h
  have hbad : r.1.badState = true ↔ Flt.lt (walkDev g v) (walkDev g (v + st)) := by
    rw [S.bad, ← S.fvNew]
    change Flt.lt (deviance (walkDist g) [0, 0] [1, 1] s1.fv) (deviance (walkDist g) [0, 0] [1, 1] r.1.fvNew) ↔ _
    rw [hdv, walk_deviance hfv]
  have hsetcol : AtVal (v + st) (s3.fv.setCol 0 (r.1.fvNew.col 0)) := by
    obtain ⟨q1, q2, hq, hq1, hq2⟩ := e9
    obtain ⟨r1, r2, hr12, _, _⟩ := hfv
    rw [hs3, hr12, hq]
    exact ⟨_, _, rfl, by simp [hq1], by simp [hq2]⟩
  refine ⟨?_, ?_, fun hc => ?_, fun hc => ?_⟩
  · change deviance (walkDist g) [0, 0] [1, 1] _ = _
    rw [← hdv, S.fvNew]
  · split <;> exact hs3'.trans hsched
  · have hc' : r.1.badState = false ∨ itO = 1 := by
      rcases hc with hc | hc
      · exact .inr hc
      · exact .inl (Bool.eq_false_iff.2 fun e => hc (hbad.1 e))
    rw [if_pos hc']
    refine ⟨hsetcol, ?_⟩
    change Function.update s3.coef 0 (some S.co.beta) 0 = _
    rw [Function.update_self, e6, e5]
  · have hc' : ¬ (r.1.badState = false ∨ itO = 1) := by
      rintro (h | h)
      · rw [hbad.2 hc.2] at h
        cases h
      · exact hc.1 h
    rw [if_neg hc']
    exact ⟨by change AtVal v s3.fv; rw [hs3]; exact hfv, hs3''⟩

/-- What the loops of the fit start from. -/
structure WalkStart (st : ℝ) (n : ℕ) (S : GState Unit 1) : Prop where
  fv : AtVal 0 S.fv
  step : S.stepSize = [(0, st)]
  sched : S.scheduleStep = fun _ _ _ => none
  iterations : S.scheduleIteration = fun _ => 1
  minIt : S.minIt = n
  order : S.paramOrder = [0]

/-- The design of a fit of the walk: a column of ones. -/
theorem walk_design {g : ℝ → Flt} {st : ℝ} {n : ℕ} {s t : GState Unit 1}
    (r : FitRun false (walkDist g) firstMethod (walkConfig st n) walkData s t) :
    designFor r.sP r.sc (xs walkData) 0 = .ok [[.fin 1], [.fin 1]] := by
  obtain ⟨q⟩ := prepare_ok r.hprepare
  have heq : q.eq = [(0, .str "intercept")] := (Except.ok.inj q.heq).symm
  have hfi : q.fi = [(0, true)] := (Except.ok.inj q.hfi).symm
  have hsc : ∃ m, r.sc = .off m := by
    have h' : Scaler.fit (walkConfig st n).scaleInputs r.forget0 (xs walkData) (ws walkData) =
        .ok (.off (ws walkData).sum) := by
      simp [Scaler.fit, ToScale.selection, walkConfig, xs, walkData]
    exact ⟨_, Except.ok.inj (r.hsc.symm.trans h')⟩
  obtain ⟨m, hm⟩ := hsc
  unfold designFor
  rw [q.ht]
  change (match q.eq.get? 0, q.fi.get? 0 with
    | some eq, some fi => modelArray (Flt.fin 1) fi eq (r.sc.transformFlt (xs walkData))
    | _, _ => Except.error PyErr.keyError) = _
  rw [heq, hfi, hm]
  rfl

/-- The loops of a fit of the walk. -/
theorem walk_loops {g : ℝ → Flt} {st : ℝ} {n : ℕ} {s t : GState Unit 1}
    (h : GState.fit false (walkDist g) firstMethod (walkConfig st n) walkData s = (.ok (), t)) :
    ∃ X S dev it s2, X 0 = some [[.fin 1], [.fin 1]] ∧ WalkStart st n S ∧
      outerFit (walkCall g st n X) ((walkConfig st n).fuel n) S = (.ok (some (dev, it)), s2) ∧ t = s2.setResult dev it := by
  obtain ⟨r⟩ := fit_ok h
  obtain ⟨q⟩ := prepare_ok r.hprepare
  have hS : WalkStart st n (fitStart (walkConfig st n) (walkDist g).nParams (ws walkData).sum r.nt r.fv r.nf r.sc r.reg r.sP) := by
    have hst : q.st = [(0, st)] := (Except.ok.inj q.hst).symm
    refine ⟨?_, ?_, by unfold_start, by unfold_start; simp [walkConfig], by unfold_start; simp [walkConfig], ?_⟩
    · rw [fitStart_fv]
      have := r.hfv
      have h' : (Except.ok _ : Except PyErr Fv) = .ok r.fv := this
      rw [← Except.ok.inj h']
      exact ⟨_, _, rfl, rfl, rfl⟩
    · rw [fitStart_stepSize, q.ht]
      exact hst
    · rw [fitStart_paramOrder, q.ht]
      rfl
  refine ⟨r.X.get?, _, r.dev, r.it, r.s2, ?_, hS, ?_, r.ht⟩
  · obtain ⟨A, h1, h2⟩ := forParams_mem r.hX (k := 0) Nat.one_pos
    rw [h1, ← Except.ok.inj (h2.symm.trans (walk_design r))]
  · have := r.hloop
    rw [hS.minIt] at this
    exact this

/-- The prediction for the training rows is the stored coefficient. -/
theorem walk_predict {g : ℝ → Flt} {st : ℝ} {n : ℕ} {s t : GState Unit 1} {b : ℝ}
    (h : GState.fit false (walkDist g) firstMethod (walkConfig st n) walkData s = (.ok (), t))
    (hb : t.coef 0 = some [.fin b]) :
    ∃ th, predictParams (walkDist g) t (xs walkData) .response = .ok th ∧ AtVal b th := by
  obtain ⟨r⟩ := fit_ok h
  have hset := (outerFit_setup _ _ _).ok (SameSetup.refl _) r.hloop
  have e1 : t.scaler = some r.sc := ((congrArg GState.scaler r.ht).trans rfl).trans (hset.scaler.trans (by unfold_start))
  have e2 : t.equation = r.sP.equation := ((congrArg GState.equation r.ht).trans rfl).trans (hset.equation.trans (by unfold_start))
  have e3 : t.fitIntercept = r.sP.fitIntercept :=
    ((congrArg GState.fitIntercept r.ht).trans rfl).trans (hset.fitIntercept.trans (by unfold_start))
  have e4 : t.nObs = some (ws walkData).sum := ((congrArg GState.nObs r.ht).trans rfl).trans (hset.nObs.trans (by unfold_start))
  have hd : designFor t r.sc (xs walkData) 0 = .ok [[.fin 1], [.fin 1]] := by
    rw [← walk_design r]
    unfold designFor
    rw [e2, e3]
  have hl : linearPredictors (walkDist g) t (xs walkData) = .ok [[.fin b, .fin b]] := by
    unfold linearPredictors
    rw [e4, e1]
    change ([0].mapM fun k => do
      let A ← designFor t r.sc (xs walkData) k
      match t.coef k with
      | none => Except.error PyErr.attributeError
      | some b => matVec A b) = _
    rw [List.mapM_cons, hd, hb]
    simp [bind, Except.bind, matVec, dot, asum, Dist.npSum, Flt.mul, Flt.add, pure, Except.pure]
  refine ⟨_, by unfold predictParams; rw [hl]; rfl, _, _, rfl, rfl, rfl⟩

theorem walk_stops (st : ℝ) (n it : ℕ) (a b : Flt) : fitStops (walkConfig st n) n it a b ↔ n ≤ it := by
  constructor
  · exact fun h => h.1
  · exact fun h => ⟨h, .inr (.inl h)⟩

/-- A fit with one outer iteration. -/
theorem walk_one {g : ℝ → Flt} {st : ℝ} {s t : GState Unit 1}
    (h : GState.fit false (walkDist g) firstMethod (walkConfig st 1) walkData s = (.ok (), t)) :
    AtVal st t.fv ∧ t.coef 0 = some [.fin 1] ∧ t.globalDev = some (walkDev g st) := by
  obtain ⟨X, S, dev, it, s2, hX, hS, hrun, rfl⟩ := walk_loops h
  unfold outerFit at hrun
  rw [Py.bind_self, hS.minIt, hS.order] at hrun
  change outerLoop (fitStops (walkConfig st 1) 1) _ 3 0 _ _ _ = _ at hrun
  unfold outerLoop at hrun
  rw [if_neg (by rw [walk_stops]; omega)] at hrun
  obtain ⟨d1, s1, h1, hrun⟩ := Py.bind_ok_iff.1 hrun
  unfold outerLoop at hrun
  rw [if_pos (by rw [walk_stops])] at hrun
  obtain ⟨e, rfl⟩ := Py.pure_ok_iff.1 hrun
  unfold paramLoop at h1
  obtain ⟨d, s1', hi, h1⟩ := Py.bind_ok_iff.1 h1
  obtain ⟨rfl, rfl⟩ := Py.pure_ok_iff.1 h1
  obtain ⟨hd, _, hacc, _⟩ := walk_innerFit hX hS.fv hS.step hS.sched hS.iterations hi
  obtain ⟨h1, h2⟩ := hacc (.inl rfl)
  simp only [zero_add] at h1 h2 hd
  simp only [Option.some.injEq, Prod.mk.injEq] at e
  refine ⟨h1, h2, ?_⟩
  change some dev = _
  rw [← e.1, hd]

/-- A fit with two outer iterations. -/
theorem walk_two {g : ℝ → Flt} {st : ℝ} {s t : GState Unit 1}
    (h : GState.fit false (walkDist g) firstMethod (walkConfig st 2) walkData s = (.ok (), t)) :
    t.globalDev = some (walkDev g (st + st)) ∧
      (¬ Flt.lt (walkDev g st) (walkDev g (st + st)) → AtVal (st + st) t.fv) ∧
      (Flt.lt (walkDev g st) (walkDev g (st + st)) → AtVal st t.fv) := by
  obtain ⟨X, S, dev, it, s2, hX, hS, hrun, rfl⟩ := walk_loops h
  unfold outerFit at hrun
  rw [Py.bind_self, hS.minIt, hS.order] at hrun
  change outerLoop (fitStops (walkConfig st 2) 2) _ 4 0 _ _ _ = _ at hrun
  unfold outerLoop at hrun
  rw [if_neg (by rw [walk_stops]; omega)] at hrun
  obtain ⟨d1, s1, h1, hrun⟩ := Py.bind_ok_iff.1 hrun
  unfold outerLoop at hrun
  rw [if_neg (by rw [walk_stops]; omega)] at hrun
  obtain ⟨d2, s2', h2, hrun⟩ := Py.bind_ok_iff.1 hrun
  unfold outerLoop at hrun
  rw [if_pos (by rw [walk_stops])] at hrun
  obtain ⟨e, rfl⟩ := Py.pure_ok_iff.1 hrun
  unfold paramLoop at h1 h2
  obtain ⟨d, s1', hi, h1⟩ := Py.bind_ok_iff.1 h1
  obtain ⟨rfl, rfl⟩ := Py.pure_ok_iff.1 h1
  obtain ⟨d', s2'', hi2, h2⟩ := Py.bind_ok_iff.1 h2
  obtain ⟨rfl, rfl⟩ := Py.pure_ok_iff.1 h2
  have hset := (innerFit_setup (walkCall g st 2 X) 1 0 S).ok (SameSetup.refl _) hi
  obtain ⟨_, hsched, hacc, _⟩ := walk_innerFit hX hS.fv hS.step hS.sched hS.iterations hi
  obtain ⟨h1, _⟩ := hacc (.inl rfl)
  rw [zero_add] at h1
  obtain ⟨hd2, _, hacc2, hrej2⟩ := walk_innerFit hX h1 (hset.stepSize.trans hS.step) hsched
    (hset.scheduleIteration.trans hS.iterations) hi2
  simp only [Option.some.injEq, Prod.mk.injEq] at e
  refine ⟨?_, fun hn => (hacc2 (.inr hn)).1, fun hn => (hrej2 ⟨by omega, hn⟩).1⟩
  change some dev = _
  rw [← e.1, hd2]

end Ondil
