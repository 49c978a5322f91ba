import Verif.Lemmas.GamlssOverlay
import Verif.Lemmas.GamlssCalls
import Verif.Lemmas.GamlssErrors
import Verif.Props.GamlssLoops
import Verif.Model.GamlssDebug

/-!
# Options without effect on the results: step sizes in updates, debug mode (C63, C81, C82)
-/

namespace Ondil

variable {μ : Type} {p : ℕ}

/-- The two estimators answer every later question in the same way: all attributes but the step sizes, their schedule and
the debug dictionaries are equal. -/
structure SameModel (s t : GState μ p) : Prop where
  equation : t.equation = s.equation
  method : t.method = s.method
  forget : t.forget = s.forget
  ic : t.ic = s.ic
  fitIntercept : t.fitIntercept = s.fitIntercept
  regularizeIntercept : t.regularizeIntercept = s.regularizeIntercept
  paramOrder : t.paramOrder = s.paramOrder
  scaler : t.scaler = s.scaler
  nObs : t.nObs = s.nObs
  nTraining : t.nTraining = s.nTraining
  nFeatures : t.nFeatures = s.nFeatures
  isRegularized : t.isRegularized = s.isRegularized
  fv : t.fv = s.fv
  xGram : t.xGram = s.xGram
  yGram : t.yGram = s.yGram
  coef : t.coef = s.coef
  coefPath : t.coefPath = s.coefPath
  rss : t.rss = s.rss
  selection : t.selection = s.selection
  bestIc : t.bestIc = s.bestIc
  sumW : t.sumW = s.sumW
  meanW : t.meanW = s.meanW
  itInner : t.itInner = s.itInner
  globalDev : t.globalDev = s.globalDev
  itOuter : t.itOuter = s.itOuter

theorem sameModel_over (s : GState μ p) (o : Overlay) : SameModel s (s.over o) := by constructor <;> rfl

/-- Predictions depend on nothing that an overlay replaces. -/
theorem SameModel.predict {s t : GState μ p} (h : SameModel s t) (D : DistOps) (X : List (Row p)) (what : What) :
    predictParams D t X what = predictParams D s X what := by
  simp only [predictParams, linearPredictors, designFor, h.nObs, h.scaler, h.equation, h.fitIntercept, h.coef]

/-! ### C63: the step size in updates -/

/-- **C63 fails**: whatever step sizes an estimator has (as many values as before), an update returns or raises alike and
leaves the same model. -/
theorem C63_update_ignores_step_size_fails (D : DistOps) (M : MethodOps μ) (c : GConfig μ p) (st : OptArg ℝ)
    (d : PyDict ℝ) (data : List (Obs p)) (s : GState μ p) (hd : d.length = s.stepSize.length) :
    (GState.update D M c data s).1 = (GState.update D M { c with stepSize := st } data (s.setStepSize d)).1 ∧
      SameModel (GState.update D M c data s).2 (GState.update D M { c with stepSize := st } data (s.setStepSize d)).2 := by
  obtain ⟨h1, o, _, h2⟩ := update_rel D M c c.debug st data s (s.setStepSize d)
    ⟨⟨d, s.scheduleStep, s.debugWeights, s.debugWorking, s.debugEta, s.debugFv, s.debugCoef⟩, hd, rfl⟩
  refine ⟨h1, ?_⟩
  change SameModel _ (GState.update D M (c.alter c.debug st) data (s.setStepSize d)).2
  rw [h2]
  exact sameModel_over _ _

/-- **C63 fails** for a whole history of updates. -/
theorem C63_updates_ignore_step_size_fails (D : DistOps) (M : MethodOps μ) (c : GConfig μ p) (st : OptArg ℝ)
    (d : PyDict ℝ) (batches : List (List (Obs p))) (s : GState μ p) (hd : d.length = s.stepSize.length) :
    (GState.updates D M c batches s).1 = (GState.updates D M { c with stepSize := st } batches (s.setStepSize d)).1 ∧
      SameModel (GState.updates D M c batches s).2
        (GState.updates D M { c with stepSize := st } batches (s.setStepSize d)).2 := by
  have key : ∀ bs : List (List (Obs p)), Py.Rel UpToSteps (GState.updates D M c bs)
      (GState.updates D M (c.alter c.debug st) bs) := by
    intro bs
    induction bs with
    | nil => exact Py.rel_pure _
    | cons b bs ih =>
      unfold GState.updates
      exact Py.Rel.bind (update_rel D M c c.debug st b) fun _ => ih
  obtain ⟨h1, o, _, h2⟩ := key batches s (s.setStepSize d)
    ⟨⟨d, s.scheduleStep, s.debugWeights, s.debugWorking, s.debugEta, s.debugFv, s.debugCoef⟩, hd, rfl⟩
  refine ⟨h1, ?_⟩
  change SameModel _ (GState.updates D M (c.alter c.debug st) batches (s.setStepSize d)).2
  rw [h2]
  exact sameModel_over _ _

/-- **C63 fails** for cautious updates: the step sizes of 0.25 that an outlier asks for change nothing.  What is left of
the caution is a schedule of at least four outer iterations with one inner iteration each. -/
theorem C63_cautious_step_size_fails (c : Call μ p) (fuel : ℕ) (s : GState μ p) :
    let slow := s.outlierSchedule
    let plain := { s with scheduleIteration := slow.scheduleIteration, minIt := slow.minIt }
    (outerUpdate c fuel slow).1 = (outerUpdate c fuel plain).1 ∧
      SameModel (outerUpdate c fuel slow).2 (outerUpdate c fuel plain).2 := by
  intro slow plain
  obtain ⟨h1, o, _, h2⟩ := outerUpdate_rel c c.cfg.debug c.cfg.stepSize fuel slow plain
    ⟨⟨s.stepSize, s.scheduleStep, s.debugWeights, s.debugWorking, s.debugEta, s.debugFv, s.debugCoef⟩, rfl, rfl⟩
  refine ⟨h1, ?_⟩
  change SameModel _ (outerUpdate (c.alter c.cfg.debug c.cfg.stepSize) fuel plain).2
  rw [h2]
  exact sameModel_over _ _

/-! ### C82: debug mode -/

theorem updates_rel (D : DistOps) (M : MethodOps μ) (c : GConfig μ p) (b : Bool) (bs : List (List (Obs p))) :
    Py.Rel UpToSteps (GState.updates D M c bs) (GState.updates D M (c.withDebug b) bs) := by
  induction bs with
  | nil => exact Py.rel_pure _
  | cons b' bs ih =>
    unfold GState.updates
    exact Py.Rel.bind (update_rel D M c b c.stepSize b') fun _ => ih

/-- Debug mode changes no result: a fit followed by any number of updates returns or raises alike with and without it and
leaves the same model, with the same predictions. -/
theorem C82_debug_mode (frames : Bool) (D : DistOps) (M : MethodOps μ) (c : GConfig μ p) (b : Bool) (data : List (Obs p))
    (batches : List (List (Obs p))) (s : GState μ p) :
    let run := fun c' : GConfig μ p => (do
      GState.fit frames D M c' data
      GState.updates D M c' batches : Py (GState μ p) Unit)
    (run c s).1 = (run { c with debug := b } s).1 ∧ SameModel (run c s).2 (run { c with debug := b } s).2 ∧
      ∀ X what, predictParams D (run { c with debug := b } s).2 X what = predictParams D (run c s).2 X what := by
  intro run
  obtain ⟨h1, o, ho, _, h2⟩ := fit_debug frames D M c b data s s ⟨s.overlay, rfl, rfl, rfl⟩
  have h3 : UpToSteps (GState.fit frames D M c data s).2 (GState.fit frames D M (c.withDebug b) data s).2 :=
    ⟨o, by rw [ho], h2⟩
  have key : (run c s).1 = (run (c.withDebug b) s).1 ∧ UpToSteps (run c s).2 (run (c.withDebug b) s).2 := by
    rcases hf : GState.fit frames D M c data s with ⟨x, t⟩
    rcases hf' : GState.fit frames D M (c.withDebug b) data s with ⟨x', t'⟩
    rw [hf, hf'] at h1 h3
    simp only at h1 h3
    subst h1
    cases x with
    | error e =>
      simp only [run]
      rw [Py.bind_of_error hf, Py.bind_of_error hf']
      exact ⟨rfl, h3⟩
    | ok u =>
      simp only [run]
      rw [Py.bind_of_ok hf, Py.bind_of_ok hf']
      exact updates_rel D M c b batches t t' h3
  obtain ⟨k1, o', _, k2⟩ := key
  have hs : SameModel (run c s).2 (run (c.withDebug b) s).2 := by
    rw [k2]
    exact sameModel_over _ _
  exact ⟨k1, hs, fun X what => hs.predict D X what⟩

/-! ### C81: what `get_debug_information` returns -/

/-- `get_debug_information` answers in debug mode only. -/
theorem C81_debug_only (c : GConfig μ p) (hc : c.debug = false) (s : GState μ p) (v : DebugVariable) (k o i : ℕ) :
    s.debugInformation c v k o i = .error .valueError := by
  unfold GState.debugInformation
  rw [hc]
  rfl

/-- No dictionary has an entry with an inner iteration of `n` or more. -/
def NoEntryFrom (n : ℕ) (s : GState μ p) : Prop := ∀ v k o i, n ≤ i → s.debugEntry v (k, o, i) = none

theorem noEntry_debugWork {n itI : ℕ} (h : itI < n) (b : Bool) (k itO : ℕ) (wk : Working) (fv : Fv) {s : GState μ p}
    (hs : NoEntryFrom n s) : NoEntryFrom n (debugWork b (k, itO, itI) wk fv s) := by
  intro v k' o i hi
  have hne : (k', o, i) ≠ (k, itO, itI) := by
    intro he
    simp only [Prod.mk.injEq] at he
    omega
  have := hs v k' o i hi
  cases b
  · exact this
  · cases v <;> simpa [debugWork, GState.debugEntry, Function.update_of_ne hne] using this

theorem noEntry_debugBeta {n itI : ℕ} (h : itI < n) (b : Bool) (k itO : ℕ) (be : Arr1) {s : GState μ p}
    (hs : NoEntryFrom n s) : NoEntryFrom n (debugBeta b (k, itO, itI) be s) := by
  intro v k' o i hi
  have hne : (k', o, i) ≠ (k, itO, itI) := by
    intro he
    simp only [Prod.mk.injEq] at he
    omega
  have := hs v k' o i hi
  cases b
  · exact this
  · cases v <;> simpa [debugBeta, GState.debugEntry, Function.update_of_ne hne] using this

theorem stepAt_ok_lt {c : GConfig μ p} {s : GState μ p} {itO itI k : ℕ} {a : ℝ} (h : stepAt c s itO itI k = .ok a) :
    itI < c.maxInner := by
  unfold stepAt stepSchedule at h
  by_contra hn
  rw [if_neg (fun hh => hn hh.2)] at h
  cases h

theorem noEntry_of_same {n : ℕ} {s t : GState μ p} (hs : NoEntryFrom n s) (h : ∀ v key, t.debugEntry v key = s.debugEntry v key) :
    NoEntryFrom n t := fun v k o i hi => (h v _).trans (hs v k o i hi)

theorem updateIteration_noEntry (c : Call μ p) (k itO itI : ℕ) (a : Inner) :
    Py.Inv (NoEntryFrom c.cfg.maxInner) (updateIteration c k itO itI a) := by
  unfold updateIteration
  refine Py.Inv.bind Py.inv_self fun s => ?_
  refine Py.Inv.bind_call fun step hstep => ?_
  have hlt := stepAt_ok_lt hstep
  have hco : ∀ X wk xg yg, Py.Inv (NoEntryFrom c.cfg.maxInner) (updateCoefs c k X wk xg yg) := by
    intro X wk xg yg
    unfold updateCoefs
    py_inv
    all_goals exact fun s hs => noEntry_of_same hs fun v key => by cases v <;> rfl
  py_inv
  all_goals first
    | exact hco _ _ _ _
    | exact fun s hs => noEntry_debugWork hlt _ _ _ _ _ hs
    | exact fun s hs => noEntry_debugBeta hlt _ _ _ _ hs
    | (intro s hs; split <;> exact noEntry_of_same hs fun v key => by cases v <;> rfl)

theorem fitIteration_noEntry (c : Call μ p) (k itO itI scheduled : ℕ) (a : Inner) :
    Py.Inv (NoEntryFrom c.cfg.maxInner) (fitIteration c k itO itI scheduled a) := by
  unfold fitIteration
  refine Py.Inv.bind Py.inv_self fun s => ?_
  refine Py.Inv.bind_call fun step hstep => ?_
  have hlt := stepAt_ok_lt hstep
  have hco : ∀ prev X wk xg yg, Py.Inv (NoEntryFrom c.cfg.maxInner) (fitCoefs c k itO itI prev X wk xg yg) := by
    intro prev X wk xg yg
    unfold fitCoefs
    py_inv
    all_goals exact fun s hs => noEntry_of_same hs fun v key => by cases v <;> rfl
  py_inv
  all_goals first
    | exact hco _ _ _ _ _
    | exact fun s hs => noEntry_debugWork hlt _ _ _ _ _ hs
    | exact fun s hs => noEntry_debugBeta hlt _ _ _ _ hs
    | (intro s hs; split <;> exact noEntry_of_same hs fun v key => by cases v <;> rfl)

theorem outerUpdate_noEntry (c : Call μ p) (fuel : ℕ) : Py.Inv (NoEntryFrom c.cfg.maxInner) (outerUpdate c fuel) := by
  have hin : ∀ it k, Py.Inv (NoEntryFrom c.cfg.maxInner) (innerUpdate c it k) := by
    intro it k
    unfold innerUpdate
    have := updateInnerLoop_inv c k it fun itI a => updateIteration_noEntry c k it itI a
    py_inv
    · exact this _ _ _
    · exact fun s hs => noEntry_of_same hs fun v key => by cases v <;> rfl
  unfold outerUpdate
  refine Py.Inv.bind Py.inv_self fun s => ?_
  refine Py.Inv.bind (Py.inv_attr _ _) fun _ => ?_
  refine Py.Inv.bind (Py.inv_attr _ _) fun _ => ?_
  exact outerLoop_inv _ _ (fun it _ d => paramLoop_inv _ (fun k _ => hin it k) d) _ _

theorem outerFit_noEntry (c : Call μ p) (fuel : ℕ) : Py.Inv (NoEntryFrom c.cfg.maxInner) (outerFit c fuel) := by
  have hin : ∀ it k, Py.Inv (NoEntryFrom c.cfg.maxInner) (innerFit c it k) := by
    intro it k
    unfold innerFit
    have := fun n => fitInnerLoop_inv c k it n fun itI a => fitIteration_noEntry c k it itI n a
    py_inv
    · exact this _ _ _ _
    · intro s hs
      split <;> exact noEntry_of_same hs fun v key => by cases v <;> rfl
    · exact fun s hs => noEntry_of_same hs fun v key => by cases v <;> rfl
  unfold outerFit
  refine Py.Inv.bind Py.inv_self fun s => ?_
  exact outerLoop_inv _ _ (fun it _ d => paramLoop_inv _ (fun k _ => hin it k) d) _ _

theorem update_noEntry {D : DistOps} {M : MethodOps μ} {c : GConfig μ p} {data : List (Obs p)} {s t : GState μ p}
    {u : Unit} (hd : c.debug = true) (h : GState.update D M c data s = (.ok u, t)) : NoEntryFrom c.maxInner t := by
  obtain ⟨r⟩ := update_ok h
  have h0 : NoEntryFrom c.maxInner (updateStart c (r.nObs0 + (ws data).sum) r.nt r.fv r.sc s) := by
    intro v k o i _
    cases v <;> simp [updateStart, resetUpdate, GState.debugEntry, hd]
  have h1 : NoEntryFrom c.maxInner r.s1 := by
    have := Py.Inv.apply (cautious_keeps D c (ys data) (NoEntryFrom c.maxInner)
      (fun s hs => noEntry_of_same hs fun v key => by cases v <;> rfl)
      (fun s n hs => noEntry_of_same hs fun v key => by cases v <;> rfl)) h0
    rwa [r.hcautious] at this
  have h2 := Py.Inv.apply (outerUpdate_noEntry ⟨D, M, c, r.X.get?, ys data, ws data⟩ (c.fuel r.s1.minIt)) h1
  rw [r.hloop] at h2
  rw [r.ht]
  exact noEntry_of_same h2 fun v key => by cases v <;> rfl

theorem fit_noEntry {frames : Bool} {D : DistOps} {M : MethodOps μ} {c : GConfig μ p} {data : List (Obs p)} {s t : GState μ p}
    {u : Unit} (hd : c.debug = true) (h : GState.fit frames D M c data s = (.ok u, t)) : NoEntryFrom c.maxInner t := by
  obtain ⟨r⟩ := fit_ok h
  have h0 : NoEntryFrom c.maxInner (fitStart c D.nParams (ws data).sum r.nt r.fv r.nf r.sc r.reg r.sP) := by
    intro v k o i _
    cases v <;> simp [fitStart, resetFit, GState.debugEntry, hd]
  have h2 := Py.Inv.apply (outerFit_noEntry ⟨D, M, c, r.X.get?, ys data, ws data⟩
    (c.fuel (fitStart c D.nParams (ws data).sum r.nt r.fv r.nf r.sc r.reg r.sP).minIt)) h0
  rw [r.hloop] at h2
  rw [r.ht]
  exact noEntry_of_same h2 fun v key => by cases v <;> rfl

theorem noEntry_keyError {n : ℕ} {c : GConfig μ p} (hd : c.debug = true) {s : GState μ p} (h : NoEntryFrom n s)
    (v : DebugVariable) (k o i : ℕ) (hi : n ≤ i + 1) : s.debugInformation c v k o i = .error .keyError := by
  unfold GState.debugInformation
  rw [if_pos hd, h v k o (i + 1) hi]

/-- **C81 fails** at the end: with `max_it_inner = n` the loops run through the inner iterations `0, ..., n - 1`; after
every fit and every update in debug mode, the information on iteration `n - 1` cannot be retrieved, although it has been
recorded when the loop gets there (`C81_last_iteration_fails`).  With `max_it_inner` of at most 2 this includes the
default `it_inner=1`. -/
theorem C81_default_call_fails {frames : Bool} {D : DistOps} {M : MethodOps μ} {c : GConfig μ p} {data : List (Obs p)}
    {s t : GState μ p} {u : Unit} (hd : c.debug = true)
    (h : GState.fit frames D M c data s = (.ok u, t) ∨ GState.update D M c data s = (.ok u, t)) (v : DebugVariable)
    (k o i : ℕ) (hi : c.maxInner ≤ i + 1) : t.debugInformation c v k o i = .error .keyError :=
  noEntry_keyError hd (h.elim (fit_noEntry hd) (update_noEntry hd)) v k o i hi

/-- **C81 fails** for the last iteration: when the last inner loop of an update used all its iterations, the working
weights recorded for its last iteration exist and asking for them raises `KeyError`. -/
theorem C81_last_iteration_fails {D : DistOps} {M : MethodOps μ} {c : GConfig μ p} {data : List (Obs p)} {s t : GState μ p}
    {u : Unit} (hd : c.debug = true) (h : GState.update D M c data s = (.ok u, t)) (it : ℕ) (hit : t.itOuter = some it)
    (h1 : 1 ≤ it) (k : ℕ) (hk : k ∈ s.paramOrder) (hlast : t.itInner k + 1 = c.maxInner) :
    t.debugEntry .weights (k, it, t.itInner k) ≠ none ∧
      t.debugInformation c .weights k it (t.itInner k) = .error .keyError := by
  refine ⟨?_, C81_default_call_fails (frames := false) hd (.inr h) _ _ _ _ hlast.ge⟩
  obtain ⟨sc, _, hall⟩ := C57_statistics_once h it hit h1
  obtain ⟨X, fv, wk, m, forget, x0, y0, xg, yg, _, _, _, _, _, _, _, _, _, hdb⟩ := hall k hk
  unfold GState.debugEntry
  simp [(hdb hd).1]

/-- **C81 fails** at the beginning: what is recorded for the first inner iteration is never returned. -/
theorem C81_first_iteration_fails (c : GConfig μ p) (s t : GState μ p)
    (h : ∀ v k o i, i ≠ 0 → t.debugEntry v (k, o, i) = s.debugEntry v (k, o, i)) (v : DebugVariable) (k o i : ℕ) :
    t.debugInformation c v k o i = s.debugInformation c v k o i := by
  unfold GState.debugInformation
  rw [h v k o (i + 1) (by omega)]

/-! ### What the records are -/

/-- All records of an inner iteration for parameter `k` belong to one computation of the working data: the fitted values, the linear
predictors at these values, and the weights and working responses computed from them. -/
def OnePass (D : DistOps) (clip : ℝ) (y : List ℝ) (s : GState μ p) (key : DebugKey) : Prop :=
  ∃ fv wk, working D clip y fv key.1 = .ok wk ∧ s.debugEntry .fv key = some (.rows fv) ∧ s.debugEntry .eta key = some (.array wk.eta) ∧
    s.debugEntry .weights key = some (.array wk.wt) ∧ s.debugEntry .workingVectors key = some (.array wk.wv)

/-- Everything that is recorded, apart from coefficients, belongs to such a computation. -/
def PassesOnly (D : DistOps) (clip : ℝ) (y : List ℝ) (s : GState μ p) : Prop :=
  ∀ key, (∀ v, v ≠ .coef → s.debugEntry v key = none) ∨ OnePass D clip y s key

theorem passes_debugWork {D : DistOps} {clip : ℝ} {y : List ℝ} {k itO itI : ℕ} {wk : Working} {fv : Fv} (hwk : working D clip y fv k = .ok wk)
    (b : Bool) {s : GState μ p} (hs : PassesOnly D clip y s) : PassesOnly D clip y (debugWork b (k, itO, itI) wk fv s) := by
  cases b
  · exact hs
  · intro key
    by_cases hk : key = (k, itO, itI)
    · subst hk
      exact .inr ⟨fv, wk, hwk, by simp [debugWork, GState.debugEntry], by simp [debugWork, GState.debugEntry],
        by simp [debugWork, GState.debugEntry], by simp [debugWork, GState.debugEntry]⟩
    · have e : ∀ v, (debugWork true (k, itO, itI) wk fv s).debugEntry v key = s.debugEntry v key := by
        intro v
        cases v <;> simp [debugWork, GState.debugEntry, Function.update_of_ne hk]
      rcases hs key with h | ⟨fv', wk', h⟩
      · exact .inl fun v hv => (e v).trans (h v hv)
      · refine .inr ⟨fv', wk', ?_⟩
        rw [e, e, e, e]
        exact h

theorem passes_of_same {D : DistOps} {clip : ℝ} {y : List ℝ} {s t : GState μ p} (hs : PassesOnly D clip y s)
    (h : ∀ v key, v ≠ .coef → t.debugEntry v key = s.debugEntry v key) : PassesOnly D clip y t := by
  intro key
  rcases hs key with g | ⟨fv', wk', g⟩
  · exact .inl fun v hv => (h v key hv).trans (g v hv)
  · refine .inr ⟨fv', wk', ?_⟩
    rw [h _ _ (by decide), h _ _ (by decide), h _ _ (by decide), h _ _ (by decide)]
    exact g

theorem passes_debugBeta {D : DistOps} {clip : ℝ} {y : List ℝ} (b : Bool) (key : DebugKey) (be : Arr1) {s : GState μ p}
    (hs : PassesOnly D clip y s) : PassesOnly D clip y (debugBeta b key be s) := by
  refine passes_of_same hs fun v key' hv => ?_
  cases b
  · rfl
  · cases v <;> first | rfl | exact absurd rfl hv

theorem updateIteration_passes (c : Call μ p) (k itO itI : ℕ) (a : Inner) :
    Py.Inv (PassesOnly c.D updateClip c.y) (updateIteration c k itO itI a) := by
  unfold updateIteration
  refine Py.Inv.bind Py.inv_self fun s => ?_
  refine Py.Inv.bind_call fun step _ => ?_
  refine Py.Inv.bind_call fun wk hwk => ?_
  have hco : ∀ X wk xg yg, Py.Inv (PassesOnly c.D updateClip c.y) (updateCoefs c k X wk xg yg) := by
    intro X wk xg yg
    unfold updateCoefs
    py_inv
    all_goals exact fun s hs => passes_of_same hs fun v key _ => by cases v <;> rfl
  py_inv
  all_goals first
    | exact hco _ _ _ _
    | exact fun s hs => passes_debugWork hwk _ hs
    | exact fun s hs => passes_debugBeta _ _ _ hs
    | (intro s hs; split <;> exact passes_of_same hs fun v key _ => by cases v <;> rfl)

theorem fitIteration_passes (c : Call μ p) (k itO itI scheduled : ℕ) (a : Inner) :
    Py.Inv (PassesOnly c.D fitClip c.y) (fitIteration c k itO itI scheduled a) := by
  unfold fitIteration
  refine Py.Inv.bind Py.inv_self fun s => ?_
  refine Py.Inv.bind_call fun step _ => ?_
  refine Py.Inv.bind_call fun fvIt _ => ?_
  refine Py.Inv.bind_call fun wk hwk => ?_
  have hco : ∀ prev X wk xg yg, Py.Inv (PassesOnly c.D fitClip c.y) (fitCoefs c k itO itI prev X wk xg yg) := by
    intro prev X wk xg yg
    unfold fitCoefs
    py_inv
    all_goals exact fun s hs => passes_of_same hs fun v key _ => by cases v <;> rfl
  py_inv
  all_goals first
    | exact hco _ _ _ _ _
    | exact fun s hs => passes_debugWork hwk _ hs
    | exact fun s hs => passes_debugBeta _ _ _ hs
    | (intro s hs; split <;> exact passes_of_same hs fun v key _ => by cases v <;> rfl)

theorem outerUpdate_passes (c : Call μ p) (fuel : ℕ) : Py.Inv (PassesOnly c.D updateClip c.y) (outerUpdate c fuel) := by
  have hin : ∀ it k, Py.Inv (PassesOnly c.D updateClip c.y) (innerUpdate c it k) := by
    intro it k
    unfold innerUpdate
    have := updateInnerLoop_inv c k it fun itI a => updateIteration_passes c k it itI a
    py_inv
    · exact this _ _ _
    · exact fun s hs => passes_of_same hs fun v key _ => by cases v <;> rfl
  unfold outerUpdate
  refine Py.Inv.bind Py.inv_self fun s => ?_
  refine Py.Inv.bind (Py.inv_attr _ _) fun _ => ?_
  refine Py.Inv.bind (Py.inv_attr _ _) fun _ => ?_
  exact outerLoop_inv _ _ (fun it _ d => paramLoop_inv _ (fun k _ => hin it k) d) _ _

theorem outerFit_passes (c : Call μ p) (fuel : ℕ) : Py.Inv (PassesOnly c.D fitClip c.y) (outerFit c fuel) := by
  have hin : ∀ it k, Py.Inv (PassesOnly c.D fitClip c.y) (innerFit c it k) := by
    intro it k
    unfold innerFit
    have := fun n => fitInnerLoop_inv c k it n fun itI a => fitIteration_passes c k it itI n a
    py_inv
    · exact this _ _ _ _
    · intro s hs
      split <;> exact passes_of_same hs fun v key _ => by cases v <;> rfl
    · exact fun s hs => passes_of_same hs fun v key _ => by cases v <;> rfl
  unfold outerFit
  refine Py.Inv.bind Py.inv_self fun s => ?_
  exact outerLoop_inv _ _ (fun it _ d => paramLoop_inv _ (fun k _ => hin it k) d) _ _

theorem update_passes {D : DistOps} {M : MethodOps μ} {c : GConfig μ p} {data : List (Obs p)} {s t : GState μ p}
    {u : Unit} (hd : c.debug = true) (h : GState.update D M c data s = (.ok u, t)) : PassesOnly D updateClip (ys data) t := by
  obtain ⟨r⟩ := update_ok h
  have h0 : PassesOnly D updateClip (ys data) (updateStart c (r.nObs0 + (ws data).sum) r.nt r.fv r.sc s) := by
    refine fun key => .inl fun v _ => ?_
    cases v <;> simp [updateStart, resetUpdate, GState.debugEntry, hd]
  have h1 : PassesOnly D updateClip (ys data) r.s1 := by
    have := Py.Inv.apply (cautious_keeps D c (ys data) (PassesOnly D updateClip (ys data))
      (fun s hs => passes_of_same hs fun v key _ => by cases v <;> rfl)
      (fun s n hs => passes_of_same hs fun v key _ => by cases v <;> rfl)) h0
    rwa [r.hcautious] at this
  have h2 := Py.Inv.apply (outerUpdate_passes ⟨D, M, c, r.X.get?, ys data, ws data⟩ (c.fuel r.s1.minIt)) h1
  rw [r.hloop] at h2
  rw [r.ht]
  exact passes_of_same h2 fun v key _ => by cases v <;> rfl

theorem fit_passes {frames : Bool} {D : DistOps} {M : MethodOps μ} {c : GConfig μ p} {data : List (Obs p)} {s t : GState μ p}
    {u : Unit} (hd : c.debug = true) (h : GState.fit frames D M c data s = (.ok u, t)) : PassesOnly D fitClip (ys data) t := by
  obtain ⟨r⟩ := fit_ok h
  have h0 : PassesOnly D fitClip (ys data) (fitStart c D.nParams (ws data).sum r.nt r.fv r.nf r.sc r.reg r.sP) := by
    refine fun key => .inl fun v _ => ?_
    cases v <;> simp [fitStart, resetFit, GState.debugEntry, hd]
  have h2 := Py.Inv.apply (outerFit_passes ⟨D, M, c, r.X.get?, ys data, ws data⟩
    (c.fuel (fitStart c D.nParams (ws data).sum r.nt r.fv r.nf r.sc r.reg r.sP).minIt)) h0
  rw [r.hloop] at h2
  rw [r.ht]
  exact passes_of_same h2 fun v key _ => by cases v <;> rfl

/-- **C81 (what holds).**  What is returned belongs together and to the parameter: if after a fit or an update one of the variables
(fitted values, linear predictor, weights, working vectors) is returned for a parameter and an iteration, then all four are, and the
last three were computed from the first and the responses of this call.  Missing: the iteration is the one after the iteration
asked for. -/
theorem C81_records_partial {frames : Bool} {D : DistOps} {M : MethodOps μ} {c : GConfig μ p} {data : List (Obs p)}
    {s t : GState μ p} {u : Unit} {clip : ℝ} (hd : c.debug = true)
    (h : clip = fitClip ∧ GState.fit frames D M c data s = (.ok u, t) ∨ clip = updateClip ∧ GState.update D M c data s = (.ok u, t))
    {v : DebugVariable} (hv : v ≠ .coef) {k o i : ℕ} {a : DebugValue} (ha : t.debugInformation c v k o i = .ok a) :
    ∃ fv wk, working D clip (ys data) fv k = .ok wk ∧ t.debugInformation c .fv k o i = .ok (.rows fv) ∧
      t.debugInformation c .eta k o i = .ok (.array wk.eta) ∧ t.debugInformation c .weights k o i = .ok (.array wk.wt) ∧
      t.debugInformation c .workingVectors k o i = .ok (.array wk.wv) := by
  have hp : PassesOnly D clip (ys data) t := by
    rcases h with ⟨rfl, h⟩ | ⟨rfl, h⟩
    · exact fit_passes hd h
    · exact update_passes hd h
  unfold GState.debugInformation at ha ⊢
  simp only [if_pos hd] at ha ⊢
  rcases hp (k, o, i + 1) with h0 | ⟨fv, wk, h1, h2, h3, h4, h5⟩
  · rw [h0 v hv] at ha
    cases ha
  · exact ⟨fv, wk, h1, by rw [h2], by rw [h3], by rw [h4], by rw [h5]⟩

end Ondil
