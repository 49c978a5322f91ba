import Verif.Lemmas.Gamlss

/-!
# Runs that differ in the step size, its schedule and the debug dictionaries
-/

namespace Ondil

namespace Py

variable {σ τ α α' β : Type}

/-- Two calls that raise together, or return values that may differ and lead to related runs. -/
theorem Rel.bind_call {R : σ → τ → Prop} {x : Except PyErr α} {x' : Except PyErr α'} {f : α → Py σ β} {f' : α' → Py τ β}
    (h : (∃ e, x = .error e ∧ x' = .error e) ∨ ∃ a a', x = .ok a ∧ x' = .ok a' ∧ Rel R (f a) (f' a')) :
    Rel R (call x >>= f) (call x' >>= f') := by
  rcases h with ⟨e, rfl, rfl⟩ | ⟨a, a', rfl, rfl, h⟩
  · intro s t hst
    rw [bind_call_error, bind_call_error]
    exact ⟨rfl, hst⟩
  · intro s t hst
    rw [bind_call_ok, bind_call_ok]
    exact h s t hst

theorem rel_ite_of {R : σ → τ → Prop} {c c' : Prop} {_ : Decidable c} {_ : Decidable c'} {m n : Py σ α} {m' n' : Py τ α}
    (hc : c = c') (h : Rel R m m') (h' : Rel R n n') : Rel R (if c then m else n) (if c' then m' else n') := by
  subst hc
  by_cases h0 : c
  · rw [if_pos h0, if_pos h0]; exact h
  · rw [if_neg h0, if_neg h0]; exact h'

end Py

variable {μ : Type} {p : ℕ}

/-- Other values for the step sizes, the schedule of the step sizes and the debug dictionaries. -/
structure Overlay where
  stepSize : PyDict ℝ
  scheduleStep : ℕ → ℕ → ℕ → Option ℝ
  debugWeights : DebugKey → Option Arr1
  debugWorking : DebugKey → Option Arr1
  debugEta : DebugKey → Option Arr1
  debugFv : DebugKey → Option Fv
  debugCoef : DebugKey → Option Arr1

/-- The state with these attributes replaced. -/
def GState.over (o : Overlay) (s : GState μ p) : GState μ p :=
  { s with
    stepSize := o.stepSize
    scheduleStep := o.scheduleStep
    debugWeights := o.debugWeights
    debugWorking := o.debugWorking
    debugEta := o.debugEta
    debugFv := o.debugFv
    debugCoef := o.debugCoef }

/-- The attributes of a state that an overlay replaces. -/
def GState.overlay (s : GState μ p) : Overlay :=
  ⟨s.stepSize, s.scheduleStep, s.debugWeights, s.debugWorking, s.debugEta, s.debugFv, s.debugCoef⟩

/-- The two states agree up to an overlay with as many step sizes. -/
def UpToSteps (s t : GState μ p) : Prop := ∃ o : Overlay, o.stepSize.length = s.stepSize.length ∧ t = s.over o

/-- The options with another debug flag and other step sizes. -/
def GConfig.alter (c : GConfig μ p) (debug : Bool) (st : OptArg ℝ) : GConfig μ p := { c with debug := debug, stepSize := st }

/-- The call with another debug flag and other step sizes. -/
def Call.alter (c : Call μ p) (debug : Bool) (st : OptArg ℝ) : Call μ p := { c with cfg := c.cfg.alter debug st }

theorem upToSteps_debugWork {s t : GState μ p} (h : UpToSteps s t) (b b' : Bool) (key : DebugKey) (wk : Working) (fv : Fv) :
    UpToSteps (debugWork b key wk fv s) (debugWork b' key wk fv t) := by
  obtain ⟨o, ho, rfl⟩ := h
  refine ⟨(debugWork b' key wk fv (s.over o)).overlay, ?_, ?_⟩
  · cases b <;> cases b' <;> exact ho
  · cases b <;> cases b' <;> rfl

theorem upToSteps_debugBeta {s t : GState μ p} (h : UpToSteps s t) (b b' : Bool) (key : DebugKey) (be : Arr1) :
    UpToSteps (debugBeta b key be s) (debugBeta b' key be t) := by
  obtain ⟨o, ho, rfl⟩ := h
  refine ⟨(debugBeta b' key be (s.over o)).overlay, ?_, ?_⟩
  · cases b <;> cases b' <;> exact ho
  · cases b <;> cases b' <;> rfl

theorem upToSteps_setStep {s t : GState μ p} (h : UpToSteps s t) (cond : Bool) (f f' : ℕ → ℕ → ℕ → Option ℝ) :
    UpToSteps (if cond then s.setScheduleStep f else s) (if cond then t.setScheduleStep f' else t) := by
  obtain ⟨o, ho, rfl⟩ := h
  cases cond
  · exact ⟨o, ho, rfl⟩
  · exact ⟨(GState.setScheduleStep f' (s.over o)).overlay, ho, rfl⟩

/-- The step sizes are read at the same positions. -/
theorem stepAt_over {s : GState μ p} {o : Overlay} (ho : o.stepSize.length = s.stepSize.length) (c : GConfig μ p)
    (b : Bool) (st : OptArg ℝ) (itO itI k : ℕ) :
    (∃ e, stepAt c s itO itI k = .error e ∧ stepAt (c.alter b st) (s.over o) itO itI k = .error e) ∨
      ∃ a a', stepAt c s itO itI k = .ok a ∧ stepAt (c.alter b st) (s.over o) itO itI k = .ok a' := by
  have hl : (PyDict.values o.stepSize).length = (PyDict.values s.stepSize).length := by simp [PyDict.values, ho]
  have he : stepAt (c.alter b st) (s.over o) itO itI k = stepAt c (s.over o) itO itI k := rfl
  rw [he]
  simp only [stepAt, stepSchedule, GState.over]
  by_cases h1 : itO - 1 < c.maxOuter ∧ itI < c.maxInner
  · simp only [if_pos h1]
    by_cases h2 : k < (PyDict.values s.stepSize).length
    · rw [List.getElem?_eq_getElem h2, List.getElem?_eq_getElem (hl ▸ h2)]
      exact Or.inr ⟨_, _, rfl, rfl⟩
    · rw [List.getElem?_eq_none (by omega), List.getElem?_eq_none (by omega)]
      exact Or.inl ⟨_, rfl, rfl⟩
  · simp only [if_neg h1]
    exact Or.inl ⟨_, rfl, rfl⟩

/-- Splits two methods into their steps; assignments and different calls remain. -/
macro "py_rel" : tactic => `(tactic| repeat' (first
  | assumption
  | with_reducible refine Py.Rel.bind ?_ fun _ => ?_
  | with_reducible refine Py.rel_set ?_
  | refine Py.rel_ite_of rfl ?_ ?_
  | exact Py.rel_call rfl
  | exact Py.rel_attr rfl _
  | exact Py.rel_raiseIf Iff.rfl _
  | exact Py.rel_pure _))

theorem countNonzeroOther_over (n : ℕ) (s : GState μ p) (o : Overlay) (k : ℕ) :
    countNonzeroOther n (s.over o) k = countNonzeroOther n s k := rfl

theorem pathLL_over (c : Call μ p) (b : Bool) (st : OptArg ℝ) (s : GState μ p) (o : Overlay) :
    pathLL (c.alter b st) (s.over o) = pathLL c s := rfl

theorem fitSelectModel_over (c : Call μ p) (b : Bool) (st : OptArg ℝ) (s : GState μ p) (o : Overlay) :
    fitSelectModel (c.alter b st) (s.over o) = fitSelectModel c s := rfl

theorem updateSelectModel_over (c : Call μ p) (b : Bool) (st : OptArg ℝ) (s : GState μ p) (o : Overlay) :
    updateSelectModel (c.alter b st) (s.over o) = updateSelectModel c s := rfl

theorem updateCoefs_rel (c : Call μ p) (b : Bool) (st : OptArg ℝ) (k : ℕ) (X : Arr2) (wk : Working) (xg : Arr2)
    (yg : Arr1) :
    Py.Rel UpToSteps (updateCoefs c k X wk xg yg) (updateCoefs (c.alter b st) k X wk xg yg) := by
  unfold updateCoefs
  refine Py.Rel.bind_self ?_
  rintro s _ ⟨o, ho, rfl⟩
  py_rel
  all_goals
    rintro s _ ⟨o, ho, rfl⟩
    exact ⟨o, ho, rfl⟩

theorem updateIteration_rel (c : Call μ p) (b : Bool) (st : OptArg ℝ) (k itO itI : ℕ) (a : Inner) :
    Py.Rel UpToSteps (updateIteration c k itO itI a) (updateIteration (c.alter b st) k itO itI a) := by
  unfold updateIteration
  refine Py.Rel.bind_self ?_
  rintro s _ ⟨o, ho, rfl⟩
  refine Py.Rel.bind_call ?_
  rcases stepAt_over ho c.cfg b st itO itI k with h | ⟨x, x', h1, h2⟩
  · exact Or.inl h
  · refine Or.inr ⟨x, x', h1, h2, ?_⟩
    py_rel
    all_goals first
      | exact updateCoefs_rel c b st k _ _ _ _
      | exact fun s t h => upToSteps_debugWork h _ _ _ _ _
      | exact fun s t h => upToSteps_debugBeta h _ _ _ _
      | skip
    exact fun s t h => upToSteps_setStep h _ _ _

theorem updateInnerLoop_rel (c : Call μ p) (b : Bool) (st : OptArg ℝ) (k itO n itI : ℕ) (a : Inner) :
    Py.Rel UpToSteps (updateInnerLoop c k itO n itI a) (updateInnerLoop (c.alter b st) k itO n itI a) := by
  induction n generalizing itI a with
  | zero => exact Py.rel_pure _
  | succ n ih =>
    unfold updateInnerLoop
    refine Py.Rel.bind (updateIteration_rel c b st k itO itI a) fun r => ?_
    exact Py.rel_ite (Py.rel_pure _) (ih _ _)

theorem paramLoop_rel {σ τ : Type} {R : σ → τ → Prop} {f : ℕ → Py σ Flt} {f' : ℕ → Py τ Flt}
    (h : ∀ k, Py.Rel R (f k) (f' k)) (ks : List ℕ) (d : Flt) : Py.Rel R (paramLoop f ks d) (paramLoop f' ks d) := by
  induction ks generalizing d with
  | nil => exact Py.rel_pure _
  | cons k ks ih =>
    unfold paramLoop
    exact Py.Rel.bind (h k) fun d' => ih d'

theorem outerLoop_rel {σ τ : Type} {R : σ → τ → Prop} {stops : ℕ → Flt → Flt → Prop} {body : ℕ → Flt → Py σ Flt}
    {body' : ℕ → Flt → Py τ Flt} (h : ∀ it d, Py.Rel R (body it d) (body' it d)) (n itO : ℕ) (d e : Flt) :
    Py.Rel R (outerLoop stops body n itO d e) (outerLoop stops body' n itO d e) := by
  induction n generalizing itO d e with
  | zero => exact Py.rel_pure _
  | succ n ih =>
    unfold outerLoop
    exact Py.rel_ite_of rfl (Py.rel_pure _) (Py.Rel.bind (h _ d) fun d' => ih _ d' d)

theorem innerUpdate_rel (c : Call μ p) (b : Bool) (st : OptArg ℝ) (itO k : ℕ) :
    Py.Rel UpToSteps (innerUpdate c itO k) (innerUpdate (c.alter b st) itO k) := by
  unfold innerUpdate
  refine Py.Rel.bind_self ?_
  rintro s _ ⟨o, ho, rfl⟩
  have h := updateInnerLoop_rel c b st k itO
  py_rel
  · exact h _ _ _
  · rintro s _ ⟨o, ho, rfl⟩
    exact ⟨o, ho, rfl⟩

theorem outerUpdate_rel (c : Call μ p) (b : Bool) (st : OptArg ℝ) (fuel : ℕ) :
    Py.Rel UpToSteps (outerUpdate c fuel) (outerUpdate (c.alter b st) fuel) := by
  unfold outerUpdate
  refine Py.Rel.bind_self ?_
  rintro s _ ⟨o, ho, rfl⟩
  py_rel
  exact outerLoop_rel (fun it d => paramLoop_rel (fun k => innerUpdate_rel c b st it k) _ d) _ _ _ _

theorem cautious_rel (D : DistOps) (c : GConfig μ p) (b : Bool) (st : OptArg ℝ) (y : List ℝ) :
    Py.Rel UpToSteps (cautious D c y) (cautious D (c.alter b st) y) := by
  unfold cautious
  refine Py.Rel.bind_self ?_
  rintro s _ ⟨o, ho, rfl⟩
  py_rel
  · rintro s _ ⟨o, ho, rfl⟩
    exact ⟨(GState.over o s).outlierSchedule.overlay, ho, rfl⟩
  · rintro s _ ⟨o, ho, rfl⟩
    exact ⟨o, ho, rfl⟩

theorem update_rel (D : DistOps) (M : MethodOps μ) (c : GConfig μ p) (b : Bool) (st : OptArg ℝ) (data : List (Obs p)) :
    Py.Rel UpToSteps (GState.update D M c data) (GState.update D M (c.alter b st) data) := by
  unfold GState.update
  refine Py.Rel.bind (Py.rel_raiseIf Iff.rfl _) fun _ => ?_
  refine Py.Rel.bind (Py.rel_raiseIf Iff.rfl _) fun _ => ?_
  refine Py.Rel.bind (Py.rel_raiseIf Iff.rfl _) fun _ => ?_
  refine Py.Rel.bind_self ?_
  rintro s _ ⟨o, ho, rfl⟩
  refine Py.Rel.bind (Py.rel_attr rfl _) fun n0 => ?_
  refine Py.Rel.bind (Py.rel_set ?_) fun _ => ?_
  · rintro s _ ⟨o, ho, rfl⟩
    exact ⟨o, ho, rfl⟩
  refine Py.Rel.bind (Py.rel_call rfl) fun nt => ?_
  refine Py.Rel.bind (Py.rel_set ?_) fun _ => ?_
  · rintro s _ ⟨o, ho, rfl⟩
    exact ⟨o, ho, rfl⟩
  refine Py.Rel.bind_self ?_
  rintro s _ ⟨o, ho, rfl⟩
  refine Py.Rel.bind (Py.rel_call rfl) fun fv => ?_
  refine Py.Rel.bind (Py.rel_set ?_) fun _ => ?_
  · rintro s _ ⟨o, ho, rfl⟩
    exact ⟨o, ho, rfl⟩
  refine Py.Rel.bind (Py.rel_attr rfl _) fun sc0 => ?_
  refine Py.Rel.bind (Py.rel_attr rfl _) fun f0 => ?_
  refine Py.Rel.bind (Py.rel_call rfl) fun sc => ?_
  refine Py.Rel.bind (Py.rel_set ?_) fun _ => ?_
  · rintro s _ ⟨o, ho, rfl⟩
    exact ⟨o, ho, rfl⟩
  refine Py.Rel.bind (Py.rel_call rfl) fun X => ?_
  refine Py.Rel.bind (Py.rel_set ?_) fun _ => ?_
  · rintro s _ ⟨o, ho, rfl⟩
    exact ⟨(resetUpdate (c.alter b st) (s.over o)).overlay, ho, rfl⟩
  refine Py.Rel.bind (cautious_rel D c b st _) fun _ => ?_
  refine Py.Rel.bind_self ?_
  rintro s _ ⟨o, ho, rfl⟩
  refine Py.Rel.bind (outerUpdate_rel ⟨D, M, c, X.get?, ys data, ws data⟩ b st _) fun r => ?_
  refine Py.Rel.bind (Py.rel_attr rfl _) fun r => ?_
  refine Py.Rel.bind (Py.rel_set ?_) fun _ => Py.rel_set ?_
  · rintro s _ ⟨o, ho, rfl⟩
    exact ⟨o, ho, rfl⟩
  · rintro s _ ⟨o, ho, rfl⟩
    exact ⟨o, ho, rfl⟩

/-! ### Runs that differ in the debug dictionaries only -/

/-- The two states agree up to the debug dictionaries. -/
def UpToDebug (s t : GState μ p) : Prop :=
  ∃ o : Overlay, o.stepSize = s.stepSize ∧ o.scheduleStep = s.scheduleStep ∧ t = s.over o

/-- The options with another debug flag. -/
def GConfig.withDebug (c : GConfig μ p) (debug : Bool) : GConfig μ p := { c with debug := debug }

/-- The call with another debug flag. -/
def Call.withDebug (c : Call μ p) (debug : Bool) : Call μ p := { c with cfg := c.cfg.withDebug debug }

theorem upToDebug_debugWork {s t : GState μ p} (h : UpToDebug s t) (b b' : Bool) (key : DebugKey) (wk : Working) (fv : Fv) :
    UpToDebug (debugWork b key wk fv s) (debugWork b' key wk fv t) := by
  obtain ⟨o, ho, ho', rfl⟩ := h
  refine ⟨(debugWork b' key wk fv (s.over o)).overlay, ?_, ?_, ?_⟩
  · cases b <;> cases b' <;> exact ho
  · cases b <;> cases b' <;> exact ho'
  · cases b <;> cases b' <;> rfl

theorem upToDebug_debugBeta {s t : GState μ p} (h : UpToDebug s t) (b b' : Bool) (key : DebugKey) (be : Arr1) :
    UpToDebug (debugBeta b key be s) (debugBeta b' key be t) := by
  obtain ⟨o, ho, ho', rfl⟩ := h
  refine ⟨(debugBeta b' key be (s.over o)).overlay, ?_, ?_, ?_⟩
  · cases b <;> cases b' <;> exact ho
  · cases b <;> cases b' <;> exact ho'
  · cases b <;> cases b' <;> rfl

theorem upToDebug_setStep {s t : GState μ p} (h : UpToDebug s t) (cond : Bool) (q : ℕ → ℕ → ℕ → Prop)
    [∀ o i j, Decidable (q o i j)] (v : ℝ) :
    UpToDebug (if cond then s.setScheduleStep fun o i j => if q o i j then some v else s.scheduleStep o i j else s)
      (if cond then t.setScheduleStep fun o i j => if q o i j then some v else t.scheduleStep o i j else t) := by
  obtain ⟨o, ho, ho', rfl⟩ := h
  cases cond
  · exact ⟨o, ho, ho', rfl⟩
  · refine ⟨(GState.setScheduleStep (fun o' i j => if q o' i j then some v else o.scheduleStep o' i j)
      (s.over o)).overlay, ho, ?_, rfl⟩
    funext o' i j
    exact congrArg (fun z => if q o' i j then some v else z) (congrFun (congrFun (congrFun ho' o') i) j)

theorem stepAt_debug {s : GState μ p} {o : Overlay} (ho : o.stepSize = s.stepSize)
    (ho' : o.scheduleStep = s.scheduleStep) (c : GConfig μ p) (b : Bool) (itO itI k : ℕ) :
    stepAt c s itO itI k = stepAt (c.withDebug b) (s.over o) itO itI k := by
  change _ = stepAt c (s.over o) itO itI k
  simp only [stepAt, GState.over, ho, ho']

theorem fitSelectModel_debug (c : Call μ p) (b : Bool) (s : GState μ p) (o : Overlay) :
    fitSelectModel c s = fitSelectModel (c.withDebug b) (s.over o) := rfl

theorem fitCoefs_debug (c : Call μ p) (b : Bool) (k itO itI : ℕ) (prev : Option Arr2) (X : Arr2) (wk : Working)
    (xg : Arr2) (yg : Arr1) :
    Py.Rel UpToDebug (fitCoefs c k itO itI prev X wk xg yg) (fitCoefs (c.withDebug b) k itO itI prev X wk xg yg) := by
  unfold fitCoefs
  refine Py.Rel.bind_self ?_
  rintro s _ ⟨o, ho, ho', rfl⟩
  py_rel
  all_goals
    rintro s _ ⟨o, ho, ho', rfl⟩
    exact ⟨o, ho, ho', rfl⟩

theorem fitIteration_debug (c : Call μ p) (b : Bool) (k itO itI scheduled : ℕ) (a : Inner) :
    Py.Rel UpToDebug (fitIteration c k itO itI scheduled a) (fitIteration (c.withDebug b) k itO itI scheduled a) := by
  unfold fitIteration
  refine Py.Rel.bind_self ?_
  rintro s _ ⟨o, ho, ho', rfl⟩
  have hc := stepAt_debug ho ho' c.cfg b itO itI k
  refine Py.Rel.bind (Py.rel_call hc) fun step => ?_
  py_rel
  all_goals first
    | exact fitCoefs_debug c b k _ _ _ _ _ _ _
    | exact fun s t h => upToDebug_debugWork h _ _ _ _ _
    | exact fun s t h => upToDebug_debugBeta h _ _ _ _
    | exact fun s t h => upToDebug_setStep h _ _ _

theorem fitInnerLoop_debug (c : Call μ p) (b : Bool) (k itO scheduled n itI : ℕ) (a : Inner) :
    Py.Rel UpToDebug (fitInnerLoop c k itO scheduled n itI a) (fitInnerLoop (c.withDebug b) k itO scheduled n itI a) := by
  induction n generalizing itI a with
  | zero => exact Py.rel_pure _
  | succ n ih =>
    unfold fitInnerLoop
    refine Py.Rel.bind (fitIteration_debug c b k itO itI scheduled a) fun r => ?_
    exact Py.rel_ite (Py.rel_pure _) (ih _ _)

theorem innerFit_debug (c : Call μ p) (b : Bool) (itO k : ℕ) :
    Py.Rel UpToDebug (innerFit c itO k) (innerFit (c.withDebug b) itO k) := by
  unfold innerFit
  refine Py.Rel.bind_self ?_
  rintro s _ ⟨o, ho, ho', rfl⟩
  refine Py.Rel.bind (Py.rel_call rfl) fun n => ?_
  refine Py.Rel.bind (fitInnerLoop_debug c b k itO n n 0 _) fun a => ?_
  py_rel
  · rintro s _ ⟨o, ho, ho', rfl⟩
    split
    · exact ⟨o, ho, ho', rfl⟩
    · exact ⟨o, ho, ho', rfl⟩
  · rintro s _ ⟨o, ho, ho', rfl⟩
    exact ⟨o, ho, ho', rfl⟩

theorem outerFit_debug (c : Call μ p) (b : Bool) (fuel : ℕ) :
    Py.Rel UpToDebug (outerFit c fuel) (outerFit (c.withDebug b) fuel) := by
  unfold outerFit
  refine Py.Rel.bind_self ?_
  rintro s _ ⟨o, ho, ho', rfl⟩
  exact outerLoop_rel (fun it d => paramLoop_rel (fun k => innerFit_debug c b it k) _ d) _ _ _ _

theorem prepare_debug (frames : Bool) (D : DistOps) (M : MethodOps μ) (c : GConfig μ p) (b : Bool) :
    Py.Rel UpToDebug (prepare frames D M c) (prepare frames D M (c.withDebug b)) := by
  unfold prepare
  py_rel
  all_goals rintro s _ ⟨o, ho, ho', rfl⟩
  all_goals first
    | exact ⟨o, ho, ho', rfl⟩
    | (refine ⟨(GState.setStepSize ‹_› (s.over o)).overlay, rfl, ho', rfl⟩)

theorem fit_debug (frames : Bool) (D : DistOps) (M : MethodOps μ) (c : GConfig μ p) (b : Bool) (data : List (Obs p)) :
    Py.Rel UpToDebug (GState.fit frames D M c data) (GState.fit frames D M (c.withDebug b) data) := by
  unfold GState.fit
  refine Py.Rel.bind (Py.rel_raiseIf Iff.rfl _) fun _ => ?_
  refine Py.Rel.bind (prepare_debug frames D M c b) fun _ => ?_
  refine Py.Rel.bind (Py.rel_raiseIf Iff.rfl _) fun _ => ?_
  refine Py.Rel.bind (Py.rel_raiseIf Iff.rfl _) fun _ => ?_
  refine Py.Rel.bind (Py.rel_set ?_) fun _ => ?_
  · rintro s _ ⟨o, ho, ho', rfl⟩
    exact ⟨o, ho, ho', rfl⟩
  refine Py.Rel.bind_self ?_
  rintro s _ ⟨o, ho, ho', rfl⟩
  refine Py.Rel.bind (Py.rel_call rfl) fun nt => ?_
  refine Py.Rel.bind (Py.rel_set ?_) fun _ => ?_
  · rintro s _ ⟨o, ho, ho', rfl⟩
    exact ⟨o, ho, ho', rfl⟩
  refine Py.Rel.bind (Py.rel_call rfl) fun fv => ?_
  refine Py.Rel.bind (Py.rel_set ?_) fun _ => ?_
  · rintro s _ ⟨o, ho, ho', rfl⟩
    exact ⟨o, ho, ho', rfl⟩
  refine Py.Rel.bind (Py.rel_call rfl) fun nf => ?_
  refine Py.Rel.bind (Py.rel_set ?_) fun _ => ?_
  · rintro s _ ⟨o, ho, ho', rfl⟩
    exact ⟨o, ho, ho', rfl⟩
  refine Py.Rel.bind (Py.rel_attr rfl _) fun f0 => ?_
  refine Py.Rel.bind (Py.rel_call rfl) fun sc => ?_
  refine Py.Rel.bind (Py.rel_set ?_) fun _ => ?_
  · rintro s _ ⟨o, ho, ho', rfl⟩
    exact ⟨o, ho, ho', rfl⟩
  refine Py.Rel.bind (Py.rel_call rfl) fun X => ?_
  refine Py.Rel.bind (Py.rel_call rfl) fun reg => ?_
  refine Py.Rel.bind (Py.rel_set ?_) fun _ => ?_
  · rintro s _ ⟨o, ho, ho', rfl⟩
    exact ⟨(resetFit (c.withDebug b) D.nParams reg nf (s.over o)).overlay, ho, rfl, rfl⟩
  refine Py.Rel.bind_self ?_
  rintro s _ ⟨o, ho, ho', rfl⟩
  refine Py.Rel.bind (outerFit_debug ⟨D, M, c, X.get?, ys data, ws data⟩ b _) fun r => ?_
  refine Py.Rel.bind (Py.rel_attr rfl _) fun r => Py.rel_set ?_
  rintro s _ ⟨o, ho, ho', rfl⟩
  exact ⟨o, ho, ho', rfl⟩

end Ondil
