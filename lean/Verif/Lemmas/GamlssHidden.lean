import Verif.Lemmas.GamlssOverlay

/-!
# Runs that differ in what a call does not read

Two estimators whose temporary attributes, debug dictionaries, last results and scalers differ run through the loops in the
same way.
-/

namespace Ondil

namespace Py

variable {σ τ α α' β : Type}

/-- Runs of `m` and `m'` from states related by `R` give the same result, and end in states related by `R'` unless they raise. -/
def RelTo (R R' : σ → τ → Prop) (m : Py σ α) (m' : Py τ α) : Prop :=
  ∀ s t, R s t → (m s).1 = (m' t).1 ∧ ∀ a, (m s).1 = .ok a → R' (m s).2 (m' t).2

theorem Rel.to {R : σ → τ → Prop} {m : Py σ α} {m' : Py τ α} (h : Rel R m m') : RelTo R R m m' :=
  fun s t hst => ⟨(h s t hst).1, fun _ _ => (h s t hst).2⟩

theorem RelTo.mono {R R0 R' R1 : σ → τ → Prop} {m : Py σ α} {m' : Py τ α} (h : RelTo R R' m m') (h0 : ∀ s t, R0 s t → R s t)
    (h1 : ∀ s t, R' s t → R1 s t) : RelTo R0 R1 m m' :=
  fun s t hst => ⟨(h s t (h0 s t hst)).1, fun a ha => h1 _ _ ((h s t (h0 s t hst)).2 a ha)⟩

theorem RelTo.bind {R R' R'' : σ → τ → Prop} {m : Py σ α} {m' : Py τ α} {f : α → Py σ β} {f' : α → Py τ β} (hm : RelTo R R' m m')
    (hf : ∀ a, RelTo R' R'' (f a) (f' a)) : RelTo R R'' (m >>= f) (m' >>= f') := by
  intro s t hst
  obtain ⟨h1, h2⟩ := hm s t hst
  rcases h : m s with ⟨x, s'⟩
  rcases h' : m' t with ⟨x', t'⟩
  rw [h, h'] at h1 h2
  simp only at h1 h2
  subst h1
  cases x with
  | ok a =>
    rw [bind_of_ok h, bind_of_ok h']
    exact hf a s' t' (h2 a rfl)
  | error e =>
    rw [bind_of_error h, bind_of_error h']
    exact ⟨rfl, fun _ h => by cases h⟩

theorem RelTo.bind_self {R R' : σ → τ → Prop} {f : σ → Py σ β} {f' : τ → Py τ β}
    (hf : ∀ s t, R s t → RelTo (fun s' t' => s' = s ∧ t' = t) R' (f s) (f' t)) : RelTo R R' (self >>= f) (self >>= f') :=
  fun s t hst => hf s t hst s t ⟨rfl, rfl⟩

/-- Two calls that raise together, or return values that may differ and lead to related runs. -/
theorem RelTo.bind_call {R R' : σ → τ → Prop} {x : Except PyErr α} {x' : Except PyErr α'} {f : α → Py σ β} {f' : α' → Py τ β}
    (h : (∃ e, x = .error e ∧ x' = .error e) ∨ ∃ a a', x = .ok a ∧ x' = .ok a' ∧ RelTo R R' (f a) (f' a')) :
    RelTo R R' (call x >>= f) (call x' >>= f') := by
  rcases h with ⟨e, rfl, rfl⟩ | ⟨a, a', rfl, rfl, h⟩
  · intro s t _
    rw [bind_call_error, bind_call_error]
    exact ⟨rfl, fun _ h => by cases h⟩
  · intro s t hst
    rw [bind_call_ok, bind_call_ok]
    exact h s t hst

/-- An invariant of the first run may be added. -/
theorem Rel.to_inv {R : σ → τ → Prop} {m : Py σ α} {m' : Py τ α} (h : Rel R m m') {I : σ → Prop} (hI : Inv I m) :
    RelTo (fun s t => R s t ∧ I s) (fun s t => R s t ∧ I s) m m' :=
  fun s t hst => ⟨(h s t hst.1).1, fun _ _ => ⟨(h s t hst.1).2, hI.apply hst.2⟩⟩

theorem relTo_set {R : σ → τ → Prop} (f : σ → σ) (f' : τ → τ) :
    RelTo R (fun s' t' => ∃ s t, R s t ∧ s' = f s ∧ t' = f' t) (set f) (set f') :=
  fun s t hst => ⟨rfl, fun _ _ => ⟨s, t, hst, rfl, rfl⟩⟩

end Py

variable {μ : Type} {p : ℕ}

/-! ### Fitting -/

/-- Attributes that `fit` does not read once the design matrices are made. -/
structure Hidden (p : ℕ) where
  scaler : Option (Scaler p)
  globalDev : Option Flt
  itOuter : Option ℕ
  xGramNew : ℕ → Option Arr2
  yGramNew : ℕ → Option Arr1
  rssOld : ℕ → Flt
  selectionOld : ℕ → Option Arr1
  sumWNew : ℕ → Option Flt
  meanWNew : ℕ → Option Flt
  debugWeights : DebugKey → Option Arr1
  debugWorking : DebugKey → Option Arr1
  debugEta : DebugKey → Option Arr1
  debugFv : DebugKey → Option Fv
  debugCoef : DebugKey → Option Arr1

/-- The state with these attributes replaced. -/
def GState.hide (o : Hidden p) (s : GState μ p) : GState μ p :=
  { s with
    scaler := o.scaler
    globalDev := o.globalDev
    itOuter := o.itOuter
    xGramNew := o.xGramNew
    yGramNew := o.yGramNew
    rssOld := o.rssOld
    selectionOld := o.selectionOld
    sumWNew := o.sumWNew
    meanWNew := o.meanWNew
    debugWeights := o.debugWeights
    debugWorking := o.debugWorking
    debugEta := o.debugEta
    debugFv := o.debugFv
    debugCoef := o.debugCoef }

/-- These attributes of a state. -/
def GState.hidden (s : GState μ p) : Hidden p :=
  ⟨s.scaler, s.globalDev, s.itOuter, s.xGramNew, s.yGramNew, s.rssOld, s.selectionOld, s.sumWNew, s.meanWNew, s.debugWeights,
    s.debugWorking, s.debugEta, s.debugFv, s.debugCoef⟩

/-- The states agree up to these attributes; scaler, deviance and number of iterations are those of `h`. -/
def UpToHidden (sc sc' : Option (Scaler p)) (s t : GState μ p) : Prop :=
  ∃ o : Hidden p, t = s.hide o ∧ s.scaler = sc ∧ o.scaler = sc'

variable {sc sc' : Option (Scaler p)}

theorem upToHidden_debugWork {s t : GState μ p} (h : UpToHidden sc sc' s t) (b : Bool) (key : DebugKey) (wk : Working) (fv : Fv) :
    UpToHidden sc sc' (debugWork b key wk fv s) (debugWork b key wk fv t) := by
  obtain ⟨o, rfl, h1, h2⟩ := h
  refine ⟨(debugWork b key wk fv (s.hide o)).hidden, ?_, ?_, ?_⟩ <;> cases b <;> first | rfl | exact h1 | exact h2

theorem upToHidden_debugBeta {s t : GState μ p} (h : UpToHidden sc sc' s t) (b : Bool) (key : DebugKey) (be : Arr1) :
    UpToHidden sc sc' (debugBeta b key be s) (debugBeta b key be t) := by
  obtain ⟨o, rfl, h1, h2⟩ := h
  refine ⟨(debugBeta b key be (s.hide o)).hidden, ?_, ?_, ?_⟩ <;> cases b <;> first | rfl | exact h1 | exact h2

theorem fitCoefs_hidden (c : Call μ p) (k itO itI : ℕ) (prev : Option Arr2) (X : Arr2) (wk : Working) (xg : Arr2) (yg : Arr1) :
    Py.Rel (UpToHidden sc sc') (fitCoefs c k itO itI prev X wk xg yg) (fitCoefs c k itO itI prev X wk xg yg) := by
  unfold fitCoefs
  refine Py.Rel.bind_self ?_
  rintro s _ ⟨o, rfl, h1, h2⟩
  py_rel
  all_goals
    rintro s _ ⟨o, rfl, h1, h2⟩
    exact ⟨o, rfl, h1, h2⟩

theorem fitIteration_hidden (c : Call μ p) (k itO itI scheduled : ℕ) (a : Inner) :
    Py.Rel (UpToHidden sc sc') (fitIteration c k itO itI scheduled a) (fitIteration c k itO itI scheduled a) := by
  unfold fitIteration
  refine Py.Rel.bind_self ?_
  rintro s _ ⟨o, rfl, h1, h2⟩
  py_rel
  all_goals first
    | exact fitCoefs_hidden c k _ _ _ _ _ _ _
    | exact fun s t h => upToHidden_debugWork h _ _ _ _
    | exact fun s t h => upToHidden_debugBeta h _ _ _
    | skip
  rintro s _ ⟨o, rfl, h1, h2⟩
  split
  · exact ⟨o, rfl, h1, h2⟩
  · exact ⟨o, rfl, h1, h2⟩

theorem fitInnerLoop_hidden (c : Call μ p) (k itO scheduled n itI : ℕ) (a : Inner) :
    Py.Rel (UpToHidden sc sc') (fitInnerLoop c k itO scheduled n itI a) (fitInnerLoop c k itO scheduled n itI a) := by
  induction n generalizing itI a with
  | zero => exact Py.rel_pure _
  | succ n ih =>
    unfold fitInnerLoop
    refine Py.Rel.bind (fitIteration_hidden c k itO itI scheduled a) fun r => ?_
    exact Py.rel_ite (Py.rel_pure _) (ih _ _)

theorem innerFit_hidden (c : Call μ p) (itO k : ℕ) : Py.Rel (UpToHidden sc sc') (innerFit c itO k) (innerFit c itO k) := by
  unfold innerFit
  refine Py.Rel.bind_self ?_
  rintro s _ ⟨o, rfl, h1, h2⟩
  refine Py.Rel.bind (Py.rel_call rfl) fun n => ?_
  refine Py.Rel.bind (fitInnerLoop_hidden c k itO n n 0 _) fun a => ?_
  py_rel
  · rintro s _ ⟨o, rfl, h1, h2⟩
    split
    · exact ⟨o, rfl, h1, h2⟩
    · exact ⟨o, rfl, h1, h2⟩
  · rintro s _ ⟨o, rfl, h1, h2⟩
    exact ⟨o, rfl, h1, h2⟩

theorem outerFit_hidden (c : Call μ p) (fuel : ℕ) : Py.Rel (UpToHidden sc sc') (outerFit c fuel) (outerFit c fuel) := by
  unfold outerFit
  refine Py.Rel.bind_self ?_
  rintro s _ ⟨o, rfl, h1, h2⟩
  exact outerLoop_rel (fun it d => paramLoop_rel (fun k => innerFit_hidden c it k) _ d) _ _ _ _

/-! ### Updating -/

/-- Attributes that `update` does not read once the design matrices are made. -/
structure View (p : ℕ) where
  scaler : Option (Scaler p)
  itOuter : Option ℕ
  debugWeights : DebugKey → Option Arr1
  debugWorking : DebugKey → Option Arr1
  debugEta : DebugKey → Option Arr1
  debugFv : DebugKey → Option Fv
  debugCoef : DebugKey → Option Arr1

/-- The state with these attributes replaced. -/
def GState.view (o : View p) (s : GState μ p) : GState μ p :=
  { s with
    scaler := o.scaler
    itOuter := o.itOuter
    debugWeights := o.debugWeights
    debugWorking := o.debugWorking
    debugEta := o.debugEta
    debugFv := o.debugFv
    debugCoef := o.debugCoef }

/-- These attributes of a state. -/
def GState.viewed (s : GState μ p) : View p :=
  ⟨s.scaler, s.itOuter, s.debugWeights, s.debugWorking, s.debugEta, s.debugFv, s.debugCoef⟩

/-- The states agree up to these attributes, and have these scalers. -/
def UpToView (sc sc' : Option (Scaler p)) (s t : GState μ p) : Prop :=
  ∃ o : View p, t = s.view o ∧ s.scaler = sc ∧ o.scaler = sc'

theorem upToView_debugWork {s t : GState μ p} (h : UpToView sc sc' s t) (b : Bool) (key : DebugKey) (wk : Working) (fv : Fv) :
    UpToView sc sc' (debugWork b key wk fv s) (debugWork b key wk fv t) := by
  obtain ⟨o, rfl, h1, h2⟩ := h
  refine ⟨(debugWork b key wk fv (s.view o)).viewed, ?_, ?_, ?_⟩ <;> cases b <;> first | rfl | exact h1 | exact h2

theorem upToView_debugBeta {s t : GState μ p} (h : UpToView sc sc' s t) (b : Bool) (key : DebugKey) (be : Arr1) :
    UpToView sc sc' (debugBeta b key be s) (debugBeta b key be t) := by
  obtain ⟨o, rfl, h1, h2⟩ := h
  refine ⟨(debugBeta b key be (s.view o)).viewed, ?_, ?_, ?_⟩ <;> cases b <;> first | rfl | exact h1 | exact h2

theorem updateCoefs_view (c : Call μ p) (k : ℕ) (X : Arr2) (wk : Working) (xg : Arr2) (yg : Arr1) :
    Py.Rel (UpToView sc sc') (updateCoefs c k X wk xg yg) (updateCoefs c k X wk xg yg) := by
  unfold updateCoefs
  refine Py.Rel.bind_self ?_
  rintro s _ ⟨o, rfl, h1, h2⟩
  py_rel
  all_goals
    rintro s _ ⟨o, rfl, h1, h2⟩
    exact ⟨o, rfl, h1, h2⟩

theorem updateIteration_view (c : Call μ p) (k itO itI : ℕ) (a : Inner) :
    Py.Rel (UpToView sc sc') (updateIteration c k itO itI a) (updateIteration c k itO itI a) := by
  unfold updateIteration
  refine Py.Rel.bind_self ?_
  rintro s _ ⟨o, rfl, h1, h2⟩
  py_rel
  all_goals first
    | exact updateCoefs_view c k _ _ _ _
    | exact fun s t h => upToView_debugWork h _ _ _ _
    | exact fun s t h => upToView_debugBeta h _ _ _
    | skip
  rintro s _ ⟨o, rfl, h1, h2⟩
  split
  · exact ⟨o, rfl, h1, h2⟩
  · exact ⟨o, rfl, h1, h2⟩

theorem updateInnerLoop_view (c : Call μ p) (k itO n itI : ℕ) (a : Inner) :
    Py.Rel (UpToView sc sc') (updateInnerLoop c k itO n itI a) (updateInnerLoop c k itO n itI a) := by
  induction n generalizing itI a with
  | zero => exact Py.rel_pure _
  | succ n ih =>
    unfold updateInnerLoop
    refine Py.Rel.bind (updateIteration_view c k itO itI a) fun r => ?_
    exact Py.rel_ite (Py.rel_pure _) (ih _ _)

theorem innerUpdate_view (c : Call μ p) (itO k : ℕ) : Py.Rel (UpToView sc sc') (innerUpdate c itO k) (innerUpdate c itO k) := by
  unfold innerUpdate
  refine Py.Rel.bind_self ?_
  rintro s _ ⟨o, rfl, h1, h2⟩
  have h := updateInnerLoop_view (sc := sc) (sc' := sc') c k itO
  py_rel
  · exact h _ _ _
  · rintro s _ ⟨o, rfl, h1, h2⟩
    exact ⟨o, rfl, h1, h2⟩

theorem outerUpdate_view (c : Call μ p) (fuel : ℕ) : Py.Rel (UpToView sc sc') (outerUpdate c fuel) (outerUpdate c fuel) := by
  unfold outerUpdate
  refine Py.Rel.bind_self ?_
  rintro s _ ⟨o, rfl, h1, h2⟩
  py_rel
  exact outerLoop_rel (fun it d => paramLoop_rel (fun k => innerUpdate_view c it k) _ d) _ _ _ _

theorem cautious_view (D : DistOps) (c : GConfig μ p) (y : List ℝ) : Py.Rel (UpToView sc sc') (cautious D c y) (cautious D c y) := by
  unfold cautious
  refine Py.Rel.bind_self ?_
  rintro s _ ⟨o, rfl, h1, h2⟩
  py_rel
  · rintro s _ ⟨o, rfl, h1, h2⟩
    exact ⟨o, rfl, h1, h2⟩
  · rintro s _ ⟨o, rfl, h1, h2⟩
    exact ⟨o, rfl, h1, h2⟩

end Ondil
