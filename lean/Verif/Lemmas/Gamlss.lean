import Verif.Model.Gamlss
import Verif.Lemmas.PyLogic
import Verif.Lemmas.GamlssOptions

/-!
# Lemmas about the loops of the distributional regression
-/

namespace Ondil

variable {μ : Type} {p : ℕ}

/-- Splits a method into its steps to show that it keeps an invariant; assignments remain. -/
macro "py_inv" : tactic => `(tactic| repeat' (first
  | with_reducible exact Py.inv_self
  | with_reducible exact Py.inv_call _
  | with_reducible exact Py.inv_attr _ _
  | with_reducible exact Py.inv_pure _
  | with_reducible exact Py.inv_raiseIf _ _
  | assumption
  | with_reducible refine Py.Inv.bind ?_ fun _ => ?_
  | with_reducible refine Py.inv_set ?_
  | with_reducible refine Py.inv_ite ?_ ?_))

/-- The attributes that no iteration of `fit` or `update` assigns. -/
structure SameSetup (s t : GState μ p) : Prop where
  equation : t.equation = s.equation
  forget : t.forget = s.forget
  ic : t.ic = s.ic
  fitIntercept : t.fitIntercept = s.fitIntercept
  regularizeIntercept : t.regularizeIntercept = s.regularizeIntercept
  stepSize : t.stepSize = s.stepSize
  paramOrder : t.paramOrder = s.paramOrder
  scaler : t.scaler = s.scaler
  nObs : t.nObs = s.nObs
  nTraining : t.nTraining = s.nTraining
  nFeatures : t.nFeatures = s.nFeatures
  isRegularized : t.isRegularized = s.isRegularized
  scheduleIteration : t.scheduleIteration = s.scheduleIteration
  minIt : t.minIt = s.minIt
  globalDev : t.globalDev = s.globalDev
  itOuter : t.itOuter = s.itOuter

theorem SameSetup.refl (s : GState μ p) : SameSetup s s := by constructor <;> rfl

theorem SameSetup.trans {s t u : GState μ p} (h : SameSetup s t) (h' : SameSetup t u) : SameSetup s u := by
  constructor
  · exact h'.equation.trans h.equation
  · exact h'.forget.trans h.forget
  · exact h'.ic.trans h.ic
  · exact h'.fitIntercept.trans h.fitIntercept
  · exact h'.regularizeIntercept.trans h.regularizeIntercept
  · exact h'.stepSize.trans h.stepSize
  · exact h'.paramOrder.trans h.paramOrder
  · exact h'.scaler.trans h.scaler
  · exact h'.nObs.trans h.nObs
  · exact h'.nTraining.trans h.nTraining
  · exact h'.nFeatures.trans h.nFeatures
  · exact h'.isRegularized.trans h.isRegularized
  · exact h'.scheduleIteration.trans h.scheduleIteration
  · exact h'.minIt.trans h.minIt
  · exact h'.globalDev.trans h.globalDev
  · exact h'.itOuter.trans h.itOuter

theorem sameSetup_debugWork (debug : Bool) (key : DebugKey) (wk : Working) (fv : Fv) (s : GState μ p) :
    SameSetup s (debugWork debug key wk fv s) := by
  unfold debugWork; split <;> constructor <;> rfl

theorem sameSetup_debugBeta (debug : Bool) (key : DebugKey) (b : Arr1) (s : GState μ p) :
    SameSetup s (debugBeta debug key b s) := by
  unfold debugBeta; split <;> constructor <;> rfl

theorem fitCoefs_setup (c : Call μ p) (k itO itI : ℕ) (prev : Option Arr2) (X : Arr2) (wk : Working) (xg : Arr2)
    (yg : Arr1) (s0 : GState μ p) : Py.Inv (SameSetup s0) (fitCoefs c k itO itI prev X wk xg yg) := by
  unfold fitCoefs
  py_inv
  all_goals exact fun s hs => hs.trans (by constructor <;> rfl)

theorem fitIteration_setup (c : Call μ p) (k itO itI scheduled : ℕ) (a : Inner) (s0 : GState μ p) :
    Py.Inv (SameSetup s0) (fitIteration c k itO itI scheduled a) := by
  unfold fitIteration
  have h1 := fun prev X wk xg yg => fitCoefs_setup c k itO itI prev X wk xg yg s0
  py_inv
  all_goals first
    | exact h1 _ _ _ _ _
    | exact fun s hs => hs.trans (sameSetup_debugWork _ _ _ _ _)
    | exact fun s hs => hs.trans (sameSetup_debugBeta _ _ _ _)
    | (intro s hs; split <;> first | exact hs | exact hs.trans (by constructor <;> rfl))

theorem fitInnerLoop_inv {I : GState μ p → Prop} (c : Call μ p) (k itO scheduled : ℕ)
    (h : ∀ itI a, Py.Inv I (fitIteration c k itO itI scheduled a)) (n itI : ℕ) (a : Inner) :
    Py.Inv I (fitInnerLoop c k itO scheduled n itI a) := by
  induction n generalizing itI a with
  | zero => exact Py.inv_pure _
  | succ n ih =>
    unfold fitInnerLoop
    refine Py.Inv.bind (h itI a) fun r => ?_
    exact Py.inv_ite (Py.inv_pure _) (ih _ _)

theorem updateInnerLoop_inv {I : GState μ p → Prop} (c : Call μ p) (k itO : ℕ)
    (h : ∀ itI a, Py.Inv I (updateIteration c k itO itI a)) (n itI : ℕ) (a : Inner) :
    Py.Inv I (updateInnerLoop c k itO n itI a) := by
  induction n generalizing itI a with
  | zero => exact Py.inv_pure _
  | succ n ih =>
    unfold updateInnerLoop
    refine Py.Inv.bind (h itI a) fun r => ?_
    exact Py.inv_ite (Py.inv_pure _) (ih _ _)

theorem paramLoop_inv {σ : Type} {I : σ → Prop} {f : ℕ → Py σ Flt} (ks : List ℕ) (h : ∀ k ∈ ks, Py.Inv I (f k))
    (d : Flt) : Py.Inv I (paramLoop f ks d) := by
  induction ks generalizing d with
  | nil => exact Py.inv_pure _
  | cons k ks ih =>
    unfold paramLoop
    exact Py.Inv.bind (h k (by simp)) fun d' => ih (fun j hj => h j (by simp [hj])) d'

theorem outerLoop_inv {σ : Type} {I : σ → Prop} {stops : ℕ → Flt → Flt → Prop} {body : ℕ → Flt → Py σ Flt}
    (n itO : ℕ) (h : ∀ it > itO, ∀ d, Py.Inv I (body it d)) (d e : Flt) : Py.Inv I (outerLoop stops body n itO d e) := by
  induction n generalizing itO d e with
  | zero => exact Py.inv_pure _
  | succ n ih =>
    unfold outerLoop
    split
    · exact Py.inv_pure _
    · exact Py.Inv.bind (h _ (by omega) d) fun d' => ih _ (fun it hit => h it (by omega)) d' d

theorem commitFit_setup (c : Call μ p) (k : ℕ) (a : Inner) (o : IterOut) (s : GState μ p) :
    SameSetup s (commitFit c k a o s) := by constructor <;> rfl

theorem innerFit_setup (c : Call μ p) (itO k : ℕ) (s0 : GState μ p) : Py.Inv (SameSetup s0) (innerFit c itO k) := by
  unfold innerFit
  py_inv
  all_goals first
    | exact fitInnerLoop_inv c k itO _ (fun itI a => fitIteration_setup c k itO itI _ a s0) _ _ _
    | (intro s hs; split <;> first | exact hs | exact hs.trans (commitFit_setup _ _ _ _ _))
    | exact fun s hs => hs.trans (by constructor <;> rfl)

theorem outerFit_setup (c : Call μ p) (fuel : ℕ) (s0 : GState μ p) : Py.Inv (SameSetup s0) (outerFit c fuel) := by
  unfold outerFit
  refine Py.Inv.bind Py.inv_self fun s => ?_
  exact outerLoop_inv _ _ (fun it _ d => paramLoop_inv _ (fun k _ => innerFit_setup c it k s0) d) _ _

/-- The attributes that no iteration of `update` assigns. -/
structure SameCommitted (s t : GState μ p) : Prop where
  setup : SameSetup s t
  xGram : t.xGram = s.xGram
  yGram : t.yGram = s.yGram
  sumW : t.sumW = s.sumW
  meanW : t.meanW = s.meanW
  rssOld : t.rssOld = s.rssOld
  selectionOld : t.selectionOld = s.selectionOld

theorem SameCommitted.refl (s : GState μ p) : SameCommitted s s :=
  ⟨SameSetup.refl s, rfl, rfl, rfl, rfl, rfl, rfl⟩

theorem SameCommitted.trans {s t u : GState μ p} (h : SameCommitted s t) (h' : SameCommitted t u) :
    SameCommitted s u :=
  ⟨h.setup.trans h'.setup, h'.xGram.trans h.xGram, h'.yGram.trans h.yGram, h'.sumW.trans h.sumW,
    h'.meanW.trans h.meanW, h'.rssOld.trans h.rssOld, h'.selectionOld.trans h.selectionOld⟩

theorem sameCommitted_debugWork (debug : Bool) (key : DebugKey) (wk : Working) (fv : Fv) (s : GState μ p) :
    SameCommitted s (debugWork debug key wk fv s) := by
  refine ⟨sameSetup_debugWork debug key wk fv s, ?_, ?_, ?_, ?_, ?_, ?_⟩ <;> unfold debugWork <;> split <;> rfl

theorem sameCommitted_debugBeta (debug : Bool) (key : DebugKey) (b : Arr1) (s : GState μ p) :
    SameCommitted s (debugBeta debug key b s) := by
  refine ⟨sameSetup_debugBeta debug key b s, ?_, ?_, ?_, ?_, ?_, ?_⟩ <;> unfold debugBeta <;> split <;> rfl

theorem updateCoefs_committed (c : Call μ p) (k : ℕ) (X : Arr2) (wk : Working) (xg : Arr2) (yg : Arr1)
    (s0 : GState μ p) : Py.Inv (SameCommitted s0) (updateCoefs c k X wk xg yg) := by
  unfold updateCoefs
  py_inv
  all_goals exact fun s hs => hs.trans ⟨by constructor <;> rfl, rfl, rfl, rfl, rfl, rfl, rfl⟩

theorem updateIteration_committed (c : Call μ p) (k itO itI : ℕ) (a : Inner) (s0 : GState μ p) :
    Py.Inv (SameCommitted s0) (updateIteration c k itO itI a) := by
  unfold updateIteration
  py_inv
  all_goals first
    | exact updateCoefs_committed c k _ _ _ _ s0
    | exact fun s hs => hs.trans (sameCommitted_debugWork _ _ _ _ _)
    | exact fun s hs => hs.trans (sameCommitted_debugBeta _ _ _ _)
    | (intro s hs; split <;>
        first | exact hs | exact hs.trans ⟨by constructor <;> rfl, rfl, rfl, rfl, rfl, rfl, rfl⟩)

theorem commitUpdate_committed (c : Call μ p) (k : ℕ) (a : Inner) (o : IterOut) (f w n : Flt) (s : GState μ p) :
    SameCommitted s (commitUpdate c k a o f w n s) := ⟨by constructor <;> rfl, rfl, rfl, rfl, rfl, rfl, rfl⟩

theorem innerUpdate_committed (c : Call μ p) (itO k : ℕ) (s0 : GState μ p) :
    Py.Inv (SameCommitted s0) (innerUpdate c itO k) := by
  unfold innerUpdate
  py_inv
  all_goals first
    | exact updateInnerLoop_inv c k itO (fun itI a => updateIteration_committed c k itO itI a s0) _ _ _
    | exact fun s hs => hs.trans (commitUpdate_committed _ _ _ _ _ _ _ _)

theorem outerUpdate_committed (c : Call μ p) (fuel : ℕ) (s0 : GState μ p) :
    Py.Inv (SameCommitted s0) (outerUpdate c fuel) := by
  unfold outerUpdate
  py_inv
  exact outerLoop_inv _ _ (fun it _ d => paramLoop_inv _ (fun k _ => innerUpdate_committed c it k s0) d) _ _

end Ondil
