import Verif.Lemmas.GamlssLoops
import Verif.Lemmas.Methods

/-!
# Which exceptions the methods of the distributional regression do not raise
-/

namespace Ondil

variable {μ : Type} {p : ℕ}

theorem Py.bind_attr_eq {σ α β : Type} {x : Option α} {a : α} (h : x = some a) (e : PyErr) (f : α → Py σ β) (s : σ) :
    (Py.attr x e >>= f) s = f a s := by
  subst h
  rfl

theorem Py.bind_call_eq {σ α β : Type} {x : Except PyErr α} {a : α} (h : x = .ok a) (f : α → Py σ β) (s : σ) :
    (Py.call x >>= f) s = f a s := by
  subst h
  rfl

/-- The computation does not raise `OutOfSupportError`. -/
def NoSupp {α : Type} (x : Except PyErr α) : Prop := x ≠ .error .outOfSupport

theorem NoSupp.ok {α : Type} (a : α) : NoSupp (.ok a : Except PyErr α) := by intro h; cases h

theorem NoSupp.pure {α : Type} (a : α) : NoSupp (Pure.pure a : Except PyErr α) := by intro h; cases h

theorem NoSupp.error {α : Type} {e : PyErr} (h : e ≠ .outOfSupport) : NoSupp (.error e : Except PyErr α) := by
  intro h'; cases h'; exact h rfl

theorem NoSupp.bind {α β : Type} {x : Except PyErr α} {f : α → Except PyErr β} (hx : NoSupp x) (hf : ∀ a, NoSupp (f a)) :
    NoSupp (x >>= f) := by
  cases x with
  | ok a => exact hf a
  | error e => exact fun h => hx (by cases h; rfl)

theorem NoSupp.mapM {α β : Type} {f : α → Except PyErr β} (hf : ∀ a, NoSupp (f a)) (l : List α) : NoSupp (l.mapM f) := by
  induction l with
  | nil => exact NoSupp.pure _
  | cons a l ih =>
    rw [List.mapM_cons]
    exact (hf a).bind fun b => ih.bind fun r => NoSupp.pure _

/-- The objects the estimator is given do not raise `OutOfSupportError` themselves. -/
structure NoSupportErrors (D : DistOps) (M : MethodOps μ) : Prop where
  link : ∀ k a, NoSupp (D.link k a)
  linkInverse : ∀ k a, NoSupp (D.linkInverse k a)
  linkInverseDerivative : ∀ k a, NoSupp (D.linkInverseDerivative k a)
  dl1 : ∀ y fv k, NoSupp (D.dl1 y fv k)
  dl2 : ∀ y fv k, NoSupp (D.dl2 y fv k)
  initialValues : ∀ y, NoSupp (D.initialValues y)
  conditionalInitialValues : ∀ y fv k, NoSupp (D.conditionalInitialValues y fv k)
  initX : ∀ m X w f, NoSupp (M.initX m X w f)
  initY : ∀ m X y w f, NoSupp (M.initY m X y w f)
  updateX : ∀ m g X w f, NoSupp (M.updateX m g X w f)
  updateY : ∀ m g X y w f, NoSupp (M.updateY m g X y w f)
  fitBeta : ∀ m g y r, NoSupp (M.fitBeta m g y r)
  updateBeta : ∀ m g y b r, NoSupp (M.updateBeta m g y b r)
  fitPath : ∀ m g y r, NoSupp (M.fitPath m g y r)
  updatePath : ∀ m g y b r, NoSupp (M.updatePath m g y b r)

/-- The method does not raise `OutOfSupportError`. -/
def Never {σ α : Type} (m : Py σ α) : Prop := ∀ s t, m s ≠ (.error .outOfSupport, t)

section

variable {σ α β : Type}

theorem never_bind {m : Py σ α} {f : α → Py σ β} (hm : Never m) (hf : ∀ a, Never (f a)) : Never (m >>= f) := by
  intro s t
  rcases h : m s with ⟨x, s'⟩
  cases x with
  | error e =>
    rw [Py.bind_of_error h]
    intro h'
    cases h'
    exact hm s _ h
  | ok a =>
    rw [Py.bind_of_ok h]
    exact hf a s' t

theorem never_pure (a : α) : Never (pure a : Py σ α) := fun s t h => by cases h

theorem never_self : Never (Py.self : Py σ σ) := fun s t h => by cases h

theorem never_set (f : σ → σ) : Never (Py.set f) := fun s t h => by cases h

theorem never_call {x : Except PyErr α} (hx : NoSupp x) : Never (Py.call x : Py σ α) := by
  intro s t h
  have h' : (x, s) = (Except.error .outOfSupport, t) := h
  cases h'
  exact hx rfl

theorem never_attr (x : Option α) {e : PyErr} (he : e ≠ .outOfSupport) : Never (Py.attr x e : Py σ α) := by
  intro s t h
  cases x with
  | none =>
    have h' : ((.error e : Except PyErr α), s) = (Except.error .outOfSupport, t) := h
    cases h'
    exact he rfl
  | some a =>
    have h' : ((.ok a : Except PyErr α), s) = (Except.error .outOfSupport, t) := h
    cases h'

theorem never_raiseIf (c : Prop) {e : PyErr} (he : e ≠ .outOfSupport) : Never (Py.raiseIf c e : Py σ Unit) := by
  intro s t
  by_cases h : c
  · rw [Py.raiseIf_pos h]
    intro h'
    cases h'
    exact he rfl
  · rw [Py.raiseIf_neg h]
    intro h'
    cases h'

theorem never_ite {c : Prop} [Decidable c] {m n : Py σ α} (hm : Never m) (hn : Never n) : Never (if c then m else n) := by
  split
  · exact hm
  · exact hn

end

/-- Splits a method into its steps to show that it does not raise `OutOfSupportError`; calls remain. -/
macro "py_never" : tactic => `(tactic| repeat' (first
  | with_reducible exact never_self
  | with_reducible exact never_set _
  | with_reducible exact never_pure _
  | with_reducible exact never_attr _ (by decide)
  | with_reducible exact never_raiseIf _ (by decide)
  | assumption
  | with_reducible refine never_bind ?_ fun _ => ?_
  | with_reducible refine never_call ?_
  | with_reducible refine never_ite ?_ ?_))

/-- Splits a computation into its steps. -/
macro "no_supp" : tactic => `(tactic| repeat' (first
  | assumption
  | with_reducible exact NoSupp.ok _
  | with_reducible exact NoSupp.pure _
  | with_reducible exact NoSupp.error (by decide)
  | with_reducible refine NoSupp.bind ?_ fun _ => ?_
  | with_reducible refine NoSupp.mapM (fun _ => ?_) _
  | split))

theorem noSupp_matVec (X : Arr2) (b : Arr1) : NoSupp (matVec X b) := by unfold matVec; no_supp

theorem noSupp_working {D : DistOps} {M : MethodOps μ} (h : NoSupportErrors D M) (lo : ℝ) (y : List ℝ) (fv : Fv) (k : ℕ) :
    NoSupp (working D lo y fv k) := by
  unfold working
  have h1 := h.link; have h2 := h.linkInverseDerivative; have h3 := h.dl1; have h4 := h.dl2
  no_supp
  · exact h1 _ _
  · exact h2 _ _
  · exact h3 _ _ _
  · exact h4 _ _ _

theorem noSupp_stepAt (c : GConfig μ p) (s : GState μ p) (o i k : ℕ) : NoSupp (stepAt c s o i k) := by
  unfold stepAt stepSchedule; no_supp

theorem noSupp_iterationsAt (c : GConfig μ p) (s : GState μ p) (o : ℕ) : NoSupp (iterationsAt c s o) := by
  unfold iterationsAt; no_supp

theorem noSupp_startValues {c : Call μ p} (h : NoSupportErrors c.D c.M) (k o i : ℕ) (fv : Fv) :
    NoSupp (startValues c k o i fv) := by
  unfold startValues
  split
  · exact h.conditionalInitialValues _ _ _
  · exact NoSupp.ok _

theorem noSupp_fitPathFrom {D : DistOps} {M : MethodOps μ} (h : NoSupportErrors D M) (m : μ) (xg : Arr2) (yg : Arr1)
    (reg : List Bool) (first : Bool) (start : Option Arr2) : NoSupp (fitPathFrom M m xg yg reg first start) := by
  unfold fitPathFrom
  split
  · exact h.fitPath _ _ _ _
  · split
    · exact h.updatePath _ _ _ _ _
    · exact NoSupp.error (by decide)

theorem noSupp_icFromLL (c : Criterion) (n k : ℝ) (ll : Flt) : NoSupp (icFromLL c n k ll) := by
  unfold icFromLL; cases c <;> simp only <;> no_supp

theorem noSupp_icFromRss (c : Criterion) (n k : ℝ) (rss : Flt) : NoSupp (icFromRss c n k rss) := noSupp_icFromLL _ _ _ _

theorem noSupp_argmin (l : Arr1) : NoSupp (argminFlt l) := by
  unfold argminFlt; no_supp

theorem noSupp_selectModel (ic : Arr1) (path : Arr2) : NoSupp (selectModel ic path) := by
  unfold selectModel
  refine (noSupp_argmin ic).bind fun i => ?_
  split
  · exact NoSupp.pure _
  · exact NoSupp.error (by decide)

theorem noSupp_pathLL {c : Call μ p} (h : NoSupportErrors c.D c.M) (s : GState μ p) (k : ℕ) (f w : List ℝ) (preds : Arr2) :
    NoSupp (pathLL c s k f w preds) := by
  unfold pathLL
  exact NoSupp.mapM (fun pr => (h.linkInverse _ _).bind fun v => NoSupp.pure _) _

theorem noSupp_fitSelectModel {c : Call μ p} (h : NoSupportErrors c.D c.M) (s : GState μ p) (k : ℕ) (X : Arr2) (wv wt : Arr1)
    (path : Arr2) (forget nTraining : ℝ) (ic : Criterion) :
    NoSupp (fitSelectModel c s k X wv wt path forget nTraining ic) := by
  unfold fitSelectModel
  refine (NoSupp.mapM (fun b => noSupp_matVec X b) _).bind fun preds => ?_
  split
  · refine (NoSupp.mapM (fun b => noSupp_icFromRss _ _ _ _) _).bind fun _ => (noSupp_selectModel _ _).bind fun _ =>
      NoSupp.pure _
  · refine (noSupp_pathLL h _ _ _ _ _).bind fun _ => (NoSupp.mapM (fun b => noSupp_icFromLL _ _ _ _) _).bind fun _ =>
      (noSupp_selectModel _ _).bind fun _ => NoSupp.pure _

theorem noSupp_updateSelectModel {c : Call μ p} (h : NoSupportErrors c.D c.M) (s : GState μ p) (k : ℕ) (X : Arr2)
    (wv wt : Arr1) (path : Arr2) (old : Arr1) (meanW : Flt) (forget nObs nTraining : ℝ) (ic : Criterion) :
    NoSupp (updateSelectModel c s k X wv wt path old meanW forget nObs nTraining ic) := by
  unfold updateSelectModel
  refine (NoSupp.mapM (fun b => noSupp_matVec X b) _).bind fun preds => ?_
  split
  · refine (NoSupp.mapM (fun b => noSupp_icFromRss _ _ _ _) _).bind fun _ => (noSupp_selectModel _ _).bind fun _ =>
      NoSupp.pure _
  · refine (noSupp_pathLL h _ _ _ _ _).bind fun _ => (NoSupp.mapM (fun b => noSupp_icFromLL _ _ _ _) _).bind fun _ =>
      (noSupp_selectModel _ _).bind fun _ => NoSupp.pure _

theorem never_fitCoefs {c : Call μ p} (h : NoSupportErrors c.D c.M) (k itO itI : ℕ) (prev : Option Arr2) (X : Arr2)
    (wk : Working) (xg : Arr2) (yg : Arr1) : Never (fitCoefs c k itO itI prev X wk xg yg) := by
  unfold fitCoefs
  py_never
  · exact noSupp_fitPathFrom h _ _ _ _ _ _
  · exact noSupp_fitSelectModel h _ _ _ _ _ _ _ _ _
  · exact h.fitBeta _ _ _ _

theorem never_updateCoefs {c : Call μ p} (h : NoSupportErrors c.D c.M) (k : ℕ) (X : Arr2) (wk : Working) (xg : Arr2)
    (yg : Arr1) : Never (updateCoefs c k X wk xg yg) := by
  unfold updateCoefs
  py_never
  · exact h.updatePath _ _ _ _ _
  · exact noSupp_updateSelectModel h _ _ _ _ _ _ _ _ _ _ _ _
  · exact h.updateBeta _ _ _ _ _

theorem never_fitIteration {c : Call μ p} (h : NoSupportErrors c.D c.M) (k itO itI n : ℕ) (a : Inner) :
    Never (fitIteration c k itO itI n a) := by
  unfold fitIteration
  py_never
  · exact noSupp_stepAt _ _ _ _ _
  · exact noSupp_startValues h _ _ _ _
  · exact noSupp_working h _ _ _ _
  · exact h.initX _ _ _ _
  · exact h.initY _ _ _ _ _
  · exact never_fitCoefs h _ _ _ _ _ _ _ _
  · exact noSupp_matVec _ _
  · exact h.linkInverse _ _

theorem never_updateIteration {c : Call μ p} (h : NoSupportErrors c.D c.M) (k itO itI : ℕ) (a : Inner) :
    Never (updateIteration c k itO itI a) := by
  unfold updateIteration
  py_never
  · exact noSupp_stepAt _ _ _ _ _
  · exact noSupp_working h _ _ _ _
  · exact h.updateX _ _ _ _ _
  · exact h.updateY _ _ _ _ _ _
  · exact never_updateCoefs h _ _ _ _ _
  · exact noSupp_matVec _ _
  · exact h.linkInverse _ _

theorem never_fitInnerLoop {c : Call μ p} (h : NoSupportErrors c.D c.M) (k itO m n i : ℕ) (a : Inner) :
    Never (fitInnerLoop c k itO m n i a) := by
  induction n generalizing i a with
  | zero => exact never_pure _
  | succ n ih =>
    unfold fitInnerLoop
    refine never_bind (never_fitIteration h _ _ _ _ _) fun r => ?_
    exact never_ite (never_pure _) (ih _ _)

theorem never_updateInnerLoop {c : Call μ p} (h : NoSupportErrors c.D c.M) (k itO n i : ℕ) (a : Inner) :
    Never (updateInnerLoop c k itO n i a) := by
  induction n generalizing i a with
  | zero => exact never_pure _
  | succ n ih =>
    unfold updateInnerLoop
    refine never_bind (never_updateIteration h _ _ _ _) fun r => ?_
    exact never_ite (never_pure _) (ih _ _)

theorem never_paramLoop {σ : Type} {f : ℕ → Py σ Flt} (h : ∀ k, Never (f k)) (ks : List ℕ) (d : Flt) :
    Never (paramLoop f ks d) := by
  induction ks generalizing d with
  | nil => exact never_pure _
  | cons k ks ih =>
    unfold paramLoop
    exact never_bind (h k) fun d' => ih d'

theorem never_outerLoop {σ : Type} {stops : ℕ → Flt → Flt → Prop} {body : ℕ → Flt → Py σ Flt} (h : ∀ i d, Never (body i d))
    (n i : ℕ) (d e : Flt) : Never (outerLoop stops body n i d e) := by
  induction n generalizing i d e with
  | zero => exact never_pure _
  | succ n ih =>
    unfold outerLoop
    split
    · exact never_pure _
    · exact never_bind (h _ _) fun d' => ih _ _ _

theorem never_outerFit {c : Call μ p} (h : NoSupportErrors c.D c.M) (n : ℕ) : Never (outerFit c n) := by
  unfold outerFit
  refine never_bind never_self fun s => never_outerLoop (fun i d => never_paramLoop (fun k => ?_) _ _) _ _ _ _
  unfold innerFit
  py_never
  · exact noSupp_iterationsAt _ _ _
  · exact never_fitInnerLoop h _ _ _ _ _ _

theorem never_outerUpdate {c : Call μ p} (h : NoSupportErrors c.D c.M) (n : ℕ) : Never (outerUpdate c n) := by
  unfold outerUpdate
  py_never
  refine never_outerLoop (fun i d => never_paramLoop (fun k => ?_) _ _) _ _ _ _
  unfold innerUpdate
  py_never
  · exact noSupp_iterationsAt _ _ _
  · exact never_updateInnerLoop h _ _ _ _ _

theorem noSupp_forParams {α : Type} (n : ℕ) {f : ℕ → Except PyErr α} (h : ∀ k, NoSupp (f k)) : NoSupp (forParams n f) := by
  unfold forParams
  exact NoSupp.mapM (fun k => (h k).bind fun a => NoSupp.pure _) _

theorem noSupp_trainingLengths (n : ℕ) (f : PyDict ℝ) (m : ℝ) : NoSupp (trainingLengths n f m) := by
  unfold trainingLengths
  exact noSupp_forParams _ fun k => by no_supp

theorem noSupp_selectColumns {α : Type} (x : Fin p → α) (eq : Equation) : NoSupp (selectColumns x eq) := by
  unfold selectColumns npMask npIndex
  cases eq <;> simp only <;> no_supp

theorem noSupp_designFor (s : GState μ p) (sc : Scaler p) (X : List (Row p)) (k : ℕ) : NoSupp (designFor s sc X k) := by
  unfold designFor
  split
  · refine NoSupp.mapM (fun x => ?_) _
    unfold modelRow
    split
    · no_supp
    · exact (noSupp_selectColumns _ _).bind fun _ => NoSupp.pure _
  · exact NoSupp.error (by decide)

theorem noSupp_getJ (fi : Bool) (eq : Equation) : NoSupp (getJ p fi eq) := by
  unfold getJ intMax
  cases eq <;> simp only <;> no_supp

theorem noSupp_predictParams {D : DistOps} {M : MethodOps μ} (h : NoSupportErrors D M) (s : GState μ p) (X : List (Row p))
    (what : What) : NoSupp (predictParams D s X what) := by
  unfold predictParams
  refine NoSupp.bind ?_ fun etas => ?_
  · unfold linearPredictors
    split
    · exact NoSupp.error (by decide)
    · exact NoSupp.error (by decide)
    · exact NoSupp.error (by decide)
    · refine NoSupp.mapM (fun k => (noSupp_designFor _ _ _ _).bind fun A => ?_) _
      split
      · exact NoSupp.error (by decide)
      · exact noSupp_matVec _ _
  · split
    · exact (NoSupp.mapM (fun e => h.linkInverse _ _) _).bind fun _ => NoSupp.pure _
    · exact NoSupp.pure _
    · exact NoSupp.error (by decide)

theorem noSupp_process {α : Type} (o d : OptArg α) (n : ℕ) : NoSupp (o.process n d).result := by
  have hfill : ∀ (ks : List ℕ) (e : PyDict α), NoSupp (OptArg.fill d ks e).1 := by
    intro ks
    induction ks with
    | nil => exact fun e => NoSupp.ok _
    | cons k ks ih =>
      intro e
      unfold OptArg.fill
      have hstep : NoSupp (OptArg.fillStep d e k) := by
        unfold OptArg.fillStep OptArg.defaultFor; no_supp
      split
      · exact ih _
      · rename_i err herr
        intro h
        simp only [Except.error.injEq] at h
        rw [h] at herr
        exact hstep herr
  unfold OptArg.process
  split
  · exact NoSupp.ok _
  · rename_i e
    have := hfill (List.range n) e
    split
    · exact NoSupp.ok _
    · rename_i err d' herr
      rw [herr] at this
      intro h
      simp only [Except.error.injEq] at h
      rw [h] at this
      exact this rfl

theorem noSupp_processEquation (frames : Bool) (n : ℕ) (o : Option (PyDict Equation)) :
    NoSupp (processEquation frames n o).1 := by
  have hfill : ∀ (ks : List ℕ) (e : PyDict Equation), NoSupp (equationLoop frames ks e).1 := by
    intro ks
    induction ks with
    | nil => exact fun e => NoSupp.ok _
    | cons k ks ih =>
      intro e
      unfold equationLoop
      simp only
      split
      · split
        · exact ih _
        · exact NoSupp.error (by decide)
      · exact NoSupp.error (by decide)
  unfold processEquation
  split
  · exact NoSupp.ok _
  · rename_i e
    have := hfill (List.range n) e
    split
    · exact NoSupp.ok _
    · rename_i err d' herr
      rw [herr] at this
      intro h
      simp only [Except.error.injEq] at h
      rw [h] at this
      exact this rfl

theorem noSupp_scalerFit (ts : ToScale p) (f : ℝ) (X : List (Row p)) (w : List ℝ) : NoSupp (Scaler.fit ts f X w) := by
  unfold Scaler.fit scalerFit
  simp only
  no_supp

theorem noSupp_scalerUpdate (f : ℝ) (X : List (Row p)) (w : List ℝ) (sc : Scaler p) : NoSupp (sc.update f X w) := by
  unfold Scaler.update scalerUpdate
  no_supp

theorem noSupp_item (a : Arr1) : NoSupp (item a) := by
  unfold item
  no_supp

theorem never_prepare (frames : Bool) (D : DistOps) (M : MethodOps μ) (c : GConfig μ p) : Never (prepare frames D M c) := by
  unfold prepare
  py_never
  · exact noSupp_processEquation _ _ _
  all_goals exact noSupp_process _ _ _

open Classical in
theorem never_cautious (D : DistOps) (c : GConfig μ p) (y : List ℝ) : Never (cautious D c y) := by
  unfold cautious
  py_never
  all_goals exact noSupp_item _

/-- `fit` raises `OutOfSupportError` only because of a response outside the support. -/
theorem fit_outOfSupport {frames : Bool} {D : DistOps} {M : MethodOps μ} (h : NoSupportErrors D M) {c : GConfig μ p}
    {data : List (Obs p)} {s t : GState μ p} (he : GState.fit frames D M c data s = (.error .outOfSupport, t)) :
    OutOfSupport D (ys data) := by
  by_contra hno
  revert he
  have hn : Never (GState.fit frames D M c data) := by
    unfold GState.fit
    have hp := never_prepare frames D M c
    have hr : Never (Py.raiseIf (OutOfSupport D (ys data)) PyErr.outOfSupport : Py (GState μ p) Unit) := by
      intro s t
      rw [Py.raiseIf_neg hno]
      intro h'
      cases h'
    py_never
    · exact noSupp_trainingLengths _ _ _
    · exact h.initialValues _
    · refine noSupp_forParams _ fun k => ?_
      split
      · exact noSupp_getJ _ _
      · exact NoSupp.error (by decide)
    · exact noSupp_scalerFit _ _ _ _
    · exact noSupp_forParams _ fun k => noSupp_designFor _ _ _ _
    · exact noSupp_forParams _ fun k => by no_supp
    · exact never_outerFit h _
  exact hn s t

/-- `update` raises `OutOfSupportError` only because of a response outside the support. -/
theorem update_outOfSupport {D : DistOps} {M : MethodOps μ} (h : NoSupportErrors D M) {c : GConfig μ p}
    {data : List (Obs p)} {s t : GState μ p} (he : GState.update D M c data s = (.error .outOfSupport, t)) :
    OutOfSupport D (ys data) := by
  by_contra hno
  revert he
  have hn : Never (GState.update D M c data) := by
    unfold GState.update
    have hp := never_cautious D c (ys data) (p := p)
    have hr : Never (Py.raiseIf (OutOfSupport D (ys data)) PyErr.outOfSupport : Py (GState μ p) Unit) := by
      intro s t
      rw [Py.raiseIf_neg hno]
      intro h'
      cases h'
    py_never
    · exact noSupp_trainingLengths _ _ _
    · exact noSupp_predictParams h _ _ _
    · exact noSupp_scalerUpdate _ _ _ _
    · exact noSupp_forParams _ fun k => noSupp_designFor _ _ _ _
    · exact never_outerUpdate h _
  exact hn s t

end Ondil
