import Verif.Lemmas.GamlssHidden
import Verif.Lemmas.GamlssLoops

/-!
# Twin runs

Two estimators fitted and updated on data with the same responses and weights, whose scalers turn the features into the same
design matrices, go through the same states.  What either of them did before the fit does not matter.
-/

namespace Ondil

variable {μ : Type} {p : ℕ} {Q : Scaler p → Scaler p → Prop} {F : ℝ → Prop} {A : Equation → Prop}

/-- Both calls raise the same exception, or both return, values related by `Q`. -/
def BothOr {α : Type} (Q : α → α → Prop) (x x' : Except PyErr α) : Prop :=
  (∃ e, x = .error e ∧ x' = .error e) ∨ ∃ a a', x = .ok a ∧ x' = .ok a' ∧ Q a a'

/-- The two feature matrices are the same for scalers related by `Q`, as far as equations satisfying `A` can see.  Models
without equations see the whole matrix. -/
structure SameDesign (A : Equation → Prop) (Q : Scaler p → Scaler p → Prop) (X X' : List (Row p)) : Prop where
  length : X'.length = X.length
  model : ∀ sc sc', Q sc sc' → ∀ eq, A eq → ∀ fi,
    modelArray (.fin 1) fi eq (sc'.transformFlt X') = modelArray (.fin 1) fi eq (sc.transformFlt X)
  transformReal : (∀ eq, A eq) → ∀ sc sc', Q sc sc' → sc'.transform X' = sc.transform X

/-- The two data sets differ only in what scalers related by `Q` remove; the forgetting factors satisfy `F`,
the equations `A`. -/
structure Twins (F : ℝ → Prop) (A : Equation → Prop) (Q : Scaler p → Scaler p → Prop) (data data' : List (Obs p)) : Prop where
  length : data'.length = data.length
  ys : ys data' = ys data
  ws : ws data' = ws data
  design : SameDesign A Q (xs data) (xs data')
  update : ∀ f, F f → ∀ sc sc', Q sc sc' →
    BothOr Q (sc.update f (xs data) (Ondil.ws data)) (sc'.update f (xs data') (Ondil.ws data))

/-- Attributes set by `_prepare_estimator` are equal; the forgetting factor of the scaler satisfies `F`, the equations
satisfy `A`. -/
structure SizesOk (F : ℝ → Prop) (A : Equation → Prop) (s t : GState μ p) : Prop where
  equation : t.equation = s.equation
  method : t.method = s.method
  forget : t.forget = s.forget
  ic : t.ic = s.ic
  fitIntercept : t.fitIntercept = s.fitIntercept
  regularizeIntercept : t.regularizeIntercept = s.regularizeIntercept
  stepSize : t.stepSize = s.stepSize
  paramOrder : t.paramOrder = s.paramOrder
  forgetOk : ∀ f, s.forget.get? 0 = some f → F f
  equationOk : ∀ k e, s.equation.get? k = some e → A e

/-- The relation between the estimators after a call that returned. -/
def TwinState (F : ℝ → Prop) (A : Equation → Prop) (Q : Scaler p → Scaler p → Prop) (s t : GState μ p) : Prop :=
  ∃ o : Hidden p, t = s.hide o ∧ o.globalDev = s.globalDev ∧ o.itOuter = s.itOuter ∧
    (∃ sc sc', s.scaler = some sc ∧ o.scaler = some sc' ∧ Q sc sc') ∧ (∀ f, s.forget.get? 0 = some f → F f) ∧
    ∀ k e, s.equation.get? k = some e → A e

/-- The forgetting factor of the scaler, if the option has one, satisfies `F`. -/
def ForgetOk (F : ℝ → Prop) (D : DistOps) (c : GConfig μ p) : Prop :=
  ∀ d, (c.forget.process D.nParams (.value 0)).result = .ok d → ∀ f, d.get? 0 = some f → F f

/-- The equations satisfy `A`. -/
def EquationsOk (A : Equation → Prop) (frames : Bool) (D : DistOps) (c : GConfig μ p) : Prop :=
  ∀ d, (processEquation frames D.nParams c.equation).1 = .ok d → ∀ k e, d.get? k = some e → A e

/-- What the relation of twins uses of the options. -/
def GState.optionKey (s : GState μ p) : PyDict ℝ × PyDict Equation := (s.forget, s.equation)

set_option maxHeartbeats 1000000 in
theorem prepare_twin (frames : Bool) (D : DistOps) (M : MethodOps μ) (c : GConfig μ p)
    (hF : ForgetOk F D c) (hA : EquationsOk A frames D c) :
    Py.RelTo (fun _ _ => True) (SizesOk F A) (prepare frames D M c) (prepare frames D M c) := by
  unfold prepare
  refine Py.RelTo.bind_call ?_
  rcases heq : (processEquation frames D.nParams c.equation).1 with e | eq
  · exact .inl ⟨e, rfl, rfl⟩
  refine .inr ⟨eq, eq, rfl, rfl, ?_⟩
  refine Py.RelTo.bind (Py.relTo_set _ _) fun _ => ?_
  refine Py.RelTo.bind (Py.Rel.to (Py.rel_call rfl)) fun ms => ?_
  refine Py.RelTo.bind (Py.Rel.to (Py.rel_raiseIf Iff.rfl _)) fun _ => ?_
  refine Py.RelTo.bind (Py.relTo_set _ _) fun _ => ?_
  refine Py.RelTo.bind_call ?_
  rcases hfo : (c.forget.process D.nParams (.value 0)).result with e | fo
  · exact .inl ⟨e, rfl, rfl⟩
  refine .inr ⟨fo, fo, rfl, rfl, ?_⟩
  refine Py.RelTo.bind (Py.relTo_set _ _) fun _ => ?_
  refine Py.RelTo.bind (Py.Rel.to (Py.rel_call rfl)) fun ic => ?_
  refine Py.RelTo.bind (Py.relTo_set _ _) fun _ => ?_
  refine Py.RelTo.bind (Py.Rel.to (Py.rel_call rfl)) fun fi => ?_
  refine Py.RelTo.bind (Py.relTo_set _ _) fun _ => ?_
  refine Py.RelTo.bind (Py.Rel.to (Py.rel_call rfl)) fun ri => ?_
  refine Py.RelTo.bind (Py.relTo_set _ _) fun _ => ?_
  refine Py.RelTo.bind (Py.Rel.to (Py.rel_call rfl)) fun st => ?_
  refine Py.RelTo.bind (Py.relTo_set _ _) fun _ => ?_
  refine Py.RelTo.bind (Py.Rel.to (Py.rel_raiseIf Iff.rfl _)) fun _ => ?_
  refine Py.RelTo.bind (Py.relTo_set _ _) fun _ => ?_
  refine Py.RelTo.mono (Py.relTo_set _ _) (fun _ _ h => h) ?_
  rintro _ _ ⟨_, _, ⟨_, _, ⟨_, _, ⟨_, _, ⟨_, _, ⟨_, _, ⟨_, _, ⟨_, _, ⟨s, t, _, rfl, rfl⟩, rfl, rfl⟩, rfl, rfl⟩, rfl, rfl⟩,
    rfl, rfl⟩, rfl, rfl⟩, rfl, rfl⟩, rfl, rfl⟩, rfl, rfl⟩
  exact ⟨rfl, rfl, rfl, rfl, rfl, rfl, rfl, rfl, hF fo hfo, hA eq heq⟩

theorem designFor_twin {s t : GState μ p} (he : t.equation = s.equation) (hf : t.fitIntercept = s.fitIntercept) {sc sc' : Scaler p}
    {X X' : List (Row p)} (hA : ∀ k e, s.equation.get? k = some e → A e)
    (h : ∀ eq, A eq → ∀ fi, modelArray (.fin 1) fi eq (sc'.transformFlt X') = modelArray (.fin 1) fi eq (sc.transformFlt X)) (k : ℕ) :
    designFor t sc' X' k = designFor s sc X k := by
  unfold designFor
  rw [he, hf]
  cases hk : s.equation.get? k with
  | none => rfl
  | some eq =>
    cases s.fitIntercept.get? k with
    | none => rfl
    | some fi => exact h eq (hA k eq hk) fi

theorem twin_nil {data data' : List (Obs p)} (h : Twins F A Q data data') : data = [] ↔ data' = [] := by
  rw [← List.length_eq_zero_iff, ← List.length_eq_zero_iff, h.length]

set_option maxHeartbeats 1000000 in
/-- A fit on twin data, from any two states. -/
theorem fit_twin (frames : Bool) (D : DistOps) (M : MethodOps μ) (c : GConfig μ p) {data data' : List (Obs p)}
    (h : Twins F A Q data data')
    (hF : ForgetOk F D c) (hA : EquationsOk A frames D c)
    (hfit : ∀ f, F f → BothOr Q (Scaler.fit c.scaleInputs f (xs data) (ws data)) (Scaler.fit c.scaleInputs f (xs data') (ws data))) :
    Py.RelTo (fun _ _ => True) (TwinState F A Q) (GState.fit frames D M c data) (GState.fit frames D M c data') := by
  unfold GState.fit
  rw [h.ys, h.ws]
  refine Py.RelTo.bind (Py.Rel.to (Py.rel_raiseIf Iff.rfl _)) fun _ => ?_
  refine Py.RelTo.bind (prepare_twin frames D M c hF hA) fun _ => ?_
  refine Py.RelTo.bind (Py.Rel.to (Py.rel_raiseIf (or_congr (twin_nil h) Iff.rfl) _)) fun _ => ?_
  refine Py.RelTo.bind (Py.Rel.to (Py.rel_raiseIf Iff.rfl _)) fun _ => ?_
  refine Py.RelTo.bind (Py.relTo_set _ _) fun _ => ?_
  refine Py.RelTo.bind_self ?_
  rintro _ _ ⟨s, t, hp, rfl, rfl⟩
  have e1 : (t.setNObs (some (ws data).sum)).forget = (s.setNObs (some (ws data).sum)).forget := hp.forget
  have e2 : (t.setNObs (some (ws data).sum)).equation = (s.setNObs (some (ws data).sum)).equation := hp.equation
  have e3 : (t.setNObs (some (ws data).sum)).fitIntercept = (s.setNObs (some (ws data).sum)).fitIntercept := hp.fitIntercept
  have e4 : (t.setNObs (some (ws data).sum)).regularizeIntercept = (s.setNObs (some (ws data).sum)).regularizeIntercept :=
    hp.regularizeIntercept
  rw [e1, e2, e3, e4]
  refine Py.RelTo.bind (Py.Rel.to (Py.rel_call rfl)) fun nt => ?_
  refine Py.RelTo.bind (Py.relTo_set _ _) fun _ => ?_
  refine Py.RelTo.bind (Py.Rel.to (Py.rel_call rfl)) fun fv => ?_
  refine Py.RelTo.bind (Py.relTo_set _ _) fun _ => ?_
  refine Py.RelTo.bind (Py.Rel.to (Py.rel_call rfl)) fun nf => ?_
  refine Py.RelTo.bind (Py.relTo_set _ _) fun _ => ?_
  rcases hf0 : (s.setNObs (some (ws data).sum)).forget.get? 0 with _ | f0
  · intro _ _ _
    exact ⟨rfl, fun _ h => by cases h⟩
  have hF0 : F f0 := hp.forgetOk f0 hf0
  change Py.RelTo _ _ (Py.call (.ok f0) >>= _) (Py.call (.ok f0) >>= _)
  refine Py.RelTo.bind_call (.inr ⟨f0, f0, rfl, rfl, ?_⟩)
  refine Py.RelTo.bind_call ?_
  rcases hfit f0 hF0 with ⟨e, he, he'⟩ | ⟨sc, sc', he, he', hQ⟩
  · exact .inl ⟨e, he, he'⟩
  refine .inr ⟨sc, sc', he, he', ?_⟩
  refine Py.RelTo.bind (Py.relTo_set _ _) fun _ => ?_
  have hd : (fun k => designFor (t.setNObs (some (ws data).sum)) sc' (xs data') k) =
      fun k => designFor (s.setNObs (some (ws data).sum)) sc (xs data) k :=
    funext fun k => designFor_twin e2 e3 hp.equationOk (h.design.model sc sc' hQ) k
  rw [hd]
  refine Py.RelTo.bind (Py.Rel.to (Py.rel_call rfl)) fun X => ?_
  refine Py.RelTo.bind (Py.Rel.to (Py.rel_call rfl)) fun reg => ?_
  refine Py.RelTo.bind (R' := fun s' t' => UpToHidden (some sc) (some sc') s' t' ∧ s'.optionKey = s.optionKey) (Py.RelTo.mono (Py.relTo_set _ _) (fun _ _ h => h) ?_) fun _ => ?_
  · rintro _ _ ⟨_, _, ⟨_, _, ⟨_, _, ⟨_, _, ⟨_, _, ⟨rfl, rfl⟩, rfl, rfl⟩, rfl, rfl⟩, rfl, rfl⟩, rfl, rfl⟩, rfl, rfl⟩
    refine ⟨⟨(resetFit c D.nParams reg nf (((((t.setNObs (some (ws data).sum)).setNTraining nt).setFv fv).setNFeatures nf).setScaler
      (some sc'))).hidden, ?_, rfl, rfl⟩, rfl⟩
    obtain ⟨h1, h2, h3, h4, h5, h6, h7, h8, _, _⟩ := hp
    cases s
    cases t
    simp only at h1 h2 h3 h4 h5 h6 h7 h8
    subst h1 h2 h3 h4 h5 h6 h7 h8
    rfl
  refine Py.RelTo.bind_self ?_
  rintro s1 _ ⟨⟨o, rfl, h1, h2⟩, hfo⟩
  refine Py.RelTo.bind (R' := fun s' t' => UpToHidden (some sc) (some sc') s' t' ∧ s'.optionKey = s.optionKey) ?_ fun r => ?_
  · have hI : Py.Inv (fun s' : GState μ p => s'.optionKey = s.optionKey) (outerFit ⟨D, M, c, X.get?, ys data, ws data⟩ (c.fuel s1.minIt)) :=
      Py.Inv.of_setup _ (fun _ _ h => by unfold GState.optionKey; rw [h.forget, h.equation]) _ (outerFit_setup _ _)
    refine Py.RelTo.mono (Py.Rel.to_inv (outerFit_hidden ⟨D, M, c, X.get?, ys data, ws data⟩ _) hI) ?_ fun _ _ h => h
    rintro _ _ ⟨rfl, rfl⟩
    exact ⟨⟨o, rfl, h1, h2⟩, hfo⟩
  refine Py.RelTo.bind (Py.Rel.to (Py.rel_attr rfl _)) fun r => ?_
  refine Py.RelTo.mono (Py.relTo_set _ _) (fun _ _ h => h) ?_
  rintro _ _ ⟨s2, _, ⟨⟨o, rfl, h1, h2⟩, hfo⟩, rfl, rfl⟩
  refine ⟨(GState.setResult r.1 r.2 (s2.hide o)).hidden, rfl, rfl, rfl, ⟨sc, sc', h1, h2, hQ⟩, fun f hf => hp.forgetOk f ?_,
    fun k e he => hp.equationOk k e ?_⟩
  · exact (congrArg (fun d : PyDict ℝ × PyDict Equation => d.1.get? 0) hfo).symm.trans hf
  · exact (congrArg (fun d : PyDict ℝ × PyDict Equation => d.2.get? k) hfo).symm.trans he

/-- Linear predictors of twin estimators. -/
theorem linearPredictors_twin {D : DistOps} {s t : GState μ p} (h : TwinState F A Q s t) {X X' : List (Row p)}
    (hX : SameDesign A Q X X') : linearPredictors D t X' = linearPredictors D s X := by
  obtain ⟨o, rfl, _, _, ⟨sc, sc', h1, h2, hQ⟩, _, hA⟩ := h
  have ht : (s.hide o).scaler = some sc' := h2
  have hn : (s.hide o).nObs = s.nObs := rfl
  unfold linearPredictors
  rw [h1, ht, hn]
  have hlen := hX.length
  have hdes : ∀ k, designFor (s.hide o) sc' X' k = designFor s sc X k := designFor_twin rfl rfl hA (hX.model sc sc' hQ)
  cases s.nObs with
  | none => rfl
  | some n =>
    cases X with
    | nil =>
      cases X' with
      | nil => rfl
      | cons x' X' => simp at hlen
    | cons x X =>
      cases X' with
      | nil => simp at hlen
      | cons x' X' =>
        simp only [hdes]
        rfl

theorem predict_twin {D : DistOps} {s t : GState μ p} (h : TwinState F A Q s t) {X X' : List (Row p)} (hX : SameDesign A Q X X')
    (what : What) : predictParams D t X' what = predictParams D s X what := by
  unfold predictParams
  rw [linearPredictors_twin h hX, hX.length]

set_option maxHeartbeats 1000000 in
/-- An update with twin data. -/
theorem update_twin (D : DistOps) (M : MethodOps μ) (c : GConfig μ p) {data data' : List (Obs p)} (h : Twins F A Q data data') :
    Py.RelTo (TwinState F A Q) (TwinState F A Q) (GState.update D M c data) (GState.update D M c data') := by
  unfold GState.update
  rw [h.ys, h.ws]
  refine Py.RelTo.bind (Py.Rel.to (Py.rel_raiseIf Iff.rfl _)) fun _ => ?_
  refine Py.RelTo.bind (Py.Rel.to (Py.rel_raiseIf (or_congr (twin_nil h) Iff.rfl) _)) fun _ => ?_
  refine Py.RelTo.bind (Py.Rel.to (Py.rel_raiseIf Iff.rfl _)) fun _ => ?_
  refine Py.RelTo.bind_self ?_
  intro s t hst
  obtain ⟨o, rfl, hdev, hit, ⟨sc0, sc0', hs, ho, hQ⟩, hok, hA⟩ := hst
  refine Py.RelTo.bind (Py.Rel.to (Py.rel_attr rfl _)) fun n0 => ?_
  refine Py.RelTo.bind (Py.relTo_set _ _) fun _ => ?_
  refine Py.RelTo.bind (Py.Rel.to (Py.rel_call rfl)) fun nt => ?_
  refine Py.RelTo.bind (R' := fun s' t' => TwinState F A Q s' t' ∧ s'.scaler = some sc0 ∧ t'.scaler = some sc0' ∧ s'.optionKey = s.optionKey)
    (Py.RelTo.mono (Py.relTo_set _ _) (fun _ _ h => h) ?_) fun _ => ?_
  · rintro _ _ ⟨_, _, ⟨_, _, ⟨rfl, rfl⟩, rfl, rfl⟩, rfl, rfl⟩
    exact ⟨⟨o, rfl, hdev, hit, ⟨sc0, sc0', hs, ho, hQ⟩, hok, hA⟩, hs, ho, rfl⟩
  refine Py.RelTo.bind_self ?_
  rintro s1 t1 ⟨htw, hs1, ht1, hfo⟩
  rw [predict_twin htw h.design]
  refine Py.RelTo.bind (Py.Rel.to (Py.rel_call rfl)) fun fv => ?_
  refine Py.RelTo.bind (Py.relTo_set _ _) fun _ => ?_
  rw [hs1, ht1]
  change Py.RelTo _ _ (Py.call (.ok sc0) >>= _) (Py.call (.ok sc0') >>= _)
  refine Py.RelTo.bind_call (.inr ⟨sc0, sc0', rfl, rfl, ?_⟩)
  obtain ⟨o1, rfl, hdev1, hit1, _, hok1, hA1⟩ := htw
  rcases hf0 : s1.forget.get? 0 with _ | f0
  · intro _ _ _
    have e : (s1.hide o1).forget.get? 0 = none := hf0
    rw [e]
    exact ⟨rfl, fun _ h => by cases h⟩
  have e : (s1.hide o1).forget.get? 0 = some f0 := hf0
  rw [e]
  change Py.RelTo _ _ (Py.call (.ok f0) >>= _) (Py.call (.ok f0) >>= _)
  refine Py.RelTo.bind_call (.inr ⟨f0, f0, rfl, rfl, ?_⟩)
  refine Py.RelTo.bind_call ?_
  rcases h.update f0 (hok1 f0 hf0) sc0 sc0' hQ with ⟨e, he, he'⟩ | ⟨sc, sc', he, he', hQ'⟩
  · exact .inl ⟨e, he, he'⟩
  refine .inr ⟨sc, sc', he, he', ?_⟩
  refine Py.RelTo.bind (Py.relTo_set _ _) fun _ => ?_
  have hd : (fun k => designFor (s1.hide o1) sc' (xs data') k) = fun k => designFor s1 sc (xs data) k :=
    funext fun k => designFor_twin rfl rfl hA1 (h.design.model sc sc' hQ') k
  rw [hd]
  refine Py.RelTo.bind (Py.Rel.to (Py.rel_call rfl)) fun X => ?_
  refine Py.RelTo.bind (R' := fun s' t' => UpToView (some sc) (some sc') s' t' ∧ s'.optionKey = s.optionKey) (Py.RelTo.mono (Py.relTo_set _ _) (fun _ _ h => h) ?_) fun _ => ?_
  · rintro _ _ ⟨_, _, ⟨_, _, ⟨s1, _, ⟨rfl, rfl⟩, rfl, rfl⟩, rfl, rfl⟩, rfl, rfl⟩
    refine ⟨⟨(resetUpdate c (((s1.hide o1).setFv fv).setScaler (some sc'))).viewed, ?_, rfl, rfl⟩, hfo⟩
    cases s1
    cases o1
    simp only at hdev1
    subst hdev1
    rfl
  refine Py.RelTo.bind (Py.Rel.to_inv (cautious_view D c (ys data)) (cautious_keeps D c _ (fun s' => s'.optionKey = s.optionKey)
    (fun _ h => h) fun _ _ h => h)) fun _ => ?_
  refine Py.RelTo.bind_self ?_
  rintro s2 _ ⟨⟨v, rfl, h1, h2⟩, hfo2⟩
  refine Py.RelTo.bind (R' := fun s' t' => UpToView (some sc) (some sc') s' t' ∧ s'.optionKey = s.optionKey) ?_ fun r => ?_
  · have hI : Py.Inv (fun s' : GState μ p => s'.optionKey = s.optionKey)
        (outerUpdate ⟨D, M, c, X.get?, ys data, ws data⟩ (c.fuel s2.minIt)) := by
      intro s' hs'
      refine ⟨fun _ t hm => ?_, fun _ t hm => ?_⟩
      · have h := ((outerUpdate_committed _ _ s').ok (SameCommitted.refl _) hm).setup
        exact (by unfold GState.optionKey; rw [h.forget, h.equation] : t.optionKey = s'.optionKey).trans hs'
      · have h := ((outerUpdate_committed _ _ s').error (SameCommitted.refl _) hm).setup
        exact (by unfold GState.optionKey; rw [h.forget, h.equation] : t.optionKey = s'.optionKey).trans hs'
    refine Py.RelTo.mono (Py.Rel.to_inv (outerUpdate_view ⟨D, M, c, X.get?, ys data, ws data⟩ _) hI) ?_ fun _ _ h => h
    rintro _ _ ⟨rfl, rfl⟩
    exact ⟨⟨v, rfl, h1, h2⟩, hfo2⟩
  refine Py.RelTo.bind (Py.Rel.to (Py.rel_attr rfl _)) fun r => ?_
  refine Py.RelTo.bind (Py.relTo_set _ _) fun _ => ?_
  refine Py.RelTo.mono (Py.relTo_set _ _) (fun _ _ h => h) ?_
  rintro _ _ ⟨_, _, ⟨s3, _, ⟨⟨v, rfl, h1, h2⟩, hfo3⟩, rfl, rfl⟩, rfl, rfl⟩
  refine ⟨(GState.commitStatistics (GState.setResult r.1 r.2 (s3.view v))).hidden, rfl, rfl, rfl, ⟨sc, sc', h1, h2, hQ'⟩,
    fun f hf => hok f ?_, fun k e he => hA k e ?_⟩
  · exact (congrArg (fun d : PyDict ℝ × PyDict Equation => d.1.get? 0) hfo3).symm.trans hf
  · exact (congrArg (fun d : PyDict ℝ × PyDict Equation => d.2.get? k) hfo3).symm.trans he

/-- Updates with twin batches. -/
theorem updates_twin (D : DistOps) (M : MethodOps μ) (c : GConfig μ p) {bs bs' : List (List (Obs p))}
    (h : List.Forall₂ (Twins F A Q) bs bs') :
    Py.RelTo (TwinState F A Q) (TwinState F A Q) (GState.updates D M c bs) (GState.updates D M c bs') := by
  induction h with
  | nil => exact Py.Rel.to (Py.rel_pure _)
  | cons h _ ih =>
    unfold GState.updates
    exact Py.RelTo.bind (update_twin D M c h) fun _ => ih

end Ondil
