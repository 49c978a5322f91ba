import Verif.Lemmas.GamlssCoordinatesOls
import Verif.Lemmas.Columns

/-!
# Whole calls of the distributional regression in other coordinates
-/

open scoped Matrix

namespace Ondil

/-! ### The columns of an equation -/

theorem npMask_cols {p : ℕ} (m : List Bool) : (∀ {α : Type} (x : Fin p → α), npMask x m = .error .indexError) ∨
    ∃ cols : List (Fin p), ∀ {α : Type} (x : Fin p → α), npMask x m = .ok (cols.map x) := by
  by_cases hl : m.length = p
  · subst hl
    refine .inr ⟨(List.finRange m.length).filter fun j => m[j], fun {α} x => ?_⟩
    unfold npMask
    rw [if_pos rfl]
    congr 1
    have e : (List.ofFn x).zip m = (List.finRange m.length).map fun j => (x j, m[j]) :=
      List.ext_getElem (by simp) fun i h1 h2 => by simp
    rw [e, List.filterMap_map]
    induction List.finRange m.length with
    | nil => rfl
    | cons j l ih =>
      rw [List.filterMap_cons, List.filter_cons, ih]
      simp only [Function.comp_apply]
      by_cases hj : m[j] = true
      · simp [hj]
      · simp [hj]
  · exact .inl fun x => by unfold npMask; rw [if_neg hl]

theorem npIndex_cols {p : ℕ} (l : List ℤ) : (∀ {α : Type} (x : Fin p → α), l.mapM (npIndex x) = .error .indexError) ∨
    ∃ cols : List (Fin p), ∀ {α : Type} (x : Fin p → α), l.mapM (npIndex x) = .ok (cols.map x) := by
  induction l with
  | nil => exact .inr ⟨[], fun x => rfl⟩
  | cons i l ih =>
    have h1 : (∀ {α : Type} (x : Fin p → α), npIndex x i = .error .indexError) ∨
        ∃ j : Fin p, ∀ {α : Type} (x : Fin p → α), npIndex x i = .ok (x j) := by
      by_cases h : 0 ≤ (if i < 0 then i + p else i) ∧ (if i < 0 then i + p else i).toNat < p
      · exact .inr ⟨⟨_, h.2⟩, fun x => by unfold npIndex; simp only; rw [dif_pos h]⟩
      · exact .inl fun x => by unfold npIndex; simp only; rw [dif_neg h]
    rcases h1 with h1 | ⟨j, h1⟩
    · exact .inl fun x => by rw [List.mapM_cons, h1]; rfl
    · rcases ih with ih | ⟨cols, ih⟩
      · exact .inl fun x => by rw [List.mapM_cons, h1, ih]; rfl
      · exact .inr ⟨j :: cols, fun x => by rw [List.mapM_cons, h1, ih]; rfl⟩

/-- The columns that an equation selects do not depend on the values. -/
theorem selectColumns_cols {p : ℕ} (eq : Equation) : (∃ e, ∀ {α : Type} (x : Fin p → α), selectColumns x eq = .error e) ∨
    ∃ cols : List (Fin p), ∀ {α : Type} (x : Fin p → α), selectColumns x eq = .ok (cols.map x) := by
  cases eq with
  | str s =>
    by_cases hs : s = "all"
    · exact .inr ⟨List.finRange p, fun x => by simp only [selectColumns]; rw [if_pos hs, List.ofFn_eq_map]⟩
    · exact .inl ⟨_, fun x => by simp only [selectColumns]; rw [if_neg hs]⟩
  | mask m =>
    rcases npMask_cols (p := p) m with h | ⟨cols, h⟩
    · exact .inl ⟨_, h⟩
    · exact .inr ⟨cols, h⟩
  | boolList m =>
    rcases npMask_cols (p := p) m with h | ⟨cols, h⟩
    · exact .inl ⟨_, h⟩
    · exact .inr ⟨cols, h⟩
  | index l =>
    rcases npIndex_cols (p := p) l with h | ⟨cols, h⟩
    · exact .inl ⟨_, h⟩
    · exact .inr ⟨cols, h⟩
  | intList l =>
    rcases npIndex_cols (p := p) l with h | ⟨cols, h⟩
    · exact .inl ⟨_, h⟩
    · exact .inr ⟨cols, h⟩
  | names l => exact .inl ⟨_, fun _ => rfl⟩
  | floatArray => exact .inl ⟨_, fun _ => rfl⟩
  | other => exact .inl ⟨_, fun _ => rfl⟩

theorem modelRow_cols {p : ℕ} (fi : Bool) (eq : Equation) :
    (∃ e, ∀ {α : Type} (one : α) (x : Fin p → α), modelRow one fi eq x = .error e) ∨
    ∃ cols : List (Fin p), (eq = .str "intercept" → cols = []) ∧
      ∀ {α : Type} (one : α) (x : Fin p → α), modelRow one fi eq x = .ok (if fi then one :: cols.map x else cols.map x) := by
  by_cases h : eq = .str "intercept"
  · cases fi with
    | false => exact .inl ⟨_, fun one x => by unfold modelRow; rw [if_pos h]; rfl⟩
    | true => exact .inr ⟨[], fun _ => rfl, fun one x => by unfold modelRow; rw [if_pos h]; rfl⟩
  · rcases selectColumns_cols (p := p) eq with ⟨e, he⟩ | ⟨cols, hc⟩
    · exact .inl ⟨e, fun one x => by unfold modelRow; rw [if_neg h, he]; rfl⟩
    · exact .inr ⟨cols, fun h' => absurd h' h, fun one x => by unfold modelRow; rw [if_neg h, hc]; rfl⟩

theorem modelRow_fin {p : ℕ} (fi : Bool) (eq : Equation) (x : Row p) :
    modelRow (.fin 1) fi eq (fun j => Flt.fin (x j)) = (modelRow (1 : ℝ) fi eq x).map (List.map Flt.fin) := by
  rcases modelRow_cols (p := p) fi eq with ⟨e, he⟩ | ⟨cols, _, hc⟩
  · rw [he, he]; rfl
  · rw [hc, hc]
    cases fi <;> simp [Except.map]

/-! ### Designs -/

variable {p : ℕ}

theorem design_recode {J : ℕ} {A : Matrix (Fin J) (Fin J) ℝ} {fi : Bool} {eq : Equation} {T : Row p → Row p} (h : SameSpan fi eq T A)
    {X : List (Row p)} (h0 : X ≠ []) :
    BothRel (RecodeX A) (modelArray (.fin 1) fi eq (X.map fun x j => Flt.fin (x j)))
      (modelArray (.fin 1) fi eq ((X.map T).map fun x j => Flt.fin (x j))) := by
  have key : ∀ X : List (Row p), BothRel (fun r r' => ∃ rows : List (Row J), rows.length = X.length ∧ r = rows.map ofVec ∧
      r' = (recodeRows A rows).map ofVec) (modelArray (.fin 1) fi eq (X.map fun x j => Flt.fin (x j)))
      (modelArray (.fin 1) fi eq ((X.map T).map fun x j => Flt.fin (x j))) := by
    intro X
    unfold modelArray
    induction X with
    | nil => exact .inr ⟨_, _, rfl, rfl, [], rfl, rfl, rfl⟩
    | cons x X ih =>
      simp only [List.map_cons, List.mapM_cons]
      rw [modelRow_fin, modelRow_fin]
      rcases h.2 x with ⟨e, h1, h2⟩ | ⟨v, h1, h2⟩
      · rw [h1, h2]
        exact .inl ⟨e, rfl, rfl⟩
      · rw [h1, h2]
        refine BothRel.bind (BothRel.ok (Q := fun r r' => r = ofVec v ∧ r' = ofVec (v ᵥ* A)) ⟨?_, ?_⟩) fun r r' hr =>
          BothRel.bind ih fun l l' hl => ?_
        · simp [ofVec]
        · simp [ofVec]
        · obtain ⟨rfl, rfl⟩ := hr
          obtain ⟨rows, hn, rfl, rfl⟩ := hl
          exact BothRel.ok ⟨v :: rows, by simp [hn], rfl, rfl⟩
  refine BothRel.mono (key X) fun r r' hr => ?_
  obtain ⟨rows, hn, h1, h2⟩ := hr
  refine ⟨rows, ?_, h1, h2⟩
  rintro rfl
  exact h0 (List.length_eq_zero_iff.1 hn.symm)

theorem forParams_relAt {α β : Type} {Q : ℕ → α → β → Prop} (n : ℕ) {f : ℕ → Except PyErr α} {g : ℕ → Except PyErr β}
    (h : ∀ k, BothRel (Q k) (f k) (g k)) :
    BothRel (fun d d' : PyDict _ => ∀ k, OptRel (Q k) (PyDict.get? d k) (PyDict.get? d' k)) (forParams n f) (forParams n g) := by
  unfold forParams
  refine BothRel.mono (mapM_forall₂ (P := Eq) (Q := fun (x : ℕ × α) (y : ℕ × β) => x.1 = y.1 ∧ Q x.1 x.2 y.2)
    (List.forall₂_same.2 fun _ _ => rfl) fun k _ hk => ?_) fun a b hab k => ?_
  · subst hk
    exact BothRel.bind (h k) fun x y hxy => BothRel.ok ⟨rfl, hxy⟩
  · induction hab with
    | nil => exact .inl ⟨rfl, rfl⟩
    | @cons x y l l' h1 _ ih =>
      obtain ⟨kx, vx⟩ := x
      obtain ⟨ky, vy⟩ := y
      obtain ⟨rfl, hQ⟩ := h1
      simp only [PyDict.get?]
      split_ifs with hk
      · subst hk
        exact .inr ⟨vx, vy, rfl, rfl, hQ⟩
      · exact ih

/-- Equations and intercepts whose regressors span the same, and no scaling. -/
def SpanOk (T : Row p → Row p) (J : ℕ → ℕ) (A : ∀ k, Matrix (Fin (J k)) (Fin (J k)) ℝ) (eqs : PyDict Equation) (fis : PyDict Bool)
    (sc : Option (Scaler p)) : Prop :=
  (∀ k eq fi, eqs.get? k = some eq → fis.get? k = some fi → SameSpan fi eq T (A k)) ∧ ∀ s, sc = some s → ∃ n, s = .off n

variable {μ : Type} {T : Row p → Row p} {J : ℕ → ℕ} {A : ∀ k, Matrix (Fin (J k)) (Fin (J k)) ℝ} {ok : μ → Prop}

/-- The relation between the two estimators. -/
abbrev SpanRel (T : Row p → Row p) (J : ℕ → ℕ) (A : ∀ k, Matrix (Fin (J k)) (Fin (J k)) ℝ) (ok : μ → Prop) :
    GState μ p → GState μ p → Prop := CodedRel (recodeView J A) ok (SpanOk T J A)

theorem designFor_recode {s : GState μ p} {sc : Scaler p} (h : ∀ k eq fi, s.equation.get? k = some eq → s.fitIntercept.get? k = some fi →
    SameSpan fi eq T (A k)) (hsc : ∃ n, sc = .off n) (v : CodedParts) {X : List (Row p)} (h0 : X ≠ []) (k : ℕ) :
    BothRel (RecodeX (A k)) (designFor s sc X k) (designFor (s.coded v) sc (X.map T) k) := by
  obtain ⟨n, rfl⟩ := hsc
  unfold designFor
  change BothRel _ _ (match s.equation.get? k, s.fitIntercept.get? k with
    | some eq, some fi => modelArray (.fin 1) fi eq ((Scaler.off n).transformFlt (X.map T))
    | _, _ => .error .keyError)
  cases h1 : s.equation.get? k with
  | none => exact .inl ⟨_, rfl, rfl⟩
  | some eq =>
    cases h2 : s.fitIntercept.get? k with
    | none => exact .inl ⟨_, rfl, rfl⟩
    | some fi => exact design_recode (h k eq fi h1 h2) h0

/-! ### `predict` -/

theorem bothRel_eq {α : Type} {x y : Except PyErr α} (h : BothRel (fun a b => b = a) x y) : y = x := by
  rcases h with ⟨e, h1, h2⟩ | ⟨a, b, h1, h2, rfl⟩ <;> rw [h1, h2]

theorem predict_coded (hA : ∀ k, IsUnit (A k).det) (D : DistOps) {s t : GState μ p} (h : SpanRel T J A ok s t) (X : List (Row p)) (what : What) :
    predictParams D t (X.map T) what = predictParams D s X what := by
  have hl : linearPredictors D t (X.map T) = linearPredictors D s X := by
    obtain ⟨⟨v, hv, rfl⟩, _, h3⟩ := h
    unfold linearPredictors
    change (match s.nObs, X.map T, s.scaler with
      | none, _, _ => Except.error PyErr.notFitted
      | some _, [], _ => Except.error PyErr.valueError
      | some _, _ :: _, none => Except.error PyErr.notFitted
      | some _, x :: X, some sc =>
        (List.range D.nParams).mapM fun k => do
          let B ← designFor (s.coded v) sc (x :: X) k
          match (s.coded v).coef k with
          | none => Except.error PyErr.attributeError
          | some b => matVec B b) = _
    cases hn : s.nObs with
    | none => rfl
    | some n =>
      cases X with
      | nil => rfl
      | cons x X =>
        cases hs : s.scaler with
        | none => rfl
        | some sc =>
          simp only [List.map_cons]
          refine mapM_agree fun k _ => ?_
          refine bothRel_eq ?_
          refine BothRel.bind (designFor_recode h3.1 (h3.2 sc hs) v (List.cons_ne_nil x X) k) fun B B' hB => ?_
          change BothRel _ _ (match v.coef k with
            | none => Except.error PyErr.attributeError
            | some b => matVec B' b)
          rcases hv.coef k with ⟨h1, h2⟩ | ⟨b, b', h1, h2, hb⟩
          · rw [h1, h2]
            exact .inl ⟨_, rfl, rfl⟩
          · rw [h1, h2]
            change BothRel (fun a b => b = a) (matVec B b) (matVec B' b')
            rw [predict_recode (hA k) hB hb]
            cases matVec B b with
            | error e => exact .inl ⟨e, rfl, rfl⟩
            | ok r => exact .inr ⟨r, r, rfl, rfl, rfl⟩
  unfold predictParams
  rw [hl, List.length_map]

/-! ### `fit` -/

/-- Estimators in two coordinates with a property of the first. -/
def CodedWith (V : DesignView) (Q : GState μ p → Prop) (s t : GState μ p) : Prop := Coded V s t ∧ Q s

theorem CodedWith.set {V : DesignView} {Q Q' : GState μ p → Prop} {s t : GState μ p} (h : CodedWith V Q s t) (f : GState μ p → GState μ p)
    (hf : ∀ v, f (s.coded v) = (f s).coded v) (hk : KeepsCoded s (f s)) (hq : Q s → Q' (f s)) : CodedWith V Q' (f s) (f t) :=
  ⟨h.1.set f hf hk, hq h.2⟩

theorem CodedWith.keep {V : DesignView} {Q : GState μ p → Prop} {s t : GState μ p} (h : CodedWith V Q s t) (f : GState μ p → GState μ p)
    (hf : ∀ v, f (s.coded v) = (f s).coded v) (hk : KeepsCoded s (f s)) (hq : Q s → Q (f s)) : CodedWith V Q (f s) (f t) :=
  h.set f hf hk hq

theorem prepare_coded (V : DesignView) (frames : Bool) (D : DistOps) (M : MethodOps μ) (c : GConfig μ p)
    {P : PyDict Equation → PyDict Bool → Option (Scaler p) → Prop}
    (hok : ∀ d, (c.method.process D.nParams (.value (some M.ols))).result = .ok d → ∀ j m, (d.get? j).bind id = some m → ok m)
    (hP : ∀ eqs fis, (processEquation frames D.nParams c.equation).1 = .ok eqs →
      (c.fitIntercept.process D.nParams (.value true)).result = .ok fis → P eqs fis none) :
    Py.Sim (Coded V) (CodedRel V ok P) Eq (prepare frames D M c) (prepare frames D M c) := by
  unfold prepare
  refine Py.Sim.bind (Py.sim_call (bothRel_self fun d hd => hd)) fun eq _ hm => ?_
  obtain ⟨rfl, heq⟩ := hm
  refine Py.Sim.bind (R' := CodedWith V fun s => s.equation = eq) (Py.sim_set fun s t h => ⟨h.set (GState.setEquation eq) (fun _ => rfl)
    ⟨rfl, rfl, rfl, rfl, rfl⟩, rfl⟩) fun _ _ _ => ?_
  refine Py.Sim.bind (Py.sim_call (bothRel_self hok)) fun ms _ hm => ?_
  obtain ⟨rfl, hms⟩ := hm
  refine Py.Sim.bind (Py.sim_raiseIf Iff.rfl _) fun _ _ _ => ?_
  refine Py.Sim.bind (R' := CodedWith V fun s => s.equation = eq ∧ MethodsOk ok s) (Py.sim_set fun s t h =>
    h.set (GState.setMethod fun j => (ms.get? j).bind id) (fun _ => rfl) ⟨rfl, rfl, rfl, rfl, rfl⟩ fun hq => ⟨hq, hms⟩) fun _ _ _ => ?_
  refine Py.Sim.bind (Py.sim_call (BothRel.of_eq rfl)) fun fo _ hm => ?_
  subst hm
  refine Py.Sim.bind (Py.sim_set fun s t h => h.keep (GState.setForget fo) (fun _ => rfl) ⟨rfl, rfl, rfl, rfl, rfl⟩ id) fun _ _ _ => ?_
  refine Py.Sim.bind (Py.sim_call (BothRel.of_eq rfl)) fun ic _ hm => ?_
  subst hm
  refine Py.Sim.bind (Py.sim_set fun s t h => h.keep (GState.setIc ic) (fun _ => rfl) ⟨rfl, rfl, rfl, rfl, rfl⟩ id) fun _ _ _ => ?_
  refine Py.Sim.bind (Py.sim_call (bothRel_self fun d hd => hd)) fun fi _ hm => ?_
  obtain ⟨rfl, hfi⟩ := hm
  refine Py.Sim.bind (R' := CodedWith V fun s => (s.equation = eq ∧ MethodsOk ok s) ∧ s.fitIntercept = fi) (Py.sim_set fun s t h =>
    h.set (GState.setFitIntercept fi) (fun _ => rfl) ⟨rfl, rfl, rfl, rfl, rfl⟩ fun hq => ⟨hq, rfl⟩) fun _ _ _ => ?_
  refine Py.Sim.bind (Py.sim_call (BothRel.of_eq rfl)) fun ri _ hm => ?_
  subst hm
  refine Py.Sim.bind (Py.sim_set fun s t h => h.keep (GState.setRegularizeIntercept ri) (fun _ => rfl) ⟨rfl, rfl, rfl, rfl, rfl⟩ id)
    fun _ _ _ => ?_
  refine Py.Sim.bind (Py.sim_call (BothRel.of_eq rfl)) fun st _ hm => ?_
  subst hm
  refine Py.Sim.bind (Py.sim_set fun s t h => h.keep (GState.setStepSize st) (fun _ => rfl) ⟨rfl, rfl, rfl, rfl, rfl⟩ id) fun _ _ _ => ?_
  refine Py.Sim.bind (Py.sim_raiseIf Iff.rfl _) fun _ _ _ => ?_
  refine Py.Sim.bind (Py.sim_set fun s t h => h.keep (GState.setParamOrder (c.paramOrder.getD (List.range D.nParams))) (fun _ => rfl)
    ⟨rfl, rfl, rfl, rfl, rfl⟩ id) fun _ _ _ => ?_
  refine Py.sim_set fun s t h => ⟨h.1.set (GState.setScaler none) (fun _ => rfl) ⟨rfl, rfl, rfl, rfl, rfl⟩, h.2.1.2, ?_⟩
  change P s.equation s.fitIntercept none
  rw [h.2.1.1, h.2.2]
  exact hP eq fi heq hfi

theorem ys_inCoordinates (T : Row p → Row p) (d : List (Obs p)) : ys (d.map (Obs.inCoordinates T)) = ys d := by
  simp [ys, Obs.inCoordinates]

theorem ws_inCoordinates (T : Row p → Row p) (d : List (Obs p)) : ws (d.map (Obs.inCoordinates T)) = ws d := by
  simp [ws, Obs.inCoordinates]

theorem xs_inCoordinates (T : Row p → Row p) (d : List (Obs p)) : xs (d.map (Obs.inCoordinates T)) = (xs d).map T := by
  simp [xs, Obs.inCoordinates]

theorem scalerFit_off {c : ToScale p} (hs : c.selection = none) (f : ℝ) (X : List (Row p)) (w : List ℝ) :
    BothRel (fun a b => b = a ∧ ∃ n, a = .off n) (Scaler.fit c f X w) (Scaler.fit c f (X.map T) w) := by
  unfold Scaler.fit
  rw [hs]
  simp only [List.length_map]
  split_ifs
  · exact .inl ⟨_, rfl, rfl⟩
  · exact .inr ⟨_, _, rfl, rfl, rfl, _, rfl⟩

theorem scalerUpdate_off {sc : Scaler p} (hs : ∃ n, sc = .off n) (f : ℝ) (X : List (Row p)) (w : List ℝ) :
    BothRel (fun a b => b = a ∧ ∃ n, a = .off n) (sc.update f X w) (sc.update f (X.map T) w) := by
  obtain ⟨n, rfl⟩ := hs
  unfold Scaler.update
  simp only [List.length_map]
  split_ifs
  · exact .inl ⟨_, rfl, rfl⟩
  · exact .inr ⟨_, _, rfl, rfl, rfl, _, rfl⟩

theorem xs_ne_nil {d : List (Obs p)} (h : d ≠ []) : xs d ≠ [] := by
  unfold xs
  simpa using h

set_option maxHeartbeats 1000000 in
theorem fit_coded (frames : Bool) (D : DistOps) (M : MethodOps μ) (c : GConfig μ p)
    (hM : (recodeView J A).Respects ok M) (hs : c.scaleInputs.selection = none)
    (hok : ∀ d, (c.method.process D.nParams (.value (some M.ols))).result = .ok d → ∀ j m, (d.get? j).bind id = some m → ok m)
    (hP : ∀ eqs fis, (processEquation frames D.nParams c.equation).1 = .ok eqs →
      (c.fitIntercept.process D.nParams (.value true)).result = .ok fis →
      ∀ k eq fi, eqs.get? k = some eq → fis.get? k = some fi → SameSpan fi eq T (A k)) (data : List (Obs p)) :
    Py.Sim (Coded (recodeView J A)) (SpanRel T J A ok) Eq (GState.fit frames D M c data)
      (GState.fit frames D M c (data.map (Obs.inCoordinates T))) := by
  unfold GState.fit
  rw [ys_inCoordinates, ws_inCoordinates, xs_inCoordinates]
  refine Py.Sim.bind (Py.sim_raiseIf Iff.rfl _) fun _ _ _ => ?_
  refine Py.Sim.bind (prepare_coded _ frames D M c hok (P := SpanOk T J A) fun eqs fis h1 h2 =>
    ⟨hP eqs fis h1 h2, fun s h => by cases h⟩) fun _ _ _ => ?_
  by_cases hd : data = []
  · subst hd
    rw [List.map_nil]
    refine Py.Sim.bind (R' := SpanRel T J A ok) (Q := fun _ _ => False) ?_ fun _ _ h => h.elim
    intro s t _
    refine .inl ⟨.valueError, s, t, ?_, ?_⟩ <;> simp [Py.raiseIf]
  refine Py.Sim.bind (Py.sim_raiseIf (by simp) _) fun _ _ _ => ?_
  refine Py.Sim.bind (Py.sim_raiseIf Iff.rfl _) fun _ _ _ => ?_
  refine Py.Sim.bind (Py.sim_set fun s t h => h.set (GState.setNObs (some (ws data).sum)) (fun _ => rfl) ⟨rfl, rfl, rfl, rfl, rfl⟩
    rfl rfl rfl rfl) fun _ _ _ => ?_
  refine Py.Sim.bind_self fun s t hR => ?_
  obtain ⟨⟨v, hv, rfl⟩, _, hspan, _⟩ := hR
  refine Py.Sim.bind (Py.sim_call (BothRel.of_eq rfl)) fun nt _ hm => ?_
  subst hm
  refine Py.Sim.bind (Py.sim_set fun s t h => h.set (GState.setNTraining nt) (fun _ => rfl) ⟨rfl, rfl, rfl, rfl, rfl⟩ rfl rfl rfl rfl)
    fun _ _ _ => ?_
  refine Py.Sim.bind (Py.sim_call (BothRel.of_eq rfl)) fun fv _ hm => ?_
  subst hm
  refine Py.Sim.bind (Py.sim_set fun s t h => h.set (GState.setFv fv) (fun _ => rfl) ⟨rfl, rfl, rfl, rfl, rfl⟩ rfl rfl rfl rfl)
    fun _ _ _ => ?_
  refine Py.Sim.bind (Py.sim_call (BothRel.of_eq rfl)) fun nf _ hm => ?_
  subst hm
  refine Py.Sim.bind (Py.sim_set fun s t h => h.set (GState.setNFeatures nf) (fun _ => rfl) ⟨rfl, rfl, rfl, rfl, rfl⟩ rfl rfl rfl rfl)
    fun _ _ _ => ?_
  refine Py.Sim.bind (Py.sim_attr rfl _) fun f0 _ hm => ?_
  subst hm
  refine Py.Sim.bind (Py.sim_call (scalerFit_off hs f0 (xs data) (ws data))) fun _ sc hm => ?_
  obtain ⟨rfl, hoff⟩ := hm
  refine Py.Sim.bind (R' := SpanRel T J A ok) (Py.sim_set fun s t h => ⟨h.1.set (GState.setScaler (some sc)) (fun _ => rfl)
    ⟨rfl, rfl, rfl, rfl, rfl⟩, h.2.1, h.2.2.1, fun s' hs' => by cases hs'; exact hoff⟩) fun _ _ _ => ?_
  refine Py.Sim.bind (Py.sim_call (forParams_relAt (Q := fun k => RecodeX (A k)) D.nParams fun k =>
    designFor_recode hspan hoff v (xs_ne_nil hd) k)) fun X X' hX => ?_
  refine Py.Sim.bind (Py.sim_call (BothRel.of_eq rfl)) fun reg _ hm => ?_
  subst hm
  refine Py.Sim.bind (R' := SpanRel T J A ok) (Py.sim_set fun s t h => ?_) fun _ _ _ => ?_
  · obtain ⟨⟨v, hv, rfl⟩, h2⟩ := h
    refine ⟨⟨⟨fun _ => none, fun _ => none, v.xGramNew, v.yGramNew,
      fun k => if k < D.nParams then (nf.get? k).map fun J => List.replicate J (.fin 0) else none,
      if c.debug then fun _ => none else v.debugCoef⟩, ⟨fun _ => .none, fun _ => .none, hv.3, hv.4, fun k => ?_⟩, rfl⟩, h2⟩
    change OptRel _ (if k < D.nParams then (nf.get? k).map fun J => List.replicate J (Flt.fin 0) else none)
      (if k < D.nParams then (nf.get? k).map fun J => List.replicate J (Flt.fin 0) else none)
    split_ifs
    · cases nf.get? k with
      | none => exact .none
      | some n => exact .inr ⟨_, _, rfl, rfl, hM.zero k n⟩
    · exact .none
  refine Py.Sim.bind_self fun s t hR => ?_
  obtain ⟨⟨v, hv, rfl⟩, _⟩ := hR
  refine Py.Sim.bind (outerFit_coded ⟨D, M, c, X.get?, ys data, ws data⟩ hM (X' := X'.get?) hX _) fun r _ hm => ?_
  subst hm
  refine Py.Sim.bind (Py.sim_attr rfl _) fun r _ hm => ?_
  subst hm
  exact Py.sim_set fun s t h => h.set (GState.setResult r.1 r.2) (fun _ => rfl) ⟨rfl, rfl, rfl, rfl, rfl⟩ rfl rfl rfl rfl

/-! ### `update` -/

theorem cautious_coded (D : DistOps) (c : GConfig μ p) (y : List ℝ) :
    Py.Sim (SpanRel T J A ok) (SpanRel T J A ok) Eq (cautious D c y) (cautious D c y) := by
  unfold cautious
  refine Py.Sim.bind_self fun s t hR => ?_
  obtain ⟨⟨v, hv, rfl⟩, _⟩ := hR
  cases c.cautiousUpdates with
  | false => exact Py.sim_pure rfl
  | true =>
    rw [if_pos rfl, if_pos rfl]
    refine Py.Sim.bind (Py.sim_call (BothRel.of_eq rfl)) fun lo _ hm => ?_
    subst hm
    refine Py.Sim.bind (Py.sim_call (BothRel.of_eq rfl)) fun hi _ hm => ?_
    subst hm
    split_ifs
    · exact Py.sim_set fun s t h => h.set GState.outlierSchedule (fun _ => rfl) ⟨rfl, rfl, rfl, rfl, rfl⟩ rfl rfl rfl rfl
    · exact Py.sim_set fun s t h => h.set (GState.setMinIt c.minItOuter) (fun _ => rfl) ⟨rfl, rfl, rfl, rfl, rfl⟩ rfl rfl rfl rfl

set_option maxHeartbeats 1000000 in
theorem update_coded (hA : ∀ k, IsUnit (A k).det) (D : DistOps) (M : MethodOps μ) (c : GConfig μ p)
    (hM : (recodeView J A).Respects ok M) (data : List (Obs p)) :
    Py.Sim (SpanRel T J A ok) (SpanRel T J A ok) Eq (GState.update D M c data)
      (GState.update D M c (data.map (Obs.inCoordinates T))) := by
  unfold GState.update
  rw [ys_inCoordinates, ws_inCoordinates, xs_inCoordinates]
  refine Py.Sim.bind (Py.sim_raiseIf Iff.rfl _) fun _ _ _ => ?_
  by_cases hd : data = []
  · subst hd
    rw [List.map_nil]
    refine Py.Sim.bind (R' := SpanRel T J A ok) (Q := fun _ _ => False) ?_ fun _ _ h => h.elim
    intro s t _
    refine .inl ⟨.valueError, s, t, ?_, ?_⟩ <;> simp [Py.raiseIf]
  refine Py.Sim.bind (Py.sim_raiseIf (by simp) _) fun _ _ _ => ?_
  refine Py.Sim.bind (Py.sim_raiseIf Iff.rfl _) fun _ _ _ => ?_
  refine Py.Sim.bind_self fun s t hR => ?_
  obtain ⟨⟨v, hv, rfl⟩, _⟩ := hR
  refine Py.Sim.bind (Py.sim_attr rfl _) fun n0 _ hm => ?_
  subst hm
  refine Py.Sim.bind (Py.sim_set fun s t h => h.set (GState.setNObs (some (n0 + (ws data).sum))) (fun _ => rfl) ⟨rfl, rfl, rfl, rfl, rfl⟩
    rfl rfl rfl rfl) fun _ _ _ => ?_
  refine Py.Sim.bind (Py.sim_call (BothRel.of_eq rfl)) fun nt _ hm => ?_
  subst hm
  refine Py.Sim.bind (Py.sim_set fun s t h => h.set (GState.setNTraining nt) (fun _ => rfl) ⟨rfl, rfl, rfl, rfl, rfl⟩ rfl rfl rfl rfl)
    fun _ _ _ => ?_
  refine Py.Sim.bind_self fun s t hR => ?_
  have hpred := predict_coded hA D hR (xs data) .response
  obtain ⟨⟨v, hv, rfl⟩, _, hspan, hoff0⟩ := hR
  refine Py.Sim.bind (Py.sim_call (BothRel.of_eq hpred.symm)) fun fv _ hm => ?_
  subst hm
  refine Py.Sim.bind (Py.sim_set fun s t h => h.set (GState.setFv fv) (fun _ => rfl) ⟨rfl, rfl, rfl, rfl, rfl⟩ rfl rfl rfl rfl)
    fun _ _ _ => ?_
  refine Py.Sim.bind (Q := fun a b => b = a ∧ ∃ n, a = .off n) (Py.sim_attr_rel ?_ _) fun _ sc0 hm => ?_
  · change (s.scaler = none ∧ s.scaler = none) ∨ ∃ a b, s.scaler = some a ∧ s.scaler = some b ∧ _
    cases h : s.scaler with
    | none => exact .inl ⟨rfl, rfl⟩
    | some sc => exact .inr ⟨sc, sc, rfl, rfl, rfl, hoff0 sc h⟩
  obtain ⟨rfl, hoff1⟩ := hm
  refine Py.Sim.bind (Py.sim_attr rfl _) fun f0 _ hm => ?_
  subst hm
  refine Py.Sim.bind (Py.sim_call (scalerUpdate_off hoff1 f0 (xs data) (ws data))) fun _ sc hm => ?_
  obtain ⟨rfl, hoff⟩ := hm
  refine Py.Sim.bind (R' := SpanRel T J A ok) (Py.sim_set fun s t h => ⟨h.1.set (GState.setScaler (some sc)) (fun _ => rfl)
    ⟨rfl, rfl, rfl, rfl, rfl⟩, h.2.1, h.2.2.1, fun s' hs' => by cases hs'; exact hoff⟩) fun _ _ _ => ?_
  refine Py.Sim.bind (Py.sim_call (forParams_relAt (Q := fun k => RecodeX (A k)) D.nParams fun k =>
    designFor_recode hspan hoff v (xs_ne_nil hd) k)) fun X X' hX => ?_
  refine Py.Sim.bind (R' := SpanRel T J A ok) (Py.sim_set fun s t h => ?_) fun _ _ _ => ?_
  · obtain ⟨⟨v, hv, rfl⟩, h2⟩ := h
    exact ⟨⟨⟨v.xGram, v.yGram, v.xGram, v.yGram, v.coef, if c.debug then fun _ => none else v.debugCoef⟩,
      ⟨hv.1, hv.2, hv.1, hv.2, hv.5⟩, rfl⟩, h2⟩
  refine Py.Sim.bind (cautious_coded D c _) fun _ _ _ => ?_
  refine Py.Sim.bind_self fun s t hR => ?_
  obtain ⟨⟨v, hv, rfl⟩, _⟩ := hR
  refine Py.Sim.bind (outerUpdate_coded ⟨D, M, c, X.get?, ys data, ws data⟩ hM (X' := X'.get?) hX _) fun r _ hm => ?_
  subst hm
  refine Py.Sim.bind (Py.sim_attr rfl _) fun r _ hm => ?_
  subst hm
  refine Py.Sim.bind (Py.sim_set fun s t h => h.set (GState.setResult r.1 r.2) (fun _ => rfl) ⟨rfl, rfl, rfl, rfl, rfl⟩ rfl rfl rfl rfl)
    fun _ _ _ => ?_
  refine Py.sim_set fun s t h => ?_
  obtain ⟨⟨v, hv, rfl⟩, h2⟩ := h
  exact ⟨⟨⟨v.xGramNew, v.yGramNew, v.xGramNew, v.yGramNew, v.coef, v.debugCoef⟩, ⟨hv.3, hv.4, hv.3, hv.4, hv.5⟩, rfl⟩, h2⟩

theorem updates_coded (hA : ∀ k, IsUnit (A k).det) (D : DistOps) (M : MethodOps μ) (c : GConfig μ p)
    (hM : (recodeView J A).Respects ok M) (bs : List (List (Obs p))) :
    Py.Sim (SpanRel T J A ok) (SpanRel T J A ok) Eq (GState.updates D M c bs)
      (GState.updates D M c (bs.map fun b => b.map (Obs.inCoordinates T))) := by
  induction bs with
  | nil => exact Py.sim_pure rfl
  | cons b bs ih =>
    rw [List.map_cons]
    unfold GState.updates
    exact Py.Sim.bind (update_coded hA D M c hM b) fun _ _ _ => ih

/-- A new estimator is the same in all coordinates. -/
theorem new_coded (V : DesignView) : Coded V (GState.new μ p) (GState.new μ p) :=
  ⟨⟨fun _ => none, fun _ => none, fun _ => none, fun _ => none, fun _ => none, fun _ => none⟩,
    ⟨fun _ => .none, fun _ => .none, fun _ => .none, fun _ => .none, fun _ => .none⟩, rfl⟩

end Ondil
