import Verif.Lemmas.GamlssOriginOls
import Verif.Lemmas.GamlssCoordinatesCalls

/-!
# Whole calls of the distributional regression with the response from another origin
-/

namespace Ondil

variable {μ : Type} {p : ℕ}

/-! ### Lists -/

/-- Change the first entry. -/
def headMap {α : Type} (h : α → α) : List α → List α
  | [] => []
  | a :: l => h a :: l

theorem mapM_head {α β : Type} {f f' : β → Except PyErr α} {h : α → α} {a a' : β} {l : List β} (h0 : f' a' = (f a).map h)
    (hl : l.mapM f' = l.mapM f) : (a' :: l).mapM f' = ((a :: l).mapM f).map (headMap h) := by
  rw [List.mapM_cons, List.mapM_cons, h0, hl]
  cases f a with
  | error e => rfl
  | ok x =>
    cases l.mapM f with
    | error e => rfl
    | ok r => rfl

theorem mapM_range {α : Type} {f f' : ℕ → Except PyErr α} {h : α → α} (h0 : f' 0 = (f 0).map h) (hs : ∀ k, k ≠ 0 → f' k = f k) (n : ℕ) :
    (List.range n).mapM f' = ((List.range n).mapM f).map (headMap h) := by
  cases n with
  | zero => rfl
  | succ n =>
    rw [List.range_succ_eq_map]
    refine mapM_head h0 (mapM_agree fun k hk => hs k ?_)
    obtain ⟨j, _, rfl⟩ := List.mem_map.1 hk
    exact Nat.succ_ne_zero j

theorem mapM_zip {α : Type} {g : ℕ → α → Except PyErr α} {h : α → α} (h0 : ∀ a, g 0 (h a) = (g 0 a).map h) (l : List α) (n : ℕ) :
    ((headMap h l).zip (List.range n)).mapM (fun e => g e.2 e.1) = ((l.zip (List.range n)).mapM fun e => g e.2 e.1).map (headMap h) := by
  cases n with
  | zero =>
    simp only [List.range_zero, List.zip_nil_right]
    rfl
  | succ n =>
    cases l with
    | nil => rfl
    | cons a l =>
      rw [List.range_succ_eq_map]
      exact mapM_head (f := fun e : α × ℕ => g e.2 e.1) (a := (a, 0)) (a' := (h a, 0)) (h0 a) rfl

theorem stack_plus (δ : ℝ) (n : ℕ) (cols : List Arr1) :
    Fv.stack n (headMap (List.map (Flt.plus δ)) cols) = (Fv.stack n cols).map (locationPlus δ) := by
  unfold Fv.stack
  rw [List.map_map]
  refine List.map_congr_left fun i _ => ?_
  funext k
  cases cols with
  | nil =>
    by_cases hk : k = 0
    · subst hk
      simp [headMap, locationPlus, Flt.plus, Flt.add]
    · simp [headMap, locationPlus, hk]
  | cons c cs =>
    by_cases hk : k = 0
    · subst hk
      have : Flt.plus δ .nan = .nan := rfl
      simp [headMap, locationPlus, List.getElem?_map]
      cases c[i]? <;> simp [this]
    · obtain ⟨j, rfl⟩ := Nat.exists_eq_succ_of_ne_zero hk
      simp [headMap, locationPlus]

theorem mapM_results {α β : Type} {f : α → Except PyErr β} {l : List α} {r : List β} (h : l.mapM f = .ok r) :
    List.Forall₂ (fun a b => f a = .ok b) l r := by
  induction l generalizing r with
  | nil =>
    cases h
    exact .nil
  | cons a l ih =>
    rw [List.mapM_cons] at h
    cases h1 : f a with
    | error e => rw [h1] at h; cases h
    | ok b =>
      cases h2 : l.mapM f with
      | error e => rw [h1, h2] at h; cases h
      | ok bs =>
        rw [h1, h2] at h
        cases h
        exact .cons h1 (ih h2)

/-! ### Designs -/

/-- With an intercept the equation has `J` further regressors, or it cannot be read. -/
def EquationOk (p J : ℕ) (eq : Equation) : Prop :=
  (∃ e, ∀ x : Fin p → Flt, modelRow (.fin 1) true eq x = .error e) ∨
    ∃ cols : List (Fin p), cols.length = J ∧ ∀ x : Fin p → Flt, modelRow (.fin 1) true eq x = .ok (.fin 1 :: cols.map x)

theorem equationOk_exists (p : ℕ) (eq : Equation) : ∃ J, EquationOk p J eq := by
  rcases modelRow_cols (p := p) true eq with ⟨e, he⟩ | ⟨cols, _, hc⟩
  · exact ⟨0, .inl ⟨e, fun x => he _ x⟩⟩
  · exact ⟨cols.length, .inr ⟨cols, rfl, fun x => hc _ x⟩⟩

variable {J : ℕ} {δ f0 : ℝ} {ok : μ → Prop} {q : Prop} {N : ℕ → Prop}

theorem designFor_rows {s : GState μ p} {sc : Scaler p} {X : List (Row p)} {k : ℕ} {A : Arr2} (h : designFor s sc X k = .ok A) :
    A.length = X.length := by
  unfold designFor at h
  obtain ⟨f, hf⟩ := transformFlt_maps sc
  cases h1 : s.equation.get? k with
  | none => rw [h1] at h; cases h
  | some eq =>
    cases h2 : s.fitIntercept.get? k with
    | none => rw [h1, h2] at h; cases h
    | some fi =>
      rw [h1, h2, hf] at h
      have := (mapM_results h).length_eq
      rw [List.length_map] at this
      exact this.symm

theorem designFor_intercept {s : GState μ p} (ho : MoveOptions ok f0 (EquationOk p J) s) {sc : Scaler p} {X : List (Row p)} (h0 : X ≠ [])
    {A : Arr2} (h : designFor s sc X 0 = .ok A) : InterceptRows J X.length A := by
  have hl := designFor_rows h
  refine ⟨hl, fun hA => h0 ?_, fun x hx => ?_⟩
  · rw [hA] at hl
    exact List.length_eq_zero_iff.1 hl.symm
  · unfold designFor at h
    cases h1 : s.equation.get? 0 with
    | none => rw [h1] at h; cases h
    | some eq =>
      cases h2 : s.fitIntercept.get? 0 with
      | none => rw [h1, h2] at h; cases h
      | some fi =>
        obtain rfl := ho.intercept fi h2
        rw [h1, h2] at h
        have hall := mapM_results h
        obtain ⟨z, _, hz⟩ : ∃ z ∈ sc.transformFlt X, modelRow (.fin 1) true eq z = .ok x := by
          clear hl h
          generalize sc.transformFlt X = Z at hall
          induction hall with
          | nil => cases hx
          | cons h1 _ ih =>
            rcases List.mem_cons.1 hx with rfl | hx
            · exact ⟨_, List.mem_cons_self .., h1⟩
            · obtain ⟨z, hz, h⟩ := ih hx
              exact ⟨z, List.mem_cons_of_mem _ hz, h⟩
        rcases ho.equation eq h1 with ⟨e, he⟩ | ⟨cols, hc, hr⟩
        · rw [he] at hz
          cases hz
        · rw [hr] at hz
          cases hz
          exact ⟨_, rfl, by rw [List.length_map, hc]⟩

/-- The relation between the two estimators. -/
abbrev OriginRel (p J : ℕ) (δ f0 : ℝ) (ok : μ → Prop) (q : Prop) (N : ℕ → Prop) : GState μ p → GState μ p → Prop :=
  MovedRel (originView J δ f0) δ f0 ok (EquationOk p J) q N

/-! ### `predict` -/

theorem predictParams_moved {D : DistOps} (hD : DistMoves D δ) {s t : GState μ p} (h : OriginRel p J δ f0 ok True N s t)
    (X : List (Row p)) (what : What) : predictParams D t X what = (predictParams D s X what).map (List.map (locationPlus δ)) := by
  have hl : linearPredictors D t X = (linearPredictors D s X).map (headMap (List.map (Flt.plus δ))) := by
    obtain ⟨⟨v, hv, rfl⟩, h2, _⟩ := h
    unfold linearPredictors
    change (match s.nObs, X, s.scaler with
      | none, _, _ => Except.error PyErr.notFitted
      | some _, [], _ => Except.error PyErr.valueError
      | some _, _ :: _, none => Except.error PyErr.notFitted
      | some _, x :: X, some sc =>
        (List.range D.nParams).mapM fun k => do
          let B ← designFor (s.moved v) sc (x :: X) k
          match v.coef k with
          | none => Except.error PyErr.attributeError
          | some b => matVec B b) = _
    cases hn : s.nObs with
    | none => rfl
    | some n =>
      cases X with
      | nil => rfl
      | cons x X =>
        cases hs : s.scaler with
        | none => rfl
        | some sc =>
          dsimp only
          refine mapM_range ?_ ?_ _
          · change (do
              let B ← designFor s sc (x :: X) 0
              match v.coef 0 with
              | none => Except.error PyErr.attributeError
              | some b => matVec B b) = _
            cases hA : designFor s sc (x :: X) 0 with
            | error e => rfl
            | ok A =>
              have hX := designFor_intercept h2 (List.cons_ne_nil x X) hA
              rcases hv.coef 0 with ⟨e1, e2⟩ | ⟨b, b', e1, e2, _, hb⟩
              · rw [e1, e2]
                rfl
              · rw [e1, e2]
                exact predict_origin hX (hb rfl trivial)
          · intro k hk
            change (do
              let B ← designFor s sc (x :: X) k
              match v.coef k with
              | none => Except.error PyErr.attributeError
              | some b => matVec B b) = _
            have e : v.coef k = s.coef k := by
              rcases hv.coef k with ⟨e1, e2⟩ | ⟨b, b', e1, e2, hb, _⟩
              · rw [e1, e2]
              · rw [e1, e2, hb hk]
            rw [e]
            rfl
  unfold predictParams
  rw [hl]
  cases linearPredictors D s X with
  | error e => rfl
  | ok etas =>
    cases what with
    | response =>
      change (do
        let cols ← ((headMap (List.map (Flt.plus δ)) etas).zip (List.range D.nParams)).mapM fun e => D.linkInverse e.2 e.1
        pure (Fv.stack X.length cols)) = (do
        let cols ← (etas.zip (List.range D.nParams)).mapM fun e => D.linkInverse e.2 e.1
        pure (Fv.stack X.length cols) : Except PyErr Fv).map (List.map (locationPlus δ))
      rw [mapM_zip (g := D.linkInverse) (h := List.map (Flt.plus δ)) fun a => hD.inverse 0 a]
      cases (etas.zip (List.range D.nParams)).mapM fun e => D.linkInverse e.2 e.1 with
      | error e => rfl
      | ok cols => exact congrArg Except.ok (stack_plus δ _ cols)
    | link => exact congrArg Except.ok (stack_plus δ _ etas)
    | other => rfl

theorem predictParams_sized {D : DistOps} {s : GState μ p} {X : List (Row p)} {what : What} {fv : Fv}
    (h : predictParams D s X what = .ok fv) : fv.length = X.length := by
  unfold predictParams at h
  cases hl : linearPredictors D s X with
  | error e => rw [hl] at h; cases h
  | ok etas =>
    rw [hl] at h
    cases what with
    | response =>
      change (do
        let cols ← (etas.zip (List.range D.nParams)).mapM fun e => D.linkInverse e.2 e.1
        pure (Fv.stack X.length cols) : Except PyErr Fv) = _ at h
      cases hc : (etas.zip (List.range D.nParams)).mapM fun e => D.linkInverse e.2 e.1 with
      | error e => rw [hc] at h; cases h
      | ok cols =>
        rw [hc] at h
        cases h
        simp [Fv.stack]
    | link =>
      cases h
      simp [Fv.stack]
    | other => cases h

/-! ### `fit` -/

/-- Estimators from two origins with a property of the first. -/
def MovedWith (V : MoveView) (δ : ℝ) (Q : GState μ p → Prop) (s t : GState μ p) : Prop := MovedBy V δ False s t ∧ Q s

theorem MovedWith.set {V : MoveView} {Q Q' : GState μ p → Prop} {s t : GState μ p} (h : MovedWith V δ Q s t) (f : GState μ p → GState μ p)
    (hf : ∀ v, f (s.moved v) = (f s).moved v) (hk : KeepsMoved s (f s)) (hq : Q s → Q' (f s)) : MovedWith V δ Q' (f s) (f t) :=
  ⟨h.1.set f hf hk, hq h.2⟩

theorem MovedWith.keep {V : MoveView} {Q : GState μ p → Prop} {s t : GState μ p} (h : MovedWith V δ Q s t) (f : GState μ p → GState μ p)
    (hf : ∀ v, f (s.moved v) = (f s).moved v) (hk : KeepsMoved s (f s)) (hq : Q s → Q (f s)) : MovedWith V δ Q (f s) (f t) :=
  h.set f hf hk hq

/-- What the options of the estimator have to satisfy. -/
structure ConfigMoves (frames : Bool) (n J : ℕ) (f0 : ℝ) (ok : μ → Prop) (ols : μ) (c : GConfig μ p) : Prop where
  params : 0 < n
  methods : ∀ d, (c.method.process n (.value (some ols))).result = .ok d → ∀ j m, (d.get? j).bind id = some m → ok m
  equation : ∀ d, (processEquation frames n c.equation).1 = .ok d → ∀ eq, d.get? 0 = some eq → EquationOk p J eq
  forget : ∀ d, (c.forget.process n (.value 0)).result = .ok d → ∀ f, d.get? 0 = some f → f = f0
  intercept : ∀ d, (c.fitIntercept.process n (.value true)).result = .ok d → ∀ b, d.get? 0 = some b → b = true
  start : c.condStartVal = false
  iterate : 0 < c.prefitInitial ∨ 1 ≤ c.minItOuter

set_option maxHeartbeats 1000000 in
theorem prepare_moved (V : MoveView) (frames : Bool) (D : DistOps) (M : MethodOps μ) (c : GConfig μ p)
    (hc : ConfigMoves frames D.nParams J f0 ok M.ols c) :
    Py.Sim (MovedBy V δ False) (MovedRel V δ f0 ok (EquationOk p J) False (fun _ => True)) Eq (prepare frames D M c) (prepare frames D M c) := by
  unfold prepare
  refine Py.Sim.bind (Py.sim_call (bothRel_self hc.equation)) fun eq _ hm => ?_
  obtain ⟨rfl, heq⟩ := hm
  refine Py.Sim.bind (R' := MovedWith V δ fun s => s.equation = eq) (Py.sim_set fun s t h => ⟨h.set (GState.setEquation eq) (fun _ => rfl)
    ⟨rfl, rfl, rfl, rfl, rfl, rfl⟩, rfl⟩) fun _ _ _ => ?_
  refine Py.Sim.bind (Py.sim_call (bothRel_self hc.methods)) fun ms _ hm => ?_
  obtain ⟨rfl, hms⟩ := hm
  refine Py.Sim.bind (Py.sim_raiseIf Iff.rfl _) fun _ _ _ => ?_
  refine Py.Sim.bind (R' := MovedWith V δ fun s => s.equation = eq ∧ MethodsOk ok s) (Py.sim_set fun s t h =>
    h.set (GState.setMethod fun j => (ms.get? j).bind id) (fun _ => rfl) ⟨rfl, rfl, rfl, rfl, rfl, rfl⟩ fun hq => ⟨hq, hms⟩) fun _ _ _ => ?_
  refine Py.Sim.bind (Py.sim_call (bothRel_self hc.forget)) fun fo _ hm => ?_
  obtain ⟨rfl, hfo⟩ := hm
  refine Py.Sim.bind (R' := MovedWith V δ fun s => (s.equation = eq ∧ MethodsOk ok s) ∧ s.forget = fo) (Py.sim_set fun s t h =>
    h.set (GState.setForget fo) (fun _ => rfl) ⟨rfl, rfl, rfl, rfl, rfl, rfl⟩ fun hq => ⟨hq, rfl⟩) fun _ _ _ => ?_
  refine Py.Sim.bind (Py.sim_call (BothRel.of_eq rfl)) fun ic _ hm => ?_
  subst hm
  refine Py.Sim.bind (Py.sim_set fun s t h => h.keep (GState.setIc ic) (fun _ => rfl) ⟨rfl, rfl, rfl, rfl, rfl, rfl⟩ id) fun _ _ _ => ?_
  refine Py.Sim.bind (Py.sim_call (bothRel_self hc.intercept)) fun fi _ hm => ?_
  obtain ⟨rfl, hfi⟩ := hm
  refine Py.Sim.bind (R' := MovedWith V δ fun s => ((s.equation = eq ∧ MethodsOk ok s) ∧ s.forget = fo) ∧ s.fitIntercept = fi)
    (Py.sim_set fun s t h => h.set (GState.setFitIntercept fi) (fun _ => rfl) ⟨rfl, rfl, rfl, rfl, rfl, rfl⟩ fun hq => ⟨hq, rfl⟩)
    fun _ _ _ => ?_
  refine Py.Sim.bind (Py.sim_call (BothRel.of_eq rfl)) fun ri _ hm => ?_
  subst hm
  refine Py.Sim.bind (Py.sim_set fun s t h => h.keep (GState.setRegularizeIntercept ri) (fun _ => rfl) ⟨rfl, rfl, rfl, rfl, rfl, rfl⟩ id)
    fun _ _ _ => ?_
  refine Py.Sim.bind (Py.sim_call (BothRel.of_eq rfl)) fun st _ hm => ?_
  subst hm
  refine Py.Sim.bind (Py.sim_set fun s t h => h.keep (GState.setStepSize st) (fun _ => rfl) ⟨rfl, rfl, rfl, rfl, rfl, rfl⟩ id) fun _ _ _ => ?_
  by_cases hord : ∃ o, c.paramOrder = some o ∧ ∃ k < D.nParams, k ∉ o
  · refine Py.Sim.bind (R' := MovedWith V δ fun _ => True) (Q := fun _ _ => False) ?_ fun _ _ h => h.elim
    intro s t _
    refine .inl ⟨.valueError, s, t, ?_, ?_⟩ <;> simp only [Py.raiseIf, hord, if_true]
  refine Py.Sim.bind (Py.sim_raiseIf Iff.rfl _) fun _ _ _ => ?_
  have h0 : 0 ∈ c.paramOrder.getD (List.range D.nParams) := by
    cases ho : c.paramOrder with
    | none => exact List.mem_range.2 hc.params
    | some o =>
      by_contra hn
      exact hord ⟨o, ho, 0, hc.params, hn⟩
  refine Py.Sim.bind (R' := MovedWith V δ fun s => (((s.equation = eq ∧ MethodsOk ok s) ∧ s.forget = fo) ∧ s.fitIntercept = fi) ∧
      0 ∈ s.paramOrder) (Py.sim_set fun s t h =>
    h.set (GState.setParamOrder (c.paramOrder.getD (List.range D.nParams))) (fun _ => rfl)
    ⟨rfl, rfl, rfl, rfl, rfl, rfl⟩ fun hq => ⟨hq, h0⟩) fun _ _ _ => ?_
  refine Py.sim_set fun s t h => ⟨h.1.set (GState.setScaler none) (fun _ => rfl) ⟨rfl, rfl, rfl, rfl, rfl, rfl⟩, ?_, trivial⟩
  obtain ⟨_, ⟨⟨⟨h1, h2⟩, h3⟩, h4⟩, h5⟩ := h
  exact ⟨h2, fun f hf => hfo f (by rw [← h3]; exact hf), h5, fun e he => heq e (by rw [← h1]; exact he),
    fun b hb => hfi b (by rw [← h4]; exact hb)⟩

theorem support_plus {D : DistOps} (hD : DistMoves D δ) (d : List (Obs p)) :
    OutOfSupport D (ys d) ↔ OutOfSupport D (ys (d.map (Obs.respondingFrom δ))) := by
  rw [respondingFrom_ys]
  exact (hD.support _).symm

theorem designs_ok {s : GState μ p} (ho : MoveOptions ok f0 (EquationOk p J) s) {sc : Scaler p} {X : List (Row p)} (h0 : X ≠ [])
    {n : ℕ} {d : PyDict Arr2} (h : forParams n (fun k => designFor s sc X k) = .ok d) :
    DesignsOk (originView J δ f0) X.length d.get? :=
  ⟨fun _ _ hk => designFor_rows (forParams_get? h hk).2, fun _ hk => designFor_intercept ho h0 (forParams_get? h hk).2⟩

set_option maxHeartbeats 1000000 in
theorem fit_moved (frames : Bool) (D : DistOps) (hD : DistMoves D δ) (M : MethodOps μ) (c : GConfig μ p)
    (hM : (originView J δ f0).Respects δ f0 ok M) (hc : ConfigMoves frames D.nParams J f0 ok M.ols c)
    (data : List (Obs p)) (hw : NonnegWeights data) :
    Py.Sim (MovedBy (originView J δ f0) δ False) (OriginRel p J δ f0 ok True fun _ => True) Eq (GState.fit frames D M c data)
      (GState.fit frames D M c (data.map (Obs.respondingFrom δ))) := by
  unfold GState.fit
  rw [respondingFrom_xs, respondingFrom_ws]
  refine Py.Sim.bind (Py.sim_raiseIf Iff.rfl _) fun _ _ _ => ?_
  refine Py.Sim.bind (prepare_moved _ frames D M c hc) fun _ _ _ => ?_
  by_cases hd : data = []
  · subst hd
    rw [List.map_nil]
    refine Py.Sim.bind (R' := OriginRel p J δ f0 ok True fun _ => True) (Q := fun _ _ => False) ?_ fun _ _ h => h.elim
    intro s t _
    refine .inl ⟨.valueError, s, t, ?_, ?_⟩ <;> simp [Py.raiseIf]
  refine Py.Sim.bind (Py.sim_raiseIf (by simp) _) fun _ _ _ => ?_
  refine Py.Sim.bind (Py.sim_raiseIf (support_plus hD data) _) fun _ _ _ => ?_
  rw [respondingFrom_ys]
  refine Py.Sim.bind (Py.sim_set fun s t h => h.set (GState.setNObs (some (ws data).sum)) (fun _ => rfl) ⟨rfl, rfl, rfl, rfl, rfl, rfl⟩
    ⟨rfl, rfl, rfl, rfl, rfl⟩) fun _ _ _ => ?_
  refine Py.Sim.bind_self fun s t hR => ?_
  obtain ⟨⟨v, hv, rfl⟩, hopt, _⟩ := hR
  refine Py.Sim.bind (Py.sim_call (BothRel.of_eq rfl)) fun nt _ hm => ?_
  subst hm
  refine Py.Sim.bind (Py.sim_set fun s t h => h.set (GState.setNTraining nt) (fun _ => rfl) ⟨rfl, rfl, rfl, rfl, rfl, rfl⟩
    ⟨rfl, rfl, rfl, rfl, rfl⟩) fun _ _ _ => ?_
  have hyne : ys data ≠ [] := by
    unfold ys
    simpa using hd
  have hyl : (ys data).length = (xs data).length := by simp [ys, xs]
  refine Py.Sim.bind (Py.sim_call (bothRel_ofMap (P := fun r => r.length = (xs data).length) (hD.initial _ hyne)
    fun r h => (hD.initialLen _ _ h).trans hyl)) fun fv fv' hm => ?_
  obtain ⟨rfl, hfv⟩ := hm
  refine Py.Sim.bind (R' := OriginRel p J δ f0 ok False (· = (xs data).length)) (Py.sim_set fun s t h => ?_) fun _ _ _ => ?_
  · obtain ⟨⟨v, hv, rfl⟩, h2, _⟩ := h
    exact ⟨⟨⟨fv.map (locationPlus δ), v.yGram, v.yGramNew, v.coef, v.debugWorking, v.debugEta, v.debugFv, v.debugCoef⟩,
      ⟨rfl, hv.2, hv.3, hv.4⟩, rfl⟩, h2.keep ⟨rfl, rfl, rfl, rfl, rfl⟩, hfv⟩
  refine Py.Sim.bind (Py.sim_call (BothRel.of_eq rfl)) fun nf _ hm => ?_
  subst hm
  refine Py.Sim.bind (Py.sim_set fun s t h => h.set (GState.setNFeatures nf) (fun _ => rfl) ⟨rfl, rfl, rfl, rfl, rfl, rfl⟩
    ⟨rfl, rfl, rfl, rfl, rfl⟩) fun _ _ _ => ?_
  refine Py.Sim.bind (Py.sim_attr rfl _) fun f1 _ hm => ?_
  subst hm
  refine Py.Sim.bind (Py.sim_call (BothRel.of_eq rfl)) fun sc _ hm => ?_
  subst hm
  refine Py.Sim.bind (Py.sim_set fun s t h => h.set (GState.setScaler (some sc)) (fun _ => rfl) ⟨rfl, rfl, rfl, rfl, rfl, rfl⟩
    ⟨rfl, rfl, rfl, rfl, rfl⟩) fun _ _ _ => ?_
  refine Py.Sim.bind (Py.sim_call (bothRel_self fun d hd' => designs_ok (δ := δ) hopt (xs_ne_nil hd) hd')) fun X _ hm => ?_
  obtain ⟨rfl, hX⟩ := hm
  refine Py.Sim.bind (Py.sim_call (BothRel.of_eq rfl)) fun reg _ hm => ?_
  subst hm
  refine Py.Sim.bind (R' := fun s t => OriginRel p J δ f0 ok False (· = (xs data).length) s t ∧ 1 ≤ s.minIt)
    (Py.sim_set fun s t h => ?_) fun _ _ _ => ?_
  · obtain ⟨⟨v, hv, rfl⟩, h2, h3⟩ := h
    refine ⟨⟨⟨⟨v.fv, fun _ => none, v.yGramNew,
      fun k => if k < D.nParams then (nf.get? k).map fun J => List.replicate J (.fin 0) else none,
      if c.debug then fun _ => none else v.debugWorking, if c.debug then fun _ => none else v.debugEta,
      if c.debug then fun _ => none else v.debugFv, if c.debug then fun _ => none else v.debugCoef⟩,
      ⟨hv.1, ⟨fun _ _ => rfl, .inl ⟨rfl, rfl⟩⟩, hv.3, fun k => ?_⟩, rfl⟩, h2.keep ⟨rfl, rfl, rfl, rfl, rfl⟩, h3⟩, ?_⟩
    · change OptRel _ (if k < D.nParams then (nf.get? k).map fun J => List.replicate J (Flt.fin 0) else none)
        (if k < D.nParams then (nf.get? k).map fun J => List.replicate J (Flt.fin 0) else none)
      generalize (if k < D.nParams then (nf.get? k).map fun J => List.replicate J (Flt.fin 0) else none) = o
      cases o with
      | none => exact .none
      | some a => exact .inr ⟨a, a, rfl, rfl, fun _ => rfl, fun _ h => h.elim⟩
    · change 1 ≤ if 0 < c.prefitInitial then c.prefitInitial else c.minItOuter
      rcases hc.iterate with h | h
      · rw [if_pos h]
        exact h
      · split_ifs with h'
        · exact h'
        · exact h
  refine Py.Sim.bind_self fun s t hR => ?_
  obtain ⟨⟨⟨v, hv, rfl⟩, _⟩, _⟩ := hR
  refine Py.Sim.bind (outerFit_moved ⟨D, M, c, X.get?, ys data, ws data⟩ ⟨hD, hM, hX, hyl, by simp [ws, xs], ?_⟩ hc.start
    (Nat.succ_pos _)) fun r _ hm => ?_
  · intro u hu
    obtain ⟨o, ho, rfl⟩ := List.mem_map.1 hu
    exact hw o ho
  subst hm
  refine Py.Sim.bind (Py.sim_attr rfl _) fun r _ hm => ?_
  subst hm
  exact Py.sim_set fun s t h => (h.weaken id fun _ _ => trivial).set (GState.setResult r.1 r.2) (fun _ => rfl)
    ⟨rfl, rfl, rfl, rfl, rfl, rfl⟩ ⟨rfl, rfl, rfl, rfl, rfl⟩

/-! ### `update` -/

theorem item_plus (a : Arr1) : item (a.map (Flt.plus δ)) = (item a).map (Flt.plus δ) := by
  match a with
  | [] => rfl
  | [v] => rfl
  | u :: v :: l => rfl

theorem lt_plus_right (v : ℝ) (b : Flt) : Flt.lt (.fin (v + δ)) (Flt.plus δ b) ↔ Flt.lt (.fin v) b := by
  cases b <;> simp [Flt.plus, Flt.add, Flt.lt]

theorem lt_plus_left (v : ℝ) (b : Flt) : Flt.lt (Flt.plus δ b) (.fin (v + δ)) ↔ Flt.lt b (.fin v) := by
  cases b <;> simp [Flt.plus, Flt.add, Flt.lt]

theorem outlier_plus (y : List ℝ) (lo hi : Flt) :
    ((∃ v ∈ y.map (· + δ), Flt.lt (.fin v) (Flt.plus δ lo)) ∨ ∃ v ∈ y.map (· + δ), Flt.lt (Flt.plus δ hi) (.fin v)) ↔
      (∃ v ∈ y, Flt.lt (.fin v) lo) ∨ ∃ v ∈ y, Flt.lt hi (.fin v) := by
  simp only [List.mem_map, exists_exists_and_eq_and, lt_plus_left, lt_plus_right]

theorem cautious_moved {V : MoveView} {E : Equation → Prop} (D : DistOps) (hD : DistMoves D δ) (c : GConfig μ p) (y : List ℝ) :
    Py.Sim (MovedRel V δ f0 ok E q N) (MovedRel V δ f0 ok E q N) Eq (cautious D c y) (cautious D c (y.map (· + δ))) := by
  unfold cautious
  refine Py.Sim.bind_self fun s t hR => ?_
  obtain ⟨⟨v, hv, rfl⟩, _⟩ := hR
  have hfv : (s.moved v).fv = s.fv.map (locationPlus δ) := hv.1
  cases c.cautiousUpdates with
  | false => exact Py.sim_pure rfl
  | true =>
    rw [if_pos rfl, if_pos rfl, hfv]
    refine Py.Sim.bind (Py.sim_call (bothRel_ofMap (P := fun _ => True) (by rw [hD.ppf, item_plus]) fun _ _ => trivial)) fun lo lo' hm => ?_
    obtain ⟨rfl, _⟩ := hm
    refine Py.Sim.bind (Py.sim_call (bothRel_ofMap (P := fun _ => True) (by rw [hD.ppf, item_plus]) fun _ _ => trivial)) fun hi hi' hm => ?_
    obtain ⟨rfl, _⟩ := hm
    have hiff := outlier_plus (δ := δ) y lo hi
    by_cases h : (∃ v ∈ y, Flt.lt (.fin v) lo) ∨ ∃ v ∈ y, Flt.lt hi (.fin v)
    · rw [if_pos h, if_pos (hiff.2 h)]
      exact Py.sim_set fun s t h => h.set GState.outlierSchedule (fun _ => rfl) ⟨rfl, rfl, rfl, rfl, rfl, rfl⟩ ⟨rfl, rfl, rfl, rfl, rfl⟩
    · rw [if_neg h, if_neg fun h' => h (hiff.1 h')]
      exact Py.sim_set fun s t h => h.set (GState.setMinIt c.minItOuter) (fun _ => rfl) ⟨rfl, rfl, rfl, rfl, rfl, rfl⟩
        ⟨rfl, rfl, rfl, rfl, rfl⟩

/-- The working weights of an update are not negative. -/
def UpdateCurves (D : DistOps) (d : List (Obs p)) : Prop :=
  ∀ k fv wk, working D updateClip (ys d) fv k = .ok wk → ∀ v ∈ wk.wt, GoodWeight v

set_option maxHeartbeats 1000000 in
theorem update_moved (D : DistOps) (hD : DistMoves D δ) (M : MethodOps μ) (c : GConfig μ p)
    (hM : (originView J δ f0).Respects δ f0 ok M) (data : List (Obs p)) (hw : NonnegWeights data) (hcv : UpdateCurves D data) :
    Py.Sim (OriginRel p J δ f0 ok True fun _ => True) (OriginRel p J δ f0 ok True fun _ => True) Eq (GState.update D M c data)
      (GState.update D M c (data.map (Obs.respondingFrom δ))) := by
  unfold GState.update
  rw [respondingFrom_xs, respondingFrom_ws]
  refine Py.Sim.bind (Py.sim_raiseIf Iff.rfl _) fun _ _ _ => ?_
  by_cases hd : data = []
  · subst hd
    rw [List.map_nil]
    refine Py.Sim.bind (R' := OriginRel p J δ f0 ok True fun _ => True) (Q := fun _ _ => False) ?_ fun _ _ h => h.elim
    intro s t _
    refine .inl ⟨.valueError, s, t, ?_, ?_⟩ <;> simp [Py.raiseIf]
  refine Py.Sim.bind (Py.sim_raiseIf (by simp) _) fun _ _ _ => ?_
  refine Py.Sim.bind (Py.sim_raiseIf (support_plus hD data) _) fun _ _ _ => ?_
  rw [respondingFrom_ys]
  have hyl : (ys data).length = (xs data).length := by simp [ys, xs]
  refine Py.Sim.bind_self fun s t hR => ?_
  obtain ⟨⟨v, hv, rfl⟩, _⟩ := hR
  refine Py.Sim.bind (Py.sim_attr rfl _) fun n0 _ hm => ?_
  subst hm
  refine Py.Sim.bind (Py.sim_set fun s t h => h.set (GState.setNObs (some (n0 + (ws data).sum))) (fun _ => rfl)
    ⟨rfl, rfl, rfl, rfl, rfl, rfl⟩ ⟨rfl, rfl, rfl, rfl, rfl⟩) fun _ _ _ => ?_
  refine Py.Sim.bind (Py.sim_call (BothRel.of_eq rfl)) fun nt _ hm => ?_
  subst hm
  refine Py.Sim.bind (Py.sim_set fun s t h => h.set (GState.setNTraining nt) (fun _ => rfl) ⟨rfl, rfl, rfl, rfl, rfl, rfl⟩
    ⟨rfl, rfl, rfl, rfl, rfl⟩) fun _ _ _ => ?_
  refine Py.Sim.bind_self fun s t hR => ?_
  have hpred := predictParams_moved hD hR (xs data) .response
  obtain ⟨⟨v, hv, rfl⟩, hopt, _⟩ := hR
  refine Py.Sim.bind (Py.sim_call (bothRel_ofMap (P := fun r => r.length = (xs data).length) hpred fun r h => predictParams_sized h))
    fun fv fv' hm => ?_
  obtain ⟨rfl, hfv⟩ := hm
  refine Py.Sim.bind (R' := OriginRel p J δ f0 ok True (· = (xs data).length)) (Py.sim_set fun s t h => ?_) fun _ _ _ => ?_
  · obtain ⟨⟨v, hv, rfl⟩, h2, _⟩ := h
    exact ⟨⟨⟨fv.map (locationPlus δ), v.yGram, v.yGramNew, v.coef, v.debugWorking, v.debugEta, v.debugFv, v.debugCoef⟩,
      ⟨rfl, hv.2, hv.3, hv.4⟩, rfl⟩, h2.keep ⟨rfl, rfl, rfl, rfl, rfl⟩, hfv⟩
  refine Py.Sim.bind (Py.sim_attr rfl _) fun sc0 _ hm => ?_
  subst hm
  refine Py.Sim.bind (Py.sim_attr rfl _) fun f1 _ hm => ?_
  subst hm
  refine Py.Sim.bind (Py.sim_call (BothRel.of_eq rfl)) fun sc _ hm => ?_
  subst hm
  refine Py.Sim.bind (Py.sim_set fun s t h => h.set (GState.setScaler (some sc)) (fun _ => rfl) ⟨rfl, rfl, rfl, rfl, rfl, rfl⟩
    ⟨rfl, rfl, rfl, rfl, rfl⟩) fun _ _ _ => ?_
  refine Py.Sim.bind (Py.sim_call (bothRel_self fun d hd' => designs_ok (δ := δ) hopt (xs_ne_nil hd) hd')) fun X _ hm => ?_
  obtain ⟨rfl, hX⟩ := hm
  refine Py.Sim.bind (R' := OriginRel p J δ f0 ok True (· = (xs data).length)) (Py.sim_set fun s t h => ?_) fun _ _ _ => ?_
  · obtain ⟨⟨v, hv, rfl⟩, h2, h3⟩ := h
    exact ⟨⟨⟨v.fv, v.yGram, v.yGram, v.coef,
      if c.debug then fun _ => none else v.debugWorking, if c.debug then fun _ => none else v.debugEta,
      if c.debug then fun _ => none else v.debugFv, if c.debug then fun _ => none else v.debugCoef⟩,
      ⟨hv.1, hv.2, hv.2, hv.4⟩, rfl⟩, h2.keep ⟨rfl, rfl, rfl, rfl, rfl⟩, h3⟩
  refine Py.Sim.bind (cautious_moved D hD c _) fun _ _ _ => ?_
  refine Py.Sim.bind_self fun s t hR => ?_
  obtain ⟨⟨v, hv, rfl⟩, _⟩ := hR
  refine Py.Sim.bind (outerUpdate_moved ⟨D, M, c, X.get?, ys data, ws data⟩ ⟨hD, hM, hX, hyl, by simp [ws, xs], ?_⟩ hcv _)
    fun r _ hm => ?_
  · intro u hu
    obtain ⟨o, ho, rfl⟩ := List.mem_map.1 hu
    exact hw o ho
  subst hm
  refine Py.Sim.bind (Py.sim_attr rfl _) fun r _ hm => ?_
  subst hm
  refine Py.Sim.bind (Py.sim_set fun s t h => h.set (GState.setResult r.1 r.2) (fun _ => rfl)
    ⟨rfl, rfl, rfl, rfl, rfl, rfl⟩ ⟨rfl, rfl, rfl, rfl, rfl⟩) fun _ _ _ => ?_
  refine Py.sim_set fun s t h => ?_
  obtain ⟨⟨v, hv, rfl⟩, h2, _⟩ := h
  exact ⟨⟨⟨v.fv, v.yGramNew, v.yGramNew, v.coef, v.debugWorking, v.debugEta, v.debugFv, v.debugCoef⟩,
    ⟨hv.1, hv.3, hv.3, hv.4⟩, rfl⟩, h2.keep ⟨rfl, rfl, rfl, rfl, rfl⟩, trivial⟩

theorem updates_moved (D : DistOps) (hD : DistMoves D δ) (M : MethodOps μ) (c : GConfig μ p)
    (hM : (originView J δ f0).Respects δ f0 ok M) (bs : List (List (Obs p))) (hw : ∀ b ∈ bs, NonnegWeights b)
    (hcv : ∀ b ∈ bs, UpdateCurves D b) :
    Py.Sim (OriginRel p J δ f0 ok True fun _ => True) (OriginRel p J δ f0 ok True fun _ => True) Eq (GState.updates D M c bs)
      (GState.updates D M c (bs.map fun b => b.map (Obs.respondingFrom δ))) := by
  induction bs with
  | nil => exact Py.sim_pure rfl
  | cons b bs ih =>
    rw [List.map_cons]
    unfold GState.updates
    exact Py.Sim.bind (update_moved D hD M c hM b (hw b (List.mem_cons_self ..)) (hcv b (List.mem_cons_self ..))) fun _ _ _ =>
      ih (fun b hb => hw b (List.mem_cons_of_mem _ hb)) fun b hb => hcv b (List.mem_cons_of_mem _ hb)

/-- A new estimator is the same for all origins. -/
theorem new_moved (V : MoveView) (δ : ℝ) : MovedBy V δ False (GState.new μ p) (GState.new μ p) :=
  ⟨⟨[], fun _ => none, fun _ => none, fun _ => none, fun _ => none, fun _ => none, fun _ => none, fun _ => none⟩,
    ⟨rfl, ⟨fun _ _ => rfl, .inl ⟨rfl, rfl⟩⟩, ⟨fun _ _ => rfl, .inl ⟨rfl, rfl⟩⟩, fun _ => .none⟩, rfl⟩

end Ondil
