import Verif.Props.GamlssExamples

/-!
# C103: equations that describe no columns are rejected
-/

namespace Ondil

variable {μ : Type} {p : ℕ}

/-- An equation that describes no columns of a matrix with `p` columns: another string than the two documented ones, an
object of another type, a floating point array, a mask of another length, an index array that names a column beyond the last. -/
inductive Equation.Invalid (p : ℕ) : Equation → Prop
  | str (s : String) (h1 : s ≠ "all") (h2 : s ≠ "intercept") : Invalid p (.str s)
  | other : Invalid p .other
  | floatArray : Invalid p .floatArray
  | mask (m : List Bool) (h : m.length ≠ p) : Invalid p (.mask m)
  | index (l : List ℤ) (i : ℤ) (hi : i ∈ l) (h : (p : ℤ) ≤ i) : Invalid p (.index l)

/-- An equation given as a Python list. -/
def Equation.IsList : Equation → Prop
  | .names _ | .intList _ | .boolList _ => True
  | _ => False

theorem le_foldl_max (l : List ℤ) (a : ℤ) : a ≤ l.foldl max a ∧ ∀ i ∈ l, i ≤ l.foldl max a := by
  induction l generalizing a with
  | nil => simp
  | cons b l ih =>
    obtain ⟨h1, h2⟩ := ih (max a b)
    refine ⟨(le_max_left a b).trans h1, fun i hi => ?_⟩
    rcases List.mem_cons.1 hi with rfl | hi
    · exact (le_max_right a i).trans h1
    · exact h2 i hi

theorem getJ_invalid {eq : Equation} (h : eq.Invalid p) {frames : Bool} (ha : eq.accepted frames = true) (fi : Bool) :
    getJ p fi eq = .error .valueError := by
  cases h with
  | str s h1 h2 => simp [Equation.accepted, h1, h2] at ha
  | other => rfl
  | floatArray => rfl
  | mask m h => simp [getJ, h]
  | index l i hi h =>
    cases l with
    | nil => rfl
    | cons a l =>
      have hm : (p : ℤ) ≤ l.foldl max a := by
        obtain ⟨h1, h2⟩ := le_foldl_max l a
        rcases List.mem_cons.1 hi with rfl | hi
        · exact h.trans h1
        · exact h.trans (h2 i hi)
      change (if l.foldl max a ≥ (p : ℤ) then _ else _) = _
      rw [if_pos hm]

theorem getJ_error {frames : Bool} {eq : Equation} (ha : eq.accepted frames = true) {fi : Bool} {e : PyErr}
    (h : getJ p fi eq = .error e) : e = .valueError := by
  cases eq with
  | str s =>
    simp only [getJ] at h
    simp only [Equation.accepted, Bool.or_eq_true, decide_eq_true_eq] at ha
    rcases ha with rfl | rfl <;> simp at h
  | mask m =>
    simp only [getJ] at h
    split at h
    · exact (Except.error.inj h).symm
    · cases h
  | index l =>
    cases l with
    | nil => exact (Except.error.inj h).symm
    | cons a l =>
      change (if l.foldl max a ≥ (p : ℤ) then _ else _) = _ at h
      split at h
      · exact (Except.error.inj h).symm
      · cases h
  | floatArray => exact (Except.error.inj h).symm
  | names l => cases h
  | intList l => cases h
  | boolList l => cases h
  | other => exact (Except.error.inj h).symm

theorem forParams_error {α : Type} {n : ℕ} {f : ℕ → Except PyErr α} {e : PyErr} (h : ∀ k < n, ∀ e', f k = .error e' → e' = e)
    {k : ℕ} (hk : k < n) (hf : ∀ a, f k ≠ .ok a) : forParams n f = .error e := by
  cases hr : forParams n f with
  | ok d => exact absurd (forParams_mem hr hk).choose_spec.2 (hf _)
  | error e' =>
    have key : ∀ l : List ℕ, (∀ k ∈ l, k < n) → (l.mapM fun k => do let a ← f k; pure (k, a)) = (.error e' : Except PyErr _) →
        e' = e := by
      intro l
      induction l with
      | nil => intro _ h; cases h
      | cons a l ih =>
        intro hl he
        rw [List.mapM_cons] at he
        cases ha : f a with
        | error e'' =>
          rw [ha] at he
          rw [← h a (hl a (by simp)) e'' ha]
          exact (Except.error.inj he).symm
        | ok v =>
          rw [ha] at he
          cases hb : (l.mapM fun k => do let a ← f k; pure (k, a)) with
          | ok r => 
            simp only [bind_ok_eq] at he
            rw [hb] at he
            cases he
          | error e'' =>
            simp only [bind_ok_eq] at he
            rw [hb] at he
            refine ih (fun k hk => hl k (by simp [hk])) ?_
            rw [hb]
            exact he
    rw [key (List.range n) (fun k hk => List.mem_range.1 hk) hr]

/-- A dictionary with an entry of a type that is not accepted. -/
theorem processEquation_error {frames : Bool} {n : ℕ} {c : GConfig μ p} {k : ℕ} (hk : k < n)
    (h : (c.equationFor k).accepted frames = false) : (processEquation frames n c.equation).1 = .error .valueError := by
  unfold GConfig.equationFor at h
  cases he : c.equation with
  | none =>
    rw [he] at h
    simp only at h
    split at h <;> simp [Equation.accepted] at h
  | some d =>
    rw [he] at h
    simp only at h
    cases hd : d.get? k with
    | none => rw [hd] at h; simp [Equation.accepted] at h
    | some e =>
      rw [hd] at h
      have := equationLoop_error frames (List.range n) d ⟨k, List.mem_range.2 hk, e, hd, h⟩
      unfold processEquation
      cases hl : equationLoop frames (List.range n) d with
      | mk r d' =>
        rw [hl] at this
        cases this
        simp only [hl]

/-- The exceptions of `_prepare_estimator`. -/
theorem prepare_error {frames : Bool} {D : DistOps} {M : MethodOps μ} {c : GConfig μ p} (hv : c.Valid) {s t : GState μ p}
    {e : PyErr} (h : prepare frames D M c s = (.error e, t)) : e = .valueError := by
  obtain ⟨hfo, hfi, hri, hme, hic, _⟩ := hv
  obtain ⟨f, hf, _⟩ := hfo.exists
  obtain ⟨fi, hfi, _⟩ := hfi.exists
  obtain ⟨ri, hri, _⟩ := hri.exists
  obtain ⟨m, hm, _⟩ := hme.exists
  obtain ⟨ic, hic, _⟩ := hic.exists
  by_cases hacc : ∀ k < D.nParams, (c.equationFor k).accepted frames = true
  · obtain ⟨eq, heq, _⟩ := processEquation_ok hacc
    obtain ⟨ms, hms, _⟩ := process_value_ok D.nParams m (.value (some M.ols))
    obtain ⟨fo, hfo, _⟩ := process_value_ok D.nParams f (.value 0)
    obtain ⟨ics, hics, _⟩ := process_value_ok D.nParams ic (.value .aic)
    obtain ⟨fis, hfis, _⟩ := process_value_ok D.nParams fi (.value true)
    obtain ⟨ris, hris, _⟩ := process_value_ok D.nParams ri (.value false)
    obtain ⟨st, hst, _⟩ := process_steps_ok D.nParams c.stepSize 1
    unfold prepare at h
    rw [hm, hf, hic, hfi, hri, Py.bind_call_eq heq, Py.bind_set, Py.bind_call_eq hms] at h
    by_cases h1 : ∃ k < D.nParams, ms.get? k = some none
    · rw [Py.bind_raiseIf_pos h1] at h
      exact (Except.error.inj (Prod.mk.inj h).1).symm
    · rw [Py.bind_raiseIf_neg h1, Py.bind_set, Py.bind_call_eq hfo, Py.bind_set, Py.bind_call_eq hics, Py.bind_set,
        Py.bind_call_eq hfis, Py.bind_set, Py.bind_call_eq hris, Py.bind_set, Py.bind_call_eq hst, Py.bind_set] at h
      by_cases h2 : ∃ o, c.paramOrder = some o ∧ ∃ k < D.nParams, k ∉ o
      · rw [Py.bind_raiseIf_pos h2] at h
        exact (Except.error.inj (Prod.mk.inj h).1).symm
      · rw [Py.bind_raiseIf_neg h2] at h
        cases (Prod.mk.inj h).1
  · push Not at hacc
    obtain ⟨k, hk, hk'⟩ := hacc
    unfold prepare at h
    rw [processEquation_error hk (by simpa using hk'), Py.bind_call_error] at h
    exact (Except.error.inj (Prod.mk.inj h).1).symm

/-- **C103 (rejected, what holds).**  An equation that describes no columns, for whatever distribution parameter, makes
`fit` raise `ValueError`, and so does an equation given as a list when neither pandas nor polars is installed.  Missing: index arrays
with an entry below `-p`, and lists of names or of columns beyond the last when pandas or polars is installed. -/
theorem C103_rejected_partial {frames : Bool} {D : DistOps} (M : MethodOps μ) {c : GConfig μ p} {data : List (Obs p)}
    (hsup : ¬ OutOfSupport D (ys data)) {fv : Fv} (hfv : D.initialValues (ys data) = .ok fv) {k : ℕ} (hk : k < D.nParams)
    (h : (c.equationFor k).Invalid p ∨ frames = false ∧ (c.equationFor k).IsList) (s : GState μ p) :
    (GState.fit frames D M c data s).1 = .error .valueError := by
  unfold GState.fit
  by_cases hv : c.Valid
  swap
  · rw [Py.bind_raiseIf_pos hv]
  rw [Py.bind_raiseIf_neg (not_not.2 hv)]
  rcases hp : prepare frames D M c s with ⟨e | ⟨⟩, sP⟩
  · rw [Py.bind_of_error hp, prepare_error hv hp]
  rw [Py.bind_of_ok hp]
  by_cases hne : data = [] ∨ p = 0
  · rw [Py.bind_raiseIf_pos hne]
  obtain ⟨q⟩ := prepare_ok hp
  have hacc : ∀ j < D.nParams, (c.equationFor j).accepted frames = true := by
    intro j hj
    by_contra hc
    have := q.heq
    rw [processEquation_error hj (by simpa using hc)] at this
    cases this
  have hinv : (c.equationFor k).Invalid p := by
    rcases h with h | ⟨rfl, h⟩
    · exact h
    · have := hacc k hk
      cases he : c.equationFor k <;> rw [he] at h this <;> first | exact absurd h id | simp [Equation.accepted] at this
  obtain ⟨eq, heq, heq'⟩ := processEquation_ok hacc
  have e1 : q.eq = eq := Except.ok.inj (q.heq.symm.trans heq)
  obtain ⟨f, hf, _⟩ := hv.1.exists
  obtain ⟨fi, hfi, _⟩ := hv.2.1.exists
  have hforget : ∀ j < D.nParams, sP.forget.get? j = some f := by
    intro j hj
    have h1 := q.hfo
    rw [hf] at h1
    rw [q.ht]
    change q.fo.get? j = _
    rw [← Except.ok.inj h1, PyDict.get?_ofRange, if_pos hj]
  have hint : ∀ j < D.nParams, sP.fitIntercept.get? j = some fi := by
    intro j hj
    have h1 := q.hfi
    rw [hfi] at h1
    rw [q.ht]
    change q.fi.get? j = _
    rw [← Except.ok.inj h1, PyDict.get?_ofRange, if_pos hj]
  have heqs : ∀ j < D.nParams, sP.equation.get? j = some (c.equationFor j) := by
    intro j hj
    rw [q.ht]
    change q.eq.get? j = _
    rw [e1, heq' j hj]
  obtain ⟨nt, hnt, _⟩ := forParams_ok (n := D.nParams) (f := fun k =>
    match sP.forget.get? k with
    | some f => .ok (effectiveTrainingLength f (ws data).sum)
    | none => .error .keyError) (Q := fun _ _ => True) (fun k hk => by
      rw [hforget k hk]
      exact ⟨_, rfl, trivial⟩)
  have hJ : (forParams D.nParams fun k =>
      match sP.equation.get? k, sP.fitIntercept.get? k with
      | some eq, some fi => getJ p fi eq
      | _, _ => .error .keyError) = .error .valueError := by
    refine forParams_error (k := k) (fun j hj e' he => ?_) hk fun a ha => ?_
    · rw [heqs j hj, hint j hj] at he
      exact getJ_error (hacc j hj) he
    · rw [heqs k hk, hint k hk] at ha
      have ha' : getJ p fi (c.equationFor k) = .ok a := ha
      rw [getJ_invalid hinv (hacc k hk)] at ha'
      cases ha'
  rw [Py.bind_raiseIf_neg hne, Py.bind_raiseIf_neg hsup, Py.bind_set, Py.bind_self]
  rw [Py.bind_call_eq (by exact hnt), Py.bind_set, Py.bind_call_eq hfv, Py.bind_set]
  generalize hS : GState.setFv fv (GState.setNTraining nt (GState.setNObs (some (ws data).sum) sP)) = S
  refine congrArg Prod.fst (Py.bind_of_error (e := .valueError) (s' := S) ?_)
  exact congrArg (fun e => Py.call e S) hJ

/-- **C103 (used).**  Whenever `fit` succeeds, the equation of every distribution parameter describes columns, and the design
of this parameter has exactly these columns, after a one if there is an intercept.  (A list of booleans is taken as a mask, see C62.) -/
theorem C103_used {frames : Bool} {D : DistOps} {M : MethodOps μ} {c : GConfig μ p} {data : List (Obs p)} {s t : GState μ p}
    {u : Unit} (h : GState.fit frames D M c data s = (.ok u, t)) {k : ℕ} (hk : k < D.nParams)
    (hb : ∀ l, c.equationFor k ≠ .boolList l) :
    ∃ sel sc fi, Selects p (c.equationFor k) sel ∧ t.scaler = some sc ∧ c.fitIntercept = .value fi ∧
      designFor t sc (xs data) k =
        .ok ((sc.transformFlt (xs data)).map fun x => (if fi then [.fin 1] else []) ++ sel.map x) := by
  obtain ⟨r⟩ := fit_ok h
  obtain ⟨q⟩ := prepare_ok r.hprepare
  have hset := (outerFit_setup _ _ _).ok (SameSetup.refl _) r.hloop
  have tp : ∀ {β : Type} (f : GState μ p → β), (∀ s d i, f (s.setResult d i) = f s) → f t = f r.s2 :=
    fun f hf => (congrArg f r.ht).trans (hf _ _ _)
  have hacc : ∀ j < D.nParams, (c.equationFor j).accepted frames = true := by
    intro j hj
    by_contra hc
    have := q.heq
    rw [processEquation_error hj (by simpa using hc)] at this
    cases this
  obtain ⟨eq, heq, heq'⟩ := processEquation_ok hacc
  have e1 : q.eq = eq := Except.ok.inj (q.heq.symm.trans heq)
  obtain ⟨fi, hfi, _⟩ := r.valid.2.1.exists
  have hint : r.sP.fitIntercept.get? k = some fi := by
    have h1 := q.hfi
    rw [hfi] at h1
    rw [q.ht]
    change q.fi.get? k = _
    rw [← Except.ok.inj h1, PyDict.get?_ofRange, if_pos hk]
  have heqs : r.sP.equation.get? k = some (c.equationFor k) := by
    rw [q.ht]
    change q.eq.get? k = _
    rw [e1, heq' k hk]
  have e3 : t.equation = r.sP.equation :=
    (tp GState.equation fun _ _ _ => rfl).trans (hset.equation.trans (by rw [fitStart_equation]))
  have e4 : t.fitIntercept = r.sP.fitIntercept :=
    (tp GState.fitIntercept fun _ _ _ => rfl).trans (hset.fitIntercept.trans (by rw [fitStart_fitIntercept]))
  obtain ⟨A, _, hA⟩ := forParams_mem r.hX hk
  have hA' : designFor t r.sc (xs data) k = .ok A := by
    rw [← hA]
    unfold designFor
    rw [e3, e4]
  have hA2 := hA
  unfold designFor at hA2
  rw [heqs, hint] at hA2
  have hX : r.sc.transformFlt (xs data) ≠ [] := by
    have hd : data ≠ [] := fun h => r.nonempty (.inl h)
    cases r.sc <;> simpa [Scaler.transformFlt, xs] using hd
  obtain ⟨sel, hsel, rfl⟩ := C62_columns (.fin 1) fi (c.equationFor k) hb _ hX A hA2
  refine ⟨sel, r.sc, fi, hsel, ?_, hfi, hA'⟩
  exact (tp GState.scaler fun _ _ _ => rfl).trans (hset.scaler.trans (by rw [fitStart_scaler]))

/-- **C103 (what fails).**  An index array with an entry below `-p` passes all checks; `fit` raises `IndexError` instead, when
the design of this parameter is built. -/
theorem C103_negative_index_fails {fi : Bool} {l : List ℤ} {i : ℤ} (hi : i ∈ l) (h : i < -(p : ℤ)) (hlast : ∀ j ∈ l, j < (p : ℤ))
    {α : Type} (one : α) (x : Fin p → α) (X : List (Fin p → α)) (frames : Bool) :
    Equation.accepted frames (.index l) = true ∧ (∃ J, getJ p fi (.index l) = .ok J) ∧
      modelArray one fi (.index l) (x :: X) = .error .indexError := by
  refine ⟨rfl, ?_, ?_⟩
  · cases l with
    | nil => cases hi
    | cons a l =>
      have : ¬ (l.foldl max a ≥ (p : ℤ)) := by
        have key : ∀ (l : List ℤ) (a : ℤ), a < (p : ℤ) → (∀ j ∈ l, j < (p : ℤ)) → l.foldl max a < (p : ℤ) := by
          intro l
          induction l with
          | nil => intro a h _; exact h
          | cons b l ih =>
            intro a h1 h2
            exact ih _ (max_lt h1 (h2 b (by simp))) fun j hj => h2 j (by simp [hj])
        exact not_le.2 (key l a (hlast a (by simp)) fun j hj => hlast j (by simp [hj]))
      refine ⟨(a :: l).length + fi.toNat, ?_⟩
      change (if l.foldl max a ≥ (p : ℤ) then _ else _) = _
      rw [if_neg this]
  · have hrow : l.mapM (npIndex x) = .error .indexError := by
      clear hlast
      induction l with
      | nil => cases hi
      | cons a l ih =>
        rw [List.mapM_cons]
        cases ha : npIndex x a with
        | error e =>
          have : e = .indexError := by
            unfold npIndex at ha
            by_cases hj : 0 ≤ (if a < 0 then a + (p : ℤ) else a) ∧ (if a < 0 then a + (p : ℤ) else a).toNat < p
            · rw [dif_pos hj] at ha
              cases ha
            · rw [dif_neg hj] at ha
              exact (Except.error.inj ha).symm
          rw [this]
          rfl
        | ok v =>
          rw [bind_ok_eq]
          rcases List.mem_cons.1 hi with rfl | hi
          · exfalso
            obtain ⟨j, hj, _⟩ := npIndex_ok ha
            split at hj
            · have := j.2; omega
            · omega
          · rw [ih hi]
            rfl
    unfold modelArray
    rw [List.mapM_cons]
    unfold modelRow selectColumns
    rw [if_neg (by simp)]
    simp only
    rw [hrow]
    rfl

/-! ### Cases that meet the hypotheses -/

/-- A mask with two entries for one column. -/
example : (GState.fit false (walkDist fun _ => .fin 0) firstMethod
    { walkConfig 1 1 with equation := some [(0, .mask [true, false])] } walkData (GState.new Unit 1)).1 = .error .valueError :=
  C103_rejected_partial (p := 1) firstMethod (walk_support _ _) (fv := [fun _ => .fin 0, fun _ => .fin 0]) rfl (k := 0) Nat.one_pos
    (.inl (.mask _ (by decide))) _

/-- An intercept. -/
example : ∃ t : GState Unit 1, GState.fit false (walkDist fun _ => .fin 0) firstMethod (walkConfig 1 1) walkData
    (GState.new Unit 1) = (.ok (), t) ∧ ∃ sc, designFor t sc (xs walkData) 0 = .ok [[.fin 1], [.fin 1]] := by
  obtain ⟨t, ht⟩ := walk_fit (fun _ => .fin 0) 1 1 le_rfl (GState.new Unit 1)
  obtain ⟨sel, sc, fi, h1, _, h3, h4⟩ := C103_used ht (k := 0) Nat.one_pos (by rintro l ⟨⟩)
  refine ⟨t, ht, sc, h4.trans ?_⟩
  cases h3
  have h5 : sel = [] := by
    have h1' : Selects 1 (.str "intercept") sel := h1
    generalize hq : Equation.str "intercept" = q at h1'
    cases h1' <;> first | rfl | (simp at hq)
  subst h5
  cases sc <;> rfl

example : modelArray (1 : ℝ) true (.index [0, -4]) [fun _ : Fin 3 => 2] = .error .indexError :=
  (C103_negative_index_fails (fi := true) (l := [0, -4]) (i := -4) (by simp) (by norm_num) (by simp) 1 _ [] false).2.2

end Ondil
