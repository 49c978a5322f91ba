import Verif.Lemmas.GamlssSuccess
import Verif.Lemmas.GamlssCalls
import Verif.Props.GamlssOptions
import Verif.Lemmas.Gram
import Verif.Props.GamlssLoops
import Verif.Model.GamlssInstances

/-!
# C76: valid input is fitted and updated without an exception
-/

namespace Ondil

variable {μ : Type} {p : ℕ}

/-- The equation that holds for a distribution parameter: the documented default is all columns for the first
parameter and an intercept for the others; parameters missing in a dictionary get an intercept. -/
def GConfig.equationFor (c : GConfig μ p) (k : ℕ) : Equation :=
  match c.equation with
  | none => if k = 0 then .str "all" else .str "intercept"
  | some d => (d.get? k).getD (.str "intercept")

/-- The options are in their documented domains, `m` is the estimation method and `J k` the number of coefficients of
distribution parameter `k`. -/
structure GoodOptions (frames : Bool) (D : DistOps) (c : GConfig μ p) (m : μ) (fi : Bool) (J : ℕ → ℕ) : Prop where
  valid : c.Valid
  method : c.method = .value (some m)
  intercept : c.fitIntercept = .value fi
  columns : ∀ k < D.nParams, (c.equationFor k).accepted frames = true ∧ c.equationFor k ≠ .index [] ∧
    (c.equationFor k = .str "intercept" → fi = true) ∧
    ∃ sel : List (Fin p), Selects p (c.equationFor k) sel ∧ J k = (if fi then 1 else 0) + sel.length
  order : ∀ o, c.paramOrder = some o → ∀ k, k ∈ o ↔ k < D.nParams
  minIt : 1 ≤ c.minItOuter ∧ c.minItOuter ≤ c.maxOuter
  prefit : c.prefitInitial ≤ c.maxOuter ∧ c.prefitUpdate ≤ c.maxOuter

/-- A row of a design has `j` entries; with an intercept the first one is 1. -/
structure RowOk (c : GConfig μ p) (j : ℕ) (r : Arr1) : Prop where
  length : r.length = j
  one : c.fitIntercept = .value true → ∃ t, r = .fin 1 :: t

/-- The design of parameter `k` for a first batch: the columns of its equation, standardised with this batch. -/
def FirstDesign (c : GConfig μ p) (data : List (Obs p)) (k : ℕ) (X : Arr2) : Prop :=
  ∃ f fi sc, c.forget = .value f ∧ c.fitIntercept = .value fi ∧ Scaler.fit c.scaleInputs f (xs data) (ws data) = .ok sc ∧
    modelArray (.fin 1) fi (c.equationFor k) (sc.transformFlt (xs data)) = .ok X

/-- The methods can take in the designs and weights a first batch leads to: designs with a column of ones if there is an
intercept, sample weights times working weights. -/
def TakesFirst (D : DistOps) {M : MethodOps μ} {J : ℕ → ℕ} (c : GConfig μ p) (K : ∀ k, MethodContract M (J k))
    (data : List (Obs p)) : Prop :=
  ∀ k < D.nParams, ∀ X : Arr2, FirstDesign c data k X → (∀ x ∈ X, RowOk c (J k) x) →
    ∀ fv wk, working D fitClip (ys data) fv k = .ok wk → (K k).FitArrays X wk.wv (wmul (ws data) wk.wt)

/-- The methods can take in the designs and weights a later batch can lead to. -/
def TakesLater (D : DistOps) {M : MethodOps μ} {J : ℕ → ℕ} (c : GConfig μ p) (K : ∀ k, MethodContract M (J k))
    (data : List (Obs p)) : Prop :=
  ∀ k < D.nParams, ∀ X : Arr2, X.length = data.length → (∀ x ∈ X, RowOk c (J k) x) →
    ∀ fv wk, working D updateClip (ys data) fv k = .ok wk → (K k).UpdateArrays X wk.wv (wmul (ws data) wk.wt)

/-- The methods can penalise the coefficients the options say. -/
def TakesFlags (D : DistOps) {M : MethodOps μ} {J : ℕ → ℕ} (c : GConfig μ p) (K : ∀ k, MethodContract M (J k))
    (fi : Bool) : Prop :=
  ∀ k < D.nParams, ∀ ri, (K k).Flags (regularizedFlags (J k) fi ri (c.equationFor k))

/-- The state of a fitted estimator. -/
structure GFitted (D : DistOps) {M : MethodOps μ} {J : ℕ → ℕ} (c : GConfig μ p) (K : ∀ k, MethodContract M (J k))
    (s : GState μ p) : Prop where
  setup : Setup K D.nParams c.maxInner s
  stored : ∀ k < D.nParams, Stored K k s
  nObs : ∃ v, s.nObs = some v
  globalDev : ∃ v, s.globalDev = some v
  scaler : ∃ v, s.scaler = some v
  design : ∀ k < D.nParams, ∃ eq fi, s.equation.get? k = some eq ∧ s.fitIntercept.get? k = some fi ∧
    ∀ X : List (Fin p → Flt), ∃ A, modelArray (.fin 1) fi eq X = .ok A ∧ A.length = X.length ∧ ∀ r ∈ A, RowOk c (J k) r
  minIt : s.minIt ≤ c.maxOuter

theorem transformFlt_length (X : List (Row p)) (sc : Scaler p) : (sc.transformFlt X).length = X.length := by
  cases sc <;> simp [Scaler.transformFlt]

theorem designFor_ok {s : GState μ p} {k : ℕ} {Q : Arr1 → Prop} {eq : Equation} {fi : Bool} (h1 : s.equation.get? k = some eq)
    (h2 : s.fitIntercept.get? k = some fi) (h : ∀ X : List (Fin p → Flt), ∃ A, modelArray (.fin 1) fi eq X = .ok A ∧
      A.length = X.length ∧ ∀ r ∈ A, Q r) (sc : Scaler p) (X : List (Row p)) :
    ∃ A, designFor s sc X k = .ok A ∧ A.length = X.length ∧ ∀ r ∈ A, Q r := by
  unfold designFor
  rw [h1, h2]
  obtain ⟨A, hA, hl, hr⟩ := h (sc.transformFlt X)
  exact ⟨A, hA, by rw [hl, transformFlt_length], hr⟩

theorem predictParams_ok {D : DistOps} (hD : Regular D) {M : MethodOps μ} {J : ℕ → ℕ} {c : GConfig μ p}
    {K : ∀ k, MethodContract M (J k)} {s : GState μ p} (hs : GFitted D c K s) {X : List (Row p)} (hX : X ≠ []) :
    ∃ fv, predictParams D s X .response = .ok fv ∧ fv.length = X.length := by
  obtain ⟨nO, hnO⟩ := hs.nObs
  obtain ⟨sc, hsc⟩ := hs.scaler
  obtain ⟨x, X', rfl⟩ := List.exists_cons_of_ne_nil hX
  have hlin : ∃ etas, linearPredictors D s (x :: X') = .ok etas := by
    unfold linearPredictors
    rw [hnO, hsc]
    simp only
    obtain ⟨r, hr, _⟩ := mapM_ok_of_forall (l := List.range D.nParams) (Q := fun _ => True) (f := fun k => do
      let A ← designFor s sc (x :: X') k
      match s.coef k with
      | none => Except.error PyErr.attributeError
      | some b => matVec A b) (by
        intro k hk
        have hk' := List.mem_range.1 hk
        obtain ⟨eq, fi, h1, h2, h3⟩ := hs.design k hk'
        obtain ⟨A, hA, _, hAr⟩ := designFor_ok h1 h2 h3 sc (x :: X')
        obtain ⟨b, hb, hbl⟩ := (hs.stored k hk').coef
        rw [hA, bind_ok_eq, hb]
        obtain ⟨v, hv, _⟩ := matVec_ok (X := A) (b := b) fun y hy => by rw [(hAr y hy).length, hbl]
        exact ⟨v, hv, trivial⟩)
    exact ⟨r, hr⟩
  obtain ⟨etas, hetas⟩ := hlin
  unfold predictParams
  rw [hetas, bind_ok_eq]
  obtain ⟨cols, hcols, _⟩ := mapM_ok_of_forall (l := etas.zip (List.range D.nParams)) (Q := fun _ => True)
    (f := fun e => D.linkInverse e.2 e.1) (by
      intro e he
      obtain ⟨v, hv, _⟩ := hD.linkInverse e.2 (List.mem_range.1 (List.of_mem_zip he).2) e.1
      exact ⟨v, hv, trivial⟩)
  simp only
  rw [hcols, bind_ok_eq]
  exact ⟨_, rfl, by simp [Fv.stack]⟩

theorem forParams_ok {α : Type} {n : ℕ} {f : ℕ → Except PyErr α} {Q : ℕ → α → Prop} (h : ∀ k < n, ∃ a, f k = .ok a ∧ Q k a) :
    ∃ d, forParams n f = .ok d ∧ ∀ k < n, ∃ a, d.get? k = some a ∧ Q k a := by
  obtain ⟨d, hd, _⟩ := mapM_ok_of_forall (l := List.range n) (Q := fun _ => True) (f := fun k => do
    let a ← f k
    pure (k, a)) (by
      intro k hk
      obtain ⟨a, ha, _⟩ := h k (List.mem_range.1 hk)
      rw [ha, bind_ok_eq]
      exact ⟨_, rfl, trivial⟩)
  refine ⟨d, hd, fun k hk => ?_⟩
  obtain ⟨a, ha, hq⟩ := h k hk
  obtain ⟨a', h1, h2⟩ := forParams_mem hd hk
  rw [ha] at h2
  cases h2
  exact ⟨a, h1, hq⟩

theorem Py.Total.and_inv {σ α : Type} {P I : σ → Prop} {m : Py σ α} {Q : α → σ → Prop} (h : Py.Total P m Q)
    (hi : Py.Inv I m) : Py.Total (fun s => P s ∧ I s) m (fun a s => Q a s ∧ I s) := by
  rintro s ⟨h1, h2⟩
  obtain ⟨a, t, hm, hq⟩ := h s h1
  exact ⟨a, t, hm, hq, (hi s h2).1 a t hm⟩

theorem intMax_mem {l : List ℤ} (hl : l ≠ []) : ∃ m, intMax l = .ok m ∧ m ∈ l := by
  obtain ⟨a, l, rfl⟩ := List.exists_cons_of_ne_nil hl
  refine ⟨_, rfl, ?_⟩
  induction l generalizing a with
  | nil => simp
  | cons b l ih =>
    have := ih (max a b) (by simp)
    rw [List.foldl_cons]
    rcases List.mem_cons.1 this with h | h
    · rw [h]
      rcases max_choice a b with h' | h' <;> simp [h']
    · simp [h]

theorem getJ_ok {eq : Equation} {fi : Bool} {sel : List (Fin p)} (h : Selects p eq sel) (hne : eq ≠ .index [])
    (hfi : eq = .str "intercept" → fi = true) : getJ p fi eq = .ok ((if fi then 1 else 0) + sel.length) := by
  obtain ⟨J, hJ, hb⟩ : ∃ J, getJ p fi eq = .ok J ∧ ∀ l, eq ≠ .boolList l := by
    cases h with
    | all => exact ⟨_, by simp [getJ]; rfl, by simp⟩
    | intercept => exact ⟨_, by simp [getJ]; rfl, by simp⟩
    | mask m hm => exact ⟨_, by simp [getJ, hm]; rfl, by simp⟩
    | index l sel h =>
      obtain ⟨m, hm, hml⟩ := intMax_mem (l := l) (by rintro rfl; exact hne rfl)
      have hlt : m < (p : ℤ) := by
        have : (if m < 0 then m + (p : ℤ) else m) ∈ sel.map (fun j : Fin p => ((j : ℕ) : ℤ)) := by
          rw [h]
          exact List.mem_map.2 ⟨m, hml, rfl⟩
        obtain ⟨j, _, hj⟩ := List.mem_map.1 this
        have := j.2
        split at hj <;> omega
      refine ⟨l.length + fi.toNat, ?_, by simp⟩
      simp only [getJ]
      rw [hm, bind_ok_eq, if_neg (by omega)]
    | intList l sel h => exact ⟨_, rfl, by simp⟩
  have h1 := C62_built (α := ℕ) 1 fi eq sel h hfi [fun _ => 0]
  have h2 := C62_width (α := ℕ) 1 fi eq hb _ _ h1 J hJ _ (List.mem_singleton.2 rfl)
  rw [hJ, ← h2]
  cases fi <;> simp [Nat.add_comm]

theorem built_ok {eq : Equation} {fi : Bool} {sel : List (Fin p)} (h : Selects p eq sel)
    (hfi : eq = .str "intercept" → fi = true) (X : List (Fin p → Flt)) :
    ∃ A, modelArray (.fin 1) fi eq X = .ok A ∧ A.length = X.length ∧
      ∀ r ∈ A, r.length = (if fi then 1 else 0) + sel.length ∧ (fi = true → ∃ t, r = .fin 1 :: t) := by
  refine ⟨_, C62_built _ fi eq sel h hfi X, by simp, fun r hr => ?_⟩
  obtain ⟨x, _, rfl⟩ := List.mem_map.1 hr
  refine ⟨by cases fi <;> simp [Nat.add_comm], ?_⟩
  rintro rfl
  exact ⟨_, rfl⟩

theorem processEquation_ok {frames : Bool} {n : ℕ} {c : GConfig μ p}
    (h : ∀ k < n, (c.equationFor k).accepted frames = true) :
    ∃ d, (processEquation frames n c.equation).1 = .ok d ∧ ∀ k < n, d.get? k = some (c.equationFor k) := by
  unfold GConfig.equationFor at *
  cases he : c.equation with
  | none =>
    refine ⟨_, rfl, fun k hk => ?_⟩
    rw [PyDict.get?_ofRange, if_pos hk]
  | some d =>
    rw [he] at h
    have hloop := equationLoop_eq frames (List.range n) d fun k hk e hd => by
      have := h k (List.mem_range.1 hk)
      simpa [hd] using this
    obtain ⟨d', h1, h2, _⟩ := OptArg.fill_value (.str "intercept") (List.range n) List.nodup_range d
    refine ⟨d', by unfold processEquation; simp only [hloop, h1], fun k hk => ?_⟩
    rw [h2 k, if_pos (List.mem_range.2 hk)]

theorem process_value_ok {α : Type} (n : ℕ) (a : α) (dflt : OptArg α) : ∃ d, ((OptArg.value a).process n dflt).result = .ok d ∧
    ∀ k < n, d.get? k = some a :=
  ⟨_, rfl, fun k hk => by rw [PyDict.get?_ofRange, if_pos hk]⟩

theorem process_steps_ok (n : ℕ) (o : OptArg ℝ) (a : ℝ) : ∃ d, (o.process n (.value a)).result = .ok d ∧ n ≤ d.values.length := by
  cases o with
  | value b => exact ⟨_, rfl, by simp [PyDict.values, PyDict.ofRange]⟩
  | dict d =>
    obtain ⟨d', h1, h2, h3, _⟩ := OptArg.fill_value a (List.range n) List.nodup_range d
    refine ⟨d', by unfold OptArg.process; simp only [h1], ?_⟩
    have hsub : List.range n ⊆ d'.keys := by
      intro k hk
      rw [← PyDict.get?_isSome_iff, h2 k, if_pos hk]
      rfl
    have := (List.nodup_range.subperm hsub).length_le
    simpa [PyDict.keys, PyDict.values] using this

/-- What `_prepare_estimator` leaves. -/
structure Prepared (D : DistOps) (c : GConfig μ p) (m : μ) (fi : Bool) (s : GState μ p) : Prop where
  equation : ∀ k < D.nParams, s.equation.get? k = some (c.equationFor k)
  method : ∀ k < D.nParams, s.method k = some m
  forget : ∃ f, c.forget = .value f ∧ 0 ≤ f ∧ f < 1 ∧ ∀ k < D.nParams, s.forget.get? k = some f
  ic : ∃ v, v ≠ .aicc ∧ ∀ k < D.nParams, s.ic.get? k = some v
  fitIntercept : ∀ k < D.nParams, s.fitIntercept.get? k = some fi
  regularizeIntercept : ∃ v, ∀ k < D.nParams, s.regularizeIntercept.get? k = some v
  steps : D.nParams ≤ s.stepSize.values.length
  order : ∀ k, k ∈ s.paramOrder ↔ k < D.nParams

theorem OptArg.OnlyValue.exists {α : Type} {P : α → Prop} {o : OptArg α} (h : o.OnlyValue P) : ∃ a, o = .value a ∧ P a := by
  cases o with
  | value a => exact ⟨a, rfl, h⟩
  | dict d => exact absurd h id

theorem prepare_total {frames : Bool} {D : DistOps} {M : MethodOps μ} {c : GConfig μ p} {m : μ} {fi : Bool} {J : ℕ → ℕ}
    (h : GoodOptions frames D c m fi J) :
    Py.Total (fun _ : GState μ p => True) (prepare frames D M c) (fun _ s => Prepared D c m fi s) := by
  obtain ⟨⟨hfo, _, hri, _, hic, _⟩, hm, hfi, hcol, hord, _, _⟩ := h
  obtain ⟨f, hf, hf0, hf1⟩ := hfo.exists
  obtain ⟨ri, hr, _⟩ := hri.exists
  obtain ⟨ic, hi, hia⟩ := hic.exists
  obtain ⟨eq, heq, heq'⟩ := processEquation_ok (c := c) fun k hk => (hcol k hk).1
  obtain ⟨ms, hms, hms'⟩ := process_value_ok D.nParams (some m) (.value (some M.ols))
  obtain ⟨fo, hfo, hfo'⟩ := process_value_ok D.nParams f (.value 0)
  obtain ⟨ics, hics, hics'⟩ := process_value_ok D.nParams ic (.value .aic)
  obtain ⟨fis, hfis, hfis'⟩ := process_value_ok D.nParams fi (.value true)
  obtain ⟨ris, hris, hris'⟩ := process_value_ok D.nParams ri (.value false)
  obtain ⟨st, hst, hst'⟩ := process_steps_ok D.nParams c.stepSize 1
  unfold prepare
  rw [hm, hf, hi, hfi, hr]
  refine Py.Total.of_state fun s _ => ?_
  refine Py.Total.bind_call heq (Py.Total.bind_set_eq (Py.Total.bind_call hms (Py.Total.bind_raiseIf ?_
    (Py.Total.bind_set_eq (Py.Total.bind_call hfo (Py.Total.bind_set_eq (Py.Total.bind_call hics (Py.Total.bind_set_eq
    (Py.Total.bind_call hfis (Py.Total.bind_set_eq (Py.Total.bind_call hris (Py.Total.bind_set_eq (Py.Total.bind_call hst
    (Py.Total.bind_set_eq (Py.Total.bind_raiseIf ?_ (Py.Total.bind_set_eq (Py.Total.set ?_)))))))))))))))))
  · rintro ⟨k, hk, h⟩
    rw [hms' k hk] at h
    cases h
  · rintro ⟨o, ho, k, hk, hko⟩
    exact hko ((hord o ho k).2 hk)
  · rintro _ rfl
    refine ⟨heq', fun k hk => ?_, ⟨f, hf, hf0, hf1, hfo'⟩, ⟨ic, hia, hics'⟩, hfis', ⟨ri, hris'⟩, hst', fun k => ?_⟩
    · change (ms.get? k).bind id = some m
      rw [hms' k hk]
      rfl
    · change k ∈ c.paramOrder.getD (List.range D.nParams) ↔ _
      cases ho : c.paramOrder with
      | none => simp
      | some o => exact hord o ho k

theorem sum_pos_of_forall {l : List ℝ} (hl : l ≠ []) (h : ∀ a ∈ l, 0 < a) : 0 < l.sum := by
  obtain ⟨a, l, rfl⟩ := List.exists_cons_of_ne_nil hl
  rw [List.sum_cons]
  have h1 := h a (by simp)
  have h2 : 0 ≤ l.sum := List.sum_nonneg fun b hb => (h b (by simp [hb])).le
  linarith

theorem Scaler.fit_ok {ts : ToScale p} {f : ℝ} (hf1 : f < 1) {data : List (Obs p)} (h2 : 2 ≤ data.length)
    (hw : ∀ o ∈ data, 0 < o.w) : ∃ sc, Scaler.fit ts f (xs data) (ws data) = .ok sc := by
  have hlen : ¬ (xs data).length < 2 := by simp only [xs, List.length_map]; omega
  have hpos : 0 < (List.zipWith (fun a b => a * b) (ws data) (initForgetVector f (xs data).length)).sum := by
    refine sum_pos_of_forall ?_ ?_
    · rw [← List.length_pos_iff_ne_nil]
      simp [length_initForgetVector, xs, ws]
      omega
    · intro a ha
      obtain ⟨i, hi, rfl⟩ := List.getElem_of_mem ha
      rw [List.getElem_zipWith]
      refine mul_pos ?_ ?_
      · have : (ws data)[i]'(by simp at hi; omega) ∈ ws data := List.getElem_mem _
        obtain ⟨o, ho, he⟩ := List.mem_map.1 this
        rw [← he]
        exact hw o ho
      · have : (initForgetVector f (xs data).length)[i]'(by simp at hi; omega) ∈ initForgetVector f (xs data).length :=
          List.getElem_mem _
        have hall : ∀ v ∈ initForgetVector f (xs data).length, 0 < v := by
          intro v hv
          rw [initForgetVector_eq] at hv
          obtain ⟨j, rfl⟩ := List.mem_ofFn.1 hv
          exact pow_pos (by linarith) _
        exact hall _ this
  unfold Scaler.fit
  split
  · rw [if_neg hlen]
    exact ⟨_, rfl⟩
  · unfold scalerFit
    rw [if_neg hlen]
    simp only
    rw [if_neg hpos.ne']
    exact ⟨_, rfl⟩

theorem Scaler.update_ok {f : ℝ} {data : List (Obs p)} (h : data ≠ []) (sc : Scaler p) :
    ∃ sc', sc.update f (xs data) (ws data) = .ok sc' := by
  have hlen : ¬ (xs data).length < 1 := by
    have := List.length_pos_iff_ne_nil.2 h
    simp [xs]
    omega
  cases sc with
  | off n =>
    refine ⟨.off (n + (ws data).sum), ?_⟩
    simp only [Scaler.update]
    rw [if_neg hlen]
  | on k sel s =>
    refine ⟨.on k sel (scalerLoop sel f { s with nObs := s.nObs + (ws data).sum } (xs data) (ws data)), ?_⟩
    simp only [Scaler.update, scalerUpdate]
    rw [if_neg hlen]
    rfl

theorem regularizedFlags_length (J : ℕ) (fi ri : Bool) (eq : Equation) : (regularizedFlags J fi ri eq).length = J := by
  unfold regularizedFlags
  split <;> simp

theorem fit_total {frames : Bool} {D : DistOps} {M : MethodOps μ} {c : GConfig μ p} {m : μ} {fi : Bool} {J : ℕ → ℕ}
    (hD : Regular D) (hcond : c.condStartVal = true → ConditionalRegular D) (K : ∀ k, MethodContract M (J k))
    (hK : ∀ k < D.nParams, (K k).Ok m) (h : GoodOptions frames D c m fi J) (hp : p ≠ 0) {data : List (Obs p)}
    (h2 : 2 ≤ data.length) (hw : ∀ o ∈ data, 0 < o.w) (hy : ¬ OutOfSupport D (ys data)) (hF : TakesFirst D c K data)
    (hR : TakesFlags D c K fi) :
    Py.Total (fun _ : GState μ p => True) (GState.fit frames D M c data) (fun _ s => GFitted D c K s) := by
  have hne : data ≠ [] := by rintro rfl; simp at h2
  unfold GState.fit
  refine Py.Total.bind_raiseIf (fun hn => hn h.valid) (Py.Total.bind (prepare_total h) fun _ => ?_)
  refine Py.Total.bind_raiseIf (by simp [hne, hp]) (Py.Total.bind_raiseIf hy ?_)
  refine Py.Total.of_state fun s hs => ?_
  obtain ⟨f, hfc, hf0, hf1, hf⟩ := hs.forget
  obtain ⟨ic, hic, hic'⟩ := hs.ic
  obtain ⟨ri, hri⟩ := hs.regularizeIntercept
  obtain ⟨nt, hnt, hnt'⟩ := forParams_ok (n := D.nParams) (f := fun k =>
    match s.forget.get? k with
    | some f => .ok (effectiveTrainingLength f (ws data).sum)
    | none => .error .keyError) (Q := fun _ _ => True) (fun k hk => by
      rw [hf k hk]
      exact ⟨_, rfl, trivial⟩)
  obtain ⟨fv, hfv, hfvl⟩ := hD.initialValues (ys data) (by simpa [ys] using hne)
  obtain ⟨nf, hnf, hnf'⟩ := forParams_ok (n := D.nParams) (f := fun k =>
    match s.equation.get? k, s.fitIntercept.get? k with
    | some eq, some fi => getJ p fi eq
    | _, _ => .error .keyError) (Q := fun k j => j = J k) (fun k hk => by
      rw [hs.equation k hk, hs.fitIntercept k hk]
      obtain ⟨_, h1, h3, sel, hsel, hJ⟩ := h.columns k hk
      exact ⟨_, getJ_ok hsel h1 h3, hJ.symm⟩)
  obtain ⟨sc, hsc⟩ := Scaler.fit_ok (ts := c.scaleInputs) hf1 h2 hw
  have hdesign : ∀ k < D.nParams, ∃ eq fi, s.equation.get? k = some eq ∧ s.fitIntercept.get? k = some fi ∧
      ∀ X : List (Fin p → Flt), ∃ A, modelArray (.fin 1) fi eq X = .ok A ∧ A.length = X.length ∧
        ∀ r ∈ A, RowOk c (J k) r := by
    intro k hk
    obtain ⟨_, _, h3, sel, hsel, hJ⟩ := h.columns k hk
    refine ⟨_, _, hs.equation k hk, hs.fitIntercept k hk, fun X => ?_⟩
    obtain ⟨A, h1, h2, h4⟩ := built_ok hsel h3 X
    refine ⟨A, h1, h2, fun r hr => ⟨by rw [hJ]; exact (h4 r hr).1, fun he => (h4 r hr).2 ?_⟩⟩
    rw [h.intercept] at he
    cases he
    rfl
  obtain ⟨X, hX, hX'⟩ := forParams_ok (n := D.nParams) (f := fun k => designFor s sc (xs data) k)
    (Q := fun k A => (A.length = (xs data).length ∧ ∀ r ∈ A, RowOk c (J k) r) ∧ designFor s sc (xs data) k = .ok A) (fun k hk => by
      obtain ⟨eq, fi, h1, h2, h3⟩ := hdesign k hk
      obtain ⟨A, hA, hq⟩ := designFor_ok h1 h2 h3 sc (xs data)
      exact ⟨A, hA, hq, hA⟩)
  obtain ⟨reg, hreg, hreg'⟩ := forParams_ok (n := D.nParams) (f := fun k =>
    match nf.get? k, s.fitIntercept.get? k, s.regularizeIntercept.get? k, s.equation.get? k with
    | some J, some fi, some ri, some eq => .ok (regularizedFlags J fi ri eq)
    | _, _, _, _ => .error .keyError) (Q := fun k r => r.length = J k ∧ (K k).Flags r) (fun k hk => by
      obtain ⟨j, hj, rfl⟩ := hnf' k hk
      rw [hj, hs.equation k hk, hs.fitIntercept k hk, hri k hk]
      exact ⟨_, rfl, regularizedFlags_length _ _ _ _, hR k hk _⟩)
  have hc : CallOk (⟨D, M, c, X.get?, ys data, ws data⟩ : Call μ p) J := by
    refine ⟨hD, hcond, by simpa [ys] using hne, by simp [ws, ys], fun k hk => ?_⟩
    obtain ⟨A, hA, ⟨hl, hr⟩, _⟩ := hX' k hk
    exact ⟨A, hA, by simp [hl, xs, ys], fun r h => (hr r h).length⟩
  have hF' : FitArraysOk (⟨D, M, c, X.get?, ys data, ws data⟩ : Call μ p) K := by
    intro k hk A hA fv wk hwk
    obtain ⟨A', hA', ⟨hl, hr⟩, hd⟩ := hX' k hk
    cases hA'.symm.trans hA
    unfold designFor at hd
    rw [hs.equation k hk, hs.fitIntercept k hk] at hd
    exact hF k hk A ⟨f, fi, sc, hfc, h.intercept, hsc, hd⟩ hr fv wk hwk
  obtain ⟨_, _, _, _, _, hmo, hmi, _⟩ := h.valid
  have hstart : FitInv K D.nParams c.maxInner (ys data).length ∅
      (fitStart c D.nParams (ws data).sum nt fv nf sc reg s) := by
    refine ⟨⟨?_, ?_, ?_, ?_, ?_, ?_, ?_, ?_⟩, ?_, fun k hk => absurd hk id⟩
    · rw [fitStart_method]
      exact fun k hk => ⟨m, hs.method k hk, hK k hk⟩
    · rw [fitStart_forget]
      exact fun k hk => ⟨f, hf k hk, hf0, hf1⟩
    · rw [fitStart_isRegularized]
      exact hreg'
    · rw [fitStart_nTraining]
      intro k hk
      obtain ⟨v, hv, _⟩ := hnt' k hk
      exact ⟨v, hv⟩
    · rw [fitStart_ic]
      exact fun k hk => ⟨ic, hic' k hk, hic⟩
    · rw [fitStart_stepSize]
      exact hs.steps
    · intro i
      change 1 ≤ (if i < c.prefitInitial then 1 else c.maxInner) ∧ (if i < c.prefitInitial then 1 else c.maxInner) ≤ c.maxInner
      split <;> omega
    · rw [fitStart_paramOrder]
      exact fun k hk => (hs.order k).1 hk
    · rw [fitStart_fv]
      exact hfvl
  have hmin : (1 ≤ (fitStart c D.nParams (ws data).sum nt fv nf sc reg s).minIt) ∧
      (fitStart c D.nParams (ws data).sum nt fv nf sc reg s).minIt ≤ c.maxOuter := by
    change (1 ≤ if 0 < c.prefitInitial then c.prefitInitial else c.minItOuter) ∧
      (if 0 < c.prefitInitial then c.prefitInitial else c.minItOuter) ≤ c.maxOuter
    have := h.minIt
    have := h.prefit
    split <;> omega
  have hSn : (fitStart c D.nParams (ws data).sum nt fv nf sc reg s).nObs = some (ws data).sum := fitStart_nObs ..
  have hSs : (fitStart c D.nParams (ws data).sum nt fv nf sc reg s).scaler = some sc := fitStart_scaler ..
  have hSe : (fitStart c D.nParams (ws data).sum nt fv nf sc reg s).equation = s.equation := fitStart_equation ..
  have hSf : (fitStart c D.nParams (ws data).sum nt fv nf sc reg s).fitIntercept = s.fitIntercept := fitStart_fitIntercept ..
  have hSo : (fitStart c D.nParams (ws data).sum nt fv nf sc reg s).paramOrder = s.paramOrder := fitStart_paramOrder ..
  refine Py.Total.bind_set_eq (Py.Total.bind_self_eq ?_)
  refine Py.Total.bind_call hnt (Py.Total.bind_set_eq (Py.Total.bind_call hfv (Py.Total.bind_set_eq (Py.Total.bind_call hnf
    (Py.Total.bind_set_eq (Py.Total.bind_attr (hf 0 hD.pos) (Py.Total.bind_call hsc (Py.Total.bind_set_eq
    (Py.Total.bind_call hX (Py.Total.bind_call hreg (Py.Total.bind_set_eq (Py.Total.bind_self_eq ?_))))))))))))
  change Py.Total (fun t => t = fitStart c D.nParams (ws data).sum nt fv nf sc reg s)
    (outerFit ⟨D, M, c, X.get?, ys data, ws data⟩
      (c.fuel (fitStart c D.nParams (ws data).sum nt fv nf sc reg s).minIt) >>= fun r => (do
        let r ← Py.attr r .notImplemented
        Py.set (GState.setResult r.1 r.2))) _
  generalize fitStart c D.nParams (ws data).sum nt fv nf sc reg s = S0 at *
  refine Py.Total.bind (((outerFit_total (K := K) hc hF' hmin.1 hmin.2 (c.fuel S0.minIt) (ks := S0.paramOrder) ?_).and_inv
    (outerFit_setup _ _ S0)).pre ?_) fun r => ?_
  · change c.maxOuter < max _ c.maxOuter + 2
    omega
  · rintro _ rfl
    exact ⟨⟨hstart, rfl, rfl⟩, SameSetup.refl _⟩
  · refine Py.Total.of_state ?_
    rintro t ⟨⟨⟨d, i, rfl⟩, ht⟩, hsame⟩
    refine Py.Total.bind_attr rfl (Py.Total.set ?_)
    rintro t rfl
    refine ⟨?_, fun k hk => ?_, ?_, ⟨d, rfl⟩, ?_, ?_, ?_⟩
    · obtain ⟨a1, a2, a3, a4, a5, a6, a7, a8⟩ := ht.setup
      exact ⟨a1, a2, a3, a4, a5, a6, a7, a8⟩
    · obtain ⟨a1, a2, a3, a4, a5, a6, a7⟩ := ht.stored k (by rw [hSo]; exact (hs.order k).2 hk)
      exact ⟨a1, a2, a3, a4, a5, a6, a7⟩
    · exact ⟨_, hsame.nObs.trans hSn⟩
    · exact ⟨_, hsame.scaler.trans hSs⟩
    · intro k hk
      obtain ⟨eq, fi, h1, h2, h3⟩ := hdesign k hk
      refine ⟨eq, fi, ?_, ?_, h3⟩
      · change t.equation.get? k = _
        rw [hsame.equation, hSe]
        exact h1
      · change t.fitIntercept.get? k = _
        rw [hsame.fitIntercept, hSf]
        exact h2
    · change t.minIt ≤ _
      rw [hsame.minIt]
      exact hmin.2

/-- A batch an estimator with these options can be updated with: with `cautious_updates` the batch has one observation
and there is room for the four slow iterations of an outlier. -/
structure GoodBatch (D : DistOps) (c : GConfig μ p) (data : List (Obs p)) : Prop where
  nonempty : data ≠ []
  support : ¬ OutOfSupport D (ys data)
  cautious : c.cautiousUpdates = true → data.length = 1 ∧ 4 ≤ c.maxOuter ∧
    ∀ q (fv : Fv), (D.ppf q fv).length = fv.length

theorem cautious_total {D : DistOps} {c : GConfig μ p} {J : ℕ → ℕ} {M : MethodOps μ} {K : ∀ k, MethodContract M (J k)}
    {data : List (Obs p)} (hb : GoodBatch D c data) (hmi : 1 ≤ c.maxInner) (hmin : c.minItOuter ≤ c.maxOuter) :
    Py.Total (fun s : GState μ p => UpdInv K D.nParams c.maxInner (ys data).length s ∧ s.minIt ≤ c.maxOuter)
      (cautious D c (ys data))
      (fun _ s => UpdInv K D.nParams c.maxInner (ys data).length s ∧ s.minIt ≤ c.maxOuter) := by
  unfold cautious
  refine Py.Total.bind_self fun s hs => ?_
  split
  · next hc =>
    obtain ⟨h1, h4, hq⟩ := hb.cautious hc
    have hone : ∀ q, ∃ v, item (D.ppf q s.fv) = .ok v := by
      intro q
      have : (D.ppf q s.fv).length = 1 := by rw [hq, hs.1.fv]; simp [ys, h1]
      obtain ⟨v, hv⟩ := List.length_eq_one_iff.1 this
      exact ⟨v, by rw [hv]; rfl⟩
    obtain ⟨lo, hlo⟩ := hone (5 / 1000)
    obtain ⟨up, hup⟩ := hone (995 / 1000)
    refine Py.Total.bind_call hlo (Py.Total.bind_call hup ?_)
    split
    · refine Py.Total.set ?_
      rintro _ rfl
      refine ⟨?_, h4⟩
      obtain ⟨⟨a1, a2, a3, a4, a5, a6, a7, a8⟩, b1, b2, b3, b4, b5, b6, b7, b8, b9⟩ := hs.1
      refine ⟨⟨a1, a2, a3, a4, a5, a6, fun i => ?_, a8⟩, b1, fun k hk => ?_, b3, b4, b5, b6, b7, b8, b9⟩
      · have := a7 i
        simp only [GState.outlierSchedule]
        split <;> omega
      · obtain ⟨c1, c2, c3, c4, c5, c6, c7⟩ := b2 k hk
        exact ⟨c1, c2, c3, c4, c5, c6, c7⟩
    · refine Py.Total.set ?_
      rintro _ rfl
      exact ⟨hs.1.congr _ rfl rfl rfl, hmin⟩
  · refine Py.Total.pure ?_
    rintro _ rfl
    exact hs

theorem update_total {D : DistOps} {M : MethodOps μ} {c : GConfig μ p} {J : ℕ → ℕ}
    (hD : Regular D) (hcond : c.condStartVal = true → ConditionalRegular D) (K : ∀ k, MethodContract M (J k))
    (hv : c.Valid) (hmin : c.minItOuter ≤ c.maxOuter) (hpre : c.prefitUpdate ≤ c.maxOuter) (hp : p ≠ 0) {data : List (Obs p)}
    (hb : GoodBatch D c data) (hF : TakesLater D c K data) :
    Py.Total (fun s : GState μ p => GFitted D c K s) (GState.update D M c data) (fun _ s => GFitted D c K s) := by
  have hne := hb.nonempty
  obtain ⟨_, _, _, _, _, hmo, hmi, _⟩ := id hv
  unfold GState.update
  refine Py.Total.bind_raiseIf (fun hn => hn hv) (Py.Total.bind_raiseIf (by simp [hne, hp]) (Py.Total.bind_raiseIf hb.support ?_))
  refine Py.Total.of_state fun s hs => ?_
  obtain ⟨nO, hnO⟩ := hs.nObs
  obtain ⟨sc0, hsc0⟩ := hs.scaler
  obtain ⟨gd, hgd⟩ := hs.globalDev
  obtain ⟨forget0, hforget0, _, _⟩ := hs.setup.forget 0 hD.pos
  obtain ⟨nt, hnt, hnt'⟩ := forParams_ok (n := D.nParams) (f := fun k =>
    match s.forget.get? k with
    | some f => .ok (effectiveTrainingLength f (nO + (ws data).sum))
    | none => .error .keyError) (Q := fun _ _ => True) (fun k hk => by
      obtain ⟨f, hf, _⟩ := hs.setup.forget k hk
      rw [hf]
      exact ⟨_, rfl, trivial⟩)
  have hs' : GFitted D c K ((s.setNObs (some (nO + (ws data).sum))).setNTraining nt) := by
    obtain ⟨⟨a1, a2, a3, a4, a5, a6, a7, a8⟩, b1, b2, b3, b4, b5, b6⟩ := hs
    refine ⟨⟨a1, a2, a3, fun k hk => ?_, a5, a6, a7, a8⟩, fun k hk => ?_, ⟨_, rfl⟩, b3, b4, b5, b6⟩
    · obtain ⟨v, hv, _⟩ := hnt' k hk
      exact ⟨v, hv⟩
    · obtain ⟨c1, c2, c3, c4, c5, c6, c7⟩ := b1 k hk
      exact ⟨c1, c2, c3, c4, c5, c6, c7⟩
  obtain ⟨fv, hfv, hfvl⟩ := predictParams_ok hD hs' (X := xs data) (by simpa [xs] using hne)
  obtain ⟨sc, hsc⟩ := Scaler.update_ok (f := forget0) hne sc0
  obtain ⟨X, hX, hX'⟩ := forParams_ok (n := D.nParams)
    (f := fun k => designFor ((s.setNObs (some (nO + (ws data).sum))).setNTraining nt) sc (xs data) k)
    (Q := fun k A => A.length = (xs data).length ∧ ∀ r ∈ A, RowOk c (J k) r) (fun k hk => by
      obtain ⟨eq, fi, h1, h2, h3⟩ := hs'.design k hk
      exact designFor_ok h1 h2 h3 sc (xs data))
  have hc : CallOk (⟨D, M, c, X.get?, ys data, ws data⟩ : Call μ p) J := by
    refine ⟨hD, hcond, by simpa [ys] using hne, by simp [ws, ys], fun k hk => ?_⟩
    obtain ⟨A, hA, hl, hr⟩ := hX' k hk
    exact ⟨A, hA, by simp [hl, xs, ys], fun r h => (hr r h).length⟩
  have hF' : UpdateArraysOk (⟨D, M, c, X.get?, ys data, ws data⟩ : Call μ p) K := by
    intro k hk A hA fv wk hwk
    obtain ⟨A', hA', hl, hr⟩ := hX' k hk
    cases hA'.symm.trans hA
    exact hF k hk A (by simpa [xs] using hl) hr fv wk hwk
  have hstart : UpdInv K D.nParams c.maxInner (ys data).length (updateStart c (nO + (ws data).sum) nt fv sc s) ∧
      (updateStart c (nO + (ws data).sum) nt fv sc s).minIt ≤ c.maxOuter := by
    obtain ⟨⟨a1, a2, a3, a4, a5, a6, a7, a8⟩, b1, b2, b3, b4, b5, b6⟩ := hs'
    refine ⟨⟨⟨a1, a2, a3, a4, a5, a6, fun i => ?_, a8⟩, ?_, fun k hk => ?_, b2, b3, fun k hk => (b1 k hk).selection,
      fun k hk => (b1 k hk).xGram, fun k hk => (b1 k hk).yGram, fun k hk => (b1 k hk).sumW, fun k hk => (b1 k hk).meanW⟩, ?_⟩
    · change 1 ≤ (if i < c.prefitUpdate then 1 else c.maxInner) ∧ (if i < c.prefitUpdate then 1 else c.maxInner) ≤ c.maxInner
      split <;> omega
    · change fv.length = _
      rw [hfvl]
      simp [xs, ys]
    · obtain ⟨c1, c2, c3, c4, c5, c6, c7⟩ := b1 k hk
      exact ⟨c1, c2, c3, c4, c5, c6, c7⟩
    · change (if 0 < c.prefitUpdate then c.prefitUpdate else s.minIt) ≤ c.maxOuter
      have := hs.minIt
      split <;> omega
  have hkeep : Py.Inv (fun t : GState μ p => t.scaler = some sc ∧ t.equation = s.equation ∧ t.fitIntercept = s.fitIntercept)
      (cautious D c (ys data)) := cautious_keeps D c (ys data) _ (fun t ht => ht) fun t b ht => ht
  have hdesign := hs.design
  refine Py.Total.bind_self_eq (Py.Total.bind_attr hnO (Py.Total.bind_set_eq (Py.Total.bind_call hnt (Py.Total.bind_set_eq
    (Py.Total.bind_self_eq ?_)))))
  refine Py.Total.bind_call hfv (Py.Total.bind_set_eq (Py.Total.bind_attr hsc0 (Py.Total.bind_attr hforget0
    (Py.Total.bind_call hsc (Py.Total.bind_set_eq (Py.Total.bind_call hX (Py.Total.bind_set_eq ?_)))))))
  change Py.Total (fun t => t = updateStart c (nO + (ws data).sum) nt fv sc s) _ _
  have hst : (updateStart c (nO + (ws data).sum) nt fv sc s).scaler = some sc ∧
      (updateStart c (nO + (ws data).sum) nt fv sc s).equation = s.equation ∧
      (updateStart c (nO + (ws data).sum) nt fv sc s).fitIntercept = s.fitIntercept := ⟨rfl, rfl, rfl⟩
  generalize updateStart c (nO + (ws data).sum) nt fv sc s = S0 at *
  refine Py.Total.bind (((cautious_total (K := K) hb hmi hmin).and_inv hkeep).pre ?_) fun _ => ?_
  · rintro _ rfl
    exact ⟨hstart, hst⟩
  refine Py.Total.of_state fun t1 ht1 => Py.Total.bind_self_eq ?_
  refine Py.Total.bind (((outerUpdate_total (K := K) hc hF' (c.fuel t1.minIt) ?_).and_inv (outerUpdate_committed _ _ t1)).pre ?_)
    fun r => ?_
  · change c.maxOuter < max _ c.maxOuter + 2
    omega
  · rintro _ rfl
    exact ⟨ht1.1, SameCommitted.refl _⟩
  · refine Py.Total.of_state ?_
    rintro t ⟨⟨⟨d, i, rfl⟩, ht⟩, hsame⟩
    refine Py.Total.bind_attr rfl (Py.Total.bind_set_eq (Py.Total.set ?_))
    rintro _ rfl
    refine ⟨?_, fun k hk => ?_, ht.nObs, ⟨d, rfl⟩, ?_, ?_, ?_⟩
    · obtain ⟨a1, a2, a3, a4, a5, a6, a7, a8⟩ := ht.setup
      exact ⟨a1, a2, a3, a4, a5, a6, a7, a8⟩
    · obtain ⟨a1, a2, a3, a4, a5, a6, a7⟩ := ht.stored k hk
      exact ⟨ht.xGramNew k hk, ht.yGramNew k hk, a3, a4, a5, ht.sumWNew k hk, ht.meanWNew k hk⟩
    · exact ⟨_, hsame.setup.scaler.trans ht1.2.1⟩
    · intro k hk
      obtain ⟨eq, fi, h1, h2, h3⟩ := hdesign k hk
      refine ⟨eq, fi, ?_, ?_, h3⟩
      · change t.equation.get? k = _
        rw [hsame.setup.equation, ht1.2.2.1]
        exact h1
      · change t.fitIntercept.get? k = _
        rw [hsame.setup.fitIntercept, ht1.2.2.2]
        exact h2
    · change t.minIt ≤ _
      rw [hsame.setup.minIt]
      exact ht1.1.2

theorem updates_total {D : DistOps} {M : MethodOps μ} {c : GConfig μ p} {J : ℕ → ℕ}
    (hD : Regular D) (hcond : c.condStartVal = true → ConditionalRegular D) (K : ∀ k, MethodContract M (J k))
    (hv : c.Valid) (hmin : c.minItOuter ≤ c.maxOuter) (hpre : c.prefitUpdate ≤ c.maxOuter) (hp : p ≠ 0) :
    ∀ bs : List (List (Obs p)), (∀ b ∈ bs, GoodBatch D c b) → (∀ b ∈ bs, TakesLater D c K b) →
    Py.Total (fun s : GState μ p => GFitted D c K s) (GState.updates D M c bs) (fun _ s => GFitted D c K s)
  | [], _, _ => by
    refine Py.Total.pure ?_
    exact fun _ h => h
  | b :: bs, h, hF => by
    unfold GState.updates
    exact Py.Total.bind (update_total hD hcond K hv hmin hpre hp (h b (List.mem_cons_self ..)) (hF b (List.mem_cons_self ..)))
      fun _ => updates_total hD hcond K hv hmin hpre hp bs (fun b' hb' => h b' (List.mem_cons_of_mem _ hb'))
        fun b' hb' => hF b' (List.mem_cons_of_mem _ hb')

/-- C76: the estimator adds no exception of its own.  Let the functions of the distribution object and of the method
object raise nothing on the arrays and flags these data lead to (`hF`, `hU`, `hR`) and return arrays of matching shapes, let the
options be in their documented domains with at least one
and at most `max_it_outer` outer iterations required, let the first batch have two observations with positive weights, and
let all responses be in the support.  Then `fit` and any number of updates return, the estimator reports to be fitted, and
parameters are predicted for all new inputs. -/
theorem C76_no_exception {frames : Bool} {D : DistOps} {M : MethodOps μ} {c : GConfig μ p} {m : μ} {fi : Bool}
    {J : ℕ → ℕ} (hD : Regular D) (hcond : c.condStartVal = true → ConditionalRegular D) (K : ∀ k, MethodContract M (J k))
    (hK : ∀ k < D.nParams, (K k).Ok m) (h : GoodOptions frames D c m fi J) (hp : p ≠ 0) {data : List (Obs p)}
    (h2 : 2 ≤ data.length) (hw : ∀ o ∈ data, 0 < o.w) (hy : ¬ OutOfSupport D (ys data))
    (bs : List (List (Obs p))) (hbs : ∀ b ∈ bs, GoodBatch D c b) (hF : TakesFirst D c K data)
    (hU : ∀ b ∈ bs, TakesLater D c K b) (hR : TakesFlags D c K fi) (s : GState μ p) :
    ∃ t, GState.fit frames D M c data s = (.ok (), t) ∧ ∃ u, GState.updates D M c bs t = (.ok (), u) ∧
      u.isFitted = true ∧ ∀ X : List (Row p), X ≠ [] → ∃ th, predictParams D u X .response = .ok th ∧
        th.length = X.length := by
  obtain ⟨⟨⟩, t, ht, hft⟩ := fit_total hD hcond K hK h hp h2 hw hy hF hR s trivial
  obtain ⟨⟨⟩, u, hu, hfu⟩ := updates_total hD hcond K h.valid h.minIt.2 h.prefit.2 hp bs hbs hU t hft
  refine ⟨t, ht, u, hu, ?_, fun X hX => predictParams_ok hD hfu hX⟩
  obtain ⟨v, hv⟩ := hfu.nObs
  simp [GState.isFitted, hv]

/-! ### The distributions of the package -/

theorem dl1_defined (d : Dist) (y : ℝ) (θ : ℕ → ℝ) (k : ℕ) (hk : k < d.nParams) : ∃ v, d.dl1 y θ k = .ok (some v) := by
  cases d <;> simp only [Dist.nParams] at hk <;> interval_cases k <;> exact ⟨_, rfl⟩

theorem dl2_defined (d : Dist) (y : ℝ) (θ : ℕ → ℝ) (k : ℕ) (hk : k < d.nParams) : ∃ v, d.dl2 y θ k = .ok (some v) := by
  cases d <;> simp only [Dist.nParams] at hk <;> interval_cases k <;> exact ⟨_, rfl⟩

theorem derivativeAt_ok {real : (ℕ → ℝ) → Except PyErr (Option ℝ)} (h : ∀ θ, ∃ v, real θ = .ok (some v)) (other : Flt)
    (row : Option (ℕ → ℝ)) : ∃ v, derivativeAt real other row = .ok v := by
  unfold derivativeAt
  cases row with
  | none => exact ⟨_, rfl⟩
  | some θ =>
    obtain ⟨v, hv⟩ := h θ
    simp only [hv]
    exact ⟨_, rfl⟩

/-- All distributions of the package, with a link for each parameter, raise nothing and keep the shapes. -/
theorem regular_ops (tiny ulp : ℝ) (o : ScipyOracles) (e : Elsewhere) (d : Dist) (links : List LinkClass)
    (hl : d.nParams ≤ links.length) : Regular (d.ops tiny ulp o e links) where
  pos := by cases d <;> simp [Dist.ops, Dist.nParams]
  link := fun k hk a => ⟨a.map (LinkClass.linkFlt tiny ulp e (links[k]'(hk.trans_le hl))), by
    simp [Dist.ops, withLink, List.getElem?_eq_getElem (hk.trans_le hl)], by simp⟩
  linkInverse := fun k hk a => ⟨a.map (LinkClass.inverseFlt e (links[k]'(hk.trans_le hl))), by
    simp [Dist.ops, withLink, List.getElem?_eq_getElem (hk.trans_le hl)], by simp⟩
  linkInverseDerivative := fun k hk a => ⟨a.map (LinkClass.inverseDerivativeFlt e (links[k]'(hk.trans_le hl))), by
    simp [Dist.ops, withLink, List.getElem?_eq_getElem (hk.trans_le hl)], by simp⟩
  dl1 := fun k hk y fv hfv => by
    obtain ⟨r, hr, hlen, _⟩ := mapM_ok_of_forall (l := y.zip fv) (f := fun r : ℝ × (ℕ → Flt) =>
      derivativeAt (fun θ => d.dl1 r.1 θ k) (d.outside r.1 k (e.dl1 r.1 r.2 k)) (d.realRow? tiny ulp r.2)) (Q := fun _ => True)
      fun x _ => by
        obtain ⟨v, hv⟩ := derivativeAt_ok (fun θ => dl1_defined d x.1 θ k hk) (d.outside x.1 k (e.dl1 x.1 x.2 k)) (d.realRow? tiny ulp x.2)
        exact ⟨v, hv, trivial⟩
    exact ⟨r, hr, by simp [hlen, hfv]⟩
  dl2 := fun k hk y fv hfv => by
    obtain ⟨r, hr, hlen, _⟩ := mapM_ok_of_forall (l := y.zip fv) (f := fun r : ℝ × (ℕ → Flt) =>
      derivativeAt (fun θ => d.dl2 r.1 θ k) (d.outside r.1 k (e.dl2 r.1 r.2 k)) (d.realRow? tiny ulp r.2)) (Q := fun _ => True)
      fun x _ => by
        obtain ⟨v, hv⟩ := derivativeAt_ok (fun θ => dl2_defined d x.1 θ k hk) (d.outside x.1 k (e.dl2 x.1 x.2 k)) (d.realRow? tiny ulp x.2)
        exact ⟨v, hv, trivial⟩
    exact ⟨r, hr, by simp [hlen, hfv]⟩
  initialValues := fun y _ => ⟨_, rfl, by simp [Dist.initialValues]⟩

/-- C76 for the distributions of the package, without conditional start values: only the method object can make `fit` or an
update raise. -/
theorem C76_package_distributions {frames : Bool} (tiny ulp : ℝ) (o : ScipyOracles) (e : Elsewhere) (d : Dist)
    (links : List LinkClass) (hl : d.nParams ≤ links.length) {M : MethodOps μ} {c : GConfig μ p} {m : μ} {fi : Bool}
    {J : ℕ → ℕ} (hcond : c.condStartVal = false) (K : ∀ k, MethodContract M (J k))
    (hK : ∀ k < d.nParams, (K k).Ok m) (h : GoodOptions frames (d.ops tiny ulp o e links) c m fi J) (hp : p ≠ 0)
    {data : List (Obs p)} (h2 : 2 ≤ data.length) (hw : ∀ o ∈ data, 0 < o.w)
    (hy : ¬ OutOfSupport (d.ops tiny ulp o e links) (ys data)) (bs : List (List (Obs p)))
    (hbs : ∀ b ∈ bs, b ≠ [] ∧ ¬ OutOfSupport (d.ops tiny ulp o e links) (ys b) ∧
      (c.cautiousUpdates = true → b.length = 1 ∧ 4 ≤ c.maxOuter))
    (hF : TakesFirst (d.ops tiny ulp o e links) c K data) (hU : ∀ b ∈ bs, TakesLater (d.ops tiny ulp o e links) c K b)
    (hR : TakesFlags (d.ops tiny ulp o e links) c K fi) (s : GState μ p) :
    ∃ t, GState.fit frames (d.ops tiny ulp o e links) M c data s = (.ok (), t) ∧
      ∃ u, GState.updates (d.ops tiny ulp o e links) M c bs t = (.ok (), u) ∧ u.isFitted = true ∧
      ∀ X : List (Row p), X ≠ [] → ∃ th, predictParams (d.ops tiny ulp o e links) u X .response = .ok th ∧
        th.length = X.length :=
  C76_no_exception (regular_ops tiny ulp o e d links hl) (by simp [hcond]) K hK h hp h2 hw hy bs (fun b hb =>
    ⟨(hbs b hb).1, (hbs b hb).2.1, fun hc => ⟨((hbs b hb).2.2 hc).1, ((hbs b hb).2.2 hc).2, fun q fv => by
      simp [Dist.ops]⟩⟩) hF hU hR s

/-- The numbers of iterations are a real proviso: with more required than allowed the options pass the validation, yet
every `fit` raises. -/
theorem C76_min_above_max_fails {frames : Bool} {D : DistOps} {M : MethodOps μ} {c : GConfig μ p} {data : List (Obs p)}
    (hc : c.maxOuter < if 0 < c.prefitInitial then c.prefitInitial else c.minItOuter) (s : GState μ p) :
    ∃ err t, GState.fit frames D M c data s = (.error err, t) := by
  rcases hr : GState.fit frames D M c data s with ⟨r, t⟩
  rcases r with err | u
  · exact ⟨err, t, rfl⟩
  · exact absurd hr (C58_min_above_max hc s t u)

end Ondil
