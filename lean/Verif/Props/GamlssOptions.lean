import Verif.Lemmas.GamlssOptions
import Mathlib.Data.Real.Basic

/-!
# Properties of the options and equations of the distributional regression (C60, C61, C62)
-/

namespace Ondil

variable {α : Type}

/-! ### C60: per-parameter options reach the parameter they were given for -/

/-- A dictionary: every distribution parameter in it gets its value, every missing one the default. -/
theorem C60_dict_lookup (n : ℕ) (dflt : α) (d : PyDict α) :
    ∃ r, ((OptArg.dict d).process n (.value dflt)).result = .ok r ∧ ∀ k < n, r.get? k = some ((d.get? k).getD dflt) := by
  obtain ⟨d', h1, h2, _, _⟩ := OptArg.fill_value dflt (List.range n) List.nodup_range d
  refine ⟨d', ?_, fun k hk => ?_⟩
  · unfold OptArg.process; simp only [h1]
  · rw [h2 k, if_pos (List.mem_range.2 hk)]

/-- One value: it applies to all parameters. -/
theorem C60_value_lookup (n : ℕ) (dflt : OptArg α) (a : α) :
    ∃ r, ((OptArg.value a).process n dflt).result = .ok r ∧ ∀ k < n, r.get? k = some a :=
  ⟨_, rfl, fun k hk => by rw [PyDict.get?_ofRange, if_pos hk]⟩

/-- The order in which the user wrote the entries of the dictionary does not matter for the look-up. -/
theorem C60_order_irrelevant (n : ℕ) (dflt : α) (d e : PyDict α) (hd : d.keys.Nodup) (h : d.Perm e) :
    ∃ r r', ((OptArg.dict d).process n (.value dflt)).result = .ok r ∧
      ((OptArg.dict e).process n (.value dflt)).result = .ok r' ∧ ∀ k < n, r.get? k = r'.get? k := by
  obtain ⟨r, hr, hr'⟩ := C60_dict_lookup n dflt d
  obtain ⟨q, hq, hq'⟩ := C60_dict_lookup n dflt e
  exact ⟨r, q, hr, hq, fun k hk => by rw [hr' k hk, hq' k hk, PyDict.get?_perm hd h]⟩

/-- The step size does not follow the keys: it is laid out in the order of insertion, so a dictionary written as
`{1: a, 0: b}` gives parameter 0 the step size of parameter 1 and the other way round, in every iteration. -/
theorem C60_step_size_fails (a b : ℝ) (maxOuter maxInner o i : ℕ) (ho : o < maxOuter) (hi : i < maxInner) :
    ∃ r, ((OptArg.dict [(1, a), (0, b)]).process 2 (.value 1)).result = .ok r ∧
      r.get? 0 = some b ∧ r.get? 1 = some a ∧
      stepSchedule r maxOuter maxInner o i 0 = .ok a ∧ stepSchedule r maxOuter maxInner o i 1 = .ok b := by
  refine ⟨[(1, a), (0, b)], rfl, rfl, rfl, ?_, ?_⟩ <;> simp [stepSchedule, ho, hi, PyDict.values]

/-- The same for a dictionary that leaves out the first parameter: `{1: a}` gives the step size `a` to parameter 0 and
the default to parameter 1. -/
theorem C60_step_size_missing_fails (a : ℝ) (maxOuter maxInner o i : ℕ) (ho : o < maxOuter) (hi : i < maxInner) :
    ∃ r, ((OptArg.dict [(1, a)]).process 2 (.value 1)).result = .ok r ∧
      r.get? 0 = some 1 ∧ r.get? 1 = some a ∧
      stepSchedule r maxOuter maxInner o i 0 = .ok a ∧ stepSchedule r maxOuter maxInner o i 1 = .ok 1 := by
  refine ⟨[(1, a), (0, 1)], rfl, rfl, rfl, ?_, ?_⟩ <;> simp [stepSchedule, ho, hi, PyDict.values]

/-- What holds of the step size: a dictionary with the keys `0, …, m - 1` in this order is laid out correctly (a single
value is such a dictionary after processing).  Missing: dictionaries in another order. -/
theorem C60_step_size_partial (n m : ℕ) (hm : m ≤ n) (dflt : ℝ) (d : PyDict ℝ) (hd : d.keys = List.range m)
    (maxOuter maxInner o i k : ℕ) (ho : o < maxOuter) (hi : i < maxInner) (hk : k < n) :
    ∃ r, ((OptArg.dict d).process n (.value dflt)).result = .ok r ∧
      stepSchedule r maxOuter maxInner o i k = .ok ((d.get? k).getD dflt) := by
  obtain ⟨r, h1, h2, h3, _⟩ := OptArg.fill_value dflt (List.range n) List.nodup_range d
  have hkeys : r.keys = List.range n := by
    rw [h3, hd]
    obtain ⟨j, rfl⟩ := Nat.exists_eq_add_of_le hm
    rw [List.range_add, List.filter_append]
    have e1 : (List.range m).filter (fun k => decide (k ∉ List.range m)) = [] := by
      rw [List.filter_eq_nil_iff]; intro x hx; simp [hx]
    have e2 : ((List.range j).map fun x => m + x).filter (fun k => decide (k ∉ List.range m)) =
        (List.range j).map fun x => m + x := by
      rw [List.filter_eq_self]; intro x hx
      obtain ⟨y, _, rfl⟩ := List.mem_map.1 hx
      simp
    rw [e1, e2, List.nil_append]
  refine ⟨r, by unfold OptArg.process; simp only [h1], ?_⟩
  unfold stepSchedule
  rw [if_pos ⟨ho, hi⟩, PyDict.values_getElem? hkeys, h2 k, if_pos (List.mem_range.2 hk)]

/-- One step size for all parameters is used for all parameters. -/
theorem C60_step_size_value (n : ℕ) (dflt : OptArg ℝ) (a : ℝ) (maxOuter maxInner o i k : ℕ) (ho : o < maxOuter)
    (hi : i < maxInner) (hk : k < n) :
    ∃ r, ((OptArg.value a).process n dflt).result = .ok r ∧ stepSchedule r maxOuter maxInner o i k = .ok a := by
  refine ⟨_, rfl, ?_⟩
  unfold stepSchedule
  rw [if_pos ⟨ho, hi⟩, PyDict.values_getElem? (n := n), PyDict.get?_ofRange, if_pos hk]
  unfold PyDict.ofRange PyDict.keys
  simp [Function.comp_def]

/-- A case in which the hypotheses hold: two parameters, a step size for the first one only. -/
example : ∃ r, ((OptArg.dict [(0, (1 / 2 : ℝ))]).process 2 (.value 1)).result = .ok r ∧
    stepSchedule r 30 30 3 4 1 = .ok 1 :=
  C60_step_size_partial 2 1 (by norm_num) 1 [(0, 1 / 2)] rfl 30 30 3 4 1 (by norm_num) (by norm_num) (by norm_num)

/-! ### C61: options given by the user are not modified -/

/-- A dictionary that does not list every distribution parameter is modified. -/
theorem C61_option_dict_fails (n : ℕ) (dflt : α) (d : PyDict α) (k : ℕ) (hk : k < n) (hd : d.get? k = none) :
    ((OptArg.dict d).process n (.value dflt)).user ≠ .dict d := by
  obtain ⟨d', h1, h2, _, _⟩ := OptArg.fill_value dflt (List.range n) List.nodup_range d
  unfold OptArg.process
  simp only [h1, ne_eq, OptArg.dict.injEq]
  rintro rfl
  have := h2 k
  rw [if_pos (List.mem_range.2 hk), hd] at this
  simp at this

/-- The same for the equation: parameters left out become entries of the user's dictionary. -/
theorem C61_equation_fails (frames : Bool) (n : ℕ) (d : PyDict Equation) (k : ℕ) (hk : k < n) (hd : d.get? k = none)
    (hacc : ∀ j < n, ∀ e, d.get? j = some e → e.accepted frames = true) :
    (processEquation frames n (some d)).2 ≠ some d := by
  have hloop := equationLoop_eq frames (List.range n) d fun j hj e he => hacc j (List.mem_range.1 hj) e he
  obtain ⟨d', h1, h2, _, _⟩ := OptArg.fill_value (.str "intercept") (List.range n) List.nodup_range d
  unfold processEquation
  simp only [hloop, h1, ne_eq, Option.some.injEq]
  rintro rfl
  have := h2 k
  rw [if_pos (List.mem_range.2 hk), hd] at this
  simp at this

/-- What holds: single values and complete dictionaries are left as they are.  Missing: partial dictionaries. -/
theorem C61_complete_partial (n : ℕ) (dflt : α) (o : OptArg α)
    (h : ∀ d, o = .dict d → ∀ k < n, (d.get? k).isSome) : (o.process n (.value dflt)).user = o := by
  cases o with
  | value a => rfl
  | dict d =>
    obtain ⟨d', h1, _, _, h4⟩ := OptArg.fill_value dflt (List.range n) List.nodup_range d
    unfold OptArg.process
    simp only [h1]
    rw [h4 fun k hk => h d rfl k (List.mem_range.1 hk)]

/-- What holds for the equation: no equation, or one for every parameter.  Missing: partial dictionaries. -/
theorem C61_equation_partial (frames : Bool) (n : ℕ) (o : Option (PyDict Equation))
    (h : ∀ d, o = some d → ∀ k < n, ∃ e, d.get? k = some e ∧ e.accepted frames = true) :
    (processEquation frames n o).2 = o := by
  cases o with
  | none => rfl
  | some d =>
    have hloop := equationLoop_eq frames (List.range n) d fun j hj e he => by
      obtain ⟨e', he', ha⟩ := h d rfl j (List.mem_range.1 hj)
      rw [he] at he'
      simp only [Option.some.injEq] at he'
      rw [he']; exact ha
    obtain ⟨d', h1, _, _, h4⟩ := OptArg.fill_value (.str "intercept") (List.range n) List.nodup_range d
    unfold processEquation
    simp only [hloop, h1]
    rw [h4 fun k hk => by
      obtain ⟨e', he', _⟩ := h d rfl k (List.mem_range.1 hk)
      rw [he']; rfl]

/-- The hypotheses of the failures hold for the documented use `equation={0: "all"}` of a two parameter model. -/
example : (processEquation false 2 (some [(0, .str "all")])).2 ≠ some [(0, .str "all")] :=
  C61_equation_fails false 2 [(0, .str "all")] 1 (by norm_num) rfl (by
    intro j hj e he
    interval_cases j
    · simp [PyDict.get?] at he; subst he; rfl
    · simp [PyDict.get?] at he)

/-! ### C62: design matrix width agrees with the coefficient count -/

/-- The columns an equation stands for. -/
inductive Selects (p : ℕ) : Equation → List (Fin p) → Prop
  | all : Selects p (.str "all") (List.finRange p)
  | intercept : Selects p (.str "intercept") []
  | mask (m : List Bool) (hm : m.length = p) :
      Selects p (.mask m) ((List.finRange p).filter fun j => m[j.val]? = some true)
  | index (l : List ℤ) (sel : List (Fin p))
      (h : sel.map (fun j : Fin p => ((j : ℕ) : ℤ)) = l.map fun i => if i < 0 then i + (p : ℤ) else i) :
      Selects p (.index l) sel
  | intList (l : List ℤ) (sel : List (Fin p))
      (h : sel.map (fun j : Fin p => ((j : ℕ) : ℤ)) = l.map fun i => if i < 0 then i + (p : ℤ) else i) :
      Selects p (.intList l) sel

theorem zip_filterMap_eq_filter {p : ℕ} (m : List Bool) (hm : m.length = p) :
    (((List.finRange p).zip m).filterMap fun jm => if jm.2 then some jm.1 else none) =
      (List.finRange p).filter fun j => m[j.val]? = some true := by
  subst hm
  induction m with
  | nil => rfl
  | cons b m ih =>
    have hz : ∀ l : List (Fin m.length), ((l.map Fin.succ).zip m).filterMap (fun jm => if jm.2 then some jm.1 else none) =
        ((l.zip m).filterMap fun jm => if jm.2 then some jm.1 else none).map Fin.succ := by
      intro l
      generalize m = m' at *
      clear ih
      have : ∀ {q : ℕ} (l : List (Fin q)) (m' : List Bool),
          ((l.map Fin.succ).zip m').filterMap (fun jm => if jm.2 then some jm.1 else none) =
          ((l.zip m').filterMap fun jm => if jm.2 then some jm.1 else none).map Fin.succ := by
        intro q l
        induction l with
        | nil => intro m'; rfl
        | cons a l ih =>
          intro m'
          cases m' with
          | nil => rfl
          | cons c m' => cases c <;> simp [ih m']
      exact this l m'
    rw [List.length_cons, List.finRange_succ, List.zip_cons_cons, List.filterMap_cons, hz, ih, List.filter_cons,
      List.filter_map]
    cases b <;> simp [Function.comp_def]

/-- Whenever the design matrix of an equation other than a Python list of booleans is built, it consists, row by row,
of a one (if an intercept is fitted) followed by the selected columns in order. -/
theorem C62_columns {p : ℕ} (one : α) (fi : Bool) (eq : Equation) (heq : ∀ l, eq ≠ .boolList l) (X : List (Fin p → α))
    (hX : X ≠ []) (A : List (List α)) (h : modelArray one fi eq X = .ok A) :
    ∃ sel, Selects p eq sel ∧ A = X.map fun x => (if fi then [one] else []) ++ sel.map x := by
  unfold modelArray at h
  rw [mapM_ok_iff] at h
  have key : ∃ sel, Selects p eq sel ∧
      ∀ (x : Fin p → α) (r : List α), modelRow one fi eq x = .ok r → r = (if fi then [one] else []) ++ sel.map x := by
    have hex : ∃ (x : Fin p → α) (r : List α), modelRow one fi eq x = .ok r := by
      cases h with
      | nil => exact absurd rfl hX
      | cons ha _ => exact ⟨_, _, ha⟩
    obtain ⟨x0, r0, h0⟩ := hex
    by_cases hint : eq = .str "intercept"
    · subst hint
      refine ⟨[], .intercept, fun x r hr => ?_⟩
      unfold modelRow at hr
      rw [if_pos rfl] at hr
      cases fi with
      | true => simp only [if_true, Except.ok.injEq] at hr; rw [← hr]; rfl
      | false => simp at hr
    · have hrow : ∀ (x : Fin p → α) (r : List α), modelRow one fi eq x = .ok r →
          ∃ c, selectColumns x eq = .ok c ∧ r = (if fi then [one] else []) ++ c := by
        intro x r hr
        unfold modelRow at hr
        rw [if_neg hint] at hr
        rcases hc : selectColumns x eq with e | c
        · rw [hc] at hr; cases hr
        · rw [hc] at hr; cases hr
          refine ⟨c, rfl, ?_⟩
          cases fi <;> rfl
      obtain ⟨c0, hc0, _⟩ := hrow x0 r0 h0
      cases eq with
      | str s =>
        change (if s = "all" then Except.ok (List.ofFn x0) else Except.error PyErr.valueError) = _ at hc0
        by_cases hs : s = "all"
        · subst hs
          refine ⟨_, .all, fun x r hr => ?_⟩
          obtain ⟨c, hc, rfl⟩ := hrow x r hr
          simp only [selectColumns, if_true, Except.ok.injEq] at hc
          rw [← hc, List.ofFn_eq_map]
        · rw [if_neg hs] at hc0; cases hc0
      | mask m =>
        obtain ⟨hm, _⟩ := npMask_ok hc0
        refine ⟨_, .mask m hm, fun x r hr => ?_⟩
        obtain ⟨c, hc, rfl⟩ := hrow x r hr
        obtain ⟨_, rfl⟩ := npMask_ok hc
        rw [zip_filterMap_eq_filter m hm]
      | index l =>
        obtain ⟨sel, hs, _⟩ := mapM_npIndex_ok hc0
        refine ⟨sel, .index l sel hs, fun x r hr => ?_⟩
        obtain ⟨c, hc, rfl⟩ := hrow x r hr
        obtain ⟨sel', hs', rfl⟩ := mapM_npIndex_ok hc
        have : sel' = sel := by
          have he : sel'.map (fun j : Fin p => ((j : ℕ) : ℤ)) = sel.map (fun j : Fin p => ((j : ℕ) : ℤ)) := by
            rw [hs, hs']
          refine List.map_injective_iff.2 ?_ he
          intro a b hab
          ext; simpa using hab
        rw [this]
      | floatArray => simp [selectColumns] at hc0
      | names l => simp [selectColumns] at hc0
      | intList l =>
        obtain ⟨sel, hs, _⟩ := mapM_npIndex_ok hc0
        refine ⟨sel, .intList l sel hs, fun x r hr => ?_⟩
        obtain ⟨c, hc, rfl⟩ := hrow x r hr
        obtain ⟨sel', hs', rfl⟩ := mapM_npIndex_ok hc
        have : sel' = sel := by
          have he : sel'.map (fun j : Fin p => ((j : ℕ) : ℤ)) = sel.map (fun j : Fin p => ((j : ℕ) : ℤ)) := by
            rw [hs, hs']
          refine List.map_injective_iff.2 ?_ he
          intro a b hab
          ext; simpa using hab
        rw [this]
      | boolList l => exact absurd rfl (heq l)
      | other => simp [selectColumns] at hc0
  obtain ⟨sel, hsel, hrows⟩ := key
  refine ⟨sel, hsel, ?_⟩
  clear hX
  induction h with
  | nil => rfl
  | cons ha _ ih => rw [hrows _ _ ha, ih]; rfl

/-- Every row has as many entries as the reported number of coefficients. -/
theorem C62_width {p : ℕ} (one : α) (fi : Bool) (eq : Equation) (heq : ∀ l, eq ≠ .boolList l) (X : List (Fin p → α))
    (A : List (List α)) (h : modelArray one fi eq X = .ok A) (J : ℕ) (hJ : getJ p fi eq = .ok J) :
    ∀ r ∈ A, r.length = J := by
  intro r hr
  by_cases hX : X = []
  · subst hX
    unfold modelArray at h
    rw [List.mapM_nil] at h
    cases h
    simp at hr
  obtain ⟨sel, hsel, rfl⟩ := C62_columns one fi eq heq X hX A h
  obtain ⟨x, _, rfl⟩ := List.mem_map.1 hr
  have hlen : sel.length + fi.toNat = J ∨ (eq = .str "intercept" ∧ J = 1 ∧ sel = []) := by
    cases hsel with
    | all =>
      left
      simp only [getJ, if_true, Except.ok.injEq] at hJ
      simpa using hJ
    | intercept => right; refine ⟨rfl, ?_, rfl⟩; simp [getJ] at hJ; exact hJ.symm
    | mask m hm =>
      left
      change (if m.length ≠ p then Except.error PyErr.valueError else Except.ok (m.count true + fi.toNat)) = _ at hJ
      rw [if_neg (by simpa using hm)] at hJ
      simp only [Except.ok.injEq] at hJ
      rw [← hJ, ← zip_filterMap_eq_filter m hm, length_filterMap_mask _ _ (by simpa using hm)]
    | index l _ hs =>
      left
      have hl : sel.length = l.length := by simpa using congrArg List.length hs
      change (intMax l >>= fun m => if m ≥ (p : ℤ) then Except.error PyErr.valueError else
        Except.ok (l.length + fi.toNat)) = _ at hJ
      rcases hmx : intMax l with e | m
      · rw [hmx] at hJ; cases hJ
      · rw [hmx] at hJ
        have hJ' : (if m ≥ (p : ℤ) then Except.error PyErr.valueError else Except.ok (l.length + fi.toNat)) =
          Except.ok J := hJ
        split at hJ'
        · cases hJ'
        · cases hJ'; rw [hl]
    | intList l _ hs =>
      left
      have hl : sel.length = l.length := by simpa using congrArg List.length hs
      simp only [getJ, Except.ok.injEq] at hJ
      rw [← hJ, hl]
  rcases hlen with hlen | ⟨rfl, rfl, rfl⟩
  · cases fi <;> simp at hlen ⊢ <;> omega
  · unfold modelArray at h
    rw [mapM_ok_iff] at h
    cases h with
    | nil => exact absurd rfl hX
    | cons ha _ =>
      unfold modelRow at ha
      rw [if_pos rfl] at ha
      cases fi with
      | true => simp
      | false => simp at ha

/-- The first column is one when an intercept is fitted. -/
theorem C62_first_column {p : ℕ} (one : α) (eq : Equation) (X : List (Fin p → α)) (A : List (List α))
    (h : modelArray one true eq X = .ok A) : ∀ r ∈ A, r.head? = some one := by
  unfold modelArray at h
  rw [mapM_ok_iff] at h
  induction h with
  | nil => simp
  | cons ha _ ih =>
    intro r hr
    rcases List.mem_cons.1 hr with rfl | hr
    · unfold modelRow at ha
      split at ha
      · simp only [if_true, Except.ok.injEq] at ha
        rw [← ha]; rfl
      · rcases hc : selectColumns _ eq with e | c
        · rw [hc] at ha; cases ha
        · rw [hc] at ha; cases ha; rfl
    · exact ih r hr

/-- The design matrix is built whenever every index is in range. -/
theorem C62_built {p : ℕ} (one : α) (fi : Bool) (eq : Equation) (sel : List (Fin p)) (hsel : Selects p eq sel)
    (hfi : eq = .str "intercept" → fi = true) (X : List (Fin p → α)) :
    modelArray one fi eq X = .ok (X.map fun x => (if fi then [one] else []) ++ sel.map x) := by
  unfold modelArray
  rw [mapM_ok_iff, List.forall₂_map_right_iff]
  refine List.forall₂_same.2 fun x _ => ?_
  have hidx : ∀ (l : List ℤ) (sel : List (Fin p)),
      sel.map (fun j : Fin p => ((j : ℕ) : ℤ)) = (l.map fun i => if i < 0 then i + (p : ℤ) else i) →
      l.mapM (npIndex x) = .ok (sel.map x) := by
    intro l
    induction l with
    | nil =>
      intro sel h
      have : sel = [] := by simpa using h
      subst this; rfl
    | cons i l ih =>
      intro sel h
      cases sel with
      | nil => simp at h
      | cons j sel =>
        simp only [List.map_cons, List.cons.injEq] at h
        have hj : npIndex x i = .ok (x j) := by
          unfold npIndex
          have hc : 0 ≤ (if i < 0 then i + (p : ℤ) else i) ∧ (if i < 0 then i + (p : ℤ) else i).toNat < p := by
            rw [← h.1]; simp
          have hx : (⟨(if i < 0 then i + (p : ℤ) else i).toNat, hc.2⟩ : Fin p) = j := by
            ext; simp [← h.1]
          refine (dif_pos hc).trans ?_
          rw [hx]
        rw [List.mapM_cons, hj, ih sel h.2]; rfl
  have hrow : ∀ c, selectColumns x eq = .ok c → eq ≠ .str "intercept" →
      modelRow one fi eq x = .ok ((if fi then [one] else []) ++ c) := by
    intro c hc hne
    unfold modelRow
    rw [if_neg hne, hc]
    cases fi <;> rfl
  cases hsel with
  | all => exact hrow _ (by simp [selectColumns, List.ofFn_eq_map]) (by simp)
  | intercept =>
    have := hfi rfl
    subst this
    simp [modelRow]
  | mask m hm =>
    refine hrow _ ?_ (by simp)
    change npMask x m = _
    unfold npMask
    rw [if_pos hm, List.ofFn_eq_map, filterMap_zip_mask, zip_filterMap_eq_filter m hm]
  | index l _ hs => exact hrow _ (hidx l sel hs) (by simp)
  | intList l _ hs => exact hrow _ (hidx l sel hs) (by simp)

/-- A Python list of booleans is accepted (with pandas or polars installed), but the number of coefficients is then the
length of the list and not the number of selected columns. -/
theorem C62_bool_list_fails {p : ℕ} (one : α) (fi : Bool) (l : List Bool) (hl : l.length = p) (hfalse : false ∈ l)
    (x : Fin p → α) :
    Equation.accepted true (.boolList l) = true ∧
    ∃ J r, getJ p fi (.boolList l) = .ok J ∧ modelArray one fi (.boolList l) [x] = .ok [r] ∧ r.length < J := by
  let c := (((List.finRange p).zip l).filterMap fun jm => if jm.2 then some jm.1 else none).map x
  refine ⟨rfl, l.length + fi.toNat, if fi then one :: c else c, rfl, ?_, ?_⟩
  · unfold modelArray
    rw [mapM_ok_iff]
    refine List.Forall₂.cons ?_ .nil
    unfold modelRow
    have hc : selectColumns x (.boolList l) = .ok c := by
      change npMask x l = _
      unfold npMask
      rw [if_pos hl, List.ofFn_eq_map, filterMap_zip_mask]
    rw [if_neg (by simp), hc]
    cases fi <;> rfl
  · have hlen := length_filterMap_mask (List.finRange p) l (by simpa using hl)
    have hcount : l.count true < l.length := by
      have h1 := List.count_le_length (a := true) (l := l)
      rcases h1.lt_or_eq with h | h
      · exact h
      · rw [List.count_eq_length] at h
        exact absurd (h false hfalse) (by simp)
    cases fi
    · simp only [c, Bool.false_eq_true, if_false, List.length_map, hlen, Bool.toNat_false, add_zero]
      exact hcount
    · simp only [c, if_true, List.length_cons, List.length_map, hlen, Bool.toNat_true]
      omega

/-- A list of column names is accepted (with pandas or polars installed) and counted, but no design matrix can be built:
the data frame has already been converted to an array. -/
theorem C62_names_fails {p : ℕ} (one : α) (fi : Bool) (l : List String) (x : Fin p → α) (X : List (Fin p → α)) :
    Equation.accepted true (.names l) = true ∧ getJ p fi (.names l) = .ok (l.length + fi.toNat) ∧
      modelArray one fi (.names l) (x :: X) = .error .indexError := by
  refine ⟨rfl, rfl, ?_⟩
  unfold modelArray
  rw [List.mapM_cons]
  unfold modelRow selectColumns
  rw [if_neg (by simp)]
  rfl

/-- Cases in which the hypotheses hold: a mask, and an index array with a negative index. -/
example : Selects 3 (.mask [true, false, true]) [0, 2] := by
  have := Selects.mask (p := 3) [true, false, true] rfl
  rwa [show (List.finRange 3).filter (fun j => [true, false, true][j.val]? = some true) = [0, 2] from by decide] at this

example : Selects 3 (.index [-1, 0]) [2, 0] := Selects.index _ _ (by decide)

end Ondil
