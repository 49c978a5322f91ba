import Verif.Model.GamlssOptions

/-!
# Lemmas about dictionaries, options and equations
-/

namespace Ondil

namespace PyDict

variable {α : Type}

theorem get?_set (d : PyDict α) (k : ℕ) (a : α) (j : ℕ) : (d.set k a).get? j = if k = j then some a else d.get? j := by
  induction d with
  | nil => rfl
  | cons e d ih =>
    obtain ⟨i, b⟩ := e
    unfold PyDict.set
    by_cases hik : i = k
    · subst hik
      rw [if_pos rfl]
      by_cases hij : i = j
      · simp [PyDict.get?, hij]
      · simp [PyDict.get?, hij]
    · rw [if_neg hik]
      simp only [PyDict.get?, ih]
      by_cases hij : i = j
      · subst hij
        simp [Ne.symm hik]
      · simp [hij]

theorem get?_ofRange (n : ℕ) (f : ℕ → α) (k : ℕ) : (ofRange n f).get? k = if k < n then some (f k) else none := by
  have key : ∀ l : List ℕ, PyDict.get? (l.map fun p => (p, f p)) k = if k ∈ l then some (f k) else none := by
    intro l
    induction l with
    | nil => simp [PyDict.get?]
    | cons a l ih =>
      simp only [List.map_cons, PyDict.get?, ih, List.mem_cons]
      by_cases h : a = k
      · subst h; simp
      · simp [h, Ne.symm h]
  unfold ofRange
  rw [key]
  simp

theorem keys_set_of_mem (d : PyDict α) (k : ℕ) (a : α) (h : (d.get? k).isSome) : (d.set k a).keys = d.keys := by
  induction d with
  | nil => simp [PyDict.get?] at h
  | cons e d ih =>
    obtain ⟨i, b⟩ := e
    unfold PyDict.set
    by_cases hik : i = k
    · simp [hik, keys]
    · rw [if_neg hik]
      have := ih (by simpa [PyDict.get?, hik] using h)
      simp only [keys, List.map_cons] at this ⊢
      rw [this]

theorem keys_set_of_not_mem (d : PyDict α) (k : ℕ) (a : α) (h : d.get? k = none) :
    (d.set k a).keys = d.keys ++ [k] := by
  induction d with
  | nil => rfl
  | cons e d ih =>
    obtain ⟨i, b⟩ := e
    unfold PyDict.set
    by_cases hik : i = k
    · simp [PyDict.get?, hik] at h
    · rw [if_neg hik]
      have := ih (by simpa [PyDict.get?, hik] using h)
      simp only [keys, List.map_cons, List.cons_append] at this ⊢
      rw [this]

theorem get?_isSome_iff (d : PyDict α) (k : ℕ) : (d.get? k).isSome ↔ k ∈ d.keys := by
  induction d with
  | nil => simp [PyDict.get?, keys]
  | cons e d ih =>
    obtain ⟨i, b⟩ := e
    simp only [PyDict.get?, keys, List.map_cons, List.mem_cons]
    by_cases h : i = k
    · simp [h]
    · rw [if_neg h, ih]
      simp [keys, Ne.symm h]

theorem get?_eq_none_iff (d : PyDict α) (k : ℕ) : d.get? k = none ↔ k ∉ d.keys := by
  rw [← get?_isSome_iff]
  cases d.get? k <;> simp

theorem get?_eq_some_iff_mem {d : PyDict α} (hd : d.keys.Nodup) (k : ℕ) (a : α) : d.get? k = some a ↔ (k, a) ∈ d := by
  induction d with
  | nil => simp [PyDict.get?]
  | cons e d ih =>
    obtain ⟨i, b⟩ := e
    simp only [keys, List.map_cons, List.nodup_cons] at hd
    simp only [PyDict.get?, List.mem_cons, Prod.mk.injEq]
    by_cases h : i = k
    · subst h
      rw [if_pos rfl]
      constructor
      · intro h; simp only [Option.some.injEq] at h; exact Or.inl ⟨rfl, h.symm⟩
      · rintro (⟨_, rfl⟩ | h)
        · rfl
        · exact absurd (List.mem_map_of_mem (f := Prod.fst) h) hd.1
    · rw [if_neg h, ih hd.2]
      constructor
      · exact Or.inr
      · rintro (⟨rfl, _⟩ | h')
        · exact absurd rfl h
        · exact h'

theorem get?_perm {d e : PyDict α} (hd : d.keys.Nodup) (h : d.Perm e) (k : ℕ) : d.get? k = e.get? k := by
  have he : e.keys.Nodup := (h.map Prod.fst).nodup_iff.1 hd
  ext a
  rw [get?_eq_some_iff_mem hd, get?_eq_some_iff_mem he]
  exact h.mem_iff

/-- With the keys in order, position and key agree. -/
theorem values_getElem? {d : PyDict α} {n : ℕ} (h : d.keys = List.range n) (k : ℕ) : d.values[k]? = d.get? k := by
  have hnd : d.keys.Nodup := by rw [h]; exact List.nodup_range
  ext a
  rw [get?_eq_some_iff_mem hnd]
  have hkey : ∀ (i : ℕ) (e : ℕ × α), d[i]? = some e → e.1 = i := by
    intro i e hi
    have h1 : d.keys[i]? = some e.1 := by
      unfold keys; rw [List.getElem?_map, hi]; rfl
    rw [h] at h1
    rw [List.getElem?_eq_some_iff] at h1
    obtain ⟨hlt, h2⟩ := h1
    simp at h2
    exact h2.symm
  constructor
  · intro hv
    unfold values at hv
    rw [List.getElem?_map] at hv
    rcases hi : d[k]? with _ | e
    · rw [hi] at hv; simp at hv
    · rw [hi] at hv
      simp only [Option.map_some, Option.some.injEq] at hv
      have := hkey k e hi
      obtain ⟨e1, e2⟩ := e
      simp only at this hv
      subst this; subst hv
      exact List.mem_of_getElem? hi
  · intro hm
    obtain ⟨i, hi⟩ := List.mem_iff_getElem?.1 hm
    have := hkey i _ hi
    simp only at this
    subst this
    unfold values
    rw [List.getElem?_map, hi]
    rfl

end PyDict

namespace OptArg

variable {α : Type}

theorem fill_value (a : α) (ps : List ℕ) (hps : ps.Nodup) (d : PyDict α) : ∃ d', fill (.value a) ps d = (.ok (), d') ∧
    (∀ k, d'.get? k = if k ∈ ps then some ((d.get? k).getD a) else d.get? k) ∧
    d'.keys = d.keys ++ (ps.filter fun k => k ∉ d.keys) ∧
    ((∀ k ∈ ps, (d.get? k).isSome) → d' = d) := by
  induction ps generalizing d with
  | nil => exact ⟨d, rfl, by simp, by simp, fun _ => rfl⟩
  | cons p ps ih =>
    unfold fill fillStep
    rcases hp : d.get? p with _ | b
    · obtain ⟨d', h1, h2, h3, h4⟩ := ih (List.nodup_cons.1 hps).2 (d.set p a)
      refine ⟨d', by simpa [defaultFor, hp] using h1, fun k => ?_, ?_, fun hk => ?_⟩
      · rw [h2 k, PyDict.get?_set]
        by_cases hkp : p = k
        · subst hkp; simp [hp]
        · simp [hkp, Ne.symm hkp]
      · rw [h3, PyDict.keys_set_of_not_mem d p a hp, List.append_assoc]
        congr 1
        have hpk : p ∉ d.keys := (PyDict.get?_eq_none_iff d p).1 hp
        rw [List.filter_cons_of_pos (by simpa using hpk)]
        simp only [List.cons_append, List.nil_append, List.cons.injEq, true_and]
        apply List.filter_congr
        intro k hk
        have hkp : k ≠ p := fun h => (List.nodup_cons.1 hps).1 (h ▸ hk)
        simp [hkp]
      · have := hk p (by simp)
        rw [hp] at this
        simp at this
    · obtain ⟨d', h1, h2, h3, h4⟩ := ih (List.nodup_cons.1 hps).2 d
      refine ⟨d', by simpa [hp] using h1, fun k => ?_, ?_, fun hk => h4 fun k hk' => hk k (by simp [hk'])⟩
      · rw [h2 k]
        by_cases hkp : k = p
        · subst hkp; simp [hp]
        · simp [hkp]
      · rw [h3, List.filter_cons_of_neg]
        have : p ∈ d.keys := (PyDict.get?_isSome_iff d p).1 (by rw [hp]; rfl)
        simpa using this

end OptArg

/-! ### Equations -/

theorem equationLoop_eq (frames : Bool) (ps : List ℕ) (d : PyDict Equation)
    (h : ∀ k ∈ ps, ∀ e, d.get? k = some e → e.accepted frames = true) :
    equationLoop frames ps d = OptArg.fill (.value (.str "intercept")) ps d := by
  induction ps generalizing d with
  | nil => rfl
  | cons p ps ih =>
    unfold equationLoop OptArg.fill OptArg.fillStep
    rcases hp : d.get? p with _ | b
    · have hset : (d.set p (.str "intercept")).get? p = some (.str "intercept") := by
        rw [PyDict.get?_set, if_pos rfl]
      have hacc : Equation.accepted frames (.str "intercept") = true := by simp [Equation.accepted]
      simp only [hset, hacc, if_true, OptArg.defaultFor]
      refine ih _ fun k hk e he => ?_
      rw [PyDict.get?_set] at he
      split at he
      · simp only [Option.some.injEq] at he
        rw [← he]; exact hacc
      · exact h k (by simp [hk]) e he
    · have hacc := h p (by simp) b hp
      simp only [hp, hacc, if_true]
      exact ih _ fun k hk e he => h k (by simp [hk]) e he

theorem equationLoop_error (frames : Bool) (ps : List ℕ) (d : PyDict Equation)
    (h : ∃ k ∈ ps, ∃ e, d.get? k = some e ∧ e.accepted frames = false) :
    (equationLoop frames ps d).1 = .error .valueError := by
  induction ps generalizing d with
  | nil => simp at h
  | cons p ps ih =>
    unfold equationLoop
    rcases hp : d.get? p with _ | b
    · have hset : (d.set p (.str "intercept")).get? p = some (.str "intercept") := by
        rw [PyDict.get?_set, if_pos rfl]
      have hacc : Equation.accepted frames (.str "intercept") = true := by simp [Equation.accepted]
      simp only [hset, hacc, if_true]
      obtain ⟨k, hk, e, he, ha⟩ := h
      have hkp : p ≠ k := by
        rintro rfl
        rw [hp] at he; simp at he
      refine ih _ ⟨k, ?_, e, ?_, ha⟩
      · simpa [Ne.symm hkp] using hk
      · rw [PyDict.get?_set, if_neg hkp]; exact he
    · by_cases hacc : b.accepted frames = true
      · simp only [hp, hacc, if_true]
        obtain ⟨k, hk, e, he, ha⟩ := h
        have hkp : p ≠ k := by
          rintro rfl
          rw [hp] at he
          simp only [Option.some.injEq] at he
          subst he
          rw [hacc] at ha; simp at ha
        exact ih _ ⟨k, by simpa [Ne.symm hkp] using hk, e, he, ha⟩
      · simp only [hp]
        rw [if_neg hacc]

variable {p : ℕ} {α : Type}

theorem npIndex_ok {x : Fin p → α} {i : ℤ} {a : α} (h : npIndex x i = .ok a) :
    ∃ j : Fin p, (j : ℤ) = (if i < 0 then i + p else i) ∧ a = x j := by
  unfold npIndex at h
  by_cases hj : 0 ≤ (if i < 0 then i + (p : ℤ) else i) ∧ (if i < 0 then i + (p : ℤ) else i).toNat < p
  · rw [dif_pos hj] at h
    cases h
    exact ⟨⟨_, hj.2⟩, by simp [Int.toNat_of_nonneg hj.1], rfl⟩
  · rw [dif_neg hj] at h
    cases h

theorem mapM_ok_iff {β γ : Type} {f : β → Except PyErr γ} {l : List β} {r : List γ} :
    l.mapM f = .ok r ↔ List.Forall₂ (fun a b => f a = .ok b) l r := by
  induction l generalizing r with
  | nil =>
    simp only [List.mapM_nil, List.forall₂_nil_left_iff]
    constructor
    · intro h; cases h; rfl
    · rintro rfl; rfl
  | cons a l ih =>
    rw [List.mapM_cons]
    constructor
    · intro h
      rcases ha : f a with e | b
      · rw [ha] at h; cases h
      · rw [ha] at h
        rcases hl : l.mapM f with e | bs
        · rw [hl] at h; cases h
        · rw [hl] at h; cases h
          exact List.Forall₂.cons ha (ih.1 hl)
    · intro h
      cases h with
      | cons ha hl =>
        rw [ha, ih.2 hl]; rfl

theorem mapM_npIndex_ok {x : Fin p → α} {l : List ℤ} {r : List α} (h : l.mapM (npIndex x) = .ok r) :
    ∃ sel : List (Fin p), sel.map (fun j : Fin p => ((j : ℕ) : ℤ)) = l.map (fun i => if i < 0 then i + (p : ℤ) else i) ∧
      r = sel.map x := by
  rw [mapM_ok_iff] at h
  induction h with
  | nil => exact ⟨[], rfl, rfl⟩
  | cons ha _ ih =>
    obtain ⟨j, hj, rfl⟩ := npIndex_ok ha
    obtain ⟨sel, hs, rfl⟩ := ih
    exact ⟨j :: sel, by simp [hj, hs], rfl⟩

theorem filterMap_zip_mask (x : Fin p → α) (l : List (Fin p)) (m : List Bool) :
    (((l.map x).zip m).filterMap fun xm => if xm.2 then some xm.1 else none) =
      ((l.zip m).filterMap fun jm => if jm.2 then some jm.1 else none).map x := by
  induction l generalizing m with
  | nil => rfl
  | cons j l ih =>
    cases m with
    | nil => rfl
    | cons b m =>
      cases b <;> simp [ih m]

theorem npMask_ok {x : Fin p → α} {m : List Bool} {r : List α} (h : npMask x m = .ok r) :
    m.length = p ∧ r = (((List.finRange p).zip m).filterMap fun jm => if jm.2 then some jm.1 else none).map x := by
  unfold npMask at h
  split at h
  · rename_i hm
    simp only [Except.ok.injEq] at h
    refine ⟨hm, ?_⟩
    rw [← h, List.ofFn_eq_map, filterMap_zip_mask]
  · simp at h

theorem length_filterMap_mask {β : Type} (l : List β) (m : List Bool) (h : m.length = l.length) :
    ((l.zip m).filterMap fun jm => if jm.2 then some jm.1 else none).length = m.count true := by
  induction l generalizing m with
  | nil =>
    have : m = [] := List.length_eq_zero_iff.1 (by simpa using h)
    subst this; rfl
  | cons a l ih =>
    cases m with
    | nil => simp at h
    | cons b m =>
      have := ih m (by simpa using h)
      cases b <;> simp [this]

end Ondil
