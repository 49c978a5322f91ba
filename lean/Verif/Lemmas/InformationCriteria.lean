import Verif.Spec.Criteria
import Mathlib.Tactic.Linarith

/-! # Helper lemmas on model selection -/

namespace Ondil

theorem Flt.le_trans {a b c : Flt} (h : Flt.le a b) (h' : Flt.le b c) : Flt.le a c := by
  cases a <;> cases b <;> cases c <;> simp_all [Flt.le]
  exact _root_.le_trans h h'

theorem Flt.le_refl {a : Flt} (ha : a ≠ .nan) : Flt.le a a := by
  cases a <;> simp_all [Flt.le]

theorem Flt.le_total {a b : Flt} (ha : a ≠ .nan) (hb : b ≠ .nan) : Flt.le a b ∨ Flt.le b a := by
  cases a <;> cases b <;> simp_all [Flt.le]
  exact _root_.le_total _ _

theorem exists_min {l : List Flt} (hl : l ≠ []) (hn : ∀ v ∈ l, v ≠ .nan) : ∃ v ∈ l, ∀ u ∈ l, Flt.le v u := by
  induction l with
  | nil => exact absurd rfl hl
  | cons a l ih =>
    have ha : a ≠ .nan := hn a (by simp)
    by_cases hl' : l = []
    · subst hl'
      exact ⟨a, by simp, by simpa using Flt.le_refl ha⟩
    · obtain ⟨v, hv, hmin⟩ := ih hl' fun u hu => hn u (by simp [hu])
      rcases Flt.le_total ha (hn v (by simp [hv])) with h | h
      · refine ⟨a, by simp, fun u hu => ?_⟩
        rcases List.mem_cons.1 hu with rfl | hu
        · exact Flt.le_refl ha
        · exact Flt.le_trans h (hmin u hu)
      · refine ⟨v, by simp [hv], fun u hu => ?_⟩
        rcases List.mem_cons.1 hu with rfl | hu
        · exact h
        · exact hmin u hu

theorem argminFlt_ok {l : List Flt} (hl : l ≠ []) : ∃ i < l.length, argminFlt l = .ok i := by
  classical
  obtain ⟨a, l', rfl⟩ := List.exists_cons_of_ne_nil hl
  unfold argminFlt
  simp only
  split
  · next i hi =>
    exact ⟨i, (List.findIdx?_eq_some_iff_findIdx_eq.1 hi).1, rfl⟩
  · next hnone =>
    have hn : ∀ v ∈ a :: l', v ≠ .nan := by
      intro v hv
      have := List.findIdx?_eq_none_iff.1 hnone v hv
      simpa using this
    obtain ⟨v, hv, hmin⟩ := exists_min hl hn
    split
    · next i hi => exact ⟨i, (List.findIdx?_eq_some_iff_findIdx_eq.1 hi).1, rfl⟩
    · next hnone' =>
      have := List.findIdx?_eq_none_iff.1 hnone' v hv
      simp only [decide_eq_false_iff_not] at this
      exact absurd hmin this

theorem Flt.not_preferred_of_le {a b : Flt} (h : Flt.le a b) : ¬ b.Preferred a := by
  unfold Flt.Preferred
  cases a <;> cases b <;> simp_all [Flt.le, Flt.lt]

theorem Flt.preferred_of_not_le {a b : Flt} (ha : a ≠ .nan) (hb : b ≠ .nan) (h : ¬ Flt.le b a) : a.Preferred b := by
  unfold Flt.Preferred
  cases a <;> cases b <;> simp_all [Flt.le, Flt.lt]

theorem argminFlt_spec {l : List Flt} {i : ℕ} (h : argminFlt l = .ok i) :
    ∃ v, l[i]? = some v ∧ (∀ x ∈ l, ¬ x.Preferred v) ∧ ∀ j x, j < i → l[j]? = some x → v.Preferred x := by
  classical
  cases l with
  | nil => cases h
  | cons a l =>
    unfold argminFlt at h
    simp only at h
    split at h
    · next i' hi =>
      obtain rfl := Except.ok.inj h
      rw [List.findIdx?_eq_some_iff_getElem] at hi
      obtain ⟨hlt, hnan, hbefore⟩ := hi
      simp only [decide_eq_true_eq] at hnan hbefore
      refine ⟨.nan, by rw [List.getElem?_eq_getElem hlt, hnan], fun x _ => ?_, fun j x hj hx => ?_⟩
      · unfold Flt.Preferred
        cases x <;> simp [Flt.lt]
      · have := hbefore j hj
        obtain ⟨hl', rfl⟩ := List.getElem?_eq_some_iff.1 hx
        exact .inl ⟨rfl, this⟩
    · next hnone =>
      have hn : ∀ v ∈ a :: l, v ≠ .nan := by
        intro v hv
        have := List.findIdx?_eq_none_iff.1 hnone v hv
        simpa using this
      split at h
      · next i' hi =>
        obtain rfl := Except.ok.inj h
        rw [List.findIdx?_eq_some_iff_getElem] at hi
        obtain ⟨hlt, hmin, hbefore⟩ := hi
        simp only [decide_eq_true_eq] at hmin hbefore
        refine ⟨_, List.getElem?_eq_getElem hlt, fun x hx => Flt.not_preferred_of_le (hmin x hx), fun j x hj hx => ?_⟩
        obtain ⟨hl', rfl⟩ := List.getElem?_eq_some_iff.1 hx
        refine Flt.preferred_of_not_le (hn _ (List.getElem_mem _)) (hn _ (List.getElem_mem _)) fun hle => hbefore j hj ?_
        exact fun u hu => Flt.le_trans hle (hmin u hu)
      · cases h

theorem mapM_ok {α β : Type} {ε : Type} (f : α → Except ε β) (l : List α) (r : List β)
    (h : l.mapM f = .ok r) : r.length = l.length ∧
      ∀ (i : ℕ) (a : α), l[i]? = some a → ∃ b : β, r[i]? = some b ∧ f a = .ok b := by
  induction l generalizing r with
  | nil =>
    rw [List.mapM_nil] at h
    cases h
    exact ⟨rfl, fun i a ha => by simp at ha⟩
  | cons x l ih =>
    rw [List.mapM_cons] at h
    cases hx : f x with
    | error e => rw [hx] at h; cases h
    | ok b =>
      rw [hx] at h
      cases hl : l.mapM f with
      | error e =>
        have h' : (List.mapM f l >>= fun bs => pure (b :: bs)) = Except.ok r := h
        rw [hl] at h'; cases h'
      | ok bs =>
        have h' : (List.mapM f l >>= fun bs => pure (b :: bs)) = Except.ok r := h
        rw [hl] at h'
        cases h'
        obtain ⟨h1, h2⟩ := ih bs hl
        refine ⟨by simp [h1], fun i a ha => ?_⟩
        cases i with
        | zero => simp at ha; subst ha; exact ⟨b, by simp, hx⟩
        | succ i => simp at ha; simpa using h2 i a ha

theorem fromLLArray_ok {c : Criterion} {n : ℝ} {p : List ℝ} {ll r : List Flt} (h : fromLLArray c n p ll = .ok r)
    (hlen : p.length = ll.length) :
    r.length = p.length ∧ ∀ (i : ℕ) (a : ℝ) (b : Flt), p[i]? = some a → ll[i]? = some b →
      ∃ v, r[i]? = some v ∧ fromLL c n a b = .ok v := by
  unfold fromLLArray at h
  split at h
  · cases h
  · obtain ⟨h1, h2⟩ := mapM_ok _ _ _ h
    refine ⟨by rw [h1, List.length_zip, ← hlen, min_self], fun i a b ha hb => ?_⟩
    exact h2 i (a, b) (by rw [List.getElem?_zip_eq_some]; exact ⟨ha, hb⟩)

end Ondil
