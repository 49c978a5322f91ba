import Verif.Model.Py

/-!
# Reasoning about methods of objects: pre- and postconditions, and pairs of runs
-/

namespace Ondil

namespace Py

variable {σ τ α β : Type}

/-- Every run from a state in `P` ends in `Q` when it returns and in `E` when it raises. -/
def Triple (P : σ → Prop) (m : Py σ α) (Q : α → σ → Prop) (E : PyErr → σ → Prop) : Prop :=
  ∀ s, P s → (∀ a t, m s = (.ok a, t) → Q a t) ∧ ∀ e t, m s = (.error e, t) → E e t

theorem Triple.ok {P : σ → Prop} {m : Py σ α} {Q : α → σ → Prop} {E : PyErr → σ → Prop} (h : Triple P m Q E)
    {s t : σ} {a : α} (hs : P s) (hm : m s = (.ok a, t)) : Q a t := (h s hs).1 a t hm

theorem Triple.error {P : σ → Prop} {m : Py σ α} {Q : α → σ → Prop} {E : PyErr → σ → Prop} (h : Triple P m Q E)
    {s t : σ} {e : PyErr} (hs : P s) (hm : m s = (.error e, t)) : E e t := (h s hs).2 e t hm

theorem Triple.bind {P : σ → Prop} {m : Py σ α} {R : α → σ → Prop} {E : PyErr → σ → Prop} {f : α → Py σ β}
    {Q : β → σ → Prop} (hm : Triple P m R E) (hf : ∀ a, Triple (R a) (f a) Q E) : Triple P (m >>= f) Q E := by
  intro s hs
  rcases h : m s with ⟨x, t⟩
  cases x with
  | error e =>
    rw [bind_of_error h]
    refine ⟨fun a t' h' => by simp at h', fun e' t' h' => ?_⟩
    simp only [Prod.mk.injEq, Except.error.injEq] at h'
    obtain ⟨rfl, rfl⟩ := h'
    exact hm.error hs h
  | ok a =>
    rw [bind_of_ok h]
    exact hf a t (hm.ok hs h)

theorem Triple.weaken {P P' : σ → Prop} {m : Py σ α} {Q Q' : α → σ → Prop} {E E' : PyErr → σ → Prop}
    (h : Triple P m Q E) (hP : ∀ s, P' s → P s) (hQ : ∀ a t, Q a t → Q' a t) (hE : ∀ e t, E e t → E' e t) :
    Triple P' m Q' E' := fun s hs => ⟨fun a t hm => hQ a t ((h s (hP s hs)).1 a t hm),
      fun e t hm => hE e t ((h s (hP s hs)).2 e t hm)⟩

theorem Triple.pre {P P' : σ → Prop} {m : Py σ α} {Q : α → σ → Prop} {E : PyErr → σ → Prop}
    (h : Triple P m Q E) (hP : ∀ s, P' s → P s) : Triple P' m Q E := h.weaken hP (fun _ _ h => h) fun _ _ h => h

theorem Triple.post {P : σ → Prop} {m : Py σ α} {Q Q' : α → σ → Prop} {E : PyErr → σ → Prop}
    (h : Triple P m Q E) (hQ : ∀ a t, Q a t → Q' a t) : Triple P m Q' E := h.weaken (fun _ h => h) hQ fun _ _ h => h

theorem Triple.of_false {m : Py σ α} {P : σ → Prop} {Q : α → σ → Prop} {E : PyErr → σ → Prop}
    (h : ∀ s, ¬ P s) : Triple P m Q E := fun s hs => absurd hs (h s)

theorem Triple.exists_pre {ι : Sort*} {P : ι → σ → Prop} {m : Py σ α} {Q : α → σ → Prop} {E : PyErr → σ → Prop}
    (h : ∀ i, Triple (P i) m Q E) : Triple (fun s => ∃ i, P i s) m Q E := fun s ⟨i, hs⟩ => h i s hs

theorem Triple.pure_pre {φ : Prop} {P : σ → Prop} {m : Py σ α} {Q : α → σ → Prop} {E : PyErr → σ → Prop}
    (h : φ → Triple P m Q E) : Triple (fun s => φ ∧ P s) m Q E := fun s ⟨i, hs⟩ => h i s hs

theorem triple_pure {P : σ → Prop} {a : α} {Q : α → σ → Prop} {E : PyErr → σ → Prop} (h : ∀ s, P s → Q a s) :
    Triple P (pure a : Py σ α) Q E := by
  intro s hs
  refine ⟨fun b t hm => ?_, fun e t hm => by cases hm⟩
  obtain ⟨rfl, rfl⟩ := pure_ok_iff.1 hm
  exact h _ hs

theorem triple_self {P : σ → Prop} {E : PyErr → σ → Prop} : Triple P (self : Py σ σ) (fun a t => a = t ∧ P t) E := by
  intro s hs
  refine ⟨fun b t hm => ?_, fun e t hm => by cases hm⟩
  obtain ⟨rfl, rfl⟩ := self_ok_iff.1 hm
  exact ⟨rfl, hs⟩

theorem triple_set {P : σ → Prop} {f : σ → σ} {Q : Unit → σ → Prop} {E : PyErr → σ → Prop}
    (h : ∀ s, P s → Q () (f s)) : Triple P (set f) Q E := by
  intro s hs
  refine ⟨fun b t hm => ?_, fun e t hm => by cases hm⟩
  obtain rfl := set_ok_iff.1 hm
  exact h _ hs

theorem triple_call {P : σ → Prop} {x : Except PyErr α} {E : PyErr → σ → Prop}
    (hE : ∀ e s, x = .error e → P s → E e s) : Triple P (call x : Py σ α) (fun a t => x = .ok a ∧ P t) E := by
  intro s hs
  refine ⟨fun b t hm => ?_, fun e t hm => ?_⟩
  · obtain ⟨h, rfl⟩ := call_ok_iff.1 hm
    exact ⟨h, hs⟩
  · have hm' : (x, s) = (Except.error e, t) := hm
    cases hm'
    exact hE e s rfl hs

theorem triple_attr {P : σ → Prop} {x : Option α} {err : PyErr} {E : PyErr → σ → Prop}
    (hE : ∀ s, x = none → P s → E err s) : Triple P (attr x err : Py σ α) (fun a t => x = some a ∧ P t) E := by
  intro s hs
  refine ⟨fun b t hm => ?_, fun e t hm => ?_⟩
  · obtain ⟨h, rfl⟩ := attr_ok_iff.1 hm
    exact ⟨h, hs⟩
  · cases x with
    | none =>
      have hm' : ((.error err : Except PyErr α), s) = (Except.error e, t) := hm
      cases hm'
      exact hE s rfl hs
    | some a =>
      have hm' : ((.ok a : Except PyErr α), s) = (Except.error e, t) := hm
      cases hm'

theorem triple_raiseIf {P : σ → Prop} {c : Prop} {err : PyErr} {E : PyErr → σ → Prop}
    (hE : ∀ s, c → P s → E err s) : Triple P (raiseIf c err : Py σ Unit) (fun _ t => ¬ c ∧ P t) E := by
  intro s hs
  by_cases h : c
  · rw [raiseIf_pos h]
    refine ⟨fun b t hm => by simp at hm, fun e t hm => ?_⟩
    simp only [Prod.mk.injEq, Except.error.injEq] at hm
    obtain ⟨rfl, rfl⟩ := hm
    exact hE s h hs
  · rw [raiseIf_neg h]
    refine ⟨fun b t hm => ?_, fun e t hm => by simp at hm⟩
    simp only [Prod.mk.injEq] at hm
    obtain ⟨_, rfl⟩ := hm
    exact ⟨h, hs⟩

theorem triple_raise {P : σ → Prop} {err : PyErr} {Q : α → σ → Prop} {E : PyErr → σ → Prop} (hE : ∀ s, P s → E err s) :
    Triple P (raise err : Py σ α) Q E := by
  intro s hs
  refine ⟨fun b t hm => absurd hm raise_ok_iff, fun e t hm => ?_⟩
  have hm' : ((.error err : Except PyErr α), s) = (Except.error e, t) := hm
  cases hm'
  exact hE s hs

/-! ### Invariants: properties of the state that survive returning and raising -/

/-- `m` keeps the property `I` of the state, whether it returns or raises. -/
def Inv (I : σ → Prop) (m : Py σ α) : Prop := Triple I m (fun _ => I) fun _ => I

theorem Inv.apply {I : σ → Prop} {m : Py σ α} (h : Inv I m) {s : σ} (hs : I s) : I (m s).2 := by
  rcases hm : m s with ⟨x, t⟩
  cases x with
  | ok a => exact Triple.ok h hs hm
  | error e => exact Triple.error h hs hm

theorem Inv.bind {I : σ → Prop} {m : Py σ α} {f : α → Py σ β} (hm : Inv I m) (hf : ∀ a, Inv I (f a)) :
    Inv I (m >>= f) := Triple.bind hm hf

theorem inv_pure {I : σ → Prop} (a : α) : Inv I (pure a : Py σ α) := triple_pure fun _ h => h

theorem inv_call {I : σ → Prop} (x : Except PyErr α) : Inv I (call x : Py σ α) :=
  (triple_call fun _ _ _ h => h).post fun _ _ h => h.2

theorem inv_attr {I : σ → Prop} (x : Option α) (e : PyErr) : Inv I (attr x e : Py σ α) :=
  (triple_attr (P := I) (E := fun _ => I) fun _ _ h => h).post fun _ _ h => h.2

theorem inv_raiseIf {I : σ → Prop} (c : Prop) (e : PyErr) : Inv I (raiseIf c e : Py σ Unit) :=
  (triple_raiseIf (P := I) (E := fun _ => I) fun _ _ h => h).post fun _ _ h => h.2

theorem inv_raise {I : σ → Prop} (e : PyErr) : Inv I (raise e : Py σ α) := triple_raise fun _ h => h

theorem inv_self {I : σ → Prop} : Inv I (self : Py σ σ) := triple_self.post fun _ _ h => h.2

theorem inv_set {I : σ → Prop} {f : σ → σ} (h : ∀ s, I s → I (f s)) : Inv I (set f) := triple_set h

theorem inv_ite {I : σ → Prop} {c : Prop} [Decidable c] {m m' : Py σ α} (h : Inv I m) (h' : Inv I m') :
    Inv I (if c then m else m') := by
  split
  · exact h
  · exact h'

theorem Inv.and {I J : σ → Prop} {m : Py σ α} (h : Inv I m) (h' : Inv J m) : Inv (fun s => I s ∧ J s) m := fun _ hs =>
  ⟨fun _ _ hm => ⟨Triple.ok h hs.1 hm, Triple.ok h' hs.2 hm⟩, fun _ _ hm => ⟨Triple.error h hs.1 hm, Triple.error h' hs.2 hm⟩⟩

theorem Inv.bind_self {I : σ → Prop} {f : σ → Py σ β} (h : ∀ s, I s → Inv I (f s)) : Inv I (self >>= f) :=
  fun s hs => h s hs s hs

theorem Inv.bind_call {I : σ → Prop} {x : Except PyErr α} {f : α → Py σ β} (h : ∀ a, x = .ok a → Inv I (f a)) :
    Inv I (call x >>= f) :=
  Triple.bind (triple_call (P := I) (E := fun _ => I) fun _ _ _ h => h) fun a => Triple.pure_pre fun ha => h a ha

/-! ### Pairs of runs -/

/-- Runs of `m` and `m'` from related states give the same result and end in related states. -/
def Rel (R : σ → τ → Prop) (m : Py σ α) (m' : Py τ α) : Prop :=
  ∀ s t, R s t → (m s).1 = (m' t).1 ∧ R (m s).2 (m' t).2

theorem Rel.bind {R : σ → τ → Prop} {m : Py σ α} {m' : Py τ α} {f : α → Py σ β} {f' : α → Py τ β} (hm : Rel R m m')
    (hf : ∀ a, Rel R (f a) (f' a)) : Rel R (m >>= f) (m' >>= f') := by
  intro s t hst
  obtain ⟨h1, h2⟩ := hm s t hst
  rcases h : m s with ⟨x, s'⟩
  rcases h' : m' t with ⟨x', t'⟩
  rw [h, h'] at h1 h2
  simp only at h1 h2
  subst h1
  cases x with
  | ok a =>
    rw [bind_of_ok h, bind_of_ok h']
    exact hf a s' t' h2
  | error e =>
    rw [bind_of_error h, bind_of_error h']
    exact ⟨rfl, h2⟩

/-- Reading the object: the continuations may use different but related states. -/
theorem Rel.bind_self {R : σ → τ → Prop} {f : σ → Py σ β} {f' : τ → Py τ β} (hf : ∀ s t, R s t → Rel R (f s) (f' t)) :
    Rel R (self >>= f) (self >>= f') := fun s t hst => hf s t hst s t hst

theorem rel_pure {R : σ → τ → Prop} (a : α) : Rel R (pure a : Py σ α) (pure a : Py τ α) := fun _ _ h => ⟨rfl, h⟩

theorem rel_call {R : σ → τ → Prop} {x x' : Except PyErr α} (h : x = x') :
    Rel R (call x : Py σ α) (call x' : Py τ α) := fun _ _ hst => ⟨h, hst⟩

theorem rel_attr {R : σ → τ → Prop} {x x' : Option α} (h : x = x') (e : PyErr) :
    Rel R (attr x e : Py σ α) (attr x' e : Py τ α) := by
  intro s t hst
  subst h
  cases x with
  | none => exact ⟨rfl, hst⟩
  | some a => exact ⟨rfl, hst⟩

theorem rel_raiseIf {R : σ → τ → Prop} {c c' : Prop} (h : c ↔ c') (e : PyErr) :
    Rel R (raiseIf c e : Py σ Unit) (raiseIf c' e : Py τ Unit) := by
  intro s t hst
  by_cases hc : c
  · rw [raiseIf_pos hc, raiseIf_pos (h.1 hc)]
    exact ⟨rfl, hst⟩
  · rw [raiseIf_neg hc, raiseIf_neg (fun hh => hc (h.2 hh))]
    exact ⟨rfl, hst⟩

theorem rel_set {R : σ → τ → Prop} {f : σ → σ} {f' : τ → τ} (h : ∀ s t, R s t → R (f s) (f' t)) :
    Rel R (set f) (set f') := fun s t hst => ⟨rfl, h s t hst⟩

theorem rel_ite {R : σ → τ → Prop} {c : Prop} [Decidable c] {m n : Py σ α} {m' n' : Py τ α} (h : Rel R m m')
    (h' : Rel R n n') : Rel R (if c then m else n) (if c then m' else n') := by
  split
  · exact h
  · exact h'

end Py

end Ondil
