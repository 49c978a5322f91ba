import Verif.Model.Gram

/-!
# Methods of Python objects

A method call reads and writes the attributes of `self` and may raise.  Attribute writes made before an
exception stay, as in Python: the final state is returned in both cases.
-/

namespace Ondil

/-- A computation on an object with attributes `σ` that returns `α` or raises. -/
def Py (σ α : Type) : Type := σ → Except PyErr α × σ

namespace Py

variable {σ α β : Type}

/-- Sequencing: an exception skips the rest and keeps the attributes written so far. -/
protected def bind (m : Py σ α) (f : α → Py σ β) : Py σ β := fun s =>
  match m s with
  | (.ok a, s') => f a s'
  | (.error e, s') => (.error e, s')

instance : Monad (Py σ) where
  pure a := fun s => (.ok a, s)
  bind := Py.bind

/-- Read the attributes. -/
def self : Py σ σ := fun s => (.ok s, s)

/-- Assign attributes. -/
def set (f : σ → σ) : Py σ Unit := fun s => (.ok (), f s)

/-- `raise`. -/
def raise (e : PyErr) : Py σ α := fun s => (.error e, s)

/-- Call a function that does not touch the object. -/
def call (x : Except PyErr α) : Py σ α := fun s => (x, s)

/-- Read an attribute that may not exist. -/
def attr (x : Option α) (e : PyErr) : Py σ α := fun s =>
  match x with
  | some a => (.ok a, s)
  | none => (.error e, s)

open Classical in
/-- `if cond: raise`. -/
noncomputable def raiseIf (c : Prop) (e : PyErr) : Py σ Unit := fun s =>
  if c then (.error e, s) else (.ok (), s)

theorem bind_apply (m : Py σ α) (f : α → Py σ β) (s : σ) :
    (m >>= f) s = match m s with
      | (.ok a, s') => f a s'
      | (.error e, s') => (.error e, s') := rfl

theorem bind_of_ok {m : Py σ α} {f : α → Py σ β} {s s' : σ} {a : α} (h : m s = (.ok a, s')) :
    (m >>= f) s = f a s' := by rw [bind_apply, h]

theorem bind_of_error {m : Py σ α} {f : α → Py σ β} {s s' : σ} {e : PyErr} (h : m s = (.error e, s')) :
    (m >>= f) s = (.error e, s') := by rw [bind_apply, h]

/-- A sequence succeeds exactly when both parts do. -/
theorem bind_ok_iff {m : Py σ α} {f : α → Py σ β} {s s' : σ} {b : β} :
    (m >>= f) s = (.ok b, s') ↔ ∃ a t, m s = (.ok a, t) ∧ f a t = (.ok b, s') := by
  rw [bind_apply]
  rcases hm : m s with ⟨x, t⟩
  cases x with
  | error e =>
    simp only [Prod.mk.injEq]
    constructor
    · rintro ⟨h, _⟩; cases h
    · rintro ⟨a, t', ⟨h, _⟩, _⟩; cases h
  | ok a =>
    constructor
    · intro h; exact ⟨a, t, rfl, h⟩
    · rintro ⟨a', t', h, h'⟩
      cases h
      exact h'

theorem pure_ok_iff {a b : α} {s s' : σ} : (pure a : Py σ α) s = (.ok b, s') ↔ a = b ∧ s = s' := by
  constructor
  · intro h; cases h; exact ⟨rfl, rfl⟩
  · rintro ⟨rfl, rfl⟩; rfl

theorem self_ok_iff {a s s' : σ} : (self : Py σ σ) s = (.ok a, s') ↔ a = s ∧ s' = s := by
  constructor
  · intro h; cases h; exact ⟨rfl, rfl⟩
  · rintro ⟨rfl, rfl⟩; rfl

theorem set_ok_iff {f : σ → σ} {a : Unit} {s s' : σ} : set f s = (.ok a, s') ↔ s' = f s := by
  constructor
  · intro h; cases h; rfl
  · rintro rfl; rfl

theorem raise_ok_iff {e : PyErr} {a : α} {s s' : σ} : ¬ (raise e : Py σ α) s = (.ok a, s') := by
  intro h; cases h

theorem call_ok_iff {x : Except PyErr α} {a : α} {s s' : σ} :
    (call x : Py σ α) s = (.ok a, s') ↔ x = .ok a ∧ s' = s := by
  constructor
  · intro h
    have h' : (x, s) = (Except.ok a, s') := h
    cases h'
    exact ⟨rfl, rfl⟩
  · rintro ⟨rfl, rfl⟩; rfl

theorem attr_ok_iff {x : Option α} {e : PyErr} {a : α} {s s' : σ} :
    (attr x e : Py σ α) s = (.ok a, s') ↔ x = some a ∧ s' = s := by
  cases x with
  | none =>
    constructor
    · intro h
      have h' : ((.error e : Except PyErr α), s) = (Except.ok a, s') := h
      cases h'
    · rintro ⟨h, _⟩; cases h
  | some b =>
    constructor
    · intro h
      have h' : ((.ok b : Except PyErr α), s) = (Except.ok a, s') := h
      cases h'
      exact ⟨rfl, rfl⟩
    · rintro ⟨h, rfl⟩; cases h; rfl

theorem raiseIf_ok_iff {c : Prop} {e : PyErr} {a : Unit} {s s' : σ} :
    (raiseIf c e : Py σ Unit) s = (.ok a, s') ↔ ¬ c ∧ s' = s := by
  unfold raiseIf
  by_cases h : c
  · simp [h]
  · simp [h, eq_comm]

theorem raiseIf_pos {c : Prop} (h : c) (e : PyErr) (s : σ) :
    (raiseIf c e : Py σ Unit) s = (.error e, s) := by
  unfold raiseIf; rw [if_pos h]

theorem raiseIf_neg {c : Prop} (h : ¬ c) (e : PyErr) (s : σ) :
    (raiseIf c e : Py σ Unit) s = (.ok (), s) := by
  unfold raiseIf; rw [if_neg h]

theorem bind_self (f : σ → Py σ β) (s : σ) : ((self : Py σ σ) >>= f) s = f s s := rfl

theorem bind_set (g : σ → σ) (f : Unit → Py σ β) (s : σ) : (set g >>= f) s = f () (g s) := rfl

theorem bind_call_ok (a : α) (f : α → Py σ β) (s : σ) : (call (.ok a) >>= f) s = f a s := rfl

theorem bind_call_error (e : PyErr) (f : α → Py σ β) (s : σ) :
    ((call (.error e) : Py σ α) >>= f) s = (.error e, s) := rfl

theorem bind_attr_none (e : PyErr) (f : α → Py σ β) (s : σ) :
    ((attr none e : Py σ α) >>= f) s = (.error e, s) := rfl

theorem bind_attr_some (a : α) (e : PyErr) (f : α → Py σ β) (s : σ) :
    (attr (some a) e >>= f) s = f a s := rfl

theorem bind_raiseIf_neg {c : Prop} (h : ¬ c) (e : PyErr) (f : Unit → Py σ β) (s : σ) :
    (raiseIf c e >>= f) s = f () s := bind_of_ok (raiseIf_neg h e s)

theorem bind_raiseIf_pos {c : Prop} (h : c) (e : PyErr) (f : Unit → Py σ β) (s : σ) :
    (raiseIf c e >>= f) s = (.error e, s) := bind_of_error (raiseIf_pos h e s)

end Py

end Ondil
