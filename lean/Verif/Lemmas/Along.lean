import Verif.Lemmas.GamlssTwins
import Verif.Lemmas.RowOrder

/-!
# Arrays along two orders of the same rows

`l` and `l'` are two orders of the same rows.  An array of one entry per row is given along `l` and along `l'` by the same
function of the row; sums of the entries agree.
-/

namespace Ondil

section Arrays

variable {ι : Type} {l l' : List ι} {α β γ : Type}

/-- `a` and `a'` are the same array along the two orders of the rows. -/
def Along (l l' : List ι) (a a' : List α) : Prop := ∃ f : ι → α, a = l.map f ∧ a' = l'.map f

theorem along_map (f : ι → α) : Along l l' (l.map f) (l'.map f) := ⟨f, rfl, rfl⟩

theorem Along.map {a a' : List α} (h : Along l l' a a') (g : α → β) : Along l l' (a.map g) (a'.map g) := by
  obtain ⟨f, rfl, rfl⟩ := h
  exact ⟨fun i => g (f i), by simp, by simp⟩

theorem Along.zipWith {a a' : List α} {b b' : List β} (h : Along l l' a a') (k : Along l l' b b') (g : α → β → γ) :
    Along l l' (List.zipWith g a b) (List.zipWith g a' b') := by
  obtain ⟨f, rfl, rfl⟩ := h
  obtain ⟨f', rfl, rfl⟩ := k
  exact ⟨fun i => g (f i) (f' i), zipWith_two _ _ _ _, zipWith_two _ _ _ _⟩

theorem Along.perm {a a' : List α} (h : Along l l' a a') (hp : l.Perm l') : a.Perm a' := by
  obtain ⟨f, rfl, rfl⟩ := h
  exact hp.map f

theorem Along.length {a a' : List α} (h : Along l l' a a') (hp : l.Perm l') : a'.length = a.length := (h.perm hp).length_eq.symm

theorem along_replicate (hp : l.Perm l') (a : α) : Along l l' (List.replicate l.length a) (List.replicate l'.length a) :=
  ⟨fun _ => a, by rw [List.map_const'], by rw [List.map_const']⟩

/-- Both calls raise the same exception, or both return related values. -/
def BothRel (Q : α → β → Prop) (x : Except PyErr α) (x' : Except PyErr β) : Prop :=
  (∃ e, x = .error e ∧ x' = .error e) ∨ ∃ a b, x = .ok a ∧ x' = .ok b ∧ Q a b

theorem BothRel.ok {Q : α → β → Prop} {a : α} {b : β} (h : Q a b) : BothRel Q (.ok a) (.ok b) := .inr ⟨a, b, rfl, rfl, h⟩

theorem BothRel.of_eq {x x' : Except PyErr α} (h : x = x') : BothRel Eq x x' := by
  subst h
  cases x with
  | error e => exact .inl ⟨e, rfl, rfl⟩
  | ok a => exact .inr ⟨a, a, rfl, rfl, rfl⟩

theorem BothRel.eq {x x' : Except PyErr α} (h : BothRel Eq x x') : x = x' := by
  rcases h with ⟨e, rfl, rfl⟩ | ⟨a, _, rfl, rfl, rfl⟩ <;> rfl

theorem BothRel.bind {δ : Type} {Q : α → β → Prop} {Q' : γ → δ → Prop} {x : Except PyErr α} {x' : Except PyErr β}
    {f : α → Except PyErr γ} {f' : β → Except PyErr δ} (h : BothRel Q x x') (hf : ∀ a b, Q a b → BothRel Q' (f a) (f' b)) :
    BothRel Q' (x >>= f) (x' >>= f') := by
  rcases h with ⟨e, rfl, rfl⟩ | ⟨a, b, rfl, rfl, hQ⟩
  · exact .inl ⟨e, rfl, rfl⟩
  · exact hf a b hQ

theorem BothRel.mono {Q Q' : α → β → Prop} {x : Except PyErr α} {x' : Except PyErr β} (h : BothRel Q x x')
    (hQ : ∀ a b, Q a b → Q' a b) : BothRel Q' x x' := by
  rcases h with ⟨e, rfl, rfl⟩ | ⟨a, b, rfl, rfl, h⟩
  · exact .inl ⟨e, rfl, rfl⟩
  · exact .inr ⟨a, b, rfl, rfl, hQ a b h⟩

theorem mapM_cases (f : α → Except PyErr β) (a : List α) :
    (∃ x ∈ a, ∃ e, f x = .error e ∧ a.mapM f = .error e) ∨ ((∀ x ∈ a, ∃ y, f x = .ok y) ∧ ∃ r, a.mapM f = .ok r) := by
  induction a with
  | nil => exact .inr ⟨by simp, [], rfl⟩
  | cons x a ih =>
    rw [List.mapM_cons]
    cases hx : f x with
    | error e => exact .inl ⟨x, by simp, e, hx, rfl⟩
    | ok y =>
      rcases ih with ⟨z, hz, e, h1, h2⟩ | ⟨h1, r, h2⟩
      · exact .inl ⟨z, by simp [hz], e, h1, by rw [h2]; rfl⟩
      · refine .inr ⟨?_, y :: r, by rw [h2]; rfl⟩
        rintro z hz
        rcases List.mem_cons.1 hz with rfl | hz
        · exact ⟨y, hx⟩
        · exact h1 z hz

theorem mapM_values [Inhabited β] (f : α → Except PyErr β) (a : List α) (h : ∀ x ∈ a, ∃ y, f x = .ok y) :
    a.mapM f = .ok (a.map fun x => match f x with | .ok y => y | .error _ => default) := by
  induction a with
  | nil => rfl
  | cons x a ih =>
    obtain ⟨y, hy⟩ := h x (by simp)
    rw [List.mapM_cons, ih fun z hz => h z (by simp [hz]), hy]
    simp only [List.map_cons, hy]
    rfl

/-- A rowwise computation with one kind of exception. -/
theorem Along.mapM [Inhabited β] {a a' : List α} (h : Along l l' a a') (hp : l.Perm l') (f : α → Except PyErr β)
    (he : ∀ x ∈ a, ∀ x' ∈ a, ∀ e e', f x = .error e → f x' = .error e' → e = e') :
    BothRel (Along l l') (a.mapM f) (a'.mapM f) := by
  have hperm := h.perm hp
  rcases mapM_cases f a with ⟨x, hx, e, h1, h2⟩ | ⟨h1, _⟩
  · rcases mapM_cases f a' with ⟨x', hx', e', h1', h2'⟩ | ⟨h1', _⟩
    · have := he x hx x' (hperm.mem_iff.2 hx') e e' h1 h1'
      subst this
      exact .inl ⟨e, h2, h2'⟩
    · obtain ⟨y, hy⟩ := h1' x (hperm.mem_iff.1 hx)
      rw [h1] at hy
      cases hy
  · rw [mapM_values f a h1, mapM_values f a' fun x hx => h1 x (hperm.mem_iff.2 hx)]
    exact BothRel.ok (h.map _)

/-- A rowwise computation that returns `none` as soon as one row does. -/
theorem Along.mapM_option [Inhabited β] {a a' : List α} (h : Along l l' a a') (hp : l.Perm l') (f : α → Option β) :
    (a.mapM f = none ∧ a'.mapM f = none) ∨ ∃ b b', a.mapM f = some b ∧ a'.mapM f = some b' ∧ Along l l' b b' := by
  have hperm := h.perm hp
  have key : ∀ a : List α, (∃ x ∈ a, f x = none ∧ a.mapM f = none) ∨
      ((∀ x ∈ a, ∃ y, f x = some y) ∧ a.mapM f = some (a.map fun x => (f x).getD default)) := by
    intro a
    induction a with
    | nil => exact .inr ⟨by simp, rfl⟩
    | cons x a ih =>
      rw [List.mapM_cons]
      cases hx : f x with
      | none => exact .inl ⟨x, by simp, hx, rfl⟩
      | some y =>
        rcases ih with ⟨z, hz, h1, h2⟩ | ⟨h1, h2⟩
        · exact .inl ⟨z, by simp [hz], h1, by rw [h2]; rfl⟩
        · refine .inr ⟨?_, by rw [h2]; simp [hx]⟩
          rintro z hz
          rcases List.mem_cons.1 hz with rfl | hz
          · exact ⟨y, hx⟩
          · exact h1 z hz
  rcases key a with ⟨x, hx, h1, h2⟩ | ⟨h1, h2⟩
  · rcases key a' with ⟨x', hx', h1', h2'⟩ | ⟨h1', _⟩
    · exact .inl ⟨h2, h2'⟩
    · obtain ⟨y, hy⟩ := h1' x (hperm.mem_iff.1 hx)
      rw [h1] at hy
      cases hy
  · rcases key a' with ⟨x', hx', h1', h2'⟩ | ⟨h1', h2'⟩
    · obtain ⟨y, hy⟩ := h1 x' (hperm.mem_iff.2 hx')
      rw [h1'] at hy
      cases hy
    · exact .inr ⟨_, _, h2, h2', h.map _⟩

end Arrays

/-! ### Sums of floats -/

theorem Flt.add_comm' (a b : Flt) : Flt.add a b = Flt.add b a := by
  cases a <;> cases b <;> simp [Flt.add, add_comm]

theorem Flt.add_assoc' (a b c : Flt) : Flt.add (Flt.add a b) c = Flt.add a (Flt.add b c) := by
  cases a <;> cases b <;> cases c <;> simp [Flt.add, add_assoc]

theorem npSum_perm {a a' : List Flt} (h : a.Perm a') : Dist.npSum a = Dist.npSum a' := by
  unfold Dist.npSum
  haveI : LeftCommutative Flt.add := ⟨fun a b c => by rw [← Flt.add_assoc', Flt.add_comm' a b, Flt.add_assoc']⟩
  exact h.foldr_eq _

theorem npMean_perm {a a' : List Flt} (h : a.Perm a') : Dist.npMean a = Dist.npMean a' := by
  unfold Dist.npMean
  rw [npSum_perm h, h.length_eq]

theorem npVar_perm (ddof : ℕ) {a a' : List Flt} (h : a.Perm a') : Dist.npVar ddof a = Dist.npVar ddof a' := by
  unfold Dist.npVar
  rw [npMean_perm h, npSum_perm (h.map _), h.length_eq]

theorem npStd_perm (ddof : ℕ) {a a' : List Flt} (h : a.Perm a') : Dist.npStd ddof a = Dist.npStd ddof a' := by
  unfold Dist.npStd
  rw [npVar_perm ddof h]

/-- Extended reals as floats. -/
noncomputable def fltOf (x : EReal) : Flt := if x = ⊤ then .pinf else if x = ⊥ then .ninf else .fin x.toReal

/-- Floats as extended reals. -/
noncomputable def fltTo : Flt → EReal
  | .fin x => x
  | .pinf => ⊤
  | .ninf => ⊥
  | .nan => 0

theorem fltOf_fltTo {a : Flt} (h : a ≠ .nan) : fltOf (fltTo a) = a := by
  cases a <;> simp_all [fltOf, fltTo]

theorem fltOf_le (a b : EReal) : a ≤ b ↔ Flt.le (fltOf a) (fltOf b) := by
  induction a <;> induction b <;> simp [fltOf, Flt.le]

open Classical in
theorem insertionSort_perm {a a' : List Flt} (h : a.Perm a') (hn : Flt.nan ∉ a) :
    a.insertionSort Flt.le = a'.insertionSort Flt.le := by
  have key : ∀ a : List Flt, Flt.nan ∉ a → a.insertionSort Flt.le = ((a.map fltTo).insertionSort (· ≤ ·)).map fltOf := by
    intro a hn
    rw [List.map_insertionSort (· ≤ ·) Flt.le fltOf _ fun x _ y _ => fltOf_le x y, List.map_map]
    congr 1
    conv_lhs => rw [← List.map_id a]
    exact List.map_congr_left fun x hx => (fltOf_fltTo fun h0 => hn (h0 ▸ hx)).symm
  rw [key a hn, key a' fun h' => hn (h.mem_iff.2 h')]
  congr 1
  exact (((List.perm_insertionSort (· ≤ ·) _).trans (h.map fltTo)).trans (List.perm_insertionSort (· ≤ ·) _).symm).eq_of_pairwise
    (fun _ _ _ _ h1 h2 => le_antisymm h1 h2) (List.pairwise_insertionSort (· ≤ ·) _) (List.pairwise_insertionSort (· ≤ ·) _)

theorem npMedian_perm {a a' : List Flt} (h : a.Perm a') : Dist.npMedian a = Dist.npMedian a' := by
  unfold Dist.npMedian
  by_cases h1 : Flt.nan ∈ a
  · rw [if_pos h1, if_pos (h.mem_iff.1 h1)]
  · rw [if_neg h1, if_neg (mt h.mem_iff.2 h1), insertionSort_perm h h1, h.length_eq]

section

variable {ι : Type} {l l' : List ι}

theorem Along.asum {a a' : Arr1} (h : Along l l' a a') (hp : l.Perm l') : asum a = asum a' := npSum_perm (h.perm hp)

theorem Along.amean {a a' : Arr1} (h : Along l l' a a') (hp : l.Perm l') : amean a = amean a' := npMean_perm (h.perm hp)

end

/-! ### Programs -/

namespace Py

variable {σ τ α β γ δ : Type}

/-- Run from related states both programs raise the same exception, or both return related values in related states. -/
def Sim (R R' : σ → τ → Prop) (Q : α → β → Prop) (m : Py σ α) (m' : Py τ β) : Prop :=
  ∀ s t, R s t → (∃ e s' t', m s = (.error e, s') ∧ m' t = (.error e, t')) ∨
    ∃ a b s' t', m s = (.ok a, s') ∧ m' t = (.ok b, t') ∧ Q a b ∧ R' s' t'

variable {R R' R'' : σ → τ → Prop}

theorem Sim.bind {Q : α → β → Prop} {Q' : γ → δ → Prop} {m : Py σ α} {m' : Py τ β} {f : α → Py σ γ} {f' : β → Py τ δ}
    (h : Sim R R' Q m m') (hf : ∀ a b, Q a b → Sim R' R'' Q' (f a) (f' b)) : Sim R R'' Q' (m >>= f) (m' >>= f') := by
  intro s t hR
  rcases h s t hR with ⟨e, s', t', h1, h2⟩ | ⟨a, b, s', t', h1, h2, hQ, hR'⟩
  · exact .inl ⟨e, s', t', bind_of_error h1, bind_of_error h2⟩
  · rw [bind_of_ok h1, bind_of_ok h2]
    exact hf a b hQ s' t' hR'

theorem Sim.bind_self {Q : α → β → Prop} {f : σ → Py σ α} {f' : τ → Py τ β} (hf : ∀ s t, R s t → Sim R R' Q (f s) (f' t)) :
    Sim R R' Q (self >>= f) (self >>= f') := fun s t hR => hf s t hR s t hR

theorem sim_call {Q : α → β → Prop} {x : Except PyErr α} {x' : Except PyErr β} (h : BothRel Q x x') :
    Sim R R Q (call x) (call x') := by
  intro s t hR
  rcases h with ⟨e, rfl, rfl⟩ | ⟨a, b, rfl, rfl, hQ⟩
  · exact .inl ⟨e, s, t, rfl, rfl⟩
  · exact .inr ⟨a, b, s, t, rfl, rfl, hQ, hR⟩

theorem sim_attr {x x' : Option α} (h : x' = x) (e : PyErr) : Sim R R Eq (attr x e) (attr x' e) := by
  intro s t hR
  subst h
  cases x' with
  | none => exact .inl ⟨e, s, t, rfl, rfl⟩
  | some a => exact .inr ⟨a, a, s, t, rfl, rfl, rfl, hR⟩

theorem sim_attr_rel {Q : α → β → Prop} {x : Option α} {x' : Option β}
    (h : (x = none ∧ x' = none) ∨ ∃ a b, x = some a ∧ x' = some b ∧ Q a b) (e : PyErr) : Sim R R Q (attr x e) (attr x' e) := by
  intro s t hR
  rcases h with ⟨rfl, rfl⟩ | ⟨a, b, rfl, rfl, hQ⟩
  · exact .inl ⟨e, s, t, rfl, rfl⟩
  · exact .inr ⟨a, b, s, t, rfl, rfl, hQ, hR⟩

theorem sim_raiseIf {c c' : Prop} (h : c ↔ c') (e : PyErr) : Sim R R Eq (raiseIf c e) (raiseIf c' e) := by
  intro s t hR
  by_cases hc : c
  · exact .inl ⟨e, s, t, by simp [raiseIf, hc], by simp [raiseIf, h.1 hc]⟩
  · exact .inr ⟨(), (), s, t, by simp [raiseIf, hc], by simp [raiseIf, mt h.2 hc], rfl, hR⟩

theorem sim_set {f : σ → σ} {f' : τ → τ} (h : ∀ s t, R s t → R' (f s) (f' t)) : Sim R R' Eq (set f) (set f') :=
  fun s t hR => .inr ⟨(), (), f s, f' t, rfl, rfl, rfl, h s t hR⟩

theorem sim_pure {Q : α → β → Prop} {a : α} {b : β} (h : Q a b) : Sim R R Q (pure a) (pure b) :=
  fun s t hR => .inr ⟨a, b, s, t, rfl, rfl, h, hR⟩

theorem Sim.mono {R₀ R₁ : σ → τ → Prop} {Q Q' : α → β → Prop} {m : Py σ α} {m' : Py τ β} (h : Sim R R' Q m m')
    (h0 : ∀ s t, R₀ s t → R s t) (h1 : ∀ s t, R' s t → R₁ s t) (hQ : ∀ a b, Q a b → Q' a b) : Sim R₀ R₁ Q' m m' := by
  intro s t hR
  rcases h s t (h0 s t hR) with h | ⟨a, b, s', t', e1, e2, hq, hr⟩
  · exact .inl h
  · exact .inr ⟨a, b, s', t', e1, e2, hQ a b hq, h1 s' t' hr⟩

/-- An invariant of the first program. -/
theorem Sim.inv {Q : α → β → Prop} {m : Py σ α} {m' : Py τ β} (h : Sim R R' Q m m') {I : σ → Prop} (hI : Inv I m) :
    Sim (fun s t => R s t ∧ I s) (fun s t => R' s t ∧ I s) Q m m' := by
  rintro s t ⟨hR, hs⟩
  rcases h s t hR with h | ⟨a, b, s', t', e1, e2, hq, hr⟩
  · exact .inl h
  · exact .inr ⟨a, b, s', t', e1, e2, hq, hr, (hI s hs).1 a s' e1⟩

end Py

end Ondil
