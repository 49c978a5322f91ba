import Verif.Spec.Discount
import Mathlib.Tactic.Ring
import Mathlib.Tactic.Linarith
import Mathlib.Algebra.Order.BigOperators.Group.Finset
import Mathlib.Algebra.Order.BigOperators.Ring.Finset

/-! # Helper lemmas on discounted sums -/

open scoped BigOperators

namespace Ondil

variable {α : Type*}

@[simp] theorem discSum_nil (forget : ℝ) (g : α → ℝ) : discSum forget [] g = 0 := by
  simp [discSum]

theorem discSum_cons (forget : ℝ) (a : α) (h : List α) (g : α → ℝ) :
    discSum forget (a :: h) g = (1 - forget) ^ h.length * g a + discSum forget h g := by
  unfold discSum
  change ∑ i : Fin (h.length + 1), (1 - forget) ^ (h.length + 1 - 1 - (i : ℕ)) * g ((a :: h).get i) = _
  rw [Fin.sum_univ_succ]
  congr 1
  refine Finset.sum_congr rfl fun i _ => ?_
  have : h.length + 1 - 1 - ((Fin.succ i : Fin (h.length + 1)) : ℕ) = h.length - 1 - (i : ℕ) := by
    rw [Fin.val_succ]; omega
  rw [this]
  rfl

theorem discSum_append (forget : ℝ) (h k : List α) (g : α → ℝ) :
    discSum forget (h ++ k) g = (1 - forget) ^ k.length * discSum forget h g + discSum forget k g := by
  induction h with
  | nil => simp
  | cons a h ih =>
    rw [List.cons_append, discSum_cons, ih, discSum_cons, List.length_append, pow_add]
    ring

theorem discSum_singleton (forget : ℝ) (a : α) (g : α → ℝ) : discSum forget [a] g = g a := by
  rw [discSum_cons]; simp

theorem discSum_snoc (forget : ℝ) (h : List α) (a : α) (g : α → ℝ) :
    discSum forget (h ++ [a]) g = (1 - forget) * discSum forget h g + g a := by
  rw [discSum_append, discSum_singleton]; simp

theorem discSum_add (forget : ℝ) (h : List α) (g k : α → ℝ) :
    discSum forget h (fun o => g o + k o) = discSum forget h g + discSum forget h k := by
  induction h with
  | nil => simp
  | cons a h ih => simp only [discSum_cons, ih]; ring

theorem discSum_sub (forget : ℝ) (h : List α) (g k : α → ℝ) :
    discSum forget h (fun o => g o - k o) = discSum forget h g - discSum forget h k := by
  induction h with
  | nil => simp
  | cons a h ih => simp only [discSum_cons, ih]; ring

theorem discSum_mul_left (forget c : ℝ) (h : List α) (g : α → ℝ) :
    discSum forget h (fun o => c * g o) = c * discSum forget h g := by
  induction h with
  | nil => simp
  | cons a h ih => simp only [discSum_cons, ih]; ring

theorem discSum_mul_right (forget c : ℝ) (h : List α) (g : α → ℝ) :
    discSum forget h (fun o => g o * c) = discSum forget h g * c := by
  induction h with
  | nil => simp
  | cons a h ih => simp only [discSum_cons, ih]; ring

theorem discSum_zero (forget : ℝ) (h : List α) : discSum forget h (fun _ => 0) = 0 := by
  induction h with
  | nil => simp
  | cons a h ih => simp [discSum_cons, ih]

theorem discSum_sum {ι : Type*} (forget : ℝ) (h : List α) (s : Finset ι) (g : ι → α → ℝ) :
    discSum forget h (fun o => ∑ i ∈ s, g i o) = ∑ i ∈ s, discSum forget h (g i) := by
  induction h with
  | nil => simp
  | cons a h ih => simp only [discSum_cons, ih, Finset.mul_sum, Finset.sum_add_distrib]

theorem discSum_congr (forget : ℝ) (h : List α) {g k : α → ℝ} (hgk : ∀ o ∈ h, g o = k o) :
    discSum forget h g = discSum forget h k := by
  induction h with
  | nil => simp
  | cons a h ih =>
    simp only [discSum_cons]
    rw [hgk a (by simp), ih (fun o ho => hgk o (by simp [ho]))]

theorem discSum_map {β : Type*} (forget : ℝ) (h : List α) (f : α → β) (g : β → ℝ) :
    discSum forget (h.map f) g = discSum forget h (fun o => g (f o)) := by
  induction h with
  | nil => simp
  | cons a h ih => simp [discSum_cons, ih]

theorem discSum_nonneg {forget : ℝ} (hf : forget ≤ 1) (h : List α) {g : α → ℝ}
    (hg : ∀ o ∈ h, 0 ≤ g o) : 0 ≤ discSum forget h g := by
  induction h with
  | nil => simp
  | cons a h ih =>
    rw [discSum_cons]
    have h1 : 0 ≤ (1 - forget) ^ h.length := pow_nonneg (by linarith) _
    have h2 := hg a (by simp)
    have h3 := ih (fun o ho => hg o (by simp [ho]))
    positivity

theorem discSum_pos {forget : ℝ} (hf : forget < 1) (h : List α) (hne : h ≠ []) {g : α → ℝ}
    (hg : ∀ o ∈ h, 0 < g o) : 0 < discSum forget h g := by
  cases h with
  | nil => exact absurd rfl hne
  | cons a h =>
    rw [discSum_cons]
    have h1 : 0 < (1 - forget) ^ h.length := pow_pos (by linarith) _
    have h2 := hg a (by simp)
    have h3 : 0 ≤ discSum forget h g :=
      discSum_nonneg hf.le h (fun o ho => (hg o (by simp [ho])).le)
    positivity

theorem discSum_eq_zero {forget : ℝ} (hf : forget < 1) (h : List α) {g : α → ℝ}
    (hg : ∀ o ∈ h, 0 ≤ g o) (h0 : discSum forget h g = 0) : ∀ o ∈ h, g o = 0 := by
  induction h with
  | nil => simp
  | cons a h ih =>
    rw [discSum_cons] at h0
    have h1 : 0 < (1 - forget) ^ h.length := pow_pos (by linarith) _
    have h2 := hg a (by simp)
    have h3 : 0 ≤ discSum forget h g :=
      discSum_nonneg hf.le h (fun o ho => hg o (by simp [ho]))
    have h4 : 0 ≤ (1 - forget) ^ h.length * g a := by positivity
    have h5 : discSum forget h g = 0 := by linarith
    have h6 : (1 - forget) ^ h.length * g a = 0 := by linarith
    intro o ho
    rcases List.mem_cons.1 ho with rfl | ho
    · rcases mul_eq_zero.1 h6 with h7 | h7
      · exact absurd h7 h1.ne'
      · exact h7
    · exact ih (fun o ho => hg o (by simp [ho])) h5 o ho

theorem discSum_forget_zero (h : List α) (g : α → ℝ) :
    discSum 0 h g = (h.map g).sum := by
  induction h with
  | nil => simp
  | cons a h ih => simp [discSum_cons, ih]

end Ondil
