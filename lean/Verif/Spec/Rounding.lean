import Verif.Spec.Discount
import Mathlib.Algebra.Order.BigOperators.Group.List
import Mathlib.LinearAlgebra.Matrix.Defs
import Mathlib.Data.Real.Basic
import Mathlib.Algebra.Order.Round
import Mathlib.Data.Int.Log
import Mathlib.Data.Real.Archimedean
import Mathlib.Tactic.Linarith
import Mathlib.Tactic.Ring
import Mathlib.Tactic.Positivity

/-!
# Specification vocabulary: arithmetic with rounding

Nothing in this file refers to the code.  The standard model of floating point arithmetic: every operation returns
its exact result up to a relative error of at most `u` (for float64 and rounding to nearest `2 ^ (-53)`).  Overflow and
underflow are excluded.  A sum may be computed in any order.
In addition the streams and the exact Gramian of the statements.
-/

namespace Ondil

/-- An arithmetic with rounding. -/
structure FloatArith where
  /-- bound for the relative error of one operation -/
  u : ℝ
  /-- the result of an operation (sum, difference, product, quotient, root) with the given exact result -/
  rnd : ℝ → ℝ
  /-- the computed power `x ** n` -/
  pow : ℝ → ℕ → ℝ
  /-- the computed sum of the entries of a list -/
  sum : List ℝ → ℝ
  u_nonneg : 0 ≤ u
  u_lt_one : u < 1
  rnd_error : ∀ x, |rnd x - x| ≤ u * |x|
  /-- as for `n` multiplications -/
  pow_error : ∀ x n, |pow x n - x ^ n| ≤ ((1 + u) ^ n - 1) * |x| ^ n
  /-- as for any order of the additions -/
  sum_error : ∀ l : List ℝ, |sum l - l.sum| ≤ ((1 + u) ^ l.length - 1) * (l.map fun v => |v|).sum

/-- Powers by repeated multiplication. -/
def powOf (rnd : ℝ → ℝ) (x : ℝ) : ℕ → ℝ
  | 0 => 1
  | n + 1 => rnd (powOf rnd x n * x)

/-- Sums by repeated addition. -/
def sumOf (rnd : ℝ → ℝ) : List ℝ → ℝ
  | [] => 0
  | v :: l => rnd (v + sumOf rnd l)

theorem powOf_error {u : ℝ} (hu : 0 ≤ u) {rnd : ℝ → ℝ} (h : ∀ x, |rnd x - x| ≤ u * |x|) (x : ℝ) (n : ℕ) :
    |powOf rnd x n - x ^ n| ≤ ((1 + u) ^ n - 1) * |x| ^ n := by
  induction n with
  | zero => simp [powOf]
  | succ n ih =>
    rw [powOf]
    set v := powOf rnd x n
    have h1 := abs_sub_le (rnd (v * x)) (v * x) (x ^ (n + 1))
    have h2 := h (v * x)
    have h3 : |v * x - x ^ (n + 1)| ≤ ((1 + u) ^ n - 1) * |x| ^ n * |x| := by
      rw [pow_succ, ← sub_mul, abs_mul]
      exact mul_le_mul_of_nonneg_right ih (abs_nonneg _)
    have h4 : |v * x| ≤ (1 + u) ^ n * |x| ^ n * |x| := by
      rw [abs_mul]
      refine mul_le_mul_of_nonneg_right ?_ (abs_nonneg _)
      have := abs_add_le (v - x ^ n) (x ^ n)
      rw [sub_add_cancel, abs_pow] at this
      linarith
    have h5 := mul_le_mul_of_nonneg_left h4 hu
    have e : ((1 + u) ^ (n + 1) - 1) * |x| ^ (n + 1) =
        u * ((1 + u) ^ n * |x| ^ n * |x|) + ((1 + u) ^ n - 1) * |x| ^ n * |x| := by ring
    linarith

theorem sumOf_error {u : ℝ} (hu : 0 ≤ u) {rnd : ℝ → ℝ} (h : ∀ x, |rnd x - x| ≤ u * |x|) (l : List ℝ) :
    |sumOf rnd l - l.sum| ≤ ((1 + u) ^ l.length - 1) * (l.map fun v => |v|).sum := by
  induction l with
  | nil => simp [sumOf]
  | cons v l ih =>
    rw [sumOf, List.sum_cons, List.map_cons, List.sum_cons, List.length_cons]
    set s := sumOf rnd l
    set t := (l.map fun v => |v|).sum with ht
    have ht0 : 0 ≤ t := List.sum_nonneg fun x hx => by
      obtain ⟨y, _, rfl⟩ := List.mem_map.1 hx
      exact abs_nonneg _
    have hls : |l.sum| ≤ t := by
      rw [ht]
      clear ih s ht ht0
      induction l with
      | nil => simp
      | cons a l ih =>
        rw [List.sum_cons, List.map_cons, List.sum_cons]
        exact (abs_add_le _ _).trans (add_le_add le_rfl ih)
    have h1 := abs_sub_le (rnd (v + s)) (v + s) (v + l.sum)
    rw [add_sub_add_left_eq_sub] at h1
    have h2 := h (v + s)
    have h3 := abs_add_le v s
    have h4 := abs_add_le (s - l.sum) l.sum
    rw [sub_add_cancel] at h4
    have hp : 1 ≤ (1 + u) ^ l.length := one_le_pow₀ (by linarith)
    have h5 : u * |v + s| ≤ u * (|v| + (1 + u) ^ l.length * t) := by
      refine mul_le_mul_of_nonneg_left ?_ hu
      linarith
    have h6 : u * |v| ≤ ((1 + u) ^ (l.length + 1) - 1) * |v| := by
      refine mul_le_mul_of_nonneg_right ?_ (abs_nonneg _)
      rw [pow_succ]
      nlinarith
    have e : ((1 + u) ^ (l.length + 1) - 1) * (|v| + t) =
        ((1 + u) ^ (l.length + 1) - 1) * |v| + (u * ((1 + u) ^ l.length * t) + ((1 + u) ^ l.length - 1) * t) := by ring
    linarith

/-- The arithmetic of a rounding function, with sums and powers computed one operation after the other. -/
def FloatArith.ofRnd (u : ℝ) (rnd : ℝ → ℝ) (h0 : 0 ≤ u) (h1 : u < 1) (h : ∀ x, |rnd x - x| ≤ u * |x|) : FloatArith :=
  ⟨u, rnd, powOf rnd, sumOf rnd, h0, h1, h, powOf_error h0 h, sumOf_error h0 h⟩

/-- Rounding to the nearest number with 53 significant binary digits (ties upwards; exponents are not bounded). -/
noncomputable def round53 (x : ℝ) : ℝ :=
  (round (x * 2 ^ (52 - Int.log 2 |x|)) : ℝ) * 2 ^ (Int.log 2 |x| - 52)

theorem round53_error (x : ℝ) : |round53 x - x| ≤ (1 / 2) ^ 53 * |x| := by
  rcases eq_or_ne x 0 with rfl | hx
  · simp [round53]
  · have hx0 : 0 < |x| := abs_pos.2 hx
    set e := Int.log 2 |x| with he
    have hle : (2 : ℝ) ^ e ≤ |x| := by
      have := Int.zpow_log_le_self (b := 2) (by norm_num) hx0
      simpa using this
    have hp : (0 : ℝ) < 2 ^ (e - 52) := zpow_pos (by norm_num) _
    have e1 : x = x * 2 ^ (52 - e) * 2 ^ (e - 52) := by
      rw [mul_assoc, ← zpow_add₀ (by norm_num), show 52 - e + (e - 52) = 0 by ring, zpow_zero, mul_one]
    have e2 : round53 x - x = ((round (x * 2 ^ (52 - e)) : ℝ) - x * 2 ^ (52 - e)) * 2 ^ (e - 52) := by
      rw [sub_mul, ← e1]; rfl
    rw [e2, abs_mul, abs_of_pos hp, abs_sub_comm]
    have h1 := abs_sub_round (x * 2 ^ (52 - e))
    refine (mul_le_mul_of_nonneg_right h1 hp.le).trans ?_
    have e3 : (2 : ℝ) ^ (e - 52) = 2 ^ e * (1 / 2) ^ 52 := by
      rw [zpow_sub₀ (by norm_num)]; norm_num; ring
    rw [e3]
    have := mul_le_mul_of_nonneg_right hle (show (0 : ℝ) ≤ (1 / 2) ^ 53 by positivity)
    calc (1 : ℝ) / 2 * (2 ^ e * (1 / 2) ^ 52) = 2 ^ e * (1 / 2) ^ 53 := by ring
      _ ≤ |x| * (1 / 2) ^ 53 := this
      _ = _ := mul_comm _ _

/-- float64 without overflow and underflow. -/
noncomputable def float64 : FloatArith :=
  .ofRnd ((1 / 2) ^ 53) round53 (by positivity) (by norm_num) round53_error

/-- An initial data set followed by the first `k` observations of a stream. -/
def streamHistory {p : ℕ} (init : List (Obs p)) (o : ℕ → Obs p) (k : ℕ) : List (Obs p) := init ++ (List.range k).map o

/-- The discounted Gramian of a history. -/
noncomputable def exactGram {p : ℕ} (forget : ℝ) (h : List (Obs p)) : Matrix (Fin p) (Fin p) ℝ := fun a c =>
  discSum forget h fun o => o.w * o.x a * o.x c

/-- A bound for the errors of the computed Gramians of features, responses and weights within `X` and `W`, `N` initial observations and batches of at most
`B` observations. -/
noncomputable def roundingBound (A : FloatArith) (forget X W : ℝ) (N B : ℕ) : ℝ :=
  (((1 + A.u) ^ (5 * N + 3) - 1) + 2 * ((1 + A.u) ^ (5 * B + 4) - 1) / forget) * (W * X * X / forget)

/-- The size of the terms of the denominator of one step, for entries of the matrix up to `K`, features up to `X` and weights up to `W`. -/
noncomputable def denSize (p : ℕ) (forget K X W : ℝ) : ℝ := 1 - forget + p * (p * (W * X * K) * X)

/-- A bound for the error of one step with rounding. -/
noncomputable def invStepError (A : FloatArith) (p : ℕ) (forget K X W : ℝ) : ℝ :=
  ((1 + A.u) ^ (4 * p + 13) - 1) * (2 * (1 - forget) / (1 - forget) ^ 2 *
    (K + p * (p * (W * K * (X * X)) * K) * (2 * denSize p forget K X W / (1 - forget) ^ 2)))

end Ondil
