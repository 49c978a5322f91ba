import Mathlib.Data.Real.Basic
import Mathlib.Algebra.BigOperators.Fin

/-!
# Specification vocabulary: histories and discounted sums

Nothing in this file refers to the code.  An observation is a row of regressors, a response and a
sample weight; a history is a list of observations, oldest first.
-/

open scoped BigOperators

namespace Ondil

/-- A row of `p` regressors. -/
abbrev Row (p : ℕ) := Fin p → ℝ

/-- One observation: regressors, response, sample weight. -/
structure Obs (p : ℕ) where
  /-- regressors -/
  x : Row p
  /-- response -/
  y : ℝ
  /-- sample weight -/
  w : ℝ

/-- Exponentially discounted sum of `g` over a history (oldest first): the newest observation has
factor 1, every older one a factor `1 - forget` less than its successor.  With `N` observations the
`n`-th (counted from 1) has the factor `(1 - forget)^(N - n)`. -/
noncomputable def discSum {α : Type*} (forget : ℝ) (h : List α) (g : α → ℝ) : ℝ :=
  ∑ i : Fin h.length, (1 - forget) ^ (h.length - 1 - (i : ℕ)) * g (h.get i)

/-- All sample weights of the history are non-negative. -/
def NonnegWeights {p : ℕ} (h : List (Obs p)) : Prop := ∀ o ∈ h, 0 ≤ o.w

/-- All sample weights of the history are positive. -/
def PosWeights {p : ℕ} (h : List (Obs p)) : Prop := ∀ o ∈ h, 0 < o.w

/-- The columns of a history as the arrays the code works with. -/
def xs {p : ℕ} (h : List (Obs p)) : List (Row p) := h.map Obs.x
/-- The responses of a history. -/
def ys {p : ℕ} (h : List (Obs p)) : List ℝ := h.map Obs.y
/-- The sample weights of a history. -/
def ws {p : ℕ} (h : List (Obs p)) : List ℝ := h.map Obs.w

end Ondil
