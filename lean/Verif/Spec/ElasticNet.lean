import Verif.Spec.Discount
import Mathlib.Data.Real.Basic

/-! # Specification vocabulary: the elastic net objective -/

open scoped BigOperators

namespace Ondil

variable {p : ℕ}

/-- The elastic net objective for a Gramian `G` and y-Gramian `h`:
`½ bᵀ G b − hᵀ b + λ ∑_{j regularised} (α |b_j| + (1−α)/2 · b_j²)`. -/
noncomputable def enetObjective (G : Fin p → Fin p → ℝ) (h : Row p) (lam alpha : ℝ) (reg : Fin p → Bool)
    (b : Row p) : ℝ :=
  1 / 2 * (∑ i, ∑ j, b i * G i j * b j) - ∑ j, h j * b j
    + lam * ∑ j, if reg j then alpha * |b j| + (1 - alpha) / 2 * b j ^ 2 else 0

/-- The value respects an optional lower and an optional upper bound. -/
def InBounds (lower upper : Option ℝ) (v : ℝ) : Prop :=
  (∀ l, lower = some l → l ≤ v) ∧ (∀ u, upper = some u → v ≤ u)

/-- All coefficients respect their bounds. -/
def Feasible (lower upper : Fin p → Option ℝ) (b : Row p) : Prop :=
  ∀ j, InBounds (lower j) (upper j) (b j)

/-- The bounds are consistent: lower ≤ upper where both are finite. -/
def BoundsOk (lower upper : Fin p → Option ℝ) : Prop :=
  ∀ j l u, lower j = some l → upper j = some u → l ≤ u

end Ondil
