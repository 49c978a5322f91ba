import Verif.Spec.GaussMarkov
import Mathlib.LinearAlgebra.Matrix.NonsingularInverse

/-! # Specification vocabulary: what the forget factor does to a regression on random responses -/

open scoped BigOperators

namespace Ondil

variable {Ω : Type} {p : ℕ}

/-- The discounted and weighted cross product of the regressors. -/
noncomputable def crossProduct (fi : Bool) (forget : ℝ) (h : List (RandObs Ω p)) :
    Matrix (Fin (designDim p fi)) (Fin (designDim p fi)) ℝ :=
  fun i j => discSum forget h fun o => o.w * designRow fi o.x i * designRow fi o.x j

/-- The data determine the coefficients: the discounted and weighted squared predictions of the coefficients `u` are at least
`mu` times their squared length. -/
def Informative (fi : Bool) (forget : ℝ) (h : List (RandObs Ω p)) (mu : ℝ) : Prop :=
  ∀ u : Row (designDim p fi), mu * ∑ j, u j ^ 2 ≤ discSum forget h fun o => o.w * linPred (designRow fi o.x) u ^ 2

/-- Regressors (with the intercept) are at most `X` in absolute value, weights at most `W`. -/
def DesignWithin (fi : Bool) (X W : ℝ) (h : List (RandObs Ω p)) : Prop :=
  ∀ o ∈ h, (∀ j, |designRow fi o.x j| ≤ X) ∧ o.w ≤ W

end Ondil
