import Verif.Spec.Discount

/-! # Specification vocabulary: discounted weighted least squares -/

open scoped BigOperators

namespace Ondil

/-- Linear prediction `x · b`. -/
noncomputable def linPred {p : ℕ} (x b : Row p) : ℝ := ∑ j, x j * b j

/-- Discounted weighted sum of squared errors of the coefficients `b` on a history: the newest
observation has factor 1, each older one a factor `1 - forget` less. -/
noncomputable def discSSE {p : ℕ} (forget : ℝ) (h : List (Obs p)) (b : Row p) : ℝ :=
  discSum forget h fun o => o.w * (o.y - linPred o.x b) ^ 2

/-- Strict minimiser: every other coefficient vector has a larger discounted squared error. -/
def IsLeastSquares {p : ℕ} (forget : ℝ) (h : List (Obs p)) (b : Row p) : Prop :=
  ∀ b' : Row p, b' ≠ b → discSSE forget h b < discSSE forget h b'

/-- The regressors of the observations with positive weight are linearly independent as columns. -/
def FullRank {p : ℕ} (h : List (Obs p)) : Prop :=
  ∀ v : Row p, (∀ o ∈ h, 0 < o.w → linPred o.x v = 0) → v = 0

end Ondil
