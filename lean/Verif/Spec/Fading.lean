import Verif.Spec.LinearModel
import Verif.Spec.Accuracy

/-! # Specification vocabulary: how much of the past is left -/

open scoped BigOperators

namespace Ondil

variable {p : ℕ}

/-- Half the gradient of the discounted weighted squared error at the coefficients `b`. -/
noncomputable def sseGradient (forget : ℝ) (h : List (Obs p)) (b : Row p) : Row p := fun j =>
  discSum forget h fun o => o.w * (linPred o.x b - o.y) * o.x j

/-- The data determine all coefficients: in every direction the discounted squared error has curvature at least `mu`. -/
def Excites (forget : ℝ) (h : List (Obs p)) (mu : ℝ) : Prop :=
  ∀ v : Row p, mu * ∑ j, v j ^ 2 ≤ discSum forget h fun o => o.w * linPred o.x v ^ 2

/-- Features and responses are at most `B` in absolute value, weights between zero and `W`. -/
def Bounded (B W : ℝ) (h : List (Obs p)) : Prop := ∀ o ∈ h, (∀ j, |o.x j| ≤ B) ∧ |o.y| ≤ B ∧ 0 ≤ o.w ∧ o.w ≤ W

end Ondil
