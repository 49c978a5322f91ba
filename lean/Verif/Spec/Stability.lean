import Verif.Spec.LinearModel

/-! # Specification vocabulary: the same inputs with other responses -/

open scoped BigOperators

namespace Ondil

variable {p : ℕ}

/-- Two observations with the same features and the same weight; only the responses may differ. -/
def SameInput (o o' : Obs p) : Prop := o.x = o'.x ∧ o.w = o'.w

/-- The squared distance of two columns of numbers `u` and `v` along the data, discounted and weighted like the observations. -/
noncomputable def weightedDistance (forget : ℝ) (data : List (Obs p)) (u v : List ℝ) : ℝ :=
  discSum forget (data.zip (u.zip v)) fun q => q.1.w * (q.2.1 - q.2.2) ^ 2

end Ondil
