import Verif.Spec.Discount

/-!
# Right on average

Specification for C113.
-/

namespace Ondil

variable {p : ℕ}

/-- The discounted weighted sum of the residuals of the predictions `yhat` for the responses of the data. -/
noncomputable def residualSum (forget : ℝ) (data : List (Obs p)) (yhat : List ℝ) : ℝ :=
  discSum forget (data.zip yhat) fun q => q.1.w * (q.1.y - q.2)

end Ondil
