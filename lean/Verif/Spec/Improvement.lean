import Verif.Spec.LinearModel

/-! # Specification vocabulary: the error of the predictions for a batch -/

open scoped BigOperators

namespace Ondil

variable {p : ℕ}

/-- The discounted weighted squared error of the predictions `yhat` for the responses of a batch. -/
noncomputable def predictionError (forget : ℝ) (batch : List (Obs p)) (yhat : List ℝ) : ℝ :=
  discSum forget (batch.zip yhat) fun q => q.1.w * (q.1.y - q.2) ^ 2

/-- The discounted weighted sum of the residuals of a batch times the regressor `j` (the intercept included). -/
noncomputable def residualProduct (fi : Bool) (forget : ℝ) (batch : List (Obs p)) (yhat : List ℝ) (j : Fin (designDim p fi)) : ℝ :=
  discSum forget (batch.zip yhat) fun q => q.1.w * (q.1.y - q.2) * designRow fi q.1.x j

end Ondil
