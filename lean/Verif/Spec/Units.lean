import Verif.Spec.LinearModel

/-!
# Change of the units of the features
-/

namespace Ondil

variable {p : ℕ}

/-- A row in other units: column `j` is `a j * x j + b j`, as degrees Fahrenheit for degrees Celsius. -/
def Row.inUnits (a b : Fin p → ℝ) (x : Row p) : Row p := fun j => a j * x j + b j

/-- An observation with its features in other units. -/
def Obs.inUnits (a b : Fin p → ℝ) (o : Obs p) : Obs p := ⟨Row.inUnits a b o.x, o.y, o.w⟩

/-- The units of standardised columns change by positive factors and any offsets; the other columns keep theirs. -/
structure UnitChange (t : ToScale p) (a b : Fin p → ℝ) : Prop where
  pos : ∀ j, 0 < a j
  keeps : ∀ j, ¬ t.Selects j → a j = 1 ∧ b j = 0

/-- An observation with its response in another unit, as `k = 1000` from kilometres to metres. -/
def Obs.scaleY (k : ℝ) (o : Obs p) : Obs p := ⟨o.x, k * o.y, o.w⟩

/-- The methods without penalties, bounds or start values that have the unit of the response: ordinary least squares, lasso
paths without bounds, ridge without bounds and start value. -/
def MethodObj.UnitFree {q : ℕ} : MethodObj q → Prop
  | .ols => True
  | .path a => a.alpha = 1 ∧ a.lower = none ∧ a.upper = none
  | .ridge a => a.startBeta = none ∧ a.lower = none ∧ a.upper = none

/-- An observation whose sample weight is measured in another unit, as `k = 1000` from tonnes to kilograms. -/
def Obs.scaleW (k : ℝ) (o : Obs p) : Obs p := ⟨o.x, o.y, k * o.w⟩

/-- The methods without a penalty that has the unit of the sample weights: all but ridge with a given `lambda_reg`. -/
def MethodObj.WeightFree {q : ℕ} : MethodObj q → Prop
  | .ridge a => a.lambdaReg = none
  | _ => True

end Ondil
