import Verif.Spec.LinearModel
import Mathlib.LinearAlgebra.Matrix.NonsingularInverse

/-!
# Other coordinates for features and response
-/

open scoped Matrix

namespace Ondil

variable {p : ℕ}

/-- A row in other coordinates, as two dummy variables for other categories, or a sum and a difference for two terms. -/
def Row.recode (A : Matrix (Fin p) (Fin p) ℝ) (v : Row p) (x : Row p) : Row p := A *ᵥ x + v

/-- An observation with its features in other coordinates, and with a response that is multiplied by `k` and to which a linear
function of the features is added. -/
noncomputable def Obs.recode (fi : Bool) (A : Matrix (Fin p) (Fin p) ℝ) (v : Row p) (k : ℝ) (g : Row (designDim p fi)) (o : Obs p) :
    Obs p :=
  ⟨Row.recode A v o.x, k * o.y + linPred (designRow fi o.x) g, o.w⟩

end Ondil
