import Verif.Spec.Distributions
import Mathlib.MeasureTheory.Measure.Dirac
import Mathlib.MeasureTheory.Measure.Lebesgue.Basic
import Mathlib.MeasureTheory.Measure.WithDensity

/-!
# The law described by a density method

The density of the continuous part integrated over the line, and a point mass of size `pdf(y)` at each inflated
point.
-/

namespace Ondil

open MeasureTheory

/-- The finite value, 0 for infinities and NaN. -/
def Flt.toReal : Flt → ℝ
  | .fin x => x
  | _ => 0

namespace Dist

/-- The points with positive probability. -/
def inflatedPoints : Dist → List ℝ
  | betaInflated => [0, 1]
  | betaInflatedZero | zeroAdjustedGamma => [0]
  | _ => []

/-- The law of a response with parameters `θ`, as described by the density `p`. -/
noncomputable def lawOf (d : Dist) (p : ℝ → Flt) : Measure ℝ :=
  (volume.restrict d.Responses).withDensity (fun y => ENNReal.ofReal (p y).toReal)
    + ((d.inflatedPoints).map fun a => ENNReal.ofReal (p a).toReal • Measure.dirac a).sum

/-- The law described by the `pdf` method. -/
noncomputable def law (d : Dist) (θ : ℕ → ℝ) : Measure ℝ := d.lawOf fun y => d.pdf y θ

end Dist
end Ondil
