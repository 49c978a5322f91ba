import Verif.Spec.Law

/-!
# Specification vocabulary for the unit and the origin of the response of a distribution
-/

namespace Ondil
namespace Dist

/-- The classes whose responses have a unit: all but the distributions on the unit interval. -/
def HasUnit : Dist → Prop
  | beta | betaInflated | betaInflatedZero => False
  | _ => True

/-- The classes whose responses have a unit but a fixed origin: the distributions on the positive numbers. -/
def FixedOrigin : Dist → Prop
  | gamma | exponential | inverseGaussian | logNormal | logNormalMedian | inverseGamma | zeroAdjustedGamma => True
  | _ => False

/-- The parameters of `b + a * Y` for a response `Y` with the parameters `θ`: the location moves with the response and the scale is
multiplied by `a` (a variance by the square of `a`); the shape parameters stay. -/
noncomputable def changeUnit (a b : ℝ) (d : Dist) (θ : ℕ → ℝ) : ℕ → ℝ :=
  match d with
  | normal | studentT | jsu _ | logistic | gumbel | reverseGumbel =>
    Function.update (Function.update θ 0 (b + a * θ 0)) 1 (a * θ 1)
  | normalMeanVariance => Function.update (Function.update θ 0 (b + a * θ 0)) 1 (a ^ 2 * θ 1)
  | logNormal => Function.update θ 0 (Real.log a + θ 0)
  | inverseGaussian => Function.update (Function.update θ 0 (a * θ 0)) 1 (θ 1 / Real.sqrt a)
  | _ => Function.update θ 0 (a * θ 0)

end Dist
end Ondil
