import Verif.Spec.Law

/-!
# Specification vocabulary for classes that describe the same, mirrored or transformed distributions
-/

namespace Ondil
namespace Dist

/-- The classes whose responses are all real numbers. -/
def OnLine : Dist → Prop
  | normal | normalMeanVariance | studentT | jsu _ | logistic | gumbel | reverseGumbel => True
  | _ => False

/-- The class of `-Y`: the two Gumbel classes are the mirror images of each other. -/
def mirrorClass : Dist → Dist
  | gumbel => reverseGumbel
  | reverseGumbel => gumbel
  | d => d

/-- The parameters of `-Y`: the location changes its sign, and so does the skewness of Johnson's SU. -/
def mirror (d : Dist) (θ : ℕ → ℝ) : ℕ → ℝ :=
  match d with
  | jsu _ => Function.update (Function.update θ 0 (-θ 0)) 2 (-θ 2)
  | _ => Function.update θ 0 (-θ 0)

/-- Two classes with parameters that describe the same distribution according to their documentation. -/
inductive SameDistribution : Dist → (ℕ → ℝ) → Dist → (ℕ → ℝ) → Prop
  /-- The second parameter of one normal class is the square of that of the other. -/
  | meanVariance (θ : ℕ → ℝ) : SameDistribution normalMeanVariance θ normal (Function.update θ 1 (Real.sqrt (θ 1)))
  /-- The median of a log-normal distribution is the exponential of the mean of the logarithm. -/
  | median (θ : ℕ → ℝ) : SameDistribution logNormalMedian θ logNormal (Function.update θ 0 (Real.log (θ 0)))
  /-- An exponential distribution is a gamma distribution with coefficient of variation one. -/
  | exponential (θ : ℕ → ℝ) : SameDistribution exponential θ gamma (Function.update θ 1 1)

/-- The class of the responses that are not at an inflated point, and the probability of not being there. -/
noncomputable def continuousPart : Dist → (ℕ → ℝ) → Option (Dist × ℝ)
  | zeroAdjustedGamma, θ => some (gamma, 1 - θ 2)
  | betaInflated, θ => some (Dist.beta, 1 / (1 + θ 2 + θ 3))
  | betaInflatedZero, θ => some (Dist.beta, 1 / (1 + θ 2))
  | _, _ => none

end Dist
end Ondil
