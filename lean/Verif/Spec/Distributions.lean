import Verif.Model.Distributions

/-!
# Admissible parameters and responses of the distributions

From the docstrings and the declared supports, with strict inequalities in place of the smallest positive float
and the largest float below one.
-/

namespace Ondil
namespace Dist

/-- Admissible parameter vectors. -/
def Admissible : Dist → (ℕ → ℝ) → Prop
  | normal, θ | normalMeanVariance, θ | logNormal, θ | logistic, θ | gumbel, θ | reverseGumbel, θ => 0 < θ 1
  | studentT, θ => 0 < θ 1 ∧ 0 < θ 2
  | jsu _, θ => 0 < θ 1 ∧ 0 < θ 3
  | gamma, θ | logNormalMedian, θ | inverseGamma, θ | inverseGaussian, θ => 0 < θ 0 ∧ 0 < θ 1
  | beta, θ => (0 < θ 0 ∧ θ 0 < 1) ∧ 0 < θ 1 ∧ θ 1 < 1
  | exponential, θ => 0 < θ 0
  | betaInflated, θ => (0 < θ 0 ∧ θ 0 < 1) ∧ (0 < θ 1 ∧ θ 1 < 1) ∧ 0 < θ 2 ∧ 0 < θ 3
  | betaInflatedZero, θ => (0 < θ 0 ∧ θ 0 < 1) ∧ (0 < θ 1 ∧ θ 1 < 1) ∧ 0 < θ 2
  | zeroAdjustedGamma, θ => (0 < θ 0 ∧ 0 < θ 1) ∧ 0 < θ 2 ∧ θ 2 < 1

/-- Responses with positive density or positive probability. -/
def Responses : Dist → Set ℝ
  | normal | normalMeanVariance | studentT | jsu _ | logistic | gumbel | reverseGumbel => Set.univ
  | gamma | exponential | inverseGaussian | logNormal | logNormalMedian | inverseGamma => Set.Ioi 0
  | beta => Set.Ioo 0 1
  | betaInflated => Set.Icc 0 1
  | betaInflatedZero => Set.Ico 0 1
  | zeroAdjustedGamma => Set.Ici 0

/-- The rows for which the code returns a weight of zero, or may do so: Johnson SU (minus the squared score) and the
non-inflation parameters at the inflated points. -/
def Degenerate : Dist → ℝ → ℕ → Prop
  | jsu _, _, _ => True
  | betaInflated, y, k => (y = 0 ∨ y = 1) ∧ k < 2
  | betaInflatedZero, y, k => y = 0 ∧ k < 2
  | zeroAdjustedGamma, y, k => y = 0 ∧ k < 2
  | _, _, _ => False

/-- The parameter vector lies in the declared `parameter_support`. -/
def InParameterSupport (tiny ulp : ℝ) (d : Dist) (θ : ℕ → ℝ) : Prop :=
  ∀ i sup, d.parameterSupport tiny ulp i = some sup → sup.1 ≤ (θ i : EReal) ∧ (θ i : EReal) ≤ sup.2

/-- The response lies in the declared `distribution_support`. -/
def InSupport (tiny ulp : ℝ) (d : Dist) (y : ℝ) : Prop :=
  (d.support tiny ulp).1 ≤ (y : EReal) ∧ (y : EReal) ≤ (d.support tiny ulp).2

end Dist
end Ondil

namespace Ondil
namespace Dist

/-- `B(α, β)` written with Gamma functions, for the documented beta parameters. -/
noncomputable def docBeta (y μ σ : ℝ) : ℝ :=
  Real.Gamma ((1 - σ ^ 2) / σ ^ 2)
    / (Real.Gamma (μ * (1 - σ ^ 2) / σ ^ 2) * Real.Gamma ((1 - μ) * (1 - σ ^ 2) / σ ^ 2))
    * y ^ (μ * (1 - σ ^ 2) / σ ^ 2 - 1) * (1 - y) ^ ((1 - μ) * (1 - σ ^ 2) / σ ^ 2 - 1)

/-- The gamma density of gamma.py:16. -/
noncomputable def docGamma (y μ σ : ℝ) : ℝ :=
  y ^ (1 / σ ^ 2 - 1) * Real.exp (-y / (σ ^ 2 * μ)) / ((σ ^ 2 * μ) ^ (1 / σ ^ 2) * Real.Gamma (1 / σ ^ 2))

open Classical in
/-- The density formulas of the docstrings: normal.py:16-20, 93-97, gamma.py:16, beta.py:16-22, lognormal.py:17-21,
lognormalmedian.py:16-20, logistic.py:16, gumbel.py:14, reversegumbel.py:15, exponential.py:14,
inversegaussian.py:18, betainflated.py:16-28, betainflatedzero.py:14-22, zeroadjustedgamma.py:19-24.  Student t,
Johnson SU and InverseGamma document no formula. -/
noncomputable def documentedDensity : Dist → Option (ℝ → (ℕ → ℝ) → ℝ)
  | normal => some fun y θ => 1 / Real.sqrt (2 * Real.pi * θ 1 ^ 2) * Real.exp (-(y - θ 0) ^ 2 / (2 * θ 1 ^ 2))
  | normalMeanVariance =>
    some fun y θ => 1 / Real.sqrt (2 * Real.pi * θ 1) * Real.exp (-(y - θ 0) ^ 2 / (2 * θ 1))
  | gamma => some fun y θ => docGamma y (θ 0) (θ 1)
  | beta => some fun y θ => docBeta y (θ 0) (θ 1)
  | logNormal => some fun y θ =>
    1 / (y * θ 1 * Real.sqrt (2 * Real.pi)) * Real.exp (-(Real.log y - θ 0) ^ 2 / (2 * θ 1 ^ 2))
  | logNormalMedian => some fun y θ =>
    1 / (y * θ 1 * Real.sqrt (2 * Real.pi)) * Real.exp (-(Real.log y - Real.log (θ 0)) ^ 2 / (2 * θ 1 ^ 2))
  | logistic => some fun y θ =>
    Real.exp (-((y - θ 0) / θ 1)) / (θ 1 * (1 + Real.exp (-((y - θ 0) / θ 1))) ^ 2)
  | gumbel => some fun y θ => 1 / θ 1 * Real.exp (-((y - θ 0) / θ 1 + Real.exp (-((y - θ 0) / θ 1))))
  | reverseGumbel => some fun y θ => 1 / θ 1 * Real.exp ((y - θ 0) / θ 1 - Real.exp ((y - θ 0) / θ 1))
  | exponential => some fun y θ => 1 / θ 0 * Real.exp (-y / θ 0)
  | inverseGaussian => some fun y θ =>
    Real.sqrt (θ 1 / (2 * Real.pi * y ^ 3)) * Real.exp (-(y - θ 0) ^ 2 / (2 * θ 1 ^ 2 * y))
  | betaInflated => some fun y θ =>
    if y = 0 then θ 2 / (1 + θ 2 + θ 3)
    else if y = 1 then θ 3 / (1 + θ 2 + θ 3)
    else (1 - θ 2 / (1 + θ 2 + θ 3) - θ 3 / (1 + θ 2 + θ 3)) * docBeta y (θ 0) (θ 1)
  | betaInflatedZero => some fun y θ =>
    if y = 0 then θ 2 / (1 + θ 2) else (1 - θ 2 / (1 + θ 2)) * docBeta y (θ 0) (θ 1)
  | zeroAdjustedGamma => some fun y θ => if y = 0 then θ 2 else (1 - θ 2) * docGamma y (θ 0) (θ 1)
  | studentT | jsu _ | inverseGamma => none

/-- The classes whose documented formula is that of another distribution. -/
def WronglyDocumented : Dist → Prop
  | gumbel | reverseGumbel | inverseGaussian => True
  | _ => False

end Dist
end Ondil
