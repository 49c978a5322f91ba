import Verif.Spec.Law
import Mathlib.MeasureTheory.Integral.Bochner.Basic
import Mathlib.Analysis.Real.Pi.Bounds
import Mathlib.NumberTheory.Harmonic.EulerMascheroni

/-!
# Mean, variance and median of a law
-/

namespace Ondil

open MeasureTheory

/-- The law has mean `m` and variance `v` (and both exist). -/
structure HasMoments (P : Measure ℝ) (m v : ℝ) : Prop where
  integrable : Integrable (fun y => y) P
  integrable_sq : Integrable (fun y => y ^ 2) P
  mean : ∫ y, y ∂P = m
  variance : ∫ y, (y - m) ^ 2 ∂P = v

namespace Dist

/-- Mean and variance in terms of the parameters.  Documented: "mean and standard deviation parameterization"
(normal.py:12), "mean and variance parameterization" (normal.py:89), "parameterized by the mean" (exponential.py:11),
"the mean of the distribution" (inversegaussian.py:13), "Mean = mu - digamma(1) * sigma, Variance = (pi^2 * sigma^2) / 6"
(reversegumbel.py:21-22; `-digamma(1)` is Euler's constant).  The others are those of the GAMLSS distributions to which the
classes refer: GA, BE, LO, GU, TF, LOGNO, LOGNO2, JSUo, IGAMMA, BEINF, BEINF0, ZAGA.  `none` if the variance is infinite. -/
noncomputable def moments (d : Dist) (θ : ℕ → ℝ) : Option (ℝ × ℝ) :=
  open Classical in
  match d with
  | normal => some (θ 0, θ 1 ^ 2)
  | normalMeanVariance => some (θ 0, θ 1)
  | gamma => some (θ 0, θ 1 ^ 2 * θ 0 ^ 2)
  | beta => some (θ 0, θ 1 ^ 2 * (θ 0 * (1 - θ 0)))
  | exponential => some (θ 0, θ 0 ^ 2)
  | inverseGaussian => some (θ 0, θ 1 ^ 2 * θ 0 ^ 3)
  | logistic => some (θ 0, Real.pi ^ 2 * θ 1 ^ 2 / 3)
  | gumbel => some (θ 0 - Real.eulerMascheroniConstant * θ 1, Real.pi ^ 2 * θ 1 ^ 2 / 6)
  | reverseGumbel => some (θ 0 + Real.eulerMascheroniConstant * θ 1, Real.pi ^ 2 * θ 1 ^ 2 / 6)
  | studentT => if 2 < θ 2 then some (θ 0, θ 1 ^ 2 * (θ 2 / (θ 2 - 2))) else none
  | betaInflated =>
    let p₀ := θ 2 / (1 + θ 2 + θ 3)
    let p₁ := θ 3 / (1 + θ 2 + θ 3)
    let m := (1 - p₀ - p₁) * θ 0 + p₁
    some (m, (1 - p₀ - p₁) * (θ 1 ^ 2 * (θ 0 * (1 - θ 0)) + θ 0 ^ 2) + p₁ - m ^ 2)
  | betaInflatedZero =>
    let p₀ := θ 2 / (1 + θ 2)
    let m := (1 - p₀) * θ 0
    some (m, (1 - p₀) * (θ 1 ^ 2 * (θ 0 * (1 - θ 0)) + θ 0 ^ 2) - m ^ 2)
  | zeroAdjustedGamma => some ((1 - θ 2) * θ 0, (1 - θ 2) * θ 0 ^ 2 * (θ 1 ^ 2 + θ 2))
  | logNormal => some (Real.exp (θ 0 + θ 1 ^ 2 / 2), (Real.exp (θ 1 ^ 2) - 1) * Real.exp (2 * θ 0 + θ 1 ^ 2))
  | logNormalMedian => some (θ 0 * Real.exp (θ 1 ^ 2 / 2), (Real.exp (θ 1 ^ 2) - 1) * (θ 0 ^ 2 * Real.exp (θ 1 ^ 2)))
  | jsu _ =>
    let w := Real.exp (1 / θ 3 ^ 2)
    let o := θ 2 / θ 3
    some (θ 0 - θ 1 * (Real.exp (1 / (2 * θ 3 ^ 2)) * Real.sinh o),
      θ 1 ^ 2 * ((w - 1) * (w * Real.cosh (2 * o) + 1) / 2))
  | inverseGamma =>
    if 2 * θ 1 ^ 2 < 1 then
      some (θ 0 * ((1 + θ 1 ^ 2) / (1 - θ 1 ^ 2)),
        θ 0 ^ 2 * (1 + θ 1 ^ 2) ^ 2 * θ 1 ^ 2 / ((1 - θ 1 ^ 2) ^ 2 * (1 - 2 * θ 1 ^ 2)))
    else none

/-- Mean and standard deviation of the logarithm of the response: "mean and standard deviation parameterization in the
log-space" (lognormal.py:13), "median and standard deviation parameterization in the log-space" (lognormalmedian.py:12). -/
noncomputable def logMoments : Dist → (ℕ → ℝ) → Option (ℝ × ℝ)
  | logNormal, θ => some (θ 0, θ 1 ^ 2)
  | logNormalMedian, θ => some (Real.log (θ 0), θ 1 ^ 2)
  | _, _ => none

end Dist
end Ondil
