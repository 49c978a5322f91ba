import Verif.Spec.Likelihood

/-!
# Maximum likelihood estimates of the coefficients of one distribution parameter
-/

namespace Ondil

/-- The coefficients `b` of parameter `k` have the largest log likelihood among all coefficients at whose linear predictors the
link does not clip. -/
def Dist.IsMaximumLikelihood {J : ℕ → ℕ} (d : Dist) (L : LinkClass) (k : ℕ) (forget : ℝ) (data : List (FitRow J)) (b : Row (J k)) :
    Prop :=
  ∀ b', (∀ q ∈ data, linPred (q.x k) b' ∈ L.smoothPred) → d.logLik L k forget data b' ≤ d.logLik L k forget data b

/-- Parameters with their default links: locations of the normal, log-normal, logistic and Gumbel classes; means (modes, medians)
of the exponential, gamma, inverse gamma and zero-adjusted gamma classes; the skewness of Johnson's SU; inflation probabilities. -/
inductive Dist.LocationLike : Dist → LinkClass → ℕ → Prop
  | normal : LocationLike .normal .identity 0
  | normalMeanVariance : LocationLike .normalMeanVariance .identity 0
  | logNormal : LocationLike .logNormal .identity 0
  | logNormalMedian : LocationLike .logNormalMedian .log 0
  | logistic : LocationLike .logistic .identity 0
  | gumbel : LocationLike .gumbel .identity 0
  | reverseGumbel : LocationLike .reverseGumbel .identity 0
  | exponential : LocationLike .exponential .log 0
  | gamma : LocationLike .gamma .log 0
  | inverseGamma : LocationLike .inverseGamma .log 0
  | jsu (b : Bool) : LocationLike (.jsu b) .identity 2
  | betaInflatedNu : LocationLike .betaInflated .log 2
  | betaInflatedTau : LocationLike .betaInflated .log 3
  | betaInflatedZero : LocationLike .betaInflatedZero .log 2
  | zeroAdjustedGamma : LocationLike .zeroAdjustedGamma .logit 2

/-- Scale parameters with their default links, and the mean of the zero-adjusted gamma class, to which zeros say nothing. -/
inductive Dist.ScaleLike : Dist → LinkClass → ℕ → Prop
  | normal : ScaleLike .normal .log 1
  | normalMeanVariance : ScaleLike .normalMeanVariance .log 1
  | studentT : ScaleLike .studentT .log 1
  | logNormal : ScaleLike .logNormal .log 1
  | logNormalMedian : ScaleLike .logNormalMedian .log 1
  | logistic : ScaleLike .logistic .log 1
  | gumbel : ScaleLike .gumbel .log 1
  | reverseGumbel : ScaleLike .reverseGumbel .log 1
  | inverseGaussian : ScaleLike .inverseGaussian .log 1
  | gamma : ScaleLike .gamma .log 1
  | inverseGamma : ScaleLike .inverseGamma .log 1
  | zeroAdjustedGamma : ScaleLike .zeroAdjustedGamma .log 0
  | zeroAdjustedGammaScale : ScaleLike .zeroAdjustedGamma .log 1

end Ondil
