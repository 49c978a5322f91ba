import Verif.Spec.Fading
import Mathlib.Probability.Moments.Variance

/-! # Specification vocabulary: data whose responses are random -/

open scoped BigOperators
open MeasureTheory ProbabilityTheory

namespace Ondil

/-- One observation with fixed regressors and a fixed sample weight, whose response is a random variable. -/
structure RandObs (Ω : Type) (p : ℕ) where
  /-- regressors -/
  x : Row p
  /-- response -/
  Y : Ω → ℝ
  /-- sample weight -/
  w : ℝ

variable {Ω : Type} {p : ℕ}

/-- The data seen in the outcome `ω`. -/
def outcome (ω : Ω) (h : List (RandObs Ω p)) : List (Obs p) := h.map fun o => ⟨o.x, o.Y ω, o.w⟩

/-- The expected response is linear in the regressors with the true coefficients `beta` (the first one belongs to the
intercept, if the model has one). -/
def LinearMean [MeasurableSpace Ω] (μ : Measure Ω) (fi : Bool) (beta : Row (designDim p fi)) (h : List (RandObs Ω p)) : Prop :=
  ∀ o ∈ h, Integrable o.Y μ ∧ ∫ ω, o.Y ω ∂μ = linPred (designRow fi o.x) beta

/-- The noise of different observations is uncorrelated, and the weight of an observation is inversely proportional to its
variance: the variance is `v` over the weight. -/
def UncorrelatedNoise [MeasurableSpace Ω] (μ : Measure Ω) (v : ℝ) (h : List (RandObs Ω p)) : Prop :=
  (∀ o ∈ h, 0 < o.w ∧ MemLp o.Y 2 μ ∧ Var[o.Y; μ] = v / o.w) ∧ h.Pairwise fun a b => cov[a.Y, b.Y; μ] = 0

/-- A linear estimator: a combination of the responses with fixed factors. -/
def combine (h : List (RandObs Ω p)) (a : Fin h.length → ℝ) (ω : Ω) : ℝ := ∑ i, a i * (h.get i).Y ω

/-- The combination with factors `a` estimates `l · beta` without bias, whatever the true coefficients `beta` are. -/
def UnbiasedFor (fi : Bool) (h : List (RandObs Ω p)) (a : Fin h.length → ℝ) (l : Row (designDim p fi)) : Prop :=
  ∀ beta, ∑ i, a i * linPred (designRow fi (h.get i).x) beta = linPred l beta

end Ondil
