import Verif.Spec.Working
import Verif.Spec.LeastSquares

/-!
# The likelihood of the coefficients of one distribution parameter

The discounted, weighted log likelihood as a function of the coefficients of parameter `k`, the fitted values of the other
parameters held fixed, and its stationary points.
-/

namespace Ondil

/-- One observation of a distributional regression: a row of the design matrix of every parameter, the response, the sample
weight and the fitted parameters. -/
structure FitRow (J : ℕ → ℕ) where
  x : ∀ k, Row (J k)
  y : ℝ
  w : ℝ
  θ : ℕ → Flt

/-- The observation as it enters the regression of parameter `k`. -/
def FitRow.obs {J : ℕ → ℕ} (k : ℕ) (q : FitRow J) : Obs (J k) := ⟨q.x k, q.y, q.w⟩

/-- The discounted weighted log likelihood of the coefficients `b` of parameter `k`. -/
noncomputable def Dist.logLik {J : ℕ → ℕ} (d : Dist) (L : LinkClass) (k : ℕ) (forget : ℝ) (data : List (FitRow J)) (b : Row (J k)) :
    ℝ :=
  discSum forget data fun q => q.w * d.logLikEta L (rowReal q.θ) k q.y (linPred (q.x k) b)

/-- All directional derivatives exist and vanish. -/
def IsStationary {q : ℕ} (F : Row q → ℝ) (b : Row q) : Prop := ∀ v, HasDerivAt (fun t : ℝ => F (b + t • v)) 0 0

/-- The fitted values of parameter `k` are those of the coefficients `b`. -/
def FittedValuesOf {J : ℕ → ℕ} (L : LinkClass) (k : ℕ) (data : List (FitRow J)) (b : Row (J k)) : Prop :=
  ∀ q ∈ data, L.link (rowReal q.θ k) = linPred (q.x k) b

end Ondil
