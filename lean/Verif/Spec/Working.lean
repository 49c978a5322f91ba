import Verif.Model.GamlssInstances
import Verif.Spec.Law
import Verif.Spec.Links
import Mathlib.Analysis.Calculus.Deriv.Basic
import Mathlib.MeasureTheory.Integral.Bochner.Basic

/-!
# The log likelihood as a function of a linear predictor

The log density of one response as a function of the linear predictor `η` of parameter `k`, the other parameters held
fixed; its derivative; the expectation of the squared derivative under the law with parameters `θ`.
-/

namespace Ondil

open MeasureTheory

/-- A row of the array of distribution parameters as reals. -/
def rowReal (r : ℕ → Flt) : ℕ → ℝ := fun j => (r j).toReal

/-- What a link adds to the parameter on the way `inverse(link(x))`: the shifted classes do not take the number `1e-10` off
again (C41). -/
noncomputable def LinkClass.offset : LinkClass → ℝ
  | .logShift _ | .sqrtShift _ => 1 / 10 ^ 10
  | _ => 0

namespace Dist

/-- `logpdf(y, theta)` when the linear predictor of parameter `k` is `η`. -/
noncomputable def logLikEta (d : Dist) (L : LinkClass) (θ : ℕ → ℝ) (k : ℕ) (y η : ℝ) : ℝ :=
  (d.logpdf y (Function.update θ k (L.inverse η - L.offset))).toReal

/-- The score with respect to the linear predictor. -/
noncomputable def etaScore (d : Dist) (L : LinkClass) (θ : ℕ → ℝ) (k : ℕ) (η y : ℝ) : ℝ := deriv (d.logLikEta L θ k y) η

/-- The Fisher information of the linear predictor. -/
noncomputable def etaInformation (d : Dist) (L : LinkClass) (θ : ℕ → ℝ) (k : ℕ) (η : ℝ) : ℝ :=
  ∫ y, d.etaScore L θ k η y ^ 2 ∂d.law θ

/-- A row of fitted values at which neither the distribution nor the link clips: finite parameters in the declared
supports of the distribution and of the link of parameter `k`, in the range where `inverse(link(x))` returns `x` (up to
`offset`) and is differentiable. -/
structure WorkRow (tiny ulp : ℝ) (d : Dist) (L : LinkClass) (k : ℕ) (r : ℕ → Flt) : Prop where
  finite : ∀ j < d.nParams, r j = .fin (rowReal r j)
  support : d.InParameterSupport tiny ulp (rowReal r)
  linkSupport : (L.linkSupport tiny ulp).1 ≤ (rowReal r k : EReal) ∧ (rowReal r k : EReal) ≤ (L.linkSupport tiny ulp).2
  workParam : rowReal r k ∈ L.workParam
  smooth : L.link (rowReal r k) ∈ L.smoothPred

end Dist
end Ondil
