import Mathlib.Analysis.SpecialFunctions.Gamma.Deriv
import Mathlib.Analysis.SpecialFunctions.Log.Basic

/-!
The special functions the distributions import from `scipy.special`.

`scipy.special` is a dependency, not part of the repository: its functions are taken to be the
mathematical functions they document.  `digamma` is the derivative of `log Γ` and
`polygamma(1, ·)` is the derivative of `digamma`; nothing else about them is assumed, every fact
used in the proofs is derived from these two definitions.
-/

namespace Ondil

/-- `scipy.special.loggamma` / `gammaln` on the positive half line. -/
noncomputable def logGamma (x : ℝ) : ℝ := Real.log (Real.Gamma x)

/-- `scipy.special.digamma`, used in distributions/{studentt,gamma,beta,beta_inflated,
beta_inflated_zero,inverse_gamma,zero_adjusted_gamma}.py. -/
noncomputable def digamma (x : ℝ) : ℝ := deriv logGamma x

/-- `scipy.special.polygamma(1, x)`, used in the same files. -/
noncomputable def trigamma (x : ℝ) : ℝ := deriv digamma x

end Ondil
