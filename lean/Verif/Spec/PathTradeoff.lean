import Verif.Spec.Accuracy
import Verif.Spec.LinearModel

/-!
# Specification vocabulary for the trade-off between fit and penalty along a path
-/

open scoped BigOperators

namespace Ondil

/-- What a run of coordinate descent that ended with `r` by its convergence test leaves open in comparison with `c`: the tolerance
times the largest coefficient of `r` times the coupled distance of `c` and `r`. It is zero for a tolerance of zero. -/
noncomputable def stoppingSlack {q : ℕ} (tol : ℝ) (G : Fin q → Fin q → ℝ) (r c : Row q) : ℝ :=
  tol * maxAbs r * ∑ j, coupling G j * |c j - r j|

end Ondil
