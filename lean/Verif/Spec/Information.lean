import Verif.Spec.Law
import Mathlib.MeasureTheory.Integral.Bochner.Basic

/-!
# Score functions and Fisher information of a law

The notions of the theory of maximum likelihood that `dl1_dp1`, `dl2_dp2` and `dl2_dpp` are meant to compute: functions
with mean zero under the law of the response, and their second moments.
-/

namespace Ondil

open MeasureTheory

/-- The number returned by a derivative method; 0 if it raises or returns `None`. -/
def returned : Except PyErr (Option ℝ) → ℝ
  | .ok (some v) => v
  | _ => 0

/-- `s 0, …, s (n - 1)` are score functions of the law `P`: square integrable with mean zero. -/
structure IsScore (P : Measure ℝ) (n : ℕ) (s : ℕ → ℝ → ℝ) : Prop where
  integrable : ∀ i < n, Integrable (s i) P
  integrable_mul : ∀ i < n, ∀ j < n, Integrable (fun y => s i y * s j y) P
  mean_zero : ∀ i < n, ∫ y, s i y ∂P = 0

/-- The entries of the Fisher information matrix. -/
noncomputable def fisher (P : Measure ℝ) (s : ℕ → ℝ → ℝ) (i j : ℕ) : ℝ := ∫ y, s i y * s j y ∂P

namespace Dist

/-- `dl1_dp1(y, theta, k)` as a function of the response. -/
noncomputable def score (d : Dist) (θ : ℕ → ℝ) (k : ℕ) (y : ℝ) : ℝ := returned (d.dl1 y θ k)

end Dist
end Ondil
