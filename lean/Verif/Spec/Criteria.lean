import Mathlib.Analysis.SpecialFunctions.Log.Basic
import Mathlib.Analysis.Real.Pi.Bounds
import Verif.Model.InformationCriteria

/-!
# Specification vocabulary: information criteria and the choice of the best model (C31–C34, C89, C90, C112)

From the model only the names of the criteria and the numbers with infinities and NaN are used.
-/

namespace Ondil

/-- What `n` observations with log-likelihood `ll` score for a model with `size` coefficients, by the textbook; smaller is
better.  `max` has no textbook formula: it is the negative log-likelihood. -/
noncomputable def textbookIc (c : Criterion) (n : ℝ) (size : ℝ) (ll : ℝ) : ℝ :=
  match c with
  | .aic => 2 * size - 2 * ll
  | .aicc => 2 * size - 2 * ll + 2 * size * (size + 1) / (n - size - 1)
  | .bic => Real.log n * size - 2 * ll
  | .hqc => 2 * Real.log (Real.log n) * size - 2 * ll
  | .max => -ll

/-- The Gaussian log-likelihood of `n` residuals with sum of squares `rss` at variance `s2`. -/
noncomputable def gaussianLL (n rss s2 : ℝ) : ℝ :=
  -n / 2 * Real.log (2 * Real.pi * s2) - rss / (2 * s2)

/-- The order in which `np.argmin` prefers numbers: NaN before all others, which are ordered by size. -/
def Flt.Preferred (a b : Flt) : Prop := (a = .nan ∧ b ≠ .nan) ∨ Flt.lt a b

end Ondil
