import Verif.Spec.ElasticNet
import Mathlib.Data.Real.Sqrt

/-! # Specification vocabulary: how far a vector is from an optimum of the elastic net -/

open scoped BigOperators

namespace Ondil

variable {p : ℕ}

/-- How strongly the other features are coupled to feature `j`: the sum of the absolute values of row `j` of
the Gramian without its diagonal entry. -/
noncomputable def coupling (G : Fin p → Fin p → ℝ) (j : Fin p) : ℝ :=
  ∑ k, if k = j then 0 else |G j k|

/-- The quadratic form of the smooth part of the elastic net objective:
`vᵀ G v + λ (1−α) ∑_{j regularised} v_j²`. -/
noncomputable def smoothForm (G : Fin p → Fin p → ℝ) (lam alpha : ℝ) (reg : Fin p → Bool) (v : Row p) : ℝ :=
  (∑ i, ∑ j, v i * G i j * v j) + lam * (1 - alpha) * ∑ j, if reg j then v j ^ 2 else 0

/-- The smooth part has curvature at least `mu` in every direction. -/
def CurvedAtLeast (G : Fin p → Fin p → ℝ) (lam alpha : ℝ) (reg : Fin p → Bool) (mu : ℝ) : Prop :=
  ∀ v : Row p, mu * ∑ j, v j ^ 2 ≤ smoothForm G lam alpha reg v

/-- The Euclidean distance of two coefficient vectors. -/
noncomputable def euclid (b c : Row p) : ℝ := Real.sqrt (∑ j, (c j - b j) ^ 2)

end Ondil
