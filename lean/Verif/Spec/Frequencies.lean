import Verif.Spec.Discount
import Mathlib.Data.Fintype.Pi

/-! # Specification vocabulary: sample weights as frequencies -/

namespace Ondil

variable {p : ℕ}

open Classical in
/-- The total sample weight that a history gives to the regressors `x` with the response `y`. -/
noncomputable def weightAt (h : List (Obs p)) (x : Row p) (y : ℝ) : ℝ :=
  ((h.filter fun o => decide (o.x = x ∧ o.y = y)).map Obs.w).sum

/-- Both histories give every observation the same total weight: one arises from the other by splitting
observations into parts that share the weight, by merging equal observations, by leaving out observations of
weight zero and by reordering. -/
def SameFrequencies (h h' : List (Obs p)) : Prop := ∀ x y, weightAt h x y = weightAt h' x y

end Ondil
