import Verif.Spec.Discount

/-! # Specification vocabulary: exponentially weighted moments -/

namespace Ondil

/-- Total discounted weight of a history. -/
noncomputable def totalWeight {p : ℕ} (forget : ℝ) (h : List (Obs p)) : ℝ :=
  discSum forget h fun o => o.w

/-- Exponentially weighted mean of column `j` over a history. -/
noncomputable def ewMean {p : ℕ} (forget : ℝ) (h : List (Obs p)) (j : Fin p) : ℝ :=
  discSum forget h (fun o => o.w * o.x j) / totalWeight forget h

/-- Exponentially weighted population variance of column `j` over a history. -/
noncomputable def ewVar {p : ℕ} (forget : ℝ) (h : List (Obs p)) (j : Fin p) : ℝ :=
  discSum forget h (fun o => o.w * (o.x j - ewMean forget h j) ^ 2) / totalWeight forget h

/-- Exponentially weighted mean of a stream of numbers. -/
noncomputable def discMean (forget : ℝ) (v : List ℝ) : ℝ :=
  discSum forget v (fun x => x) / discSum forget v (fun _ => 1)

end Ondil
