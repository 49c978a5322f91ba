import Verif.Spec.LinearModel

/-! # Specification vocabulary: another origin of the response -/

namespace Ondil

variable {p : ℕ}

/-- The observation with `k` added to its response. -/
noncomputable def Obs.raise (k : ℝ) (o : Obs p) : Obs p := ⟨o.x, o.y + k, o.w⟩

/-- The coefficients with `k` added to coefficient `j₀` (the intercept). -/
noncomputable def raiseAt (j₀ : Fin p) (k : ℝ) (b : Row p) : Row p := fun j => b j + if j = j₀ then k else 0

end Ondil
