import Verif.Spec.Improvement

/-!
# Specification vocabulary for models with some of the features
-/

namespace Ondil

/-- The observations with the features `ι 0, ι 1, ...` only. -/
def keepFeatures {p q : ℕ} (ι : Fin q ↪ Fin p) (h : List (Obs p)) : List (Obs q) :=
  h.map fun o => ⟨fun i => o.x (ι i), o.y, o.w⟩

end Ondil
