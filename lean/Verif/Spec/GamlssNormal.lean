import Verif.Props.GamlssSuccess
import Verif.Spec.LinearModel
import Verif.Lemmas.GamlssOls

/-!
# Vocabulary for normal distributional regressions (C86)
-/

namespace Ondil

variable {p : ℕ}

/-- The options of the property: a normal distribution with its default links, ordinary least squares, an intercept, the
columns `sel` for the location and an intercept only for the scale. -/
structure NormalOptions (frames : Bool) (c : GConfig MethodState p) (f : ℝ) (sel : List (Fin p)) : Prop where
  valid : c.Valid
  method : c.method = .value (some .ols)
  intercept : c.fitIntercept = .value true
  forget : c.forget = .value f
  step : c.stepSize = .value 1
  cond : c.condStartVal = false
  order : c.paramOrder = none
  location : (c.equationFor 0).accepted frames = true ∧ c.equationFor 0 ≠ .index [] ∧ Selects p (c.equationFor 0) sel
  scale : c.equationFor 1 = .str "intercept"
  minIt : 1 ≤ c.minItOuter ∧ c.minItOuter ≤ c.maxOuter
  prefit : c.prefitInitial ≤ c.maxOuter

/-- The observations of the regression of the location: an intercept and the selected columns, standardised if the
option `scale_inputs` says so. -/
noncomputable def locationObs (t : ToScale p) (f : ℝ) (sel : List (Fin p)) (data : List (Obs p)) : List (Obs (sel.length + 1)) :=
  data.map fun o => ⟨Fin.cons 1 fun i => standardise t f data o.x (sel.get i), o.y, o.w⟩

/-- Every column that is standardised varies. -/
def Varies (t : ToScale p) (f : ℝ) (data : List (Obs p)) : Prop := ∀ j, t.Selects j → 0 < ewVar f data j

end Ondil
