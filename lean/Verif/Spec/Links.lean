import Verif.Model.Links

/-!
# Ranges of the link functions

The sets of parameter values and linear predictors on which the clipping of robust_math.py (at 1e-10, 1e15 and
40) is not active, and the set of admissible parameter values of each class.
-/

namespace Ondil

/-- Admissible parameter values of a link class (docstrings of the classes). -/
def LinkClass.range : LinkClass → Set ℝ
  | .identity => Set.univ
  | .logit => Set.Ioo 0 1
  | .log => Set.Ioi 0
  | .logShift v => Set.Ioi v
  | .logIdent => Set.Ioi 0
  | .softplus => Set.Ioi 0
  | .softplusShift v => Set.Ioi v
  | .sqrt => Set.Ioi 0
  | .sqrtShift v => Set.Ioi v

/-- Parameter values for which neither the link nor the inverse at the resulting linear predictor clips. -/
noncomputable def LinkClass.workParam : LinkClass → Set ℝ
  | .identity => Set.univ
  | .logit => {x | 0 < x ∧ x < 1 ∧ 1 / 10 ^ 10 < x / (1 - x) ∧ x / (1 - x) ≤ 10 ^ 15}
  | .log => Set.Ioc (1 / 10 ^ 10) (10 ^ 15)
  | .logShift v => {x | v < x ∧ x - v + 1 / 10 ^ 10 ≤ 10 ^ 15}
  | .logIdent => Set.Ioi (1 / 10 ^ 10)
  | .softplus => Set.Ici (1 / 10 ^ 10)
  | .softplusShift v => {x | 1 / 10 ^ 10 ≤ x - v}
  | .sqrt => Set.Ici 0
  | .sqrtShift v => Set.Ici v

/-- Linear predictors for which neither the inverse nor the link at the resulting parameter clips. -/
noncomputable def LinkClass.workPred : LinkClass → Set ℝ
  | .identity => Set.univ
  | .logit => Set.Ioc (Real.log (1 / 10 ^ 10)) (Real.log (10 ^ 15))
  | .log => Set.Ioc (Real.log (1 / 10 ^ 10)) (Real.log (10 ^ 15))
  | .logShift _ => Set.Iic (Real.log (10 ^ 15))
  | .logIdent => Set.Ioi (Real.log (1 / 10 ^ 10))
  | .softplus => {x | 1 / 10 ^ 10 ≤ Real.log (1 + Real.exp x) ∧ (Real.log (1 + Real.exp x) ≤ 40 ∨ 40 < x)}
  | .softplusShift _ =>
    {x | 1 / 10 ^ 10 ≤ Real.log (1 + Real.exp x) ∧ (Real.log (1 + Real.exp x) ≤ 40 ∨ 40 < x)}
  | .sqrt => Set.Ici 0
  | .sqrtShift _ => Set.Ici 0

/-- The classes that add 1e-10 inside the link but do not take it off in the inverse. -/
def LinkClass.AddsSmall : LinkClass → Prop
  | .logShift _ => True
  | .sqrtShift _ => True
  | _ => False

/-- The classes with a square as inverse. -/
def LinkClass.IsSqrt : LinkClass → Prop
  | .sqrt => True
  | .sqrtShift _ => True
  | _ => False

/-- The classes built on the softplus function. -/
def LinkClass.IsSoftplus : LinkClass → Prop
  | .softplus => True
  | .softplusShift _ => True
  | _ => False

/-- The domain of the link as a function: the admissible values, closed for the square root. -/
def LinkClass.domain : LinkClass → Set ℝ
  | .logit => Set.Ioo 0 1
  | .sqrt => Set.Ici 0
  | .sqrtShift v => Set.Ici v
  | _ => Set.univ

/-- Points at which the link is given by its smooth formula (no clipping, no guarded division) in a
neighbourhood. -/
noncomputable def LinkClass.smoothParam : LinkClass → Set ℝ
  | .identity => Set.univ
  | .logit => {x | 0 < x ∧ x < 1 ∧ 1 / 10 ^ 10 < x / (1 - x)}
  | .log => Set.Ioi (1 / 10 ^ 10)
  | .logShift v => Set.Ioi v
  | .logIdent => Set.Ioi (1 / 10 ^ 10)
  | .softplus => Set.Ioo (1 / 10 ^ 10) 40
  | .softplusShift v => {x | 1 / 10 ^ 10 < x - v ∧ x - v < 40}
  | .sqrt => Set.Ioi 0
  | .sqrtShift v => Set.Ioi v

/-- Points at which the inverse is given by its smooth formula in a neighbourhood and the exponential in its
derivative is not clipped. -/
noncomputable def LinkClass.smoothPred : LinkClass → Set ℝ
  | .identity => Set.univ
  | .logit => Set.Iio (Real.log (10 ^ 15))
  | .log => Set.Iio (Real.log (10 ^ 15))
  | .logShift _ => Set.Iio (Real.log (10 ^ 15))
  | .logIdent => Set.univ
  | .softplus => Set.Ico (-Real.log (10 ^ 15)) 40
  | .softplusShift _ => Set.Ico (-Real.log (10 ^ 15)) 40
  | .sqrt => Set.univ
  | .sqrtShift _ => Set.univ

end Ondil
