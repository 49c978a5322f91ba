import Mathlib.MeasureTheory.Measure.Lebesgue.Basic

/-!
# Losses of point forecasts
-/

namespace Ondil

/-- The pinball (quantile) loss of forecasting `x` when the response is `y`: a response above the forecast costs `q` per unit, one below it
`1 - q` per unit. -/
noncomputable def pinball (q x y : ℝ) : ℝ :=
  if x ≤ y then q * (y - x) else (1 - q) * (x - y)

/-- The interval (Winkler) score of the interval from `l` to `u` at level `1 - a`: its width, and `2 / a` times the distance of a response
outside it. -/
noncomputable def intervalScore (a l u y : ℝ) : ℝ :=
  (u - l) + 2 / a * max 0 (l - y) + 2 / a * max 0 (y - u)

/-- The continuous ranked probability score of a forecast distribution function `G` when the response is `y`, with the thresholds of `S`:
the Brier scores of the events that the response is at most `x`, integrated over `x`. -/
noncomputable def crps (S : Set ℝ) (G : ℝ → ℝ) (y : ℝ) : ENNReal :=
  ∫⁻ x in S, ENNReal.ofReal ((G x - if y ≤ x then 1 else 0) ^ 2)

end Ondil
