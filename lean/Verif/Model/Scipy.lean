import Mathlib.Analysis.SpecialFunctions.Gamma.Basic
import Mathlib.Analysis.SpecialFunctions.Arsinh
import Mathlib.Analysis.SpecialFunctions.Pow.Real
import Mathlib.Analysis.SpecialFunctions.Trigonometric.Basic

/-!
# The frozen `scipy.stats` distributions used by the package

`scipy.stats` is a dependency, not part of the repository.  The classes used by `ScipyMixin` are taken to have
the densities of the scipy reference.  The value at a boundary point of the support (a null set, where scipy may
return 0, a finite number or infinity) is set to 0, except for the exponential density at 0.
-/

namespace Ondil

/-- A call `st.<name>(**params)`. -/
inductive Frozen
  | norm (loc scale : ℝ)
  | t (df loc scale : ℝ)
  | johnsonsu (a b loc scale : ℝ)
  | gamma (a loc scale : ℝ)
  | beta (a b loc scale : ℝ)
  | lognorm (s loc scale : ℝ)
  | logistic (loc scale : ℝ)
  | gumbelL (loc scale : ℝ)
  | gumbelR (loc scale : ℝ)
  | expon (loc scale : ℝ)
  | invgamma (a loc scale : ℝ)
  | invgauss (mu loc scale : ℝ)

/-- Density of the standard normal distribution. -/
noncomputable def stdNormPdf (z : ℝ) : ℝ := Real.exp (-z ^ 2 / 2) / Real.sqrt (2 * Real.pi)

open Classical in
/-- Density of the standardised variable (`loc = 0`, `scale = 1`), scipy reference. -/
noncomputable def Frozen.stdPdf : Frozen → ℝ → ℝ
  | .norm _ _, z => stdNormPdf z
  | .t df _ _, z =>
    Real.Gamma ((df + 1) / 2) / (Real.sqrt (Real.pi * df) * Real.Gamma (df / 2))
      * (1 + z ^ 2 / df) ^ (-(df + 1) / 2)
  | .johnsonsu a b _ _, z => b / Real.sqrt (z ^ 2 + 1) * stdNormPdf (a + b * Real.arsinh z)
  | .gamma a _ _, z => if 0 < z then z ^ (a - 1) * Real.exp (-z) / Real.Gamma a else 0
  | .beta a b _ _, z =>
    if 0 < z ∧ z < 1 then
      Real.Gamma (a + b) * z ^ (a - 1) * (1 - z) ^ (b - 1) / (Real.Gamma a * Real.Gamma b)
    else 0
  | .lognorm s _ _, z =>
    if 0 < z then 1 / (s * z * Real.sqrt (2 * Real.pi)) * Real.exp (-Real.log z ^ 2 / (2 * s ^ 2)) else 0
  | .logistic _ _, z => Real.exp (-z) / (1 + Real.exp (-z)) ^ 2
  | .gumbelL _ _, z => Real.exp (z - Real.exp z)
  | .gumbelR _ _, z => Real.exp (-(z + Real.exp (-z)))
  | .expon _ _, z => if 0 ≤ z then Real.exp (-z) else 0
  | .invgamma a _ _, z => if 0 < z then z ^ (-a - 1) / Real.Gamma a * Real.exp (-1 / z) else 0
  | .invgauss mu _ _, z =>
    if 0 < z then
      1 / Real.sqrt (2 * Real.pi * z ^ 3) * Real.exp (-(z - mu) ^ 2 / (2 * z * mu ^ 2))
    else 0

/-- The `loc` parameter. -/
def Frozen.loc : Frozen → ℝ
  | .norm l _ | .t _ l _ | .johnsonsu _ _ l _ | .gamma _ l _ | .beta _ _ l _ | .lognorm _ l _ | .logistic l _
  | .gumbelL l _ | .gumbelR l _ | .expon l _ | .invgamma _ l _ | .invgauss _ l _ => l

/-- The `scale` parameter. -/
def Frozen.scale : Frozen → ℝ
  | .norm _ s | .t _ _ s | .johnsonsu _ _ _ s | .gamma _ _ s | .beta _ _ _ s | .lognorm _ _ s | .logistic _ s
  | .gumbelL _ s | .gumbelR _ s | .expon _ s | .invgamma _ _ s | .invgauss _ _ s => s

/-- `frozen.pdf(y)`: "`pdf(x, loc, scale)` is identically equivalent to `pdf(z) / scale` with
`z = (x - loc) / scale`" (scipy reference). -/
noncomputable def Frozen.pdf (f : Frozen) (y : ℝ) : ℝ := f.stdPdf ((y - f.loc) / f.scale) / f.scale

/-- The shape conditions `_argcheck` of scipy together with `scale > 0`; scipy returns NaN otherwise. -/
def Frozen.ArgOk : Frozen → Prop
  | .norm _ s => 0 < s
  | .t df _ s => 0 < df ∧ 0 < s
  | .johnsonsu _ b _ s => 0 < b ∧ 0 < s
  | .gamma a _ s => 0 < a ∧ 0 < s
  | .beta a b _ s => 0 < a ∧ 0 < b ∧ 0 < s
  | .lognorm sh _ s => 0 < sh ∧ 0 < s
  | .logistic _ s => 0 < s
  | .gumbelL _ s => 0 < s
  | .gumbelR _ s => 0 < s
  | .expon _ s => 0 < s
  | .invgamma a _ s => 0 < a ∧ 0 < s
  | .invgauss mu _ s => 0 < mu ∧ 0 < s

end Ondil
