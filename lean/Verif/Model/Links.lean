import Verif.Model.RobustMath
import Verif.Model.Gram
import Mathlib.Analysis.SpecialFunctions.Trigonometric.Deriv
import Mathlib.Analysis.SpecialFunctions.Pow.Real
import Mathlib.Data.EReal.Basic

/-!
# Model of `src/ondil/links`

All functions act elementwise; one element is modelled.  Arithmetic is real: `np.sqrt` of a negative number and
a division by zero (NaN or infinite in the code) are outside the domains of the theorems.  Rounding, overflow
and underflow are not modelled here.
-/

namespace Ondil

/-- The link classes.  `LogShiftTwo`, `InverseSoftPlusShiftTwo` and `SqrtShiftTwo` are the shifted classes with
value 2 (loglinks.py:70-82, softpluslinks.py:82-89, sqrtlinks.py:69-81). -/
inductive LinkClass
  | identity
  | logit
  | log
  | logShift (v : ℝ)
  | logIdent
  | softplus
  | softplusShift (v : ℝ)
  | sqrt
  | sqrtShift (v : ℝ)

/-- `LogShiftTwo()`. -/
def LinkClass.logShiftTwo : LinkClass := .logShift 2

/-- `InverseSoftPlusShiftTwo()`. -/
def LinkClass.softplusShiftTwo : LinkClass := .softplusShift 2

/-- `SqrtShiftTwo()`. -/
def LinkClass.sqrtShiftTwo : LinkClass := .sqrtShift 2

open Classical in
/-- `link`: identitylinks.py:18, logitlinks.py:18, loglinks.py:21, 54, 98, softpluslinks.py:33, 63,
sqrtlinks.py:20, 53. -/
noncomputable def LinkClass.link : LinkClass → ℝ → ℝ
  | .identity, x => x
  | .logit, x => robustLog (x / (1 - x))
  | .log, x => robustLog x
  | .logShift v, x => robustLog (x - v + smallNumber)
  | .logIdent, x => if x ≤ 1 then robustLog x else x - 1
  | .softplus, x => robustSoftplusInverse x
  | .softplusShift v, x => robustSoftplusInverse (x - v)
  | .sqrt, x => Real.sqrt x
  | .sqrtShift v, x => Real.sqrt (x - v + smallNumber)

open Classical in
/-- `inverse`: identitylinks.py:21, logitlinks.py:21, loglinks.py:24, 57, 101, softpluslinks.py:36, 69,
sqrtlinks.py:23, 56. -/
noncomputable def LinkClass.inverse : LinkClass → ℝ → ℝ
  | .identity, x => x
  | .logit, x => robustExp x / (robustExp x + 1)
  | .log, x => robustExp x
  | .logShift v, x => v + robustExp x
  | .logIdent, x => if x ≤ 0 then robustExp x else x + 1
  | .softplus, x => robustSoftplus x
  | .softplusShift v, x => robustSoftplus x + v
  | .sqrt, x => x ^ 2
  | .sqrtShift v, x => v + x ^ 2

open Classical in
/-- `inverse_derivative`: identitylinks.py:24, logitlinks.py:24, loglinks.py:27, 60, 104, softpluslinks.py:47,
72, sqrtlinks.py:26, 59. -/
noncomputable def LinkClass.inverseDerivative : LinkClass → ℝ → ℝ
  | .identity, _ => 1
  | .logit, x => robustExp x / (robustExp x + 1) ^ 2
  | .log, x => robustExp x
  | .logShift _, x => robustExp x
  | .logIdent, x => if x ≤ 0 then robustExp x else 1
  | .softplus, x => zeroSafeDivision 1 (robustExp (-x) + 1)
  | .softplusShift _, x => zeroSafeDivision 1 (robustExp (-x) + 1)
  | .sqrt, x => 2 * x
  | .sqrtShift _, x => 2 * x

/-- `link_derivative`: identitylinks.py:27, logitlinks.py:27, loglinks.py:30, 63, 107 (delegates to the abstract
method, base/link.py:27, which raises), softpluslinks.py:39, 75, sqrtlinks.py:29, 62. -/
noncomputable def LinkClass.linkDerivative : LinkClass → ℝ → Except PyErr ℝ
  | .identity, _ => .ok 1
  | .logit, x => .ok (1 / (x * (1 - x)))
  | .log, x => .ok (1 / x)
  | .logShift v, x => .ok (1 / (x - v + smallNumber))
  | .logIdent, _ => .error .notImplemented
  | .softplus, x => .ok (zeroSafeDivision 1 ((robustExp x - 1) + 1))
  | .softplusShift v, x => .ok (zeroSafeDivision 1 (1 - robustExp (v - x)))
  | .sqrt, x => .ok (1 / (2 * Real.sqrt x))
  | .sqrtShift v, x => .ok (1 / (2 * Real.sqrt (x - v + smallNumber)))

/-- `link_second_derivative`: identitylinks.py:30, logitlinks.py:30, loglinks.py:33, 66, 110 (delegates to the
abstract method, base/link.py:32, which raises), softpluslinks.py:42, 78, sqrtlinks.py:32, 65. -/
noncomputable def LinkClass.linkSecondDerivative : LinkClass → ℝ → Except PyErr ℝ
  | .identity, _ => .ok 0
  | .logit, x => .ok (-(1 - 2 * x) / (x ^ 2 * (1 - x) ^ 2))
  | .log, x => .ok (-1 / x ^ 2)
  | .logShift v, x => .ok (-1 / (x - v + smallNumber) ^ 2)
  | .logIdent, _ => .error .notImplemented
  | .softplus, x => .ok (zeroSafeDivision 1 (2 - 2 * Real.cosh x))
  | .softplusShift v, x => .ok (zeroSafeDivision 1 (2 - 2 * Real.cosh (v - x)))
  | .sqrt, x => .ok (-1 / (4 * x ^ ((3 : ℝ) / 2)))
  | .sqrtShift v, x => .ok (-1 / (4 * (x - v + smallNumber) ^ ((3 : ℝ) / 2)))

/-- `link_support`: identitylinks.py:13, logitlinks.py:13, loglinks.py:16, 50-52, 93, softpluslinks.py:28,
59-61, sqrtlinks.py:15, 49-51.  `tiny` is `np.nextafter(0, 1)`, the smallest positive float, and `1 - ulp` is
`np.nextafter(1, 0)`. -/
noncomputable def LinkClass.linkSupport (tiny ulp : ℝ) : LinkClass → EReal × EReal
  | .identity => (⊥, ⊤)
  | .logit => ((tiny : ℝ), ((1 - ulp : ℝ) : EReal))
  | .log => ((tiny : ℝ), ⊤)
  | .logShift v => ((v + tiny : ℝ), ⊤)
  | .logIdent => ((tiny : ℝ), ⊤)
  | .softplus => ((tiny : ℝ), ⊤)
  | .softplusShift v => ((v + tiny : ℝ), ⊤)
  | .sqrt => ((tiny : ℝ), ⊤)
  | .sqrtShift v => ((v + tiny : ℝ), ⊤)

end Ondil
