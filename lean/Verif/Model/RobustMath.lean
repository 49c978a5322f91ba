import Verif.Model.Flt

/-!
# Model of `src/ondil/links/robust_math.py`

Each function twice: on the reals, and (suffix `F`) on extended numbers, where a comparison with NaN is false.
-/

namespace Ondil

/-- `SMALL_NUMBER`, robust_math.py:4. -/
noncomputable def smallNumber : ℝ := 1 / 10 ^ 10

/-- `LARGE_NUMBER`, robust_math.py:5. -/
noncomputable def largeNumber : ℝ := 10 ^ 15

open Classical in
/-- `robust_log`, robust_math.py:10-22. -/
noncomputable def robustLog (x : ℝ) : ℝ :=
  if x > smallNumber then Real.log x else Real.log smallNumber

open Classical in
/-- `robust_exp`, robust_math.py:25-34. -/
noncomputable def robustExp (x : ℝ) : ℝ :=
  if x > Real.log largeNumber then largeNumber else Real.exp x

open Classical in
/-- `robust_sigmoid`, robust_math.py:37-44.  Simplification: `k = 0` (a division by zero) is not modelled. -/
noncomputable def robustSigmoid (value k : ℝ) : ℝ :=
  if value / k > 50 then 1
  else if value / k < -50 then 0
  else 1 / (1 + robustExp (-k * (value - 1)))

open Classical in
/-- `robust_softplus`, robust_math.py:47-52. -/
noncomputable def robustSoftplus (value : ℝ) : ℝ :=
  if value > 40 then value else Real.log (1 + Real.exp value)

open Classical in
/-- `robust_softplus_inverse`, robust_math.py:55-62. -/
noncomputable def robustSoftplusInverse (value : ℝ) : ℝ :=
  if value > 40 then value
  else if value < smallNumber then -30
  else Real.log (Real.exp value - 1)

/-- `np.isclose(b, 0)` with the default tolerances. -/
def isCloseZero (b : ℝ) : Prop := |b| ≤ 1 / 10 ^ 8

open Classical in
/-- `zero_safe_division`, robust_math.py:65-82. -/
noncomputable def zeroSafeDivision (a b : ℝ) : ℝ :=
  if isCloseZero b then largeNumber
  else if isCloseZero a then largeNumber
  else a / b

open Classical in
/-- `robust_log` on extended numbers. -/
noncomputable def robustLogF (x : Flt) : Flt :=
  if Flt.lt (.fin smallNumber) x then x.log else .fin (Real.log smallNumber)

open Classical in
/-- `robust_exp` on extended numbers. -/
noncomputable def robustExpF (x : Flt) : Flt :=
  if Flt.lt (.fin (Real.log largeNumber)) x then .fin largeNumber else x.exp

open Classical in
/-- `robust_sigmoid` on extended numbers. -/
noncomputable def robustSigmoidF (value k : Flt) : Flt :=
  if Flt.lt (.fin 50) (value.div k) then .fin 1
  else if Flt.lt (value.div k) (.fin (-50)) then .fin 0
  else Flt.div (.fin 1) (Flt.add (.fin 1) (robustExpF (Flt.mul (Flt.neg k) (Flt.sub value (.fin 1)))))

open Classical in
/-- `robust_softplus` on extended numbers. -/
noncomputable def robustSoftplusF (value : Flt) : Flt :=
  if Flt.lt (.fin 40) value then value else Flt.log (Flt.add (.fin 1) value.exp)

open Classical in
/-- `robust_softplus_inverse` on extended numbers. -/
noncomputable def robustSoftplusInverseF (value : Flt) : Flt :=
  if Flt.lt (.fin 40) value then value
  else if Flt.lt value (.fin smallNumber) then .fin (-30)
  else Flt.log (Flt.sub value.exp (.fin 1))

end Ondil
