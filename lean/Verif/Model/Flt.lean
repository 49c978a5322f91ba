import Mathlib.Analysis.SpecialFunctions.Sqrt
import Mathlib.Analysis.SpecialFunctions.Log.Basic

/-!
# Extended numbers

`Flt` is float64 without rounding: a finite real, an infinity, or NaN.  It is used where the behaviour
of the code on non-finite numbers matters.  Simplifications: no rounding, no overflow, no underflow, one
zero (positive zero).
-/

namespace Ondil

/-- An exact real, `+inf`, `-inf` or NaN. -/
inductive Flt
  | fin (x : ℝ)
  | pinf
  | ninf
  | nan

namespace Flt

/-- `np.isfinite`. -/
def IsFinite : Flt → Prop
  | fin _ => True
  | _ => False

/-- IEEE `<`: false whenever a NaN is involved. -/
def lt : Flt → Flt → Prop
  | fin x, fin y => x < y
  | fin _, pinf => True
  | ninf, fin _ => True
  | ninf, pinf => True
  | _, _ => False

/-- IEEE `<=`: false whenever a NaN is involved. -/
def le : Flt → Flt → Prop
  | fin x, fin y => x ≤ y
  | fin _, pinf => True
  | ninf, fin _ => True
  | ninf, pinf => True
  | pinf, pinf => True
  | ninf, ninf => True
  | _, _ => False

/-- IEEE negation. -/
def neg : Flt → Flt
  | fin x => fin (-x)
  | pinf => ninf
  | ninf => pinf
  | nan => nan

/-- IEEE addition. -/
noncomputable def add : Flt → Flt → Flt
  | fin x, fin y => fin (x + y)
  | fin _, pinf => pinf
  | fin _, ninf => ninf
  | pinf, fin _ => pinf
  | ninf, fin _ => ninf
  | pinf, pinf => pinf
  | ninf, ninf => ninf
  | _, _ => nan

/-- IEEE subtraction. -/
noncomputable def sub (a b : Flt) : Flt := add a (neg b)

open Classical in
/-- Infinity with the sign of `x`; NaN for zero (`0 * inf`). -/
noncomputable def infSigned (x : ℝ) : Flt := if 0 < x then pinf else if x < 0 then ninf else nan

/-- IEEE multiplication. -/
noncomputable def mul : Flt → Flt → Flt
  | fin x, fin y => fin (x * y)
  | fin x, pinf => infSigned x
  | fin x, ninf => neg (infSigned x)
  | pinf, fin x => infSigned x
  | ninf, fin x => neg (infSigned x)
  | pinf, pinf => pinf
  | ninf, ninf => pinf
  | pinf, ninf => ninf
  | ninf, pinf => ninf
  | _, _ => nan

open Classical in
/-- IEEE division (numpy semantics, no exception): `x/0` is a signed infinity, `0/0` is NaN. -/
noncomputable def div : Flt → Flt → Flt
  | fin x, fin y => if y = 0 then infSigned x else fin (x / y)
  | fin _, pinf => fin 0
  | fin _, ninf => fin 0
  | pinf, fin y => if 0 ≤ y then pinf else ninf
  | ninf, fin y => if 0 ≤ y then ninf else pinf
  | _, _ => nan

open Classical in
/-- `np.sqrt`. -/
noncomputable def sqrt : Flt → Flt
  | fin x => if 0 ≤ x then fin (Real.sqrt x) else nan
  | pinf => pinf
  | _ => nan

open Classical in
/-- `np.log`. -/
noncomputable def log : Flt → Flt
  | fin x => if 0 < x then fin (Real.log x) else if x = 0 then ninf else nan
  | pinf => pinf
  | _ => nan

/-- `np.exp`. -/
noncomputable def exp : Flt → Flt
  | fin x => fin (Real.exp x)
  | pinf => pinf
  | ninf => fin 0
  | nan => nan

end Flt
end Ondil
