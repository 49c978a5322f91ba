import Verif.Model.Gamlss
import Verif.Spec.Discount

/-! # Specification vocabulary: the columns that equations use -/

namespace Ondil

variable {p : ℕ} {μ : Type}

/-- The equation selects column `j`: "all" selects every column, a mask those with `True`, a list of indices those listed, where
negative indices count from the end.  All other equations select no column. -/
def Equation.Reads : Equation → Fin p → Prop
  | .str s, _ => s = "all"
  | .mask m, j => m[j.val]? = some true
  | .boolList m, j => m[j.val]? = some true
  | .index l, j => (j.val : ℤ) ∈ l ∨ (j.val : ℤ) - p ∈ l
  | .intList l, j => (j.val : ℤ) ∈ l ∨ (j.val : ℤ) - p ∈ l
  | .names _, _ => False
  | .floatArray, _ => False
  | .other, _ => False

/-- Some equation given by the user selects column `j`.  Without equations all columns are used, for the first parameter. -/
def GConfig.UsesColumn (c : GConfig μ p) (j : Fin p) : Prop :=
  match c.equation with
  | none => True
  | some d => ∃ k e, d.get? k = some e ∧ e.Reads j

/-- The same responses and weights, and the same values in the columns satisfying `U`; the other columns differ arbitrarily. -/
def SameColumns (U : Fin p → Prop) (data data' : List (Obs p)) : Prop :=
  List.Forall₂ (fun o o' => o'.y = o.y ∧ o'.w = o.w ∧ ∀ j, U j → o'.x j = o.x j) data data'

end Ondil
