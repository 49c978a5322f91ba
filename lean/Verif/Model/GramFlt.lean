import Verif.Model.GamlssInstances

/-!
# The least squares method on arrays with infinities and NaN
-/

namespace Ondil

/-- Column `j` of an array. -/
def colOf (X : Arr2) (j : ℕ) : Arr1 := X.map fun x => x.getD j .nan

/-- `(w * f) ** 0.5`, gram.py:191.  Simplification: `-inf ** 0.5` is NaN here. -/
noncomputable def rootWeights (forget : ℝ) (w : Arr1) : Arr1 := (wmul (initForgetVector forget w.length) w).map Flt.sqrt

/-- `update_y_gram`, gram.py:165-193, with floats: a batch of one row, and larger batches. -/
noncomputable def updateYGramFlt (gram : Arr1) (X : Arr2) (y w : Arr1) (forget : ℝ) : Arr1 :=
  gram.mapIdx fun j g =>
    if X.length = 1 then
      Flt.add (Flt.mul (.fin (1 - forget)) g) (Flt.mul (w.headD .nan) (Flt.mul ((colOf X j).headD .nan) (y.headD .nan)))
    else
      Flt.add (Flt.mul g (.fin ((1 - forget) ^ X.length)))
        (asum (List.zipWith Flt.mul (List.zipWith Flt.mul (colOf X j) (rootWeights forget w))
          (List.zipWith Flt.mul y (rootWeights forget w))))

/-- Method objects with the float versions of the two functions of `OrdinaryLeastSquares` that meet NaN first: `update_y_gram`
and `update_beta`, recursive_least_squares.py:36-44, 67-74. -/
noncomputable def fltOls (base : MethodOps MethodState) : MethodOps MethodState :=
  { base with
    updateY := fun m h X y w f =>
      match m with
      | .ols => .ok (updateYGramFlt h X y w f)
      | m => base.updateY m h X y w f
    updateBeta := fun m G h b reg =>
      match m with
      | .ols => (matVec G h).map fun v => (v, .ols)
      | m => base.updateBeta m G h b reg }

end Ondil
