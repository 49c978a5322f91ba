import Verif.Model.CoordinateDescent
import Mathlib.Analysis.SpecialFunctions.Pow.Real
import Mathlib.LinearAlgebra.Matrix.Rank

/-!
# Model of `src/ondil/methods`

Gramians are passed in; computing them is modelled in `Verif.Model.Gram`.
-/

open scoped BigOperators

namespace Ondil

variable {p : ℕ}

/-- `np.max` of a vector; raises on an empty one. -/
noncomputable def npMax : List ℝ → Except PyErr ℝ
  | [] => .error .valueError
  | a :: l => .ok (l.foldl max a)

/-- `np.geomspace(start, stop, num)`: raises when an end point is zero, exact end points, common ratio
in between.  Simplification: end points of opposite sign (a negative `lambda_eps`) are not modelled. -/
noncomputable def geomspace (start stop : ℝ) (num : ℕ) : Except PyErr (List ℝ) :=
  if start = 0 ∨ stop = 0 then .error .valueError
  else .ok ((List.range num).map fun i : ℕ => start * (stop / start) ^ ((i : ℝ) / ((num : ℝ) - 1)))

/-- `ElasticNetPath._get_lambda_max`, methods/elasticnet.py:89-102.  Simplification: if the one unregularized
column has a zero diagonal entry (all weights zero), the quotient is NaN in the code and coordinate descent then
raises `ZeroDivisionError` for this column; here the quotient is `0` and the grid raises `ValueError`. -/
noncomputable def getLambdaMax (G : Matrix (Fin p) (Fin p) ℝ) (h : Row p) (reg : Fin p → Bool) :
    Except PyErr ℝ :=
  match (List.finRange p).filter (fun j => !reg j) with
  | [] => npMax ((List.finRange p).map h)
  | [j0] => npMax ((List.finRange p).map fun k => |h k - G j0 k * (h j0 / G j0 j0)|)
  | _ => .error .notImplemented

/-- One of the two bounds in `_set_and_validate_bounds`, methods/elasticnet.py:104-114 and
methods/ridge.py:60-70: `None` is replaced by infinite bounds, a wrong length raises. -/
def setBound (p : ℕ) (bound : Option (List (Option ℝ))) : Except PyErr (Fin p → Option ℝ) :=
  match bound with
  | none => .ok fun _ => none
  | some l => if h : l.length = p then .ok fun j => l.get (j.cast h.symm) else .error .valueError

/-- Constructor arguments of `ElasticNetPath`, methods/elasticnet.py:36-87 (`LassoPath` is the case
`alpha = 1`, methods/lasso_path.py:63-75). -/
structure EnetArgs where
  alpha : ℝ
  lambdaN : ℕ
  lambdaEps : ℝ
  earlyStop : ℕ
  startInitial : StartValue
  startUpdate : StartValue
  selection : Selection
  lower : Option (List (Option ℝ))
  upper : Option (List (Option ℝ))
  tolerance : ℝ
  maxIterations : ℕ

/-- The keyword arguments handed to `online_coordinate_descent_path`, methods/elasticnet.py:141-155 and
165-179. -/
def EnetArgs.pathConfig (a : EnetArgs) (which : StartValue) (reg : Fin p → Bool)
    (lower upper : Fin p → Option ℝ) (perm : ℕ → ℕ → List (Fin p)) : PathConfig p :=
  { alpha := a.alpha, earlyStop := a.earlyStop, which := which, selection := a.selection,
    tolerance := a.tolerance, maxIterations := a.maxIterations, reg := reg, lower := lower,
    upper := upper, perm := perm }

/-- The grid of one call, methods/elasticnet.py:134-139 and 159-164. -/
noncomputable def EnetArgs.lambdaPath (a : EnetArgs) (G : Matrix (Fin p) (Fin p) ℝ) (h : Row p)
    (reg : Fin p → Bool) : Except PyErr (List ℝ) := do
  let lambda_max ← getLambdaMax G h reg
  geomspace lambda_max (lambda_max * a.lambdaEps) a.lambdaN

/-- `ElasticNetPath.fit_beta_path`, methods/elasticnet.py:132-156. -/
noncomputable def EnetArgs.fitBetaPath (a : EnetArgs) (G : Matrix (Fin p) (Fin p) ℝ) (h : Row p)
    (reg : Fin p → Bool) (perm : ℕ → ℕ → List (Fin p)) : Except PyErr (List (Row p)) := do
  let lower ← setBound p a.lower
  let upper ← setBound p a.upper
  let lams ← a.lambdaPath G h reg
  let rows ← onlineCDPath (a.pathConfig a.startInitial reg lower upper perm) G h lams
    (List.replicate a.lambdaN 0)
  pure (rows.map Prod.fst)

/-- `ElasticNetPath.update_beta_path`, methods/elasticnet.py:158-180.  The bounds are those stored by the
preceding fit, which validated them. -/
noncomputable def EnetArgs.updateBetaPath (a : EnetArgs) (G : Matrix (Fin p) (Fin p) ℝ) (h : Row p)
    (beta_path : List (Row p)) (reg : Fin p → Bool) (perm : ℕ → ℕ → List (Fin p)) :
    Except PyErr (List (Row p)) := do
  let lower ← setBound p a.lower
  let upper ← setBound p a.upper
  let lams ← a.lambdaPath G h reg
  let rows ← onlineCDPath (a.pathConfig a.startUpdate reg lower upper perm) G h lams beta_path
  pure (rows.map Prod.fst)

/-- Constructor arguments of `Ridge`, methods/ridge.py:26-58. -/
structure RidgeArgs (p : ℕ) where
  lambdaReg : Option ℝ
  startBeta : Option (Row p)
  selection : Selection
  lower : Option (List (Option ℝ))
  upper : Option (List (Option ℝ))
  tolerance : ℝ
  maxIterations : ℕ

/-- The penalty used by `Ridge`, methods/ridge.py:104-105: default is the mean of the diagonal. -/
noncomputable def RidgeArgs.penalty (a : RidgeArgs p) (G : Matrix (Fin p) (Fin p) ℝ) : ℝ :=
  a.lambdaReg.getD (G.trace / p)

open Classical in
/-- Start value of `Ridge.fit_beta`, methods/ridge.py:93-102. -/
noncomputable def RidgeArgs.start (a : RidgeArgs p) (G : Matrix (Fin p) (Fin p) ℝ) (h : Row p) : Row p :=
  match a.startBeta with
  | some b => b
  | none => if G.rank = p then G⁻¹.mulVec h else 0

/-- `Ridge.fit_beta`, methods/ridge.py:88-126.  Returns the coefficients and the penalty stored in
`self.lambda_reg`. -/
noncomputable def RidgeArgs.fitBeta (a : RidgeArgs p) (G : Matrix (Fin p) (Fin p) ℝ) (h : Row p)
    (reg : Fin p → Bool) (perm : ℕ → List (Fin p)) : Except PyErr (Row p × ℝ) := do
  let lower ← setBound p a.lower
  let upper ← setBound p a.upper
  let lam := a.penalty G
  let r ← onlineCD { G := G, h := h, lam := lam, alpha := 0, reg := reg, lower := lower, upper := upper }
    a.selection perm a.tolerance a.maxIterations (a.start G h)
  pure (r.1, lam)

/-- `Ridge.update_beta`, methods/ridge.py:128-142; `lam` is the stored penalty. -/
noncomputable def RidgeArgs.updateBeta (a : RidgeArgs p) (lam : ℝ) (G : Matrix (Fin p) (Fin p) ℝ)
    (h : Row p) (beta : Row p) (reg : Fin p → Bool) (perm : ℕ → List (Fin p)) : Except PyErr (Row p) := do
  let lower ← setBound p a.lower
  let upper ← setBound p a.upper
  let r ← onlineCD { G := G, h := h, lam := lam, alpha := 0, reg := reg, lower := lower, upper := upper }
    a.selection perm a.tolerance a.maxIterations beta
  pure r.1

/-- `OrdinaryLeastSquares.fit_beta` and `update_beta`, methods/recursive_least_squares.py:59-74;
`Ginv` is the inverted Gramian kept by this method. -/
def olsBeta (Ginv : Matrix (Fin p) (Fin p) ℝ) (h : Row p) : Row p := Ginv.mulVec h

end Ondil
