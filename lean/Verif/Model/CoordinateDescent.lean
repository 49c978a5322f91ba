import Verif.Model.Gram
import Mathlib.Data.Real.Sign

/-!
# Model of `src/ondil/coordinate_descent.py`

Bounds are `Option ℝ`: `none` is the infinite bound (`-np.inf` / `np.inf`).  A zero denominator
raises `ZeroDivisionError` (numba's default error model), hence the results are `Except`.  Simplification: the
feature axis is assumed non-empty (`np.max` of an empty vector would raise).
-/

open scoped BigOperators

namespace Ondil

/-- `soft_threshold`, coordinate_descent.py:8-23. -/
noncomputable def softThreshold (value threshold : ℝ) : ℝ :=
  Real.sign value * max (|value| - threshold) 0

/-- `max(v, lower)` with an optional lower bound. -/
noncomputable def clipLow (lower : Option ℝ) (v : ℝ) : ℝ :=
  match lower with
  | none => v
  | some l => max v l

/-- `min(v, upper)` with an optional upper bound. -/
noncomputable def clipHigh (upper : Option ℝ) (v : ℝ) : ℝ :=
  match upper with
  | none => v
  | some u => min v u

/-- The arguments of `online_coordinate_descent` that stay fixed during the iterations,
coordinate_descent.py:31-43. -/
structure CDProblem (p : ℕ) where
  /-- `x_gram` -/
  G : Matrix (Fin p) (Fin p) ℝ
  /-- `y_gram` -/
  h : Row p
  /-- `regularization` -/
  lam : ℝ
  /-- `alpha` -/
  alpha : ℝ
  /-- `is_regularized` -/
  reg : Fin p → Bool
  /-- `beta_lower_bound` -/
  lower : Fin p → Option ℝ
  /-- `beta_upper_bound` -/
  upper : Fin p → Option ℝ

variable {p : ℕ}

/-- `denom`, coordinate_descent.py:81-83. -/
noncomputable def CDProblem.denom (P : CDProblem p) (j : Fin p) : ℝ :=
  if P.reg j then P.G j j + P.lam * (1 - P.alpha) else P.G j j

/-- `update` after thresholding, coordinate_descent.py:76-80. -/
noncomputable def CDProblem.target (P : CDProblem p) (beta : Row p) (j : Fin p) : ℝ :=
  let update := P.h j - (∑ k, P.G j k * beta k) + P.G j j * beta j
  if P.reg j then softThreshold update (P.alpha * P.lam) else update

/-- The new value of coordinate `j` (for a non-zero denominator), coordinate_descent.py:76-86. -/
noncomputable def CDProblem.newValue (P : CDProblem p) (beta : Row p) (j : Fin p) : ℝ :=
  clipHigh (P.upper j) (clipLow (P.lower j) (P.target beta j / P.denom j))

open Classical in
/-- Body of the loop over the coordinates in sweep `i`, coordinate_descent.py:75-86.  The function is
compiled by `nb.njit()` with numba's default error model, in which a zero denominator raises
`ZeroDivisionError`. -/
noncomputable def cdStep (P : CDProblem p) (i : ℕ) (beta : Row p) (j : Fin p) : Except PyErr (Row p) :=
  if i < 2 ∨ beta j ≠ 0 then
    if P.denom j = 0 then .error .zeroDivision
    else .ok (Function.update beta j (P.newValue beta j))
  else .ok beta

/-- The loop `for j in JJ`, coordinate_descent.py:74-86. -/
noncomputable def cdSweep (P : CDProblem p) (i : ℕ) (JJ : List (Fin p)) (beta : Row p) :
    Except PyErr (Row p) :=
  JJ.foldlM (cdStep P i) beta

/-- `selection`. -/
inductive Selection
  | cyclic
  | random
  deriving DecidableEq

/-- The coordinate order of sweep `i`, coordinate_descent.py:63 and 71-72.  `perm` is the oracle for
`np.random.permutation`. -/
def cdOrder (selection : Selection) (perm : ℕ → List (Fin p)) (i : ℕ) : List (Fin p) :=
  if selection = .random ∧ i ≥ 2 then perm i else List.finRange p

/-- `np.max(np.abs(v))` (of a non-empty vector). -/
noncomputable def maxAbs (v : Row p) : ℝ :=
  (List.finRange p).foldl (fun m j => max m |v j|) 0

open Classical in
/-- The loop `while True`, coordinate_descent.py:67-91, for an arbitrary state, sweep and convergence test
(so that the loop control is also covered for NaN-valued states).  `sweep i s` is sweep number `i`,
`conv new old` the test of line 87, `i` the number of completed sweeps. -/
noncomputable def whileLoop {S : Type*} (sweep : ℕ → S → Except PyErr S) (conv : S → S → Prop)
    (max_iterations : ℕ) (i : ℕ) (s : S) : Except PyErr (S × ℕ) :=
  match sweep (i + 1) s with
  | .error e => .error e
  | .ok s' =>
    if conv s' s then .ok (s', i + 1)
    else if _h : i + 1 > max_iterations then .ok (s', i + 1)
    else whileLoop sweep conv max_iterations (i + 1) s'
termination_by max_iterations + 1 - i

/-- The convergence test of coordinate_descent.py:87. -/
def cdConverged (tolerance : ℝ) (new old : Row p) : Prop :=
  maxAbs (new - old) ≤ tolerance * maxAbs new

/-- `online_coordinate_descent`, coordinate_descent.py:31-91. -/
noncomputable def onlineCD (P : CDProblem p) (selection : Selection) (perm : ℕ → List (Fin p))
    (tolerance : ℝ) (max_iterations : ℕ) (beta : Row p) : Except PyErr (Row p × ℕ) :=
  whileLoop (fun i b => cdSweep P i (cdOrder selection perm i) b) (cdConverged tolerance)
    max_iterations 0 beta

/-- `which_start_value`. -/
inductive StartValue
  | previousLambda
  | previousFit
  | average
  deriving DecidableEq

/-- The start value of a row, coordinate_descent.py:141-146: two consecutive `if`s, the second
one with an `else`, so the value assigned for "average" is overwritten.  `newPrev` is
`beta_path_new[max(i - 1, 0)]`, `old` is `beta_path[i]`. -/
noncomputable def startValue (which : StartValue) (newPrev old : Row p) : Row p :=
  let beta0 : Row p := if which = .average then (1 / 2 : ℝ) • (newPrev + old) else 0
  let _ := beta0
  if which = .previousLambda then newPrev else old

open Classical in
/-- `np.count_nonzero`. -/
noncomputable def countNonzero (v : Row p) : ℕ :=
  ((List.finRange p).filter fun j => v j ≠ 0).length

/-- The arguments of `online_coordinate_descent_path` that do not change along the path,
coordinate_descent.py:99-115. -/
structure PathConfig (p : ℕ) where
  /-- `alpha` -/
  alpha : ℝ
  /-- `early_stop` -/
  earlyStop : ℕ
  /-- `which_start_value` -/
  which : StartValue
  /-- `selection` -/
  selection : Selection
  /-- `tolerance` -/
  tolerance : ℝ
  /-- `max_iterations` -/
  maxIterations : ℕ
  /-- `is_regularized` -/
  reg : Fin p → Bool
  /-- `beta_lower_bound` -/
  lower : Fin p → Option ℝ
  /-- `beta_upper_bound` -/
  upper : Fin p → Option ℝ
  /-- oracle for `np.random.permutation`: row of the path, sweep -/
  perm : ℕ → ℕ → List (Fin p)

/-- The problem solved for one lambda of the path. -/
def PathConfig.problem (c : PathConfig p) (G : Matrix (Fin p) (Fin p) ℝ) (h : Row p) (lam : ℝ) :
    CDProblem p :=
  { G := G, h := h, lam := lam, alpha := c.alpha, reg := c.reg, lower := c.lower, upper := c.upper }

/-- One iteration of the loop over the lambda grid, coordinate_descent.py:140-164. -/
noncomputable def cdPathRow (c : PathConfig p) (G : Matrix (Fin p) (Fin p) ℝ) (h : Row p) (i : ℕ)
    (lam : ℝ) (newPrev old : Row p) : Except PyErr (Row p × ℕ) :=
  let beta := startValue c.which newPrev old
  if c.earlyStop > 0 ∧ countNonzero beta ≥ c.earlyStop then .ok (beta, 0)
  else onlineCD (c.problem G h lam) c.selection (c.perm i) c.tolerance c.maxIterations beta

/-- The loop over the lambda grid, coordinate_descent.py:139-164; `i` is the row index, `newPrev` the
previous row of `beta_path_new` (its first row, still zero, for `i = 0`).  Simplification: the previous
path has as many rows as the grid (all callers guarantee it); surplus rows are ignored. -/
noncomputable def cdPathLoop (c : PathConfig p) (G : Matrix (Fin p) (Fin p) ℝ) (h : Row p) :
    ℕ → Row p → List ℝ → List (Row p) → Except PyErr (List (Row p × ℕ))
  | i, newPrev, lam :: lams, old :: olds =>
    match cdPathRow c G h i lam newPrev old with
    | .error e => .error e
    | .ok r =>
      match cdPathLoop c G h (i + 1) r.1 lams olds with
      | .error e => .error e
      | .ok rs => .ok (r :: rs)
  | _, _, _, _ => .ok []

/-- `online_coordinate_descent_path`, coordinate_descent.py:99-166: the rows with their iteration
counts. -/
noncomputable def onlineCDPath (c : PathConfig p) (G : Matrix (Fin p) (Fin p) ℝ) (h : Row p)
    (lambda_path : List ℝ) (beta_path : List (Row p)) : Except PyErr (List (Row p × ℕ)) :=
  cdPathLoop c G h 0 0 lambda_path beta_path

end Ondil
