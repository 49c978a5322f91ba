import Verif.Spec.Discount
import Mathlib.Analysis.SpecialFunctions.Sqrt
import Mathlib.LinearAlgebra.Matrix.NonsingularInverse
import Mathlib.LinearAlgebra.Matrix.Rank

/-!
# Model of `src/ondil/gram.py`

Arrays over the observation axis are lists, the feature axis is `Fin p`.  numpy's elementwise
products of equally long arrays are `List.zipWith`.
-/

open scoped BigOperators

namespace Ondil

/-- Python exceptions raised by the modelled code. -/
inductive PyErr
  | valueError
  | typeError
  | indexError
  | notImplemented
  | outOfSupport
  | attributeError
  | keyError
  | notFitted
  | zeroDivision
  deriving DecidableEq, Repr

/-- A weight argument: a Python scalar or an array. -/
inductive WeightArg
  | scalar (c : ℝ)
  | array (l : List ℝ)

/-- `w * f` for a weight argument and an array `f` (numpy broadcasting of equal lengths). -/
noncomputable def WeightArg.mul : WeightArg → List ℝ → List ℝ
  | .scalar c, f => f.map (fun b => c * b)
  | .array l, f => List.zipWith (fun a b => a * b) l f

/-- The weight used for a single row: the scalar, or the only entry of a length-1 array (broadcast).
Simplification: arrays of other lengths are not passed by any caller; the first entry is used, 0 for an empty one. -/
def WeightArg.one : WeightArg → ℝ
  | .scalar c => c
  | .array l => l.headD 0

/-- The loop `for i in range(size - 1, 0, -1): out[i - 1] = out[i] * gamma`, gram.py:33-34.
`last` is `out[i]`, `out` is the part of the array that has been filled, the first argument counts
the remaining iterations. -/
noncomputable def forgetLoop (gamma : ℝ) : ℕ → ℝ → List ℝ → List ℝ
  | 0, _, out => out
  | k + 1, last, out => forgetLoop gamma k (last * gamma) ((last * gamma) :: out)

/-- `init_forget_vector`, gram.py:6-35.  For `size = 0` and `gamma ≠ 1` the code writes `out[-1]` of an
empty array (out of bounds, undefined under numba); the model returns `[]` there and the theorems require `size ≥ 1`. -/
noncomputable def initForgetVector (forget : ℝ) (size : ℕ) : List ℝ :=
  let gamma := 1 - forget
  if gamma = 1 then List.replicate size 1
  else match size with
    | 0 => []
    | n + 1 => forgetLoop gamma n 1 [1]

/-- `v ** 0.5` elementwise.  numpy gives NaN for negative entries; theorems assume non-negative weights. -/
noncomputable def sqrtVec (v : List ℝ) : List ℝ := v.map Real.sqrt

/-- `X * np.expand_dims(s, -1)`: every row multiplied with its entry of `s`. -/
noncomputable def scaleRows {p : ℕ} (X : List (Row p)) (s : List ℝ) : List (Row p) :=
  List.zipWith (fun x c => fun j => x j * c) X s

/-- `A.T @ B` for two matrices with the same number of rows. -/
noncomputable def tDot {p : ℕ} (A B : List (Row p)) : Matrix (Fin p) (Fin p) ℝ :=
  fun a b => (List.zipWith (fun x z => x a * z b) A B).sum

/-- `A.T @ v` for a matrix and a vector with the same number of rows. -/
noncomputable def tDotVec {p : ℕ} (A : List (Row p)) (v : List ℝ) : Row p :=
  fun a => (List.zipWith (fun x c => x a * c) A v).sum

/-- `init_gram`, gram.py:39-64. -/
noncomputable def initGram {p : ℕ} (X : List (Row p)) (w : List ℝ) (forget : ℝ) :
    Matrix (Fin p) (Fin p) ℝ :=
  let f := initForgetVector forget X.length
  let s := sqrtVec ((WeightArg.array w).mul f)
  tDot (scaleRows X s) (scaleRows X s)

/-- `init_y_gram`, gram.py:68-94 (the trailing axis of length one is dropped). -/
noncomputable def initYGram {p : ℕ} (X : List (Row p)) (y w : List ℝ) (forget : ℝ) : Row p :=
  let f := initForgetVector forget X.length
  let s := sqrtVec ((WeightArg.array w).mul f)
  tDotVec (scaleRows X s) (List.zipWith (fun a b => a * b) y s)

open Classical in
/-- `init_inverted_gram`, gram.py:98-127.  `np.linalg.matrix_rank` (an SVD with tolerance) is the
exact rank, `np.linalg.inv` the exact inverse. -/
noncomputable def initInvertedGram {p : ℕ} (X : List (Row p)) (w : List ℝ) (forget : ℝ) :
    Except PyErr (Matrix (Fin p) (Fin p) ℝ) :=
  let gram := initGram X w forget
  if gram.rank = p then .ok gram⁻¹ else .error .valueError

/-- `update_gram`, gram.py:135-161. -/
noncomputable def updateGram {p : ℕ} (gram : Matrix (Fin p) (Fin p) ℝ) (X : List (Row p))
    (forget : ℝ) (w : WeightArg) : Matrix (Fin p) (Fin p) ℝ :=
  match X with
  | [x] => (1 - forget) • gram + w.one • Matrix.vecMulVec x x
  | X =>
    let batch_size := X.length
    let f := initForgetVector forget batch_size
    let weights := sqrtVec (w.mul f)
    (1 - forget) ^ batch_size • gram + tDot (scaleRows X weights) (scaleRows X weights)

/-- `update_y_gram`, gram.py:165-193. -/
noncomputable def updateYGram {p : ℕ} (gram : Row p) (X : List (Row p)) (y : List ℝ)
    (forget : ℝ) (w : WeightArg) : Row p :=
  match X with
  | [x] => (1 - forget) • gram + w.one • (fun j => x j * y.headD 0)
  | X =>
    let batch_size := X.length
    let f := initForgetVector forget batch_size
    let s := sqrtVec (w.mul f)
    (1 - forget) ^ batch_size • gram
      + tDotVec (scaleRows X s) (List.zipWith (fun a b => a * b) y s)

/-- `_update_inverted_gram`, gram.py:197-205, for one row `x`:
`(1/gamma) * (gram - ((w * gram @ outer(X, X) @ gram) / (gamma + w * X @ gram @ X.T)))`. -/
noncomputable def updateInvertedGramStep {p : ℕ} (gram : Matrix (Fin p) (Fin p) ℝ) (x : Row p)
    (forget w : ℝ) : Matrix (Fin p) (Fin p) ℝ :=
  let gamma := 1 - forget
  (1 / gamma) • (gram -
    (1 / (gamma + dotProduct (Matrix.vecMul (w • x) gram) x)) •
      ((w • gram) * Matrix.vecMulVec x x * gram))

/-- The loop `for i in range(1, X.shape[0])`, gram.py:231-234. -/
noncomputable def updateInvertedGramLoop {p : ℕ} (forget : ℝ) :
    Matrix (Fin p) (Fin p) ℝ → List (Row p) → List ℝ → Matrix (Fin p) (Fin p) ℝ
  | gram, x :: X, w :: ws => updateInvertedGramLoop forget (updateInvertedGramStep gram x forget w) X ws
  | gram, _, _ => gram

/-- `update_inverted_gram`, gram.py:208-235.  A batch with a scalar weight fails at `w[0]`
(`TypeError`), although the scalar 1 is the default; an empty batch or too short a weight array is an
`IndexError`. -/
noncomputable def updateInvertedGram {p : ℕ} (gram : Matrix (Fin p) (Fin p) ℝ) (X : List (Row p))
    (forget : ℝ) (w : WeightArg) : Except PyErr (Matrix (Fin p) (Fin p) ℝ) :=
  match X with
  | [x] => .ok (updateInvertedGramStep gram x forget w.one)
  | X =>
    match w with
    | .scalar _ => if X = [] then .error .indexError else .error .typeError
    | .array l =>
      if X = [] ∨ l.length < X.length then .error .indexError
      else .ok (updateInvertedGramLoop forget gram X l)

end Ondil
