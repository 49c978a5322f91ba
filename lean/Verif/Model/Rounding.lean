import Verif.Model.Gram
import Verif.Spec.Rounding

/-!
# Model of `src/ondil/gram.py` with rounding

The same functions as in `Verif.Model.Gram`, with every operation rounded by an arithmetic `A` (`Verif.Spec.Rounding`).
Matrix products are computed entry by entry; the order of summation is that of the arithmetic.  The weights are arrays, as
all callers pass them.
-/

namespace Ondil

variable {p : ℕ}

/-- The loop of `init_forget_vector` with rounding, gram.py:33-34. -/
noncomputable def forgetLoopF (A : FloatArith) (gamma : ℝ) : ℕ → ℝ → List ℝ → List ℝ
  | 0, _, out => out
  | k + 1, last, out => forgetLoopF A gamma k (A.rnd (last * gamma)) (A.rnd (last * gamma) :: out)

/-- `init_forget_vector` with rounding, gram.py:6-35 (as in `initForgetVector`, the empty vector for `size = 0`). -/
noncomputable def initForgetVectorF (A : FloatArith) (forget : ℝ) (size : ℕ) : List ℝ :=
  let gamma := A.rnd (1 - forget)
  if gamma = 1 then List.replicate size 1
  else match size with
    | 0 => []
    | n + 1 => forgetLoopF A gamma n 1 [1]

/-- `(w * f) ** 0.5` with rounding, gram.py:61, 91, 158 and 191. -/
noncomputable def rootWeightsF (A : FloatArith) (w f : List ℝ) : List ℝ :=
  (List.zipWith (fun a b => A.rnd (a * b)) w f).map fun v => A.rnd (Real.sqrt v)

/-- One column of `X * np.expand_dims(s, -1)`, or `y * s`, with rounding, gram.py:61, 91, 159 and 191. -/
noncomputable def scaledColumnF (A : FloatArith) (v s : List ℝ) : List ℝ :=
  List.zipWith (fun a b => A.rnd (a * b)) v s

/-- One entry of a matrix product `.T @`, with rounding, gram.py:61, 91, 159 and 191. -/
noncomputable def dotF (A : FloatArith) (v z : List ℝ) : ℝ :=
  A.sum (List.zipWith (fun a b => A.rnd (a * b)) v z)

/-- `init_gram` with rounding, gram.py:39-64. -/
noncomputable def initGramF (A : FloatArith) (X : List (Row p)) (w : List ℝ) (forget : ℝ) : Matrix (Fin p) (Fin p) ℝ :=
  let s := rootWeightsF A w (initForgetVectorF A forget X.length)
  fun a b => dotF A (scaledColumnF A (X.map fun x => x a) s) (scaledColumnF A (X.map fun x => x b) s)

/-- `init_y_gram` with rounding, gram.py:68-94. -/
noncomputable def initYGramF (A : FloatArith) (X : List (Row p)) (y w : List ℝ) (forget : ℝ) : Row p :=
  let s := rootWeightsF A w (initForgetVectorF A forget X.length)
  fun a => dotF A (scaledColumnF A (X.map fun x => x a) s) (scaledColumnF A y s)

/-- `update_gram` with rounding, gram.py:135-161. -/
noncomputable def updateGramF (A : FloatArith) (gram : Matrix (Fin p) (Fin p) ℝ) (X : List (Row p)) (forget : ℝ)
    (w : List ℝ) : Matrix (Fin p) (Fin p) ℝ :=
  match X with
  | [x] => fun a b =>
    A.rnd (A.rnd (A.rnd (1 - forget) * gram a b) + A.rnd (w.headD 0 * A.rnd (x a * x b)))
  | X =>
    let s := rootWeightsF A w (initForgetVectorF A forget X.length)
    fun a b => A.rnd (A.rnd (gram a b * A.pow (A.rnd (1 - forget)) X.length) +
      dotF A (scaledColumnF A (X.map fun x => x a) s) (scaledColumnF A (X.map fun x => x b) s))

/-- `update_y_gram` with rounding, gram.py:165-193. -/
noncomputable def updateYGramF (A : FloatArith) (gram : Row p) (X : List (Row p)) (y : List ℝ) (forget : ℝ)
    (w : List ℝ) : Row p :=
  match X with
  | [x] => fun a =>
    A.rnd (A.rnd (A.rnd (1 - forget) * gram a) + A.rnd (w.headD 0 * A.rnd (x a * y.headD 0)))
  | X =>
    let s := rootWeightsF A w (initForgetVectorF A forget X.length)
    fun a => A.rnd (A.rnd (gram a * A.pow (A.rnd (1 - forget)) X.length) +
      dotF A (scaledColumnF A (X.map fun x => x a) s) (scaledColumnF A y s))

/-- `M @ N` with rounding, gram.py:203. -/
noncomputable def matMulF (A : FloatArith) (M N : Matrix (Fin p) (Fin p) ℝ) : Matrix (Fin p) (Fin p) ℝ :=
  fun a b => A.sum (List.ofFn fun j => A.rnd (M a j * N j b))

/-- `v @ N` with rounding, gram.py:203. -/
noncomputable def vecMulF (A : FloatArith) (v : Row p) (N : Matrix (Fin p) (Fin p) ℝ) : Row p :=
  fun b => A.sum (List.ofFn fun j => A.rnd (v j * N j b))

/-- `v @ z` with rounding, gram.py:203. -/
noncomputable def dotRowF (A : FloatArith) (v z : Row p) : ℝ := A.sum (List.ofFn fun j => A.rnd (v j * z j))

/-- `_update_inverted_gram` with rounding, gram.py:197-205. -/
noncomputable def updateInvertedGramStepF (A : FloatArith) (gram : Matrix (Fin p) (Fin p) ℝ) (x : Row p) (forget w : ℝ) :
    Matrix (Fin p) (Fin p) ℝ :=
  let gamma := A.rnd (1 - forget)
  let num := matMulF A (matMulF A (fun a b => A.rnd (w * gram a b)) fun a b => A.rnd (x a * x b)) gram
  let den := A.rnd (gamma + dotRowF A (vecMulF A (fun j => A.rnd (w * x j)) gram) x)
  fun a b => A.rnd (A.rnd (1 / gamma) * A.rnd (gram a b - A.rnd (num a b / den)))

/-- `update_inverted_gram` with rounding, gram.py:208-235: one step per row.  Simplification: the exceptions for empty batches and
short weight arrays are in `updateInvertedGram` only. -/
noncomputable def updateInvertedGramF (A : FloatArith) (forget : ℝ) :
    Matrix (Fin p) (Fin p) ℝ → List (Row p) → List ℝ → Matrix (Fin p) (Fin p) ℝ
  | gram, x :: X, w :: ws => updateInvertedGramF A forget (updateInvertedGramStepF A gram x forget w) X ws
  | gram, _, _ => gram

/-- `OrdinaryLeastSquares.fit_beta` and `update_beta` with rounding, methods/recursive_least_squares.py:59-74. -/
noncomputable def olsBetaF (A : FloatArith) (Q : Matrix (Fin p) (Fin p) ℝ) (k : Row p) : Row p :=
  fun j => A.sum (List.ofFn fun c => A.rnd (Q j c * k c))

end Ondil
