import Verif.Model.Py
import Verif.Model.Scaler
import Verif.Model.Utils
import Verif.Model.Methods
import Verif.Model.InformationCriteria

/-!
# Model of `src/ondil/estimators/online_linear_model.py`, `design_matrix.py`, `methods/factory.py` and the
mixin `base/estimator.py`

`p` is the number of columns of `X`, `fi` the constructor argument `fit_intercept`.  Attributes that do not
exist before they are assigned are `Option`s.  A data set is a list of observations: `xs`, `ys` and `ws` are
the arrays `X`, `y` and `sample_weight` (`None` is the array of ones, `_check_sample_weight`).  Warnings and the
validation of dtypes and finiteness are not modelled.
-/

open scoped BigOperators

namespace Ondil

/-- Number of columns of the design matrix, `n_features_`, online_linear_model.py:120. -/
def designDim : ℕ → Bool → ℕ
  | p, true => p + 1
  | p, false => p

/-- One row of `get_design_matrix`, online_linear_model.py:92-97 and design_matrix.py:4-5. -/
def designRow {p : ℕ} : (fi : Bool) → Row p → Row (designDim p fi)
  | true, x => Fin.cons 1 x
  | false, x => x

/-- `_is_regularized`, online_linear_model.py:140-142. -/
def isRegularized (p : ℕ) : (fi : Bool) → (regularizeIntercept : Bool) → Fin (designDim p fi) → Bool
  | true, r => (Fin.cons r fun _ => true : Fin (p + 1) → Bool)
  | false, _ => fun _ => true

/-- An `EstimationMethod` object for a design of `q` columns. -/
inductive MethodObj (q : ℕ)
  | ols
  | path (a : EnetArgs)
  | ridge (a : RidgeArgs q)

/-- The constructor argument `method`: a string, an `EstimationMethod`, or anything else. -/
inductive MethodArg (q : ℕ)
  | str (s : String)
  | obj (m : MethodObj q)
  | other

/-- `LassoPath()` with its default arguments, methods/lasso_path.py:31-75. -/
noncomputable def lassoDefault : EnetArgs :=
  { alpha := 1, lambdaN := 100, lambdaEps := 1 / 10000, earlyStop := 0,
    startInitial := .previousLambda, startUpdate := .previousFit, selection := .cyclic,
    lower := none, upper := none, tolerance := 1 / 10000, maxIterations := 1000 }

/-- `EstimationMethodFactory.from_string`, methods/factory.py:13-24. -/
noncomputable def methodFromString (q : ℕ) (s : String) : Except PyErr (MethodObj q) :=
  if s = "lasso" then .ok (.path lassoDefault)
  else if s = "ols" then .ok .ols
  else if s = "elasticnet" then .ok (.path { lassoDefault with alpha := 1 / 2 })
  else .error .valueError

/-- `get_estimation_method`, methods/factory.py:27-37, at the level of values (object identity is modelled in
`Verif.Model.Factory`). -/
noncomputable def getEstimationMethod {q : ℕ} : MethodArg q → Except PyErr (MethodObj q)
  | .str s => methodFromString q s
  | .obj m => .ok m
  | .other => .error .valueError

/-- `init_x_gram` of the three methods: methods/recursive_least_squares.py:21, elasticnet.py:117,
ridge.py:72. -/
noncomputable def MethodObj.initXGram {q : ℕ} (m : MethodObj q) (X : List (Row q)) (w : List ℝ)
    (forget : ℝ) : Except PyErr (Matrix (Fin q) (Fin q) ℝ) :=
  match m with
  | .ols => initInvertedGram X w forget
  | _ => .ok (initGram X w forget)

/-- `update_x_gram` of the three methods: methods/recursive_least_squares.py:31, elasticnet.py:125,
ridge.py:80. -/
noncomputable def MethodObj.updateXGram {q : ℕ} (m : MethodObj q) (G : Matrix (Fin q) (Fin q) ℝ)
    (X : List (Row q)) (w : List ℝ) (forget : ℝ) : Except PyErr (Matrix (Fin q) (Fin q) ℝ) :=
  match m with
  | .ols => updateInvertedGram G X forget (.array w)
  | _ => .ok (updateGram G X forget (.array w))

/-- Constructor arguments of `OnlineLinearModel`, online_linear_model.py:35-63. -/
structure LMConfig (p : ℕ) (fi : Bool) where
  forget : ℝ
  scaleInputs : ToScale p
  regularizeIntercept : Bool
  method : MethodArg (designDim p fi)
  ic : Criterion

/-- `_parameter_constraints`, online_linear_model.py:26-33, checked by the decorator of `fit` and `update`. -/
def LMConfig.Valid {p : ℕ} {fi : Bool} (c : LMConfig p fi) : Prop :=
  0 ≤ c.forget ∧ c.forget < 1 ∧ c.ic ≠ .aicc ∧ c.method ≠ .other

/-- The attributes of an `OnlineLinearModel`. -/
structure LM (p : ℕ) (fi : Bool) where
  /-- `_method` -/
  method : Option (MethodObj (designDim p fi))
  /-- `_scaler`; `none` is a missing or freshly constructed scaler -/
  scaler : Option (Scaler p)
  /-- `n_observations_` -/
  nObs : Option ℝ
  /-- `n_training_` -/
  nTraining : Option ℝ
  /-- `_x_gram` -/
  xGram : Option (Matrix (Fin (designDim p fi)) (Fin (designDim p fi)) ℝ)
  /-- `_y_gram` -/
  yGram : Option (Row (designDim p fi))
  /-- `coef_path_` -/
  coefPath : Option (List (Row (designDim p fi)))
  /-- `_rss` -/
  rss : Option (List ℝ)
  /-- `coef_` -/
  coef : Option (Row (designDim p fi))

/-- The object after `__init__`: no fitted attribute exists. -/
def LM.new (p : ℕ) (fi : Bool) : LM p fi := ⟨none, none, none, none, none, none, none, none, none⟩

/-- `is_fitted`, base/estimator.py:9-12. -/
def LM.isFitted {p : ℕ} {fi : Bool} (s : LM p fi) : Bool := s.nObs.isSome

/-- `X_scaled` as it is used for the Gramians, online_linear_model.py:137-138 and 205-206. -/
noncomputable def scaledDesign {p : ℕ} (fi : Bool) (sc : Scaler p) (X : List (Row p)) :
    List (Row (designDim p fi)) :=
  (sc.transform X).map (designRow fi)

/-- `X_scaled @ coef` for one row. -/
noncomputable def rowDot {q : ℕ} (x b : Row q) : ℝ := ∑ j, x j * b j

/-- The residual sum of squares of one coefficient vector in `fit`, online_linear_model.py:157-160: weighted
residuals, squared. -/
noncomputable def rssFit {q : ℕ} (X : List (Row q)) (y w : List ℝ) (b : Row q) : ℝ :=
  (List.zipWith (fun (xw : Row q × ℝ) (y : ℝ) => (xw.2 * (y - rowDot xw.1 b)) ^ 2) (List.zip X w) y).sum

/-- The residual sum of squares of one coefficient vector on the new batch in `update`,
online_linear_model.py:220-221. -/
noncomputable def rssBatch {q : ℕ} (X : List (Row q)) (y : List ℝ) (b : Row q) : ℝ :=
  (List.zipWith (fun (x : Row q) (y : ℝ) => (y - rowDot x b) ^ 2) X y).sum

/-- `self._rss = (1 - self.forget) * self._rss + np.sum(residuals**2, axis=0)`, online_linear_model.py:221. -/
noncomputable def rssUpdate {q : ℕ} (forget : ℝ) (rss : List ℝ) (path : List (Row q))
    (X : List (Row q)) (y : List ℝ) : List ℝ :=
  List.zipWith (fun (r : ℝ) (b : Row q) => (1 - forget) * r + rssBatch X y b) rss path

/-- Model selection shared by `fit` and `update`, online_linear_model.py:161-168 and 222-229. -/
noncomputable def selectCoef {q : ℕ} (ic : Criterion) (nTraining : ℝ) (path : List (Row q))
    (rss : List ℝ) : Except PyErr (Row q) := do
  let i ← selectByRss ic nTraining (path.map fun b => (nParams b : ℝ)) rss
  match path[i]? with
  | some b => pure b
  | none => throw .indexError

/-- `OnlineLinearModel.fit`, online_linear_model.py:78-90 and 100-174.  `perm` is the random generator of
coordinate descent.  Simplification: `Ridge` and the path methods store validated bounds on the private method
object; only the stored penalty of `Ridge` matters later. -/
noncomputable def LM.fit {p : ℕ} {fi : Bool} (c : LMConfig p fi)
    (perm : ℕ → ℕ → List (Fin (designDim p fi))) (data : List (Obs p)) : Py (LM p fi) Unit := do
  Py.raiseIf (¬ c.Valid) .valueError
  let m ← Py.call (getEstimationMethod c.method)
  Py.set fun s => { s with method := some m, scaler := none }
  Py.raiseIf (c.regularizeIntercept = true ∧ fi = false) .valueError
  Py.raiseIf (data = [] ∨ p = 0) .valueError
  let n := (ws data).sum
  Py.set fun s => { s with nObs := some n }
  Py.raiseIf (n ≤ designDim p fi ∧ c.method = .str "ols") .valueError
  Py.raiseIf (n = 1) .valueError
  let nTraining := effectiveTrainingLength c.forget n
  Py.set fun s => { s with nTraining := some nTraining }
  let sc ← Py.call (Scaler.fit c.scaleInputs c.forget (xs data) (ws data))
  Py.set fun s => { s with scaler := some sc }
  let X := scaledDesign fi sc (xs data)
  let reg := isRegularized p fi c.regularizeIntercept
  let G ← Py.call (m.initXGram X (ws data) c.forget)
  Py.set fun s => { s with xGram := some G }
  let h := initYGram X (ys data) (ws data) c.forget
  Py.set fun s => { s with yGram := some h }
  match m with
  | .path a => do
    let path ← Py.call (a.fitBetaPath G h reg perm)
    Py.set fun s => { s with coefPath := some path }
    let rss := path.map (rssFit X (ys data) (ws data))
    Py.set fun s => { s with rss := some rss }
    let b ← Py.call (selectCoef c.ic nTraining path rss)
    Py.set fun s => { s with coef := some b }
  | .ols => Py.set fun s => { s with coef := some (olsBeta G h) }
  | .ridge a => do
    let r ← Py.call (a.fitBeta G h reg (perm 0))
    Py.set fun s =>
      { s with method := some (.ridge { a with lambdaReg := some r.2 }), coef := some r.1 }

/-- `OnlineLinearModel.update`, online_linear_model.py:177-238.  Reading an attribute that does not exist is an
`AttributeError`; updating a scaler that was not fitted is a `NotFittedError`. -/
noncomputable def LM.update {p : ℕ} {fi : Bool} (c : LMConfig p fi)
    (perm : ℕ → ℕ → List (Fin (designDim p fi))) (data : List (Obs p)) : Py (LM p fi) Unit := do
  Py.raiseIf (¬ c.Valid) .valueError
  Py.raiseIf (data = [] ∨ p = 0) .valueError
  let s ← Py.self
  let n0 ← Py.attr s.nObs .attributeError
  let n := n0 + (ws data).sum
  Py.set fun s => { s with nObs := some n }
  let nTraining := effectiveTrainingLength c.forget n
  Py.set fun s => { s with nTraining := some nTraining }
  let sc0 ← Py.attr s.scaler .notFitted
  let sc ← Py.call (sc0.update c.forget (xs data) (ws data))
  Py.set fun s => { s with scaler := some sc }
  let X := scaledDesign fi sc (xs data)
  let reg := isRegularized p fi c.regularizeIntercept
  let m ← Py.attr s.method .attributeError
  let G0 ← Py.attr s.xGram .attributeError
  let G ← Py.call (m.updateXGram G0 X (ws data) c.forget)
  Py.set fun s => { s with xGram := some G }
  let h0 ← Py.attr s.yGram .attributeError
  let h := updateYGram h0 X (ys data) c.forget (.array (ws data))
  Py.set fun s => { s with yGram := some h }
  match m with
  | .path a => do
    let path0 ← Py.attr s.coefPath .attributeError
    let path ← Py.call (a.updateBetaPath G h path0 reg perm)
    Py.set fun s => { s with coefPath := some path }
    let rss0 ← Py.attr s.rss .attributeError
    let rss := rssUpdate c.forget rss0 path X (ys data)
    Py.set fun s => { s with rss := some rss }
    let b ← Py.call (selectCoef c.ic nTraining path rss)
    Py.set fun s => { s with coef := some b }
  | .ols => do
    let _ ← Py.attr s.coef .attributeError
    Py.set fun s => { s with coef := some (olsBeta G h) }
  | .ridge a => do
    let b0 ← Py.attr s.coef .attributeError
    let lam ← Py.attr a.lambdaReg .typeError
    let b ← Py.call (a.updateBeta lam G h b0 reg (perm 0))
    Py.set fun s => { s with coef := some b }

/-- `partial_fit`, base/estimator.py:19-46. -/
noncomputable def LM.partialFit {p : ℕ} {fi : Bool} (c : LMConfig p fi)
    (perm : ℕ → ℕ → List (Fin (designDim p fi))) (data : List (Obs p)) : Py (LM p fi) Unit := do
  let s ← Py.self
  if s.isFitted then LM.update c perm data else LM.fit c perm data

/-- `predict`, online_linear_model.py:261-276. -/
noncomputable def LM.predict {p : ℕ} {fi : Bool} (s : LM p fi) (X : List (Row p)) :
    Except PyErr (List ℝ) :=
  match s.scaler, s.coef with
  | none, _ => .error .notFitted
  | some _, none => .error .attributeError
  | some sc, some b => .ok ((scaledDesign fi sc X).map fun x => rowDot x b)

/-- `predict_path`, online_linear_model.py:278-293: one list of predictions per row. -/
noncomputable def LM.predictPath {p : ℕ} {fi : Bool} (s : LM p fi) (X : List (Row p)) :
    Except PyErr (List (List ℝ)) :=
  match s.scaler, s.coefPath with
  | none, _ => .error .notFitted
  | some _, none => .error .attributeError
  | some sc, some path => .ok ((scaledDesign fi sc X).map fun x => path.map fun b => rowDot x b)

/-- `score`, online_linear_model.py:240-259.  Simplification: for a constant response the code divides by zero
(non-finite result); the theorems require a non-constant response. -/
noncomputable def LM.score {p : ℕ} {fi : Bool} (s : LM p fi) (X : List (Row p)) (y : List ℝ) :
    Except PyErr ℝ := do
  let prediction ← s.predict X
  let ss_residuals := (List.zipWith (fun a b => (a - b) ^ 2) y prediction).sum
  let mean := y.sum / y.length
  let ss_total := (y.map fun a => (a - mean) ^ 2).sum
  pure (1 - ss_residuals / ss_total)

end Ondil
