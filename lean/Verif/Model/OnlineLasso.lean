import Verif.Model.LinearModel

/-!
# Model of `src/ondil/estimators/online_lasso.py` and of the parameter handling of scikit-learn

`OnlineLasso` is a subclass of `OnlineLinearModel` with its own constructor.  The decorator `_fit_context` of scikit-learn
calls `get_params` before `fit` and `update`; `get_params` reads one attribute for every argument of the constructor of the
class.  Assumed of scikit-learn: `BaseEstimator.get_params`, `BaseEstimator._get_param_names` and `_fit_context` in the
default configuration (`skip_parameter_validation=False`).
-/

namespace Ondil

/-- The values of constructor arguments. -/
inductive ParamValue (p q : ℕ) where
  | real (a : ℝ)
  | nat (n : ℕ)
  | bool (b : Bool)
  | scale (t : ToScale p)
  | method (m : MethodArg q)
  | ic (c : Criterion)
  | bound (b : Option (List (Option ℝ)))
  | start (s : StartValue)
  | selection (s : Selection)

/-- The instance dictionary of an estimator: constructor arguments that were stored. -/
abbrev Attributes (p q : ℕ) := List (String × ParamValue p q)

/-- `getattr(self, name)`. -/
def getAttribute {p q : ℕ} (a : Attributes p q) (name : String) : Except PyErr (ParamValue p q) :=
  match a.lookup name with
  | some v => .ok v
  | none => .error .attributeError

/-- `BaseEstimator.get_params(deep=False)` of scikit-learn: one attribute per argument of the constructor.
Simplification: scikit-learn sorts the names first, so the dictionary has another order. -/
def getParams {p q : ℕ} (signature : List String) (a : Attributes p q) : Except PyErr (Attributes p q) :=
  signature.mapM fun name => do
    let v ← getAttribute a name
    pure (name, v)

/-- The arguments of `OnlineLinearModel.__init__`, online_linear_model.py:35-43. -/
def linearSignature : List String := ["forget", "scale_inputs", "fit_intercept", "regularize_intercept", "method", "ic"]

/-- The attributes that `OnlineLinearModel.__init__` assigns, online_linear_model.py:57-62. -/
def LMConfig.attributes {p : ℕ} {fi : Bool} (c : LMConfig p fi) : Attributes p (designDim p fi) :=
  [("forget", .real c.forget), ("method", .method c.method), ("fit_intercept", .bool fi),
    ("scale_inputs", .scale c.scaleInputs), ("regularize_intercept", .bool c.regularizeIntercept), ("ic", .ic c.ic)]

/-- The arguments of `OnlineLasso.__init__`, online_lasso.py:10-26 (`fit_intercept` is the type parameter `fi`). -/
structure LassoArgs (p : ℕ) where
  forget : ℝ
  scaleInputs : ToScale p
  regularizeIntercept : Bool
  ic : Criterion
  earlyStop : ℕ
  lower : Option (List (Option ℝ))
  upper : Option (List (Option ℝ))
  lambdaN : ℕ
  lambdaEps : ℝ
  startValue : StartValue
  tolerance : ℝ
  maxIterations : ℕ
  selection : Selection

/-- The names of the arguments of `OnlineLasso.__init__`, online_lasso.py:10-26. -/
def lassoSignature : List String :=
  ["forget", "scale_inputs", "fit_intercept", "regularize_intercept", "ic", "early_stop", "beta_lower_bound",
    "beta_upper_bound", "lambda_n", "lambda_eps", "start_value", "tolerance", "max_iterations", "selection"]

/-- The method object, online_lasso.py:49-60, with the constructor of `LassoPath`, methods/lasso_path.py:63-75. -/
noncomputable def LassoArgs.methodArgs {p : ℕ} (a : LassoArgs p) : EnetArgs where
  alpha := 1
  lambdaN := a.lambdaN
  lambdaEps := a.lambdaEps
  earlyStop := a.earlyStop
  startInitial := .previousLambda
  startUpdate := a.startValue
  selection := a.selection
  lower := a.lower
  upper := a.upper
  tolerance := a.tolerance
  maxIterations := a.maxIterations

/-- The call of the constructor of `OnlineLinearModel`, online_lasso.py:61-68. -/
noncomputable def LassoArgs.config {p : ℕ} (fi : Bool) (a : LassoArgs p) : LMConfig p fi where
  forget := a.forget
  scaleInputs := a.scaleInputs
  regularizeIntercept := a.regularizeIntercept
  ic := a.ic
  method := .obj (.path a.methodArgs)

/-- The attributes of a new `OnlineLasso`: the constructor assigns nothing itself, online_lasso.py:49-68. -/
noncomputable def LassoArgs.attributes {p : ℕ} (fi : Bool) (a : LassoArgs p) : Attributes p (designDim p fi) := (a.config fi).attributes

/-- The decorator `_fit_context` of scikit-learn: `get_params`, then the body.  The comparison with
`_parameter_constraints` is part of the body (`LM.fit`, `LM.update`). -/
def fitContext {p q : ℕ} {σ : Type} (signature : List String) (a : Attributes p q) (body : Py σ Unit) : Py σ Unit := do
  let _ ← Py.call (getParams signature a)
  body

/-- A call of a public method of an estimator. -/
inductive EstimatorCall (p : ℕ) where
  | fit (data : List (Obs p))
  | update (data : List (Obs p))
  | partialFit (data : List (Obs p))

/-- The methods of an estimator that inherits from `OnlineLinearModel`: online_linear_model.py:99-238 with the decorator,
and `partial_fit`, base/estimator.py:19-46. -/
noncomputable def estimatorCall {p : ℕ} {fi : Bool} (signature : List String) (c : LMConfig p fi)
    (perm : ℕ → ℕ → List (Fin (designDim p fi))) : EstimatorCall p → Py (LM p fi) Unit
  | .fit data => fitContext signature c.attributes (LM.fit c perm data)
  | .update data => fitContext signature c.attributes (LM.update c perm data)
  | .partialFit data => do
    let s ← Py.self
    if s.isFitted then fitContext signature c.attributes (LM.update c perm data)
    else fitContext signature c.attributes (LM.fit c perm data)

end Ondil
