import Verif.Model.Py
import Verif.Model.Scaler
import Verif.Model.Utils
import Verif.Model.InformationCriteria
import Verif.Model.GamlssOptions
import Verif.Model.DistributionFunctions

/-!
# Model of `src/ondil/estimators/online_gamlss.py`: `OnlineDistributionalRegression`

Arrays of floats are lists of `Flt`, so NaN and infinities flow through the loops as in the code.  The distribution
object and the estimation method objects are records of arbitrary functions (`DistOps`, `MethodOps`): everything proved
about the estimator holds for whatever they compute.  `Verif.Model.GamlssInstances` instantiates them.

`self._fv` and the other arrays of distribution parameters are lists of rows, a row being a function of the parameter
index.  `data` is the list of observations of the call, `None` as `sample_weight` is the array of ones.  Not modelled:
messages, warnings, dtype and finiteness checks of `validate_data`, `np.linalg.cond` (only printed), and the arrays
that are kept for viewing only (`_rss_iterations`, `_best_ic_iterations`).
-/

namespace Ondil

/-- A float array of one axis. -/
abbrev Arr1 := List Flt

/-- A float array of two axes. -/
abbrev Arr2 := List (List Flt)

/-- An array of distribution parameters: one row per observation. -/
abbrev Fv := List (ℕ → Flt)

namespace Flt

open Classical in
/-- `abs`. -/
noncomputable def abs : Flt → Flt
  | fin x => fin |x|
  | pinf => pinf
  | ninf => pinf
  | nan => nan

open Classical in
/-- `np.clip(x, lo, hi)` with finite bounds. -/
noncomputable def clip (lo hi : ℝ) : Flt → Flt
  | fin x => fin (min (max x lo) hi)
  | pinf => fin hi
  | ninf => fin lo
  | nan => nan

end Flt

/-- `w * wt` for the sample weights and an array. -/
noncomputable def wmul (w : List ℝ) (a : Arr1) : Arr1 := List.zipWith (fun (u : ℝ) v => Flt.mul (.fin u) v) w a

/-- `np.sum`. -/
noncomputable def asum (a : Arr1) : Flt := Dist.npSum a

/-- `np.mean`. -/
noncomputable def amean (a : Arr1) : Flt := Dist.npMean a

/-- `fv[:, k]`. -/
def Fv.col (fv : Fv) (k : ℕ) : Arr1 := fv.map fun r => r k

/-- `fv[:, k] = c`. -/
def Fv.setCol (fv : Fv) (k : ℕ) (c : Arr1) : Fv := List.zipWith (fun r v => Function.update r k v) fv c

/-- `np.stack(columns, axis=1)` for columns of `n` entries. -/
def Fv.stack (n : ℕ) (cols : List Arr1) : Fv :=
  (List.range n).map fun i k => (cols.getD k []).getD i .nan

/-- `X @ b` for one row. -/
noncomputable def dot (x b : Arr1) : Flt := asum (List.zipWith Flt.mul x b)

open Classical in
/-- `X @ b`; numpy raises `ValueError` when the shapes do not match. -/
noncomputable def matVec (X : Arr2) (b : Arr1) : Except PyErr Arr1 :=
  if ∀ x ∈ X, x.length = b.length then .ok (X.map fun x => dot x b) else .error .valueError

/-- The distribution object: the functions the estimator calls.  `mean` and `median` may not exist. -/
structure DistOps where
  nParams : ℕ
  support : EReal × EReal
  link : ℕ → Arr1 → Except PyErr Arr1
  linkInverse : ℕ → Arr1 → Except PyErr Arr1
  linkInverseDerivative : ℕ → Arr1 → Except PyErr Arr1
  dl1 : List ℝ → Fv → ℕ → Except PyErr Arr1
  dl2 : List ℝ → Fv → ℕ → Except PyErr Arr1
  logpdf : List ℝ → Fv → Arr1
  initialValues : List ℝ → Except PyErr Fv
  conditionalInitialValues : List ℝ → Fv → ℕ → Except PyErr Fv
  ppf : ℝ → Fv → Arr1
  mean : Option (Fv → Arr1)
  median : Option (Fv → Arr1)

/-- The estimation method objects, base/estimation_method.py:4-49: `μ` is the state of an object.  Methods that assign
attributes return the new state.  Simplification: a method that raises leaves its object as it was. -/
structure MethodOps (μ : Type) where
  ols : μ
  pathBased : μ → Bool
  initX : μ → Arr2 → Arr1 → ℝ → Except PyErr Arr2
  initY : μ → Arr2 → Arr1 → Arr1 → ℝ → Except PyErr Arr1
  updateX : μ → Arr2 → Arr2 → Arr1 → ℝ → Except PyErr Arr2
  updateY : μ → Arr1 → Arr2 → Arr1 → Arr1 → ℝ → Except PyErr Arr1
  fitBeta : μ → Arr2 → Arr1 → List Bool → Except PyErr (Arr1 × μ)
  updateBeta : μ → Arr2 → Arr1 → Arr1 → List Bool → Except PyErr (Arr1 × μ)
  fitPath : μ → Arr2 → Arr1 → List Bool → Except PyErr (Arr2 × μ)
  updatePath : μ → Arr2 → Arr1 → Arr2 → List Bool → Except PyErr (Arr2 × μ)

/-- The option `model_selection`. -/
inductive Selecting
  | localRss
  | globalLL
  deriving DecidableEq

/-- Constructor arguments, online_gamlss.py:62-90.  `method` is `none` for a string that names no method.
Simplification: `min_it_outer` and the entries of `param_order` are natural numbers. -/
structure GConfig (μ : Type) (p : ℕ) where
  equation : Option (PyDict Equation)
  forget : OptArg ℝ
  method : OptArg (Option μ)
  scaleInputs : ToScale p
  fitIntercept : OptArg Bool
  regularizeIntercept : OptArg Bool
  ic : OptArg Criterion
  modelSelection : Selecting
  prefitInitial : ℕ
  prefitUpdate : ℕ
  stepSize : OptArg ℝ
  debug : Bool
  paramOrder : Option (List ℕ)
  cautiousUpdates : Bool
  condStartVal : Bool
  maxOuter : ℕ
  maxInner : ℕ
  absTolOuter : ℝ
  absTolInner : ℝ
  relTolOuter : ℝ
  relTolInner : ℝ
  minItOuter : ℕ

/-- Is a value given, and does it satisfy the constraint? -/
def OptArg.OnlyValue {α : Type} (P : α → Prop) : OptArg α → Prop
  | .value a => P a
  | .dict _ => False

/-- `_parameter_constraints`, online_gamlss.py:35-60, checked by the decorator of `fit` and `update`
(`sklearn.base._fit_context`), which raises `InvalidParameterError`, a `ValueError`.  Dictionaries are accepted only for
`equation` and `step_size`.  The docstring, online_gamlss.py:124-134, announces dictionaries for `forget`, `method`,
`fit_intercept`, `regularize_intercept` and `ic` as well. -/
def GConfig.Valid {μ : Type} {p : ℕ} (c : GConfig μ p) : Prop :=
  c.forget.OnlyValue (fun f => 0 ≤ f ∧ f < 1) ∧ c.fitIntercept.OnlyValue (fun _ => True) ∧
    c.regularizeIntercept.OnlyValue (fun _ => True) ∧ c.method.OnlyValue (fun _ => True) ∧
    c.ic.OnlyValue (fun i => i ≠ .aicc) ∧ 1 ≤ c.maxOuter ∧ 1 ≤ c.maxInner ∧ 0 ≤ c.absTolOuter ∧ 0 ≤ c.absTolInner ∧
    0 ≤ c.relTolOuter ∧ 0 ≤ c.relTolInner

/-- A key of the debug dictionaries: `(param, it_outer, it_inner)`. -/
abbrev DebugKey := ℕ × ℕ × ℕ

/-- The attributes of an `OnlineDistributionalRegression`.  A missing attribute is an empty dictionary or `none`
(simplification: reading it raises the error of the dictionary, `KeyError`, not `AttributeError`). -/
structure GState (μ : Type) (p : ℕ) where
  /-- `_equation` -/
  equation : PyDict Equation
  /-- `_method` -/
  method : ℕ → Option μ
  /-- `_forget` -/
  forget : PyDict ℝ
  /-- `_ic` -/
  ic : PyDict Criterion
  /-- `_fit_intercept` -/
  fitIntercept : PyDict Bool
  /-- `_regularize_intercept` -/
  regularizeIntercept : PyDict Bool
  /-- `_step_size` -/
  stepSize : PyDict ℝ
  /-- `_param_order` -/
  paramOrder : List ℕ
  /-- `_scaler`; `none` is a missing or freshly constructed scaler -/
  scaler : Option (Scaler p)
  /-- `n_observations_` -/
  nObs : Option ℝ
  /-- `n_training_` -/
  nTraining : PyDict ℝ
  /-- `n_features_` -/
  nFeatures : PyDict ℕ
  /-- `_is_regularized` -/
  isRegularized : PyDict (List Bool)
  /-- `_fv` -/
  fv : Fv
  /-- `_x_gram` -/
  xGram : ℕ → Option Arr2
  /-- `_y_gram` -/
  yGram : ℕ → Option Arr1
  /-- `_x_gram_new` -/
  xGramNew : ℕ → Option Arr2
  /-- `_y_gram_new` -/
  yGramNew : ℕ → Option Arr1
  /-- `coef_` -/
  coef : ℕ → Option Arr1
  /-- `coef_path_` -/
  coefPath : ℕ → Option Arr2
  /-- `_rss` -/
  rss : ℕ → Flt
  /-- `_rss_old` -/
  rssOld : ℕ → Flt
  /-- `_model_selection_data` -/
  selection : ℕ → Option Arr1
  /-- `_model_selection_data_old` -/
  selectionOld : ℕ → Option Arr1
  /-- `_best_ic` -/
  bestIc : ℕ → ℕ
  /-- `_sum_of_weights` -/
  sumW : ℕ → Option Flt
  /-- `_mean_of_weights` -/
  meanW : ℕ → Option Flt
  /-- `_sum_of_weights_new` -/
  sumWNew : ℕ → Option Flt
  /-- `_mean_of_weights_new` -/
  meanWNew : ℕ → Option Flt
  /-- `_schedule_iteration`, by position -/
  scheduleIteration : ℕ → ℕ
  /-- `_schedule_step_size`: what was written over the initial schedule -/
  scheduleStep : ℕ → ℕ → ℕ → Option ℝ
  /-- `_current_min_it_outer` -/
  minIt : ℕ
  /-- `_it_inner` -/
  itInner : ℕ → ℕ
  /-- `_global_dev` -/
  globalDev : Option Flt
  /-- `_it_outer` -/
  itOuter : Option ℕ
  /-- `_debug_weights` -/
  debugWeights : DebugKey → Option Arr1
  /-- `_debug_working_vectors` -/
  debugWorking : DebugKey → Option Arr1
  /-- `_debug_eta` -/
  debugEta : DebugKey → Option Arr1
  /-- `_debug_fv` -/
  debugFv : DebugKey → Option Fv
  /-- `_debug_coef` -/
  debugCoef : DebugKey → Option Arr1

/-- The object after `__init__`. -/
def GState.new (μ : Type) (p : ℕ) : GState μ p where
  equation := []
  method := fun _ => none
  forget := []
  ic := []
  fitIntercept := []
  regularizeIntercept := []
  stepSize := []
  paramOrder := []
  scaler := none
  nObs := none
  nTraining := []
  nFeatures := []
  isRegularized := []
  fv := []
  xGram := fun _ => none
  yGram := fun _ => none
  xGramNew := fun _ => none
  yGramNew := fun _ => none
  coef := fun _ => none
  coefPath := fun _ => none
  rss := fun _ => .fin 0
  rssOld := fun _ => .fin 0
  selection := fun _ => none
  selectionOld := fun _ => none
  bestIc := fun _ => 0
  sumW := fun _ => none
  meanW := fun _ => none
  sumWNew := fun _ => none
  meanWNew := fun _ => none
  scheduleIteration := fun _ => 0
  scheduleStep := fun _ _ _ => none
  minIt := 0
  itInner := fun _ => 0
  globalDev := none
  itOuter := none
  debugWeights := fun _ => none
  debugWorking := fun _ => none
  debugEta := fun _ => none
  debugFv := fun _ => none
  debugCoef := fun _ => none

/-- `is_fitted`, base/estimator.py:9-12. -/
def GState.isFitted {μ : Type} {p : ℕ} (s : GState μ p) : Bool := s.nObs.isSome

/-! Assignments of single attributes. -/

namespace GState

variable {μ : Type} {p : ℕ}

/-- `self._equation = ...`. -/
def setEquation (a : PyDict Equation) (s : GState μ p) : GState μ p := { s with equation := a }

/-- `self._method = ...`. -/
def setMethod (a : ℕ → Option μ) (s : GState μ p) : GState μ p := { s with method := a }

/-- `self._forget = ...`. -/
def setForget (a : PyDict ℝ) (s : GState μ p) : GState μ p := { s with forget := a }

/-- `self._ic = ...`. -/
def setIc (a : PyDict Criterion) (s : GState μ p) : GState μ p := { s with ic := a }

/-- `self._fit_intercept = ...`. -/
def setFitIntercept (a : PyDict Bool) (s : GState μ p) : GState μ p := { s with fitIntercept := a }

/-- `self._regularize_intercept = ...`. -/
def setRegularizeIntercept (a : PyDict Bool) (s : GState μ p) : GState μ p := { s with regularizeIntercept := a }

/-- `self._step_size = ...`. -/
def setStepSize (a : PyDict ℝ) (s : GState μ p) : GState μ p := { s with stepSize := a }

/-- `self._param_order = ...`. -/
def setParamOrder (a : List ℕ) (s : GState μ p) : GState μ p := { s with paramOrder := a }

/-- `self._scaler = ...`. -/
def setScaler (a : Option (Scaler p)) (s : GState μ p) : GState μ p := { s with scaler := a }

/-- `self.n_observations_ = ...`. -/
def setNObs (a : Option ℝ) (s : GState μ p) : GState μ p := { s with nObs := a }

/-- `self.n_training_ = ...`. -/
def setNTraining (a : PyDict ℝ) (s : GState μ p) : GState μ p := { s with nTraining := a }

/-- `self._fv = ...`. -/
def setFv (a : Fv) (s : GState μ p) : GState μ p := { s with fv := a }

/-- `self.n_features_ = ...`. -/
def setNFeatures (a : PyDict ℕ) (s : GState μ p) : GState μ p := { s with nFeatures := a }

/-- `self._it_inner = ...`. -/
def setItInner (a : ℕ → ℕ) (s : GState μ p) : GState μ p := { s with itInner := a }

/-- `self._best_ic = ...`. -/
def setBestIc (a : ℕ → ℕ) (s : GState μ p) : GState μ p := { s with bestIc := a }

/-- `self._schedule_step_size = ...`. -/
def setScheduleStep (a : ℕ → ℕ → ℕ → Option ℝ) (s : GState μ p) : GState μ p := { s with scheduleStep := a }

/-- `self._current_min_it_outer = ...`. -/
def setMinIt (a : ℕ) (s : GState μ p) : GState μ p := { s with minIt := a }

/-- `self._global_dev, self._it_outer = ...`. -/
def setResult (dev : Flt) (it : ℕ) (s : GState μ p) : GState μ p :=
  { s with globalDev := some dev, itOuter := some it }

/-- The last assignments of `update`, online_gamlss.py:879-882. -/
def commitStatistics (s : GState μ p) : GState μ p :=
  { s with xGram := s.xGramNew, yGram := s.yGramNew, sumW := s.sumWNew, meanW := s.meanWNew }

end GState

/-- What one call of `fit` or `update` works on: the objects, the options, `X_dict`, `y` and `w`. -/
structure Call (μ : Type) (p : ℕ) where
  D : DistOps
  M : MethodOps μ
  cfg : GConfig μ p
  X : ℕ → Option Arr2
  y : List ℝ
  w : List ℝ

/-! ### Model selection -/

open Classical in
/-- `np.count_nonzero` of one coefficient vector; NaN counts. -/
noncomputable def nonzeroCount (b : Arr1) : ℕ := (b.filter fun v => v ≠ .fin 0).length

/-- `_count_nonzero_coef(exclude=param)`, online_gamlss.py:357-362. -/
noncomputable def countNonzeroOther {μ : Type} {p : ℕ} (n : ℕ) (s : GState μ p) (k : ℕ) : ℕ :=
  (((List.range n).filter fun j => j ≠ k).map fun j => nonzeroCount ((s.coef j).getD [])).sum

/-- `InformationCriterion.from_ll` for one model, information_criteria.py:70-95, with floats. -/
noncomputable def icFromLL (c : Criterion) (n k : ℝ) (ll : Flt) : Except PyErr Flt :=
  let dev := Flt.mul (.fin (-2)) ll
  match c with
  | .aic => .ok (Flt.add dev (.fin (k * 2)))
  | .aicc => .error .valueError
  | .bic => .ok (Flt.add dev (Flt.mul (.fin k) (Flt.log (.fin n))))
  | .hqc => .ok (Flt.add dev (Flt.mul (.fin (k * 2)) (Flt.log (Flt.log (.fin n)))))
  | .max => .ok (Flt.neg ll)

/-- `InformationCriterion.from_rss` for one model, information_criteria.py:49-68, with floats. -/
noncomputable def icFromRss (c : Criterion) (n k : ℝ) (rss : Flt) : Except PyErr Flt :=
  icFromLL c n k (Flt.add (Flt.mul (.fin (-n / 2)) (Flt.log (Flt.div rss (.fin n))))
    (.fin (-n / 2 * (1 + Real.log (2 * Real.pi)))))

/-- The residual sum of squares of a prediction, online_gamlss.py:482-484, 1110 and 567-572. -/
noncomputable def weightedRss (w f : List ℝ) (wt wv pred : Arr1) : Flt :=
  asum (wmul w (wmul f (List.zipWith Flt.mul wt
    (List.zipWith (fun a b => Flt.mul (Flt.sub a b) (Flt.sub a b)) wv pred))))

/-- Position of the selected model, online_gamlss.py:485-491, 503-509, 574-579 and 592-600. -/
noncomputable def selectModel (ic : Arr1) (path : Arr2) : Except PyErr (Arr1 × ℕ) := do
  let i ← argminFlt ic
  match path[i]? with
  | some b => pure (b, i)
  | none => throw .indexError

/-- The log-likelihoods of a path under `global_ll` (simplification: the path has `_path_length` rows),
online_gamlss.py:495-501 and 582-590, the sample weights being an argument: `_fit_select_model` does not use them. -/
noncomputable def pathLL {μ : Type} {p : ℕ} (c : Call μ p) (s : GState μ p) (k : ℕ) (f w : List ℝ) (preds : Arr2) :
    Except PyErr Arr1 :=
  preds.mapM fun pr => do
    let v ← c.D.linkInverse k pr
    pure (asum (wmul w (wmul f (c.D.logpdf c.y (s.fv.setCol k v)))))

/-- `_fit_select_model`, online_gamlss.py:426-512: coefficients, model selection data and position. -/
noncomputable def fitSelectModel {μ : Type} {p : ℕ} (c : Call μ p) (s : GState μ p) (k : ℕ) (X : Arr2) (wv wt : Arr1)
    (path : Arr2) (forget nTraining : ℝ) (ic : Criterion) : Except PyErr (Arr1 × Arr1 × ℕ) := do
  let f := initForgetVector forget c.y.length
  let n := path.map fun b => (nonzeroCount b + countNonzeroOther c.D.nParams s k : ℕ)
  let preds ← path.mapM (matVec X)
  match c.cfg.modelSelection with
  | .localRss => do
    let rss := preds.map fun pr => Flt.div (weightedRss c.w f wt wv pr) (amean (wmul f (wmul c.w wt)))
    let ics ← (List.zip n rss).mapM fun nr => icFromRss ic nTraining nr.1 nr.2
    let bi ← selectModel ics path
    pure (bi.1, rss, bi.2)
  | .globalLL => do
    let ll ← pathLL c s k f (List.replicate c.y.length 1) preds
    let ics ← (List.zip n ll).mapM fun nr => icFromLL ic nTraining nr.1 nr.2
    let bi ← selectModel ics path
    pure (bi.1, ll, bi.2)

open Classical in
/-- `_online_mean_update`, utils.py:75-85, for float values; `n_asymptotic / n_eff` is infinite when `n_eff` is zero. -/
noncomputable def onlineMeanStepFlt (avg value : Flt) (forget n_seen : ℝ) : Flt :=
  let n_eff := effectiveTrainingLength forget n_seen
  let forget_scaled :=
    if n_eff = 0 then Flt.mul (.fin forget) .pinf
    else .fin (forget * max (asymptoticTrainingLength forget / n_eff) 1)
  let diff := Flt.sub value avg
  if Flt.lt (.fin 0) forget_scaled then Flt.add avg (Flt.mul forget_scaled diff)
  else Flt.add avg (Flt.div diff (.fin n_seen))

/-- `online_mean_update`, utils.py:88-114, for an array of floats. -/
noncomputable def onlineMeanLoopFlt (forget n_seen : ℝ) : Flt → Arr1 → Flt
  | avg, [] => avg
  | avg, v :: vs => onlineMeanLoopFlt forget n_seen (onlineMeanStepFlt avg v forget (n_seen - vs.length)) vs

/-- The discount of earlier data for a batch of `n` rows, `(1 - forget) ** y.shape[0]`. -/
noncomputable def batchDiscount (forget : ℝ) (n : ℕ) : ℝ := (1 - forget) ^ n

/-- `_update_select_model`, online_gamlss.py:514-601.  `old` is `_model_selection_data_old[param]`. -/
noncomputable def updateSelectModel {μ : Type} {p : ℕ} (c : Call μ p) (s : GState μ p) (k : ℕ) (X : Arr2) (wv wt : Arr1)
    (path : Arr2) (old : Arr1) (meanW : Flt) (forget nObs nTraining : ℝ) (ic : Criterion) :
    Except PyErr (Arr1 × Arr1 × ℕ) := do
  let f := initForgetVector forget c.y.length
  let preds ← path.mapM (matVec X)
  let disc := Flt.fin (batchDiscount forget c.y.length)
  match c.cfg.modelSelection with
  | .localRss => do
    let denom := onlineMeanLoopFlt forget nObs meanW wt
    let rss := List.zipWith (fun pr o => Flt.div (Flt.add (weightedRss c.w f wt wv pr)
      (Flt.mul disc (Flt.mul o meanW))) denom) preds old
    let n := path.map fun b => (nonzeroCount b + countNonzeroOther c.D.nParams s k : ℕ)
    let ics ← (List.zip n rss).mapM fun nr => icFromRss ic nTraining nr.1 nr.2
    let bi ← selectModel ics path
    pure (bi.1, rss, bi.2)
  | .globalLL => do
    let ll0 ← pathLL c s k f c.w preds
    let ll := List.zipWith (fun a o => Flt.add a (Flt.mul disc o)) ll0 old
    let n := path.map fun b => (nonzeroCount b : ℕ)
    let ics ← (List.zip n ll).mapM fun nr => icFromLL ic nTraining nr.1 nr.2
    let bi ← selectModel ics path
    pure (bi.1, ll, bi.2)

/-! ### One inner iteration -/

/-- The working quantities of one inner iteration. -/
structure Working where
  eta : Arr1
  wt : Arr1
  wv : Arr1

/-- online_gamlss.py:1028-1034 with `lo = 1e-10` and 1225-1231 with `lo = -1e10`. -/
noncomputable def working (D : DistOps) (lo : ℝ) (y : List ℝ) (fv : Fv) (k : ℕ) : Except PyErr Working := do
  let eta ← D.link k (fv.col k)
  let g ← D.linkInverseDerivative k eta
  let dr := g.map (Flt.div (.fin 1))
  let dl1 ← D.dl1 y fv k
  let dl2 ← D.dl2 y fv k
  let wt := List.zipWith (fun a b => Flt.clip lo 10000000000 (Flt.neg (Flt.div a (Flt.mul b b)))) dl2 dr
  let wv := List.zipWith (fun e d => Flt.add e d) eta
    (List.zipWith (fun a b => Flt.div a b) dl1 (List.zipWith Flt.mul dr wt))
  pure ⟨eta, wt, wv⟩

/-- Lower clipping bound of the working weights in `_inner_fit`, online_gamlss.py:1033. -/
noncomputable def fitClip : ℝ := 1 / 10000000000

/-- Lower clipping bound of the working weights in `_inner_update`, online_gamlss.py:1230. -/
noncomputable def updateClip : ℝ := -10000000000

/-- What one inner iteration leaves for the code behind the loop. -/
structure IterOut where
  it : ℕ
  wt : Arr1
  wv : Arr1
  xGram : Arr2
  yGram : Arr1
  beta : Arr1
  path : Option Arr2
  selection : Option Arr1
  bestIc : Option ℕ
  rss : Flt
  dv : Flt

/-- The variables of an inner loop.  `dvOld` is `dv_iterations[it_inner]`: every accepted deviance is written to all
later entries, so the entry read next is the last accepted one, and `dv_iterations[0]` is never written. -/
structure Inner where
  fvIt : Fv
  fvNew : Fv
  dvStart : Flt
  dvOld : Flt
  stepDecrease : ℕ
  badState : Bool
  out : Option IterOut

/-- `np.sum(-2 * logpdf(y, fv) * w)`. -/
noncomputable def deviance (D : DistOps) (y w : List ℝ) (fv : Fv) : Flt :=
  asum (wmul w ((D.logpdf y fv).map (Flt.mul (.fin (-2)))))

/-- `self._schedule_step_size[it_outer - 1, it_inner, param]`: the value written last, or the initial schedule,
online_gamlss.py:634-638. -/
noncomputable def stepAt {μ : Type} {p : ℕ} (c : GConfig μ p) (s : GState μ p) (itO itI k : ℕ) : Except PyErr ℝ := do
  let init ← stepSchedule s.stepSize c.maxOuter c.maxInner (itO - 1) itI k
  pure ((s.scheduleStep (itO - 1) itI k).getD init)

/-- `self._schedule_iteration[it_outer - 1]`: the array has `max_it_outer` entries, online_gamlss.py:631-632. -/
def iterationsAt {μ : Type} {p : ℕ} (c : GConfig μ p) (s : GState μ p) (itO : ℕ) : Except PyErr ℕ :=
  if itO - 1 < c.maxOuter then .ok (s.scheduleIteration (itO - 1)) else .error .indexError

/-- Assignment to one key of a dictionary attribute. -/
def upd {α : Type} (f : ℕ → Option α) (k : ℕ) (a : Option α) : ℕ → Option α := Function.update f k a

/-- Writing of the debug dictionaries, online_gamlss.py:1036-1044 and 1233-1240. -/
def debugWork {μ : Type} {p : ℕ} (debug : Bool) (key : DebugKey) (wk : Working) (fv : Fv) (s : GState μ p) :
    GState μ p :=
  if debug then
    { s with
      debugWeights := Function.update s.debugWeights key (some wk.wt)
      debugWorking := Function.update s.debugWorking key (some wk.wv)
      debugEta := Function.update s.debugEta key (some wk.eta)
      debugFv := Function.update s.debugFv key (some fv) }
  else s

/-- Writing of the debug dictionary of coefficients, online_gamlss.py:1102-1104 and 1288-1290. -/
def debugBeta {μ : Type} {p : ℕ} (debug : Bool) (key : DebugKey) (b : Arr1) (s : GState μ p) : GState μ p :=
  if debug then { s with debugCoef := Function.update s.debugCoef key (some b) } else s

/-- The coefficients of one inner iteration: vector, path, model selection data, position. -/
structure Coefs where
  beta : Arr1
  path : Option Arr2
  selection : Option Arr1
  bestIc : Option ℕ

/-- The coefficient path in `_inner_fit`: from scratch in the very first iteration, otherwise from the path of the
previous iteration (`None` makes the coordinate descent raise `TypeError`), online_gamlss.py:1060-1084. -/
def fitPathFrom {μ : Type} (M : MethodOps μ) (m : μ) (xg : Arr2) (yg : Arr1) (reg : List Bool) (first : Bool)
    (start : Option Arr2) : Except PyErr (Arr2 × μ) :=
  if first then M.fitPath m xg yg reg
  else
    match start with
    | some b => M.updatePath m xg yg b reg
    | none => .error .typeError

/-- Coefficients in `_inner_fit`, online_gamlss.py:1059-1100; `prev` is `beta_path_it` of the previous inner
iteration. -/
noncomputable def fitCoefs {μ : Type} {p : ℕ} (c : Call μ p) (k itO itI : ℕ) (prev : Option Arr2) (X : Arr2)
    (wk : Working) (xg : Arr2) (yg : Arr1) : Py (GState μ p) Coefs := do
  let s ← Py.self
  let m ← Py.attr (s.method k) .keyError
  let reg ← Py.attr (s.isRegularized.get? k) .keyError
  let forget ← Py.attr (s.forget.get? k) .keyError
  if c.M.pathBased m then do
    let r ← Py.call (fitPathFrom c.M m xg yg reg (itI = 0 ∧ itO = 1) (if 0 < itI then prev else s.coefPath k))
    Py.set fun s => s.setMethod (upd s.method k (some r.2))
    let nTraining ← Py.attr (s.nTraining.get? k) .keyError
    let ic ← Py.attr (s.ic.get? k) .keyError
    let sel ← Py.call (fitSelectModel c s k X wk.wv wk.wt r.1 forget nTraining ic)
    pure ⟨sel.1, some r.1, some sel.2.1, some sel.2.2⟩
  else do
    let r ← Py.call (c.M.fitBeta m xg yg reg)
    Py.set fun s => s.setMethod (upd s.method k (some r.2))
    pure ⟨r.1, none, none, none⟩

open Classical in
/-- The tests that end an inner loop, online_gamlss.py:1145-1154 and 1339-1348. -/
noncomputable def innerConverged {μ : Type} {p : ℕ} (c : GConfig μ p) (itI : ℕ) (dvOld dv : Flt) : Prop :=
  Flt.le (Flt.abs (Flt.sub dvOld dv)) (.fin c.absTolInner) ∨
    Flt.lt (Flt.div (Flt.abs (Flt.sub dvOld dv)) (Flt.abs dvOld)) (.fin c.relTolInner) ∨ itI = c.maxInner - 1

/-- Conditional starting values, online_gamlss.py:1013-1026. -/
def startValues {μ : Type} {p : ℕ} (c : Call μ p) (k itO itI : ℕ) (fv : Fv) : Except PyErr Fv :=
  if itI = 0 ∧ itO = 1 ∧ 1 ≤ k ∧ c.cfg.condStartVal = true then c.D.conditionalInitialValues c.y fv k else .ok fv

open Classical in
/-- One pass of the loop in `_inner_fit`, online_gamlss.py:1006-1173.  The flag says whether the loop is left. -/
noncomputable def fitIteration {μ : Type} {p : ℕ} (c : Call μ p) (k itO itI scheduled : ℕ) (a : Inner) :
    Py (GState μ p) (Inner × Bool) := do
  let s ← Py.self
  let step ← Py.call (stepAt c.cfg s itO itI k)
  let fvIt ← Py.call (startValues c k itO itI a.fvIt)
  let wk ← Py.call (working c.D fitClip c.y fvIt k)
  Py.set (debugWork c.cfg.debug (k, itO, itI) wk fvIt)
  let X ← Py.attr (c.X k) .keyError
  let m ← Py.attr (s.method k) .keyError
  let forget ← Py.attr (s.forget.get? k) .keyError
  let xg ← Py.call (c.M.initX m X (wmul c.w wk.wt) forget)
  let yg ← Py.call (c.M.initY m X wk.wv (wmul c.w wk.wt) forget)
  let co ← fitCoefs c k itO itI (a.out.bind fun o => o.path) X wk xg yg
  Py.set (debugBeta c.cfg.debug (k, itO, itI) co.beta)
  let f := initForgetVector forget c.y.length
  let xb ← Py.call (matVec X co.beta)
  let pred := List.zipWith (fun u e => Flt.add (Flt.mul (.fin step) u) (Flt.mul (.fin (1 - step)) e)) xb wk.eta
  let rss := Flt.div (weightedRss c.w f wk.wt wk.wv pred) (amean (wmul f (wmul c.w wk.wt)))
  let v ← Py.call (c.D.linkInverse k pred)
  let fvNew := a.fvNew.setCol k v
  let dv := deviance c.D c.y c.w fvNew
  let increasing : Bool := Flt.lt a.dvOld dv
  let bad : Bool := Flt.lt a.dvStart dv
  let halve : Bool := increasing && decide (itI < scheduled - 1)
  let counter := if halve then a.stepDecrease + 1 else a.stepDecrease
  Py.set fun s => if halve then
    s.setScheduleStep fun o i j => if o = itO - 1 ∧ i = itI + 1 ∧ j = k then some (step / 2)
        else s.scheduleStep o i j else s
  let leave : Bool := (halve && decide (5 < counter)) ||
    decide ((itO = 1 ∧ 1 ≤ itI ∨ 2 ≤ itO) ∧ innerConverged c.cfg itI a.dvOld dv)
  let out : IterOut := ⟨itI, wk.wt, wk.wv, xg, yg, co.beta, co.path, co.selection, co.bestIc, rss, dv⟩
  let accept : Bool := !leave && !increasing
  pure (⟨if accept then fvIt.setCol k (fvNew.col k) else fvIt, fvNew, a.dvStart,
    if accept then dv else a.dvOld, counter, bad, some out⟩, leave)

/-- The loop `for it_inner in range(...)` of `_inner_fit`. -/
noncomputable def fitInnerLoop {μ : Type} {p : ℕ} (c : Call μ p) (k itO scheduled : ℕ) :
    (remaining itI : ℕ) → Inner → Py (GState μ p) Inner
  | 0, _, a => pure a
  | n + 1, itI, a => do
    let r ← fitIteration c k itO itI scheduled a
    if r.2 then pure r.1 else fitInnerLoop c k itO scheduled n (itI + 1) r.1

/-- The assignments behind the loop of `_inner_fit`, online_gamlss.py:1175-1193. -/
noncomputable def commitFit {μ : Type} {p : ℕ} (c : Call μ p) (k : ℕ) (a : Inner) (o : IterOut) (s : GState μ p) :
    GState μ p :=
  { s with
    xGram := upd s.xGram k (some o.xGram)
    yGram := upd s.yGram k (some o.yGram)
    coef := upd s.coef k (some o.beta)
    coefPath := upd s.coefPath k o.path
    fv := s.fv.setCol k (a.fvNew.col k)
    sumW := upd s.sumW k (some (asum (wmul c.w o.wt)))
    meanW := upd s.meanW k (some (amean (wmul c.w o.wt)))
    rss := Function.update s.rss k o.rss
    selection := if o.selection.isSome then upd s.selection k o.selection else s.selection
    bestIc := match o.bestIc with
      | some b => Function.update s.bestIc k b
      | none => s.bestIc }

/-- `_inner_fit`, online_gamlss.py:988-1196. -/
noncomputable def innerFit {μ : Type} {p : ℕ} (c : Call μ p) (itO k : ℕ) : Py (GState μ p) Flt := do
  let s ← Py.self
  let dvStart := deviance c.D c.y c.w s.fv
  let n ← Py.call (iterationsAt c.cfg s itO)
  let a ← fitInnerLoop c k itO n n 0 ⟨s.fv, s.fv, dvStart, dvStart, 0, false, none⟩
  let o ← Py.attr a.out .attributeError
  Py.set fun s => if a.badState = false ∨ itO = 1 then commitFit c k a o s else s
  Py.set fun s => s.setItInner (Function.update s.itInner k o.it)
  pure o.dv

/-- The loop over `_param_order`, online_gamlss.py:971-981 and 920-930: `dev` is the deviance so far. -/
noncomputable def paramLoop {σ : Type} (f : ℕ → Py σ Flt) : List ℕ → Flt → Py σ Flt
  | [], dev => pure dev
  | k :: ks, _ => do
    let dev ← f k
    paramLoop f ks dev

/-- The convergence tests shared by the two outer loops, online_gamlss.py:948-955 and 897-904. -/
noncomputable def outerConverged {μ : Type} {p : ℕ} (c : GConfig μ p) (dev devOld : Flt) : Prop :=
  Flt.lt (Flt.div (Flt.abs (Flt.sub devOld dev)) (Flt.abs devOld)) (.fin c.relTolOuter) ∨
    Flt.lt (Flt.abs (Flt.sub devOld dev)) (.fin c.absTolOuter)

/-- The tests that leave the loop of `_outer_fit`, online_gamlss.py:947-966. -/
def fitStops {μ : Type} {p : ℕ} (c : GConfig μ p) (minIt itO : ℕ) (dev devOld : Flt) : Prop :=
  minIt ≤ itO ∧ (outerConverged c dev devOld ∨ c.maxOuter ≤ itO ∨ Flt.lt devOld dev)

/-- The tests that leave the loop of `_outer_update`, online_gamlss.py:896-915. -/
def updateStops {μ : Type} {p : ℕ} (c : GConfig μ p) (minIt itO : ℕ) (dev devOld : Flt) : Prop :=
  minIt ≤ itO ∧ (outerConverged c dev devOld ∨ c.maxOuter ≤ itO)

open Classical in
/-- The `while True` loop of `_outer_fit` (online_gamlss.py:945-985) and `_outer_update` (894-935).  `body` is the loop
over the parameters in iteration `it_outer`, `stops` the tests at its head.  The loop is unrolled at most `fuel` times;
`none` means that it was still running.  The estimator uses a `fuel` for which this does not happen
(`C58_outer_loop_leaves`). -/
noncomputable def outerLoop {σ : Type} (stops : ℕ → Flt → Flt → Prop) (body : ℕ → Flt → Py σ Flt) :
    (fuel itO : ℕ) → (dev devOld : Flt) → Py σ (Option (Flt × ℕ))
  | 0, _, _, _ => pure none
  | n + 1, itO, dev, devOld =>
    if stops itO dev devOld then pure (some (dev, itO))
    else do
      let dev' ← body (itO + 1) dev
      outerLoop stops body n (itO + 1) dev' dev

/-- The number of times the outer loops are unrolled in the model. -/
def GConfig.fuel {μ : Type} {p : ℕ} (c : GConfig μ p) (minIt : ℕ) : ℕ := max minIt c.maxOuter + 2

/-- `_outer_fit`, online_gamlss.py:939-986. -/
noncomputable def outerFit {μ : Type} {p : ℕ} (c : Call μ p) (fuel : ℕ) : Py (GState μ p) (Option (Flt × ℕ)) := do
  let s ← Py.self
  let dev := deviance c.D c.y c.w s.fv
  outerLoop (fitStops c.cfg s.minIt) (fun itO dev => paramLoop (innerFit c itO) s.paramOrder dev) fuel 0 dev
    (Flt.add dev (.fin 1000))

/-! ### Update -/

/-- The deviance in the update, online_gamlss.py:889-890, 1211-1215 and 1314-1317: the new observations, and the
discounted deviance stored by the previous call. -/
noncomputable def updateDeviance {μ : Type} {p : ℕ} (c : Call μ p) (forget0 : ℝ) (old : Flt) (fv : Fv) : Flt :=
  Flt.add (deviance c.D c.y c.w fv) (Flt.mul (.fin (batchDiscount forget0 c.y.length)) old)

/-- Coefficients in `_inner_update`, online_gamlss.py:1256-1286. -/
noncomputable def updateCoefs {μ : Type} {p : ℕ} (c : Call μ p) (k : ℕ) (X : Arr2) (wk : Working) (xg : Arr2)
    (yg : Arr1) : Py (GState μ p) Coefs := do
  let s ← Py.self
  let m ← Py.attr (s.method k) .keyError
  let reg ← Py.attr (s.isRegularized.get? k) .keyError
  let forget ← Py.attr (s.forget.get? k) .keyError
  if c.M.pathBased m then do
    let start ← Py.attr (s.coefPath k) .typeError
    let r ← Py.call (c.M.updatePath m xg yg start reg)
    Py.set fun s => s.setMethod (upd s.method k (some r.2))
    let old ← Py.attr (s.selectionOld k) .keyError
    let meanW ← Py.attr (s.meanW k) .keyError
    let nObs ← Py.attr s.nObs .attributeError
    let nTraining ← Py.attr (s.nTraining.get? k) .keyError
    let ic ← Py.attr (s.ic.get? k) .keyError
    let sel ← Py.call (updateSelectModel c s k X wk.wv wk.wt r.1 old meanW forget nObs nTraining ic)
    Py.set fun s => s.setBestIc (Function.update s.bestIc k sel.2.2)
    pure ⟨sel.1, some r.1, some sel.2.1, some sel.2.2⟩
  else do
    let b ← Py.attr (s.coef k) .keyError
    let r ← Py.call (c.M.updateBeta m xg yg b reg)
    Py.set fun s => s.setMethod (upd s.method k (some r.2))
    pure ⟨r.1, none, none, none⟩

open Classical in
/-- One pass of the loop in `_inner_update`, online_gamlss.py:1222-1358. -/
noncomputable def updateIteration {μ : Type} {p : ℕ} (c : Call μ p) (k itO itI : ℕ) (a : Inner) :
    Py (GState μ p) (Inner × Bool) := do
  let s ← Py.self
  let step ← Py.call (stepAt c.cfg s itO itI k)
  let wk ← Py.call (working c.D updateClip c.y a.fvIt k)
  Py.set (debugWork c.cfg.debug (k, itO, itI) wk a.fvIt)
  let X ← Py.attr (c.X k) .keyError
  let m ← Py.attr (s.method k) .keyError
  let forget ← Py.attr (s.forget.get? k) .keyError
  let x0 ← Py.attr (s.xGram k) .keyError
  let xg ← Py.call (c.M.updateX m x0 X (wmul c.w wk.wt) forget)
  let y0 ← Py.attr (s.yGram k) .keyError
  let yg ← Py.call (c.M.updateY m y0 X wk.wv (wmul c.w wk.wt) forget)
  let co ← updateCoefs c k X wk xg yg
  Py.set (debugBeta c.cfg.debug (k, itO, itI) co.beta)
  let f := initForgetVector forget c.y.length
  let pred ← Py.call (matVec X co.beta)
  let meanW ← Py.attr (s.meanW k) .keyError
  let nObs ← Py.attr s.nObs .attributeError
  let denom := onlineMeanLoopFlt forget nObs meanW wk.wt
  let rss := Flt.div (Flt.add (Flt.div (weightedRss c.w f wk.wt wk.wv pred) (amean (wmul f (wmul c.w wk.wt))))
    (Flt.mul (.fin (batchDiscount forget c.y.length)) (Flt.mul (s.rssOld k) meanW))) denom
  let v ← Py.call (c.D.linkInverse k pred)
  let fvNew := a.fvNew.setCol k v
  let forget0 ← Py.attr (s.forget.get? 0) .keyError
  let old ← Py.attr s.globalDev .attributeError
  let dv := updateDeviance c forget0 old fvNew
  let increasing : Bool := Flt.lt a.dvOld dv
  let counter := if increasing then a.stepDecrease + 1 else a.stepDecrease
  Py.set fun s => if increasing then
    s.setScheduleStep fun o i j => if o = itO - 1 ∧ i = itI ∧ j = k then some (step / 2)
        else s.scheduleStep o i j else s
  let leave : Bool := (increasing && decide (5 < counter)) ||
    ((!increasing || decide (itI < c.cfg.maxInner - 1)) && decide (innerConverged c.cfg itI a.dvOld dv))
  let out : IterOut := ⟨itI, wk.wt, wk.wv, xg, yg, co.beta, co.path, co.selection, co.bestIc, rss, dv⟩
  let accept : Bool := !leave && !increasing
  pure (⟨if accept then a.fvIt.setCol k (fvNew.col k) else a.fvIt, fvNew, a.dvStart,
    if accept then dv else a.dvOld, counter, a.badState, some out⟩, leave)

/-- The loop `for it_inner in range(...)` of `_inner_update`. -/
noncomputable def updateInnerLoop {μ : Type} {p : ℕ} (c : Call μ p) (k itO : ℕ) :
    (remaining itI : ℕ) → Inner → Py (GState μ p) Inner
  | 0, _, a => pure a
  | n + 1, itI, a => do
    let r ← updateIteration c k itO itI a
    if r.2 then pure r.1 else updateInnerLoop c k itO n (itI + 1) r.1

/-- The assignments behind the loop of `_inner_update`, online_gamlss.py:1360-1378. -/
noncomputable def commitUpdate {μ : Type} {p : ℕ} (c : Call μ p) (k : ℕ) (a : Inner) (o : IterOut)
    (forget sumW nTraining : Flt) (s : GState μ p) : GState μ p :=
  let sum := Flt.add (asum (wmul c.w o.wt)) (Flt.mul (Flt.sub (.fin 1) forget) sumW)
  { s with
    xGramNew := upd s.xGramNew k (some o.xGram)
    yGramNew := upd s.yGramNew k (some o.yGram)
    fv := s.fv.setCol k (a.fvNew.col k)
    coef := upd s.coef k (some o.beta)
    coefPath := upd s.coefPath k o.path
    rss := Function.update s.rss k o.rss
    selection := upd s.selection k o.selection
    sumWNew := upd s.sumWNew k (some sum)
    meanWNew := upd s.meanWNew k (some (Flt.div sum nTraining))
    itInner := Function.update s.itInner k o.it }

/-- `_inner_update`, online_gamlss.py:1198-1378. -/
noncomputable def innerUpdate {μ : Type} {p : ℕ} (c : Call μ p) (itO k : ℕ) : Py (GState μ p) Flt := do
  let s ← Py.self
  let forget0 ← Py.attr (s.forget.get? 0) .keyError
  let old ← Py.attr s.globalDev .attributeError
  let dvStart := updateDeviance c forget0 old s.fv
  let n ← Py.call (iterationsAt c.cfg s itO)
  let a ← updateInnerLoop c k itO n 0 ⟨s.fv, s.fv, dvStart, dvStart, 0, false, none⟩
  let o ← Py.attr a.out .attributeError
  let forget ← Py.attr (s.forget.get? k) .keyError
  let sumW ← Py.attr (s.sumW k) .keyError
  let nTraining ← Py.attr (s.nTraining.get? k) .keyError
  Py.set (commitUpdate c k a o (.fin forget) sumW (.fin nTraining))
  pure o.dv

/-- `_outer_update`, online_gamlss.py:887-937. -/
noncomputable def outerUpdate {μ : Type} {p : ℕ} (c : Call μ p) (fuel : ℕ) : Py (GState μ p) (Option (Flt × ℕ)) := do
  let s ← Py.self
  let forget0 ← Py.attr (s.forget.get? 0) .keyError
  let old ← Py.attr s.globalDev .attributeError
  let dev := updateDeviance c forget0 old s.fv
  outerLoop (updateStops c.cfg s.minIt) (fun itO dev => paramLoop (innerUpdate c itO) s.paramOrder dev) fuel 0 dev
    (Flt.add dev (.fin 1000))

/-! ### The public methods -/

/-- `OnlineScaler.transform`, scaler.py:163-189, with floats: a column without variation is divided by zero. -/
noncomputable def Scaler.transformFlt {p : ℕ} (X : List (Row p)) : Scaler p → List (Fin p → Flt)
  | .off _ => X.map fun x j => .fin (x j)
  | .on _ sel s => X.map (transformRowFlt sel s)

/-- `make_model_array(X_scaled, param=p)` for an attribute state. -/
noncomputable def designFor {μ : Type} {p : ℕ} (s : GState μ p) (sc : Scaler p) (X : List (Row p)) (k : ℕ) :
    Except PyErr Arr2 :=
  match s.equation.get? k, s.fitIntercept.get? k with
  | some eq, some fi => modelArray (.fin 1) fi eq (sc.transformFlt X)
  | _, _ => .error .keyError

/-- A dictionary over the distribution parameters, built in order; the first exception ends it. -/
def forParams {α : Type} (n : ℕ) (f : ℕ → Except PyErr α) : Except PyErr (PyDict α) :=
  (List.range n).mapM fun k => do
    let a ← f k
    pure (k, a)

/-- The option `what` of `predict_distribution_parameters`. -/
inductive What
  | response
  | link
  | other
  deriving DecidableEq

/-- `prediction = [x @ b.T for x, b in zip(...)]`, online_gamlss.py:1428-1436: the checks and the linear predictors.
`validate_data` refuses an array without rows; its other checks are not modelled. -/
noncomputable def linearPredictors {μ : Type} {p : ℕ} (D : DistOps) (s : GState μ p) (X : List (Row p)) :
    Except PyErr Arr2 :=
  match s.nObs, X, s.scaler with
  | none, _, _ => .error .notFitted
  | some _, [], _ => .error .valueError
  | some _, _ :: _, none => .error .notFitted
  | some _, x :: X, some sc =>
    (List.range D.nParams).mapM fun k => do
      let A ← designFor s sc (x :: X) k
      match s.coef k with
      | none => Except.error PyErr.attributeError
      | some b => matVec A b

/-- `predict_distribution_parameters`, online_gamlss.py:1408-1457, without contributions. -/
noncomputable def predictParams {μ : Type} {p : ℕ} (D : DistOps) (s : GState μ p) (X : List (Row p)) (what : What) :
    Except PyErr Fv := do
  let etas ← linearPredictors D s X
  match what with
  | .response => do
    let cols ← (etas.zip (List.range D.nParams)).mapM fun e => D.linkInverse e.2 e.1
    pure (Fv.stack X.length cols)
  | .link => pure (Fv.stack X.length etas)
  | .other => .error .valueError

/-- The contributions returned with `return_contributions=True`, online_gamlss.py:1437-1440: `x * b.T`, one array per
distribution parameter. -/
noncomputable def contributions {μ : Type} {p : ℕ} (D : DistOps) (s : GState μ p) (X : List (Row p)) :
    Except PyErr (List Arr2) := do
  match s.scaler with
  | none => .error .notFitted
  | some sc =>
    (List.range D.nParams).mapM fun k => do
      let A ← designFor s sc X k
      match s.coef k with
      | none => Except.error PyErr.attributeError
      | some b => pure (A.map fun x => List.zipWith Flt.mul x b)

/-- `predict`, online_gamlss.py:1380-1392: the attribute `mean` of the distribution may not exist. -/
noncomputable def predictMean {μ : Type} {p : ℕ} (D : DistOps) (s : GState μ p) (X : List (Row p)) :
    Except PyErr Arr1 := do
  let th ← predictParams D s X .response
  match D.mean with
  | some f => pure (f th)
  | none => .error .attributeError

/-- `predict_median`, online_gamlss.py:1394-1406. -/
noncomputable def predictMedian {μ : Type} {p : ℕ} (D : DistOps) (s : GState μ p) (X : List (Row p)) :
    Except PyErr Arr1 := do
  let th ← predictParams D s X .response
  match D.median with
  | some f => pure (f th)
  | none => .error .attributeError

/-- `predict_quantile`, online_gamlss.py:1459-1482: one row per observation, one column per quantile. -/
noncomputable def predictQuantile {μ : Type} {p : ℕ} (D : DistOps) (s : GState μ p) (X : List (Row p)) (qs : List ℝ) :
    Except PyErr Arr2 := do
  let th ← predictParams D s X .response
  let rows := qs.map fun q => D.ppf q th
  pure ((List.range th.length).map fun i => rows.map fun r => r.getD i .nan)

/-- `_validate_inputs`, online_gamlss.py:603-629: is some response outside the closed interval? -/
def OutOfSupport (D : DistOps) (y : List ℝ) : Prop :=
  (∃ v ∈ y, (v : EReal) < D.support.1) ∨ ∃ v ∈ y, D.support.2 < (v : EReal)

/-- `_is_regularized[p]`, online_gamlss.py:728-735. -/
def regularizedFlags (J : ℕ) (fi ri : Bool) (eq : Equation) : List Bool :=
  if fi && !(ri || decide (eq = .str "intercept")) then (List.replicate J true).set 0 false
  else List.replicate J true

/-- `_prepare_estimator`, online_gamlss.py:232-268.  The dictionaries of the user are modelled in
`Verif.Model.GamlssOptions`; `frames` is `HAS_PANDAS | HAS_POLARS`. -/
noncomputable def prepare {μ : Type} {p : ℕ} (frames : Bool) (D : DistOps) (M : MethodOps μ) (c : GConfig μ p) :
    Py (GState μ p) Unit := do
  let eq ← Py.call (processEquation frames D.nParams c.equation).1
  Py.set (GState.setEquation eq)
  let ms ← Py.call (c.method.process D.nParams (.value (some M.ols))).result
  Py.raiseIf (∃ k < D.nParams, ms.get? k = some none) .valueError
  Py.set (GState.setMethod fun k => (ms.get? k).bind id)
  let fo ← Py.call (c.forget.process D.nParams (.value 0)).result
  Py.set (GState.setForget fo)
  let ic ← Py.call (c.ic.process D.nParams (.value .aic)).result
  Py.set (GState.setIc ic)
  let fi ← Py.call (c.fitIntercept.process D.nParams (.value true)).result
  Py.set (GState.setFitIntercept fi)
  let ri ← Py.call (c.regularizeIntercept.process D.nParams (.value false)).result
  Py.set (GState.setRegularizeIntercept ri)
  let st ← Py.call (c.stepSize.process D.nParams (.value 1)).result
  Py.set (GState.setStepSize st)
  Py.raiseIf (∃ o, c.paramOrder = some o ∧ ∃ k < D.nParams, k ∉ o) .valueError
  Py.set (GState.setParamOrder (c.paramOrder.getD (List.range D.nParams)))
  Py.set (GState.setScaler none)

/-- `{p: calculate_effective_training_length(self._forget[p], n) for p in ...}`. -/
noncomputable def trainingLengths (n : ℕ) (forget : PyDict ℝ) (nObs : ℝ) : Except PyErr (PyDict ℝ) :=
  forParams n fun k =>
    match forget.get? k with
    | some f => .ok (effectiveTrainingLength f nObs)
    | none => .error .keyError

/-- Attributes reset by `fit` before the loops, online_gamlss.py:701-758. -/
def resetFit {μ : Type} {p : ℕ} (c : GConfig μ p) (n : ℕ) (reg : PyDict (List Bool)) (nf : PyDict ℕ)
    (s : GState μ p) : GState μ p :=
  { s with
    debugWeights := if c.debug then fun _ => none else s.debugWeights
    debugWorking := if c.debug then fun _ => none else s.debugWorking
    debugEta := if c.debug then fun _ => none else s.debugEta
    debugFv := if c.debug then fun _ => none else s.debugFv
    debugCoef := if c.debug then fun _ => none else s.debugCoef
    xGram := fun _ => none
    yGram := fun _ => none
    rss := fun _ => .fin 0
    selection := fun _ => none
    bestIc := fun _ => 0
    isRegularized := reg
    coef := fun k => if k < n then (nf.get? k).map fun J => List.replicate J (.fin 0) else none
    coefPath := fun _ => none
    sumW := fun _ => none
    meanW := fun _ => none
    scheduleIteration := fun i => if i < c.prefitInitial then 1 else c.maxInner
    scheduleStep := fun _ _ _ => none
    itInner := fun _ => 0
    minIt := if 0 < c.prefitInitial then c.prefitInitial else c.minItOuter }

/-- `fit`, online_gamlss.py:641-772. -/
noncomputable def GState.fit {μ : Type} {p : ℕ} (frames : Bool) (D : DistOps) (M : MethodOps μ) (c : GConfig μ p)
    (data : List (Obs p)) : Py (GState μ p) Unit := do
  Py.raiseIf (¬ c.Valid) .valueError
  prepare frames D M c
  Py.raiseIf (data = [] ∨ p = 0) .valueError
  Py.raiseIf (OutOfSupport D (ys data)) .outOfSupport
  let n := (ws data).sum
  Py.set (GState.setNObs (some n))
  let s ← Py.self
  let nt ← Py.call (trainingLengths D.nParams s.forget n)
  Py.set (GState.setNTraining nt)
  let fv ← Py.call (D.initialValues (ys data))
  Py.set (GState.setFv fv)
  let nf ← Py.call (forParams D.nParams fun k =>
    match s.equation.get? k, s.fitIntercept.get? k with
    | some eq, some fi => getJ p fi eq
    | _, _ => .error .keyError)
  Py.set (GState.setNFeatures nf)
  let forget0 ← Py.attr (s.forget.get? 0) .keyError
  let sc ← Py.call (Scaler.fit c.scaleInputs forget0 (xs data) (ws data))
  Py.set (GState.setScaler (some sc))
  let X ← Py.call (forParams D.nParams fun k => designFor s sc (xs data) k)
  let reg ← Py.call (forParams D.nParams fun k =>
    match nf.get? k, s.fitIntercept.get? k, s.regularizeIntercept.get? k, s.equation.get? k with
    | some J, some fi, some ri, some eq => .ok (regularizedFlags J fi ri eq)
    | _, _, _, _ => .error .keyError)
  Py.set (resetFit c D.nParams reg nf)
  let s ← Py.self
  let r ← outerFit ⟨D, M, c, X.get?, ys data, ws data⟩ (c.fuel s.minIt)
  let r ← Py.attr r .notImplemented
  Py.set (GState.setResult r.1 r.2)

/-- Attributes copied and reset by `update` before the loops, online_gamlss.py:813-850. -/
def resetUpdate {μ : Type} {p : ℕ} (c : GConfig μ p) (s : GState μ p) : GState μ p :=
  { s with
    debugWeights := if c.debug then fun _ => none else s.debugWeights
    debugWorking := if c.debug then fun _ => none else s.debugWorking
    debugEta := if c.debug then fun _ => none else s.debugEta
    debugFv := if c.debug then fun _ => none else s.debugFv
    debugCoef := if c.debug then fun _ => none else s.debugCoef
    bestIc := fun _ => 0
    xGramNew := s.xGram
    yGramNew := s.yGram
    sumWNew := s.sumW
    meanWNew := s.meanW
    rssOld := s.rss
    selectionOld := s.selection
    scheduleIteration := fun i => if i < c.prefitUpdate then 1 else c.maxInner
    scheduleStep := fun _ _ _ => none
    minIt := if 0 < c.prefitUpdate then c.prefitUpdate else s.minIt }

/-- `.item()`: `ValueError` unless the array has one entry. -/
def item : Arr1 → Except PyErr Flt
  | [v] => .ok v
  | _ => .error .valueError

/-- The schedules for outliers, online_gamlss.py:862-864. -/
noncomputable def GState.outlierSchedule {μ : Type} {p : ℕ} (s : GState μ p) : GState μ p :=
  { s with
    scheduleIteration := fun i => if i < 4 then 1 else s.scheduleIteration i
    scheduleStep := fun o i j => if o < 4 then some (1 / 4) else s.scheduleStep o i j
    minIt := 4 }

open Classical in
/-- The block `if self.cautious_updates`, online_gamlss.py:852-866. -/
noncomputable def cautious {μ : Type} {p : ℕ} (D : DistOps) (c : GConfig μ p) (y : List ℝ) : Py (GState μ p) Unit := do
  let s ← Py.self
  if c.cautiousUpdates then do
    let lower ← Py.call (item (D.ppf (5 / 1000) s.fv))
    let upper ← Py.call (item (D.ppf (995 / 1000) s.fv))
    if (∃ v ∈ y, Flt.lt (.fin v) lower) ∨ ∃ v ∈ y, Flt.lt upper (.fin v) then
      Py.set GState.outlierSchedule
    else Py.set (GState.setMinIt c.minItOuter)
  else pure ()

/-- `update`, online_gamlss.py:776-885. -/
noncomputable def GState.update {μ : Type} {p : ℕ} (D : DistOps) (M : MethodOps μ) (c : GConfig μ p)
    (data : List (Obs p)) : Py (GState μ p) Unit := do
  Py.raiseIf (¬ c.Valid) .valueError
  Py.raiseIf (data = [] ∨ p = 0) .valueError
  Py.raiseIf (OutOfSupport D (ys data)) .outOfSupport
  let s ← Py.self
  let n0 ← Py.attr s.nObs .attributeError
  let n := n0 + (ws data).sum
  Py.set (GState.setNObs (some n))
  let nt ← Py.call (trainingLengths D.nParams s.forget n)
  Py.set (GState.setNTraining nt)
  let s ← Py.self
  let fv ← Py.call (predictParams D s (xs data) .response)
  Py.set (GState.setFv fv)
  let sc0 ← Py.attr s.scaler .notFitted
  let forget0 ← Py.attr (s.forget.get? 0) .keyError
  let sc ← Py.call (sc0.update forget0 (xs data) (ws data))
  Py.set (GState.setScaler (some sc))
  let X ← Py.call (forParams D.nParams fun k => designFor s sc (xs data) k)
  Py.set (resetUpdate c)
  cautious D c (ys data)
  let s ← Py.self
  let r ← outerUpdate ⟨D, M, c, X.get?, ys data, ws data⟩ (c.fuel s.minIt)
  let r ← Py.attr r .notImplemented
  Py.set (GState.setResult r.1 r.2)
  Py.set GState.commitStatistics

/-- `partial_fit`, base/estimator.py:19-46. -/
noncomputable def GState.partialFit {μ : Type} {p : ℕ} (frames : Bool) (D : DistOps) (M : MethodOps μ) (c : GConfig μ p)
    (data : List (Obs p)) : Py (GState μ p) Unit := do
  let s ← Py.self
  if s.isFitted then GState.update D M c data else GState.fit frames D M c data

/-- A sequence of calls of `update`; the first exception ends it. -/
noncomputable def GState.updates {μ : Type} {p : ℕ} (D : DistOps) (M : MethodOps μ) (c : GConfig μ p) :
    List (List (Obs p)) → Py (GState μ p) Unit
  | [] => pure ()
  | b :: bs => do
    GState.update D M c b
    GState.updates D M c bs

/-- A sequence of calls of `partial_fit`; the first exception ends it. -/
noncomputable def GState.partialFits {μ : Type} {p : ℕ} (frames : Bool) (D : DistOps) (M : MethodOps μ) (c : GConfig μ p) :
    List (List (Obs p)) → Py (GState μ p) Unit
  | [] => pure ()
  | b :: bs => do
    GState.partialFit frames D M c b
    GState.partialFits frames D M c bs

end Ondil
