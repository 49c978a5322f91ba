import Verif.Model.Gram
import Mathlib.Data.List.Range

/-!
# Model of the options of `src/ondil/estimators/online_gamlss.py` and of `handle_param_dict` in `utils.py`

A Python dictionary is the list of its entries in insertion order.  A function that writes into a dictionary it was
given returns the dictionary afterwards; this is also what the caller sees, since no copy is made.  Warnings are not
modelled.  Keys are natural numbers (distribution parameters).
-/

namespace Ondil

/-- A Python dictionary with integer keys, in insertion order. -/
abbrev PyDict (α : Type) := List (ℕ × α)

namespace PyDict

variable {α : Type}

/-- `d[k]`, or `none` when the key is missing. -/
def get? : PyDict α → ℕ → Option α
  | [], _ => none
  | (j, a) :: d, k => if j = k then some a else get? d k

/-- `d[k] = a`: replaces in place, or appends a new key at the end. -/
def set : PyDict α → ℕ → α → PyDict α
  | [], k, a => [(k, a)]
  | (j, b) :: d, k, a => if j = k then (j, a) :: d else (j, b) :: set d k a

/-- `list(d.keys())`. -/
def keys (d : PyDict α) : List ℕ := d.map Prod.fst

/-- `list(d.values())`. -/
def values (d : PyDict α) : List α := d.map Prod.snd

/-- `{p: f(p) for p in range(n)}`. -/
def ofRange (n : ℕ) (f : ℕ → α) : PyDict α := (List.range n).map fun p => (p, f p)

end PyDict

/-- An option of the estimator: one value for all distribution parameters, or a dictionary. -/
inductive OptArg (α : Type)
  | value (a : α)
  | dict (d : PyDict α)

namespace OptArg

variable {α : Type}

/-- The value that a default (a value or a dictionary) provides for a distribution parameter, utils.py:48-51 and
online_gamlss.py:285-288. -/
def defaultFor : OptArg α → ℕ → Except PyErr α
  | .value a, _ => .ok a
  | .dict d, p =>
    match d.get? p with
    | some a => .ok a
    | none => .error .keyError

/-- One pass of the loop over the distribution parameters, utils.py:40-51 and online_gamlss.py:276-288. -/
def fillStep (dflt : OptArg α) (d : PyDict α) (p : ℕ) : Except PyErr (PyDict α) :=
  match d.get? p with
  | some _ => .ok d
  | none => do
    let a ← dflt.defaultFor p
    pure (d.set p a)

/-- The loop `for p in range(n)`: the dictionary after it, and the exception if one was raised. -/
def fill (dflt : OptArg α) : List ℕ → PyDict α → Except PyErr Unit × PyDict α
  | [], d => (.ok (), d)
  | p :: ps, d =>
    match fillStep dflt d p with
    | .ok d' => fill dflt ps d'
    | .error e => (.error e, d)

/-- The result of processing an option: the processed dictionary (or the exception) and what the object the user
passed looks like afterwards. -/
structure Processed (α : Type) where
  result : Except PyErr (PyDict α)
  user : OptArg α

/-- `OnlineDistributionalRegression._process_parameter`, online_gamlss.py:274-294, and `handle_param_dict`,
utils.py:8-57 (which stores the result in an attribute instead of returning it).  The loop writes into the
dictionary of the user. -/
def process (self : OptArg α) (n : ℕ) (dflt : OptArg α) : Processed α :=
  match self with
  | .value a => ⟨.ok (PyDict.ofRange n fun _ => a), .value a⟩
  | .dict d =>
    match fill dflt (List.range n) d with
    | (.ok _, d') => ⟨.ok d', .dict d'⟩
    | (.error e, d') => ⟨.error e, .dict d'⟩

end OptArg

/-! ### Equations -/

/-- An entry of the equation dictionary.  `names` is a list of strings, `intList` and `boolList` are Python lists of
integers and booleans; `mask`, `index` and `floatArray` are numpy arrays. -/
inductive Equation
  | str (s : String)
  | mask (m : List Bool)
  | index (l : List ℤ)
  | floatArray
  | names (l : List String)
  | intList (l : List ℤ)
  | boolList (l : List Bool)
  | other
  deriving DecidableEq

/-- The type check of `_process_equation`, online_gamlss.py:321-334; `frames` is `HAS_PANDAS | HAS_POLARS`. -/
def Equation.accepted (frames : Bool) : Equation → Bool
  | .str s => s = "all" || s = "intercept"
  | .mask _ | .index _ | .floatArray => true
  | .names _ | .intList _ | .boolList _ => frames
  | .other => false

/-- The loop of `_process_equation`, online_gamlss.py:310-334: missing parameters become intercepts in the
dictionary of the user, entries of another type raise. -/
def equationLoop (frames : Bool) : List ℕ → PyDict Equation → Except PyErr Unit × PyDict Equation
  | [], d => (.ok (), d)
  | p :: ps, d =>
    let d' := match d.get? p with
      | some _ => d
      | none => d.set p (.str "intercept")
    match d'.get? p with
    | some e => if e.accepted frames then equationLoop frames ps d' else (.error .valueError, d')
    | none => (.error .keyError, d')

/-- `_process_equation`, online_gamlss.py:296-336: the processed equation and the user's dictionary afterwards. -/
def processEquation (frames : Bool) (n : ℕ) :
    Option (PyDict Equation) → Except PyErr (PyDict Equation) × Option (PyDict Equation)
  | none => (.ok (PyDict.ofRange n fun p => if p = 0 then .str "all" else .str "intercept"), none)
  | some d =>
    match equationLoop frames (List.range n) d with
    | (.ok _, d') => (.ok d', some d')
    | (.error e, d') => (.error e, some d')

/-- The largest entry of an integer array; `ValueError` for an empty one (`ndarray.max`). -/
def intMax : List ℤ → Except PyErr ℤ
  | [] => .error .valueError
  | a :: l => .ok (l.foldl max a)

/-- One entry of `get_J_from_equation`, online_gamlss.py:364-390: the number of coefficients for an equation, a
matrix of `p` columns and the flag `fit_intercept`. -/
def getJ (p : ℕ) (fi : Bool) : Equation → Except PyErr ℕ
  | .str s => if s = "all" then .ok (p + fi.toNat) else if s = "intercept" then .ok 1 else .error .keyError
  | .mask m => if m.length ≠ p then .error .valueError else .ok (m.count true + fi.toNat)
  | .index l => do
    let m ← intMax l
    if m ≥ (p : ℤ) then .error .valueError else .ok (l.length + fi.toNat)
  | .floatArray => .error .valueError
  | .names l => .ok (l.length + fi.toNat)
  | .intList l => .ok (l.length + fi.toNat)
  | .boolList l => .ok (l.length + fi.toNat)
  | .other => .error .valueError

/-- One numpy index into a row of `p` entries: negative indices count from the end. -/
def npIndex {p : ℕ} {α : Type} (x : Fin p → α) (i : ℤ) : Except PyErr α :=
  let j := if i < 0 then i + p else i
  if h : 0 ≤ j ∧ j.toNat < p then .ok (x ⟨j.toNat, h.2⟩) else .error .indexError

/-- `x[mask]` for one row: `IndexError` when the lengths differ. -/
def npMask {p : ℕ} {α : Type} (x : Fin p → α) (m : List Bool) : Except PyErr (List α) :=
  if m.length = p then
    .ok (((List.ofFn x).zip m).filterMap fun xm => if xm.2 then some xm.1 else none)
  else .error .indexError

/-- The selected columns of one row in `make_model_array`, online_gamlss.py:404-419.  `X` is a numpy array there:
`validate_data` and the scaler convert data frames, so a list of names is an invalid index. -/
def selectColumns {p : ℕ} {α : Type} (x : Fin p → α) : Equation → Except PyErr (List α)
  | .str s => if s = "all" then .ok (List.ofFn x) else .error .valueError
  | .mask m => npMask x m
  | .boolList m => npMask x m
  | .index l => l.mapM (npIndex x)
  | .intList l => l.mapM (npIndex x)
  | .names _ => .error .indexError
  | .floatArray => .error .indexError
  | .other => .error .valueError

/-- One row of `make_model_array`, online_gamlss.py:392-424. -/
def modelRow {p : ℕ} {α : Type} (one : α) (fi : Bool) (eq : Equation) (x : Fin p → α) : Except PyErr (List α) :=
  if eq = .str "intercept" then
    if fi then .ok [one] else .error .valueError
  else do
    let out ← selectColumns x eq
    pure (if fi then one :: out else out)

/-- `make_model_array`, online_gamlss.py:392-424, row by row. -/
def modelArray {p : ℕ} {α : Type} (one : α) (fi : Bool) (eq : Equation) (X : List (Fin p → α)) :
    Except PyErr (List (List α)) := X.mapM (modelRow one fi eq)

/-! ### Schedules -/

/-- `_make_step_size_schedule`, online_gamlss.py:634-638, at outer iteration `o + 1`, inner iteration `i` and
parameter `p`: the third axis runs over the values of the dictionary in insertion order. -/
def stepSchedule {α : Type} (d : PyDict α) (maxOuter maxInner o i p : ℕ) : Except PyErr α :=
  if o < maxOuter ∧ i < maxInner then
    match d.values[p]? with
    | some a => .ok a
    | none => .error .indexError
  else .error .indexError

end Ondil
