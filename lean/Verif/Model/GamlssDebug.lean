import Verif.Model.Gamlss

/-!
# `get_debug_information`
-/

namespace Ondil

variable {μ : Type} {p : ℕ}

/-- The variables recorded per iteration that the model follows; `dl1dlp1`, `dl2dlp2`, `dv` and `coef_path` are written
with the same keys and are not modelled, `X_dict` and `X_scaled` are not recorded per iteration. -/
inductive DebugVariable
  | weights
  | workingVectors
  | eta
  | fv
  | coef
  deriving DecidableEq

/-- What a debug dictionary holds: an array, or one row per observation. -/
inductive DebugValue
  | array (a : Arr1)
  | rows (a : Fv)

/-- `getattr(self, f"_debug_{variable}").get(key)`. -/
def GState.debugEntry (s : GState μ p) : DebugVariable → DebugKey → Option DebugValue
  | .weights, key => (s.debugWeights key).map .array
  | .workingVectors, key => (s.debugWorking key).map .array
  | .eta, key => (s.debugEta key).map .array
  | .fv, key => (s.debugFv key).map .rows
  | .coef, key => (s.debugCoef key).map .array

/-- `get_debug_information`, online_gamlss.py:1484-1524. -/
def GState.debugInformation (c : GConfig μ p) (s : GState μ p) (v : DebugVariable) (param itOuter itInner : ℕ) :
    Except PyErr DebugValue :=
  if c.debug then
    match s.debugEntry v (param, itOuter, itInner + 1) with
    | some a => .ok a
    | none => .error .keyError
  else .error .valueError

end Ondil
