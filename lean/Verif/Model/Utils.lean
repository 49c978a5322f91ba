import Mathlib.Data.Real.Basic
import Mathlib.Analysis.SpecialFunctions.Pow.Real

/-! # Model of `src/ondil/utils.py` (numeric helpers) and `design_matrix.py` -/

namespace Ondil

/-- `sys.maxsize` on a 64-bit platform. -/
noncomputable def maxsize : ℝ := 9223372036854775807

open Classical in
/-- `calculate_asymptotic_training_length`, utils.py:60-65. -/
noncomputable def asymptoticTrainingLength (forget : ℝ) : ℝ :=
  if forget = 0 then maxsize else 1 / forget

open Classical in
/-- `calculate_effective_training_length`, utils.py:68-72.  `n_obs` is a float: the estimators pass
the sum of the sample weights. -/
noncomputable def effectiveTrainingLength (forget n_obs : ℝ) : ℝ :=
  if forget = 0 then n_obs else (1 - (1 - forget) ^ n_obs) / forget

open Classical in
/-- `_online_mean_update`, utils.py:75-85. -/
noncomputable def onlineMeanStep (avg value forget n_seen : ℝ) : ℝ :=
  let n_asymptotic := asymptoticTrainingLength forget
  let n_eff := effectiveTrainingLength forget n_seen
  let forget_scaled := forget * max (n_asymptotic / n_eff) 1
  let diff := value - avg
  let incr := forget_scaled * diff
  if forget_scaled > 0 then avg + incr else avg + diff / n_seen

/-- The loop over an array in `online_mean_update`, utils.py:108-111: position `i` runs over
`-len + 1 .. 0`, so the element with `r` successors in the array is folded in with `n_seen - r`. -/
noncomputable def onlineMeanLoop (forget n_seen : ℝ) : ℝ → List ℝ → ℝ
  | avg, [] => avg
  | avg, v :: vs => onlineMeanLoop forget n_seen (onlineMeanStep avg v forget (n_seen - vs.length)) vs

/-- The argument `value`: a scalar or an array. -/
inductive MeanArg
  | scalar (v : ℝ)
  | array (l : List ℝ)

/-- `online_mean_update`, utils.py:88-114. -/
noncomputable def onlineMeanUpdate (avg : ℝ) (value : MeanArg) (forget n_seen : ℝ) : ℝ :=
  match value with
  | .array l => onlineMeanLoop forget n_seen avg l
  | .scalar v => onlineMeanStep avg v forget n_seen

end Ondil
