import Verif.Model.Flt
import Verif.Model.Gram
import Mathlib.Analysis.SpecialFunctions.Log.Basic
import Mathlib.Analysis.SpecialFunctions.Trigonometric.Basic

/-!
# Model of `src/ondil/information_criteria.py` and of model selection by `np.argmin`
-/

namespace Ondil

/-- The recognised criteria, information_criteria.py:43. -/
inductive Criterion
  | aic
  | aicc
  | bic
  | hqc
  | max
  deriving DecidableEq, Repr

/-- Validation in `InformationCriterion.__init__`, information_criteria.py:42-47. -/
def Criterion.ofString (s : String) : Except PyErr Criterion :=
  if s = "aic" then .ok .aic
  else if s = "aicc" then .ok .aicc
  else if s = "bic" then .ok .bic
  else if s = "hqc" then .ok .hqc
  else if s = "max" then .ok .max
  else .error .valueError

/-- `InformationCriterion.from_ll` for scalar arguments, information_criteria.py:70-95, with the conventions of numpy for
the logarithms of numbers that are not positive. -/
noncomputable def fromLL (c : Criterion) (n p : ℝ) (ll : Flt) : Except PyErr Flt :=
  let dev := Flt.mul (.fin (-2)) ll
  match c with
  | .aic => .ok (Flt.add dev (.fin (p * 2)))
  | .aicc => open Classical in
    if n - p - 1 = 0 then .error .valueError else .ok (Flt.add dev (.fin (p * 2 * n / (n - p - 1))))
  | .bic => .ok (Flt.add dev (Flt.mul (.fin p) (Flt.log (.fin n))))
  | .hqc => .ok (Flt.add dev (Flt.mul (.fin (p * 2)) (Flt.log (Flt.log (.fin n)))))
  | .max => .ok (Flt.neg ll)

/-- The log-likelihood of `from_rss`, information_criteria.py:64-67. -/
noncomputable def llFromRss (n rss : ℝ) : Flt :=
  let constantTerm := -n / 2 * (1 + Real.log (2 * Real.pi))
  Flt.add (Flt.mul (.fin (-n / 2)) (Flt.log (Flt.div (.fin rss) (.fin n)))) (.fin constantTerm)

/-- `InformationCriterion.from_rss` for scalar arguments, information_criteria.py:49-68. -/
noncomputable def fromRss (c : Criterion) (n p rss : ℝ) : Except PyErr Flt :=
  fromLL c n p (llFromRss n rss)

/-- `from_ll` for arrays of parameter counts and log-likelihoods (one entry per model of a path).  The AICc
branch evaluates the truth value of the array `n - p - 1 == 0`, which numpy rejects with `ValueError`
unless the array has exactly one entry. -/
noncomputable def fromLLArray (c : Criterion) (n : ℝ) (p : List ℝ) (ll : List Flt) : Except PyErr (List Flt) :=
  if c = .aicc ∧ p.length ≠ 1 then .error .valueError
  else (List.zip p ll).mapM fun pl => fromLL c n pl.1 pl.2

/-- `from_rss` for arrays. -/
noncomputable def fromRssArray (c : Criterion) (n : ℝ) (p rss : List ℝ) : Except PyErr (List Flt) :=
  fromLLArray c n p (rss.map (llFromRss n))

open Classical in
/-- `np.argmin`: the first NaN if there is one, else the first index of the minimum; `ValueError` for an empty array. -/
noncomputable def argminFlt (l : List Flt) : Except PyErr ℕ :=
  match l with
  | [] => .error .valueError
  | _ =>
    match l.findIdx? fun v => v = .nan with
    | some i => .ok i
    | none =>
      match l.findIdx? fun v => ∀ u ∈ l, Flt.le v u with
      | some i => .ok i
      | none => .error .valueError

/-- Selection of one model of a path, online_linear_model.py:162-167 and 223-228: the position of the
smallest criterion. -/
noncomputable def selectByRss (c : Criterion) (n : ℝ) (p rss : List ℝ) : Except PyErr ℕ := do
  let ic ← fromRssArray c n p rss
  argminFlt ic

open Classical in
/-- `np.sum(~np.isclose(beta, 0))` for one coefficient vector: `isclose` with the default absolute tolerance
1e-8. -/
noncomputable def nParams {p : ℕ} (beta : Row p) : ℕ :=
  ((List.finRange p).filter fun j => ¬ |beta j| ≤ 1 / 100000000).length

end Ondil
