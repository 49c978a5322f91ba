import Verif.Spec.LinearModel

/-!
# Reversing the direction of features and of the response
-/

namespace Ondil

variable {p : ℕ}

/-- `1` keeps a direction, `-1` reverses it. -/
def IsSign (a : ℝ) : Prop := a = 1 ∨ a = -1

/-- A row with some of its features reversed. -/
def Row.turn (e : Fin p → ℝ) (x : Row p) : Row p := fun j => e j * x j

/-- An observation with some of its features, and possibly its response, reversed. -/
def Obs.turn (e : Fin p → ℝ) (t : ℝ) (o : Obs p) : Obs p := ⟨Row.turn e o.x, t * o.y, o.w⟩

/-- The methods without bounds and start values: ordinary least squares; ridge; elastic net and lasso paths, which in addition
need a coefficient that is not penalised. -/
def MethodObj.SignFree {q : ℕ} (reg : Fin q → Bool) : MethodObj q → Prop
  | .ols => True
  | .path a => a.lower = none ∧ a.upper = none ∧ ∃ j, reg j = false
  | .ridge a => a.startBeta = none ∧ a.lower = none ∧ a.upper = none

/-- The bound for coefficient `j` in a list of bounds, `none` for an infinite one.  Without a list there are no bounds. -/
def boundAt (l : Option (List (Option ℝ))) (j : ℕ) : Option ℝ := l.bind fun l => l.getD j none

/-- Bounds for coefficients some of which are reversed: for these, lower and upper bounds change places and signs. -/
structure TurnedBounds {q : ℕ} (s : Fin q → ℝ) (lower upper lower' upper' : Option (List (Option ℝ))) : Prop where
  /-- One entry for each coefficient. -/
  lengths : ∀ l, some l ∈ [lower, upper, lower', upper'] → l.length = q
  /-- No lower bound above its upper bound. -/
  ordered : ∀ (j : Fin q) (a b : ℝ), boundAt lower j = some a → boundAt upper j = some b → a ≤ b
  same : ∀ j : Fin q, s j = 1 → boundAt lower' j = boundAt lower j ∧ boundAt upper' j = boundAt upper j
  reversed : ∀ j : Fin q, s j = -1 →
    boundAt lower' j = (boundAt upper j).map (fun b => -b) ∧ boundAt upper' j = (boundAt lower j).map (fun b => -b)

/-- The second method is the first one for coefficients some of which are reversed: same arguments, except that the bounds and the
start value are those of the reversed coefficients.  Paths in addition need a coefficient that is not penalised. -/
def MethodObj.Turned {q : ℕ} (reg : Fin q → Bool) (s : Fin q → ℝ) : MethodObj q → MethodObj q → Prop
  | .ols, .ols => True
  | .path a, .path a' => a' = { a with lower := a'.lower, upper := a'.upper } ∧
      TurnedBounds s a.lower a.upper a'.lower a'.upper ∧ ∃ j, reg j = false
  | .ridge a, .ridge a' =>
      a' = { a with startBeta := a.startBeta.map (Row.turn s), lower := a'.lower, upper := a'.upper } ∧
      TurnedBounds s a.lower a.upper a'.lower a'.upper
  | _, _ => False

end Ondil
