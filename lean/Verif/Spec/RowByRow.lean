/-!
# Specification vocabulary for functions applied to a matrix row by row
-/

namespace Ondil

/-- `f`, a function of a matrix given as the list of its rows, works row by row: either it raises the same exception for every
matrix that has a row, or there is a function of one row and `f` returns its values at the rows, in their order, for every matrix
that has a row. -/
def RowByRow {α β ε : Type} (f : List α → Except ε (List β)) : Prop :=
  (∃ e, ∀ X, X ≠ [] → f X = .error e) ∨ ∃ g : α → β, ∀ X, X ≠ [] → f X = .ok (X.map g)

/-- Several functions of a matrix, each of them row by row: they raise the same exception for all matrices, or return one
column each. -/
def ColsByRow {α β ε : Type} (f : List α → Except ε (List (List β))) : Prop :=
  (∃ e, ∀ X, X ≠ [] → f X = .error e) ∨ ∃ gs : List (α → β), ∀ X, X ≠ [] → f X = .ok (gs.map fun g => X.map g)

end Ondil
