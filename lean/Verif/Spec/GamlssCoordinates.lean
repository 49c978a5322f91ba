import Verif.Model.GamlssInstances
import Mathlib.LinearAlgebra.Matrix.NonsingularInverse

/-!
# Specification: the coordinates of the features in the distributional regression
-/

namespace Ondil

/-- An observation whose features are given in other coordinates. -/
def Obs.inCoordinates {p : ℕ} (T : Row p → Row p) (o : Obs p) : Obs p := { o with x := T o.x }

/-- In the new coordinates `T x` of the features, the regressors of the equation `eq` are invertible combinations, by the
matrix `A`, of the old ones. -/
def SameSpan {p J : ℕ} (fi : Bool) (eq : Equation) (T : Row p → Row p) (A : Matrix (Fin J) (Fin J) ℝ) : Prop :=
  IsUnit A.det ∧ ∀ x : Row p,
    (∃ e, modelRow (1 : ℝ) fi eq x = .error e ∧ modelRow (1 : ℝ) fi eq (T x) = .error e) ∨
    ∃ v : Row J, modelRow (1 : ℝ) fi eq x = .ok ((List.finRange J).map v) ∧
      modelRow (1 : ℝ) fi eq (T x) = .ok ((List.finRange J).map (Matrix.vecMul v A))

/-- Every column in its own unit and from its own origin. -/
def Row.units {p : ℕ} (d v : Row p) (x : Row p) : Row p := fun j => d j * x j + v j

/-- For arrays that are not finite the results depend on the sizes only: an exception, or NaN. -/
structure NanOrRaise (other : MethodOps MethodState) : Prop where
  initX : ∀ n w f, (∃ e, ∀ X, width X = n → other.initX .ols X w f = .error e) ∨
    ∀ X, width X = n → other.initX .ols X w f = .ok (List.replicate n (List.replicate n .nan))
  initY : ∀ n y w f, (∃ e, ∀ X, width X = n → other.initY .ols X y w f = .error e) ∨
    ∀ X, width X = n → other.initY .ols X y w f = .ok (List.replicate n .nan)
  updateX : ∀ n w f, (∃ e, ∀ G X, width X = n → other.updateX .ols G X w f = .error e) ∨
    ∀ G X, width X = n → other.updateX .ols G X w f = .ok (List.replicate n (List.replicate n .nan))
  updateY : ∀ n y w f, (∃ e, ∀ h X, width X = n → other.updateY .ols h X y w f = .error e) ∨
    ∀ h X, width X = n → other.updateY .ols h X y w f = .ok (List.replicate n .nan)
  fitBeta : ∀ n reg, (∃ e, ∀ G h, G.length = n → other.fitBeta .ols G h reg = .error e) ∨
    ∀ G h, G.length = n → other.fitBeta .ols G h reg = .ok (List.replicate n .nan, .ols)
  updateBeta : ∀ n reg, (∃ e, ∀ G h b, G.length = n → other.updateBeta .ols G h b reg = .error e) ∨
    ∀ G h b, G.length = n → other.updateBeta .ols G h b reg = .ok (List.replicate n .nan, .ols)

end Ondil
