import Verif.Model.GamlssInstances
import Verif.Spec.LinearModel
import Verif.Spec.LeastSquares

/-!
# What the distributional regression estimates (C102)

In every pass the coefficients of a distribution parameter are those of a weighted regression of the working response on the
columns of its equation.  These definitions say what the data of this regression are, what is minimised and what an
estimator that keeps the estimates of all data has stored.
-/

open scoped BigOperators

namespace Ondil

variable {μ : Type} {p : ℕ}

/-- The rows `d` are the data of the weighted regression for parameter `k` at the fitted values `fv`: columns of the equation,
working response, and sample weight times working weight.  `clip` is the smallest working weight. -/
structure WorkingRows {J : ℕ} (D : DistOps) (clip : ℝ) (data : List (Obs p)) (X : Arr2) (fv : Fv) (k : ℕ) (d : List (Obs J)) :
    Prop where
  X : X = (xs d).map ofVec
  working : ∃ wk, Ondil.working D clip (ys data) fv k = .ok wk ∧ wk.wv = (ys d).map Flt.fin ∧
    wmul (ws data) wk.wt = (ws d).map Flt.fin

/-- The coefficient `j` is penalised: all are but the intercept, which stands first, unless it is asked for or there is
nothing but the intercept. -/
def Penalised (fi ri : Bool) (eq : Equation) (j : ℕ) : Prop := ¬ (j = 0 ∧ fi = true ∧ ri = false ∧ eq ≠ .str "intercept")

open Classical in
/-- Half the discounted squared error plus `lam` times the elastic net penalty of the coefficients in `pen`. -/
noncomputable def penalisedError {J : ℕ} (forget lam alpha : ℝ) (pen : ℕ → Prop) (d : List (Obs J)) (b : Row J) : ℝ :=
  1 / 2 * discSSE forget d b + lam * ∑ j : Fin J, if pen j then coefPenalty alpha (b j) else 0

/-- The estimator keeps for parameter `k` the discounted cross products of all rows `d`, and `pen` are the coefficients it
penalises. -/
structure KeepsRows {J : ℕ} (t : GState μ p) (k : ℕ) (forget : ℝ) (pen : ℕ → Prop) (d : List (Obs J)) : Prop where
  stored : t.forget.get? k = some forget
  penalised : ∃ reg, t.isRegularized.get? k = some reg ∧ ∀ j : Fin J, flags J reg j = true ↔ pen j
  xGram : ∃ G : Matrix (Fin J) (Fin J) ℝ, t.xGram k = some (ofMat G) ∧
    ∀ i j, G i j = discSum forget d fun o => o.w * o.x i * o.x j
  yGram : ∃ h : Row J, t.yGram k = some (ofVec h) ∧ ∀ j, h j = discSum forget d fun o => o.w * o.y * o.x j

/-- The coefficients of parameter `k` are the least squares estimates on the rows `d`, and the inverted Gramian is kept. -/
structure KeepsLeastSquares {J : ℕ} (t : GState MethodState p) (k : ℕ) (forget : ℝ) (d : List (Obs J)) : Prop where
  method : t.method k = some .ols
  stored : t.forget.get? k = some forget
  xGram : ∃ G : Matrix (Fin J) (Fin J) ℝ, (∀ i j, G i j = discSum forget d fun o => o.w * o.x i * o.x j) ∧ IsUnit G.det ∧
    t.xGram k = some (ofMat G⁻¹)
  yGram : ∃ h : Row J, t.yGram k = some (ofVec h) ∧ ∀ j, h j = discSum forget d fun o => o.w * o.y * o.x j
  coef : ∃ b : Row J, t.coef k = some (ofVec b) ∧ IsLeastSquares forget d b

/-- What a method object may become when it is used: `Ridge` stores the penalty it determines, a penalty that is there stays. -/
def MethodState.MayBecome : MethodState → MethodState → Prop
  | .ols, m => m = .ols
  | .path a, m => m = .path a
  | .ridge a, m => ∃ lam, m = .ridge { a with lambdaReg := some lam } ∧ ∀ l, a.lambdaReg = some l → lam = l

/-- For arrays that are not finite, too, the methods do to their objects what they do to them otherwise. -/
structure KeepsObjects (other : MethodOps MethodState) : Prop where
  fitBeta : ∀ m G h reg b m', other.fitBeta m G h reg = .ok (b, m') → m.MayBecome m'
  updateBeta : ∀ m G h b0 reg b m', other.updateBeta m G h b0 reg = .ok (b, m') → m.MayBecome m'
  fitPath : ∀ m G h reg b m', other.fitPath m G h reg = .ok (b, m') → m.MayBecome m'
  updatePath : ∀ m G h b0 reg b m', other.updatePath m G h b0 reg = .ok (b, m') → m.MayBecome m'

end Ondil
