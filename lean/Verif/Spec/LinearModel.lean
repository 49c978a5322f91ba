import Verif.Spec.Moments
import Verif.Spec.LeastSquares
import Verif.Spec.Criteria
import Verif.Model.LinearModel

/-!
# Specification vocabulary for the linear model

Only the constructor arguments (`ToScale`, `designDim`, `designRow`) are taken from the model.
-/

open scoped BigOperators

namespace Ondil

/-- Is column `j` standardised? -/
def ToScale.Selects {p : ℕ} : ToScale p → Fin p → Prop
  | .all, _ => True
  | .off, _ => False
  | .mask m, j => m j = true
  | .index l, j => j ∈ l

open Classical in
/-- A row standardised with the exponentially weighted moments of a history. -/
noncomputable def standardise {p : ℕ} (t : ToScale p) (forget : ℝ) (h : List (Obs p)) (x : Row p) :
    Row p :=
  fun j => if t.Selects j then (x j - ewMean forget h j) / Real.sqrt (ewVar forget h j) else x j

/-- The observations as rows of the design matrix: standardised with the moments of `seen`, with an
intercept column if requested. -/
noncomputable def designObs {p : ℕ} (t : ToScale p) (forget : ℝ) (fi : Bool) (seen b : List (Obs p)) :
    List (Obs (designDim p fi)) :=
  b.map fun o => ⟨designRow fi (standardise t forget seen o.x), o.y, o.w⟩

/-- The design the model works with after updates: every batch standardised with the moments of the data
seen up to and including this batch. -/
noncomputable def mixedDesign {p : ℕ} (t : ToScale p) (forget : ℝ) (fi : Bool) :
    List (Obs p) → List (List (Obs p)) → List (Obs (designDim p fi))
  | _, [] => []
  | seen, b :: bs => designObs t forget fi (seen ++ b) b ++ mixedDesign t forget fi (seen ++ b) bs

/-- The elastic net penalty of one coefficient. -/
noncomputable def coefPenalty (alpha v : ℝ) : ℝ := alpha * |v| + (1 - alpha) / 2 * v ^ 2

/-- The penalty of a coefficient vector: every feature is penalised, the intercept (coefficient 0 of a model with
intercept) only if `ri`. -/
noncomputable def totalPenalty {p : ℕ} (alpha : ℝ) (ri : Bool) : (fi : Bool) → Row (designDim p fi) → ℝ
  | true, b => (∑ j : Fin p, coefPenalty alpha (b (Fin.succ j))) +
      if ri = true then coefPenalty alpha (b (0 : Fin (p + 1))) else 0
  | false, b => ∑ j : Fin p, coefPenalty alpha (b j)

/-- Penalised least squares: half the discounted squared error plus `lam` times the penalty. -/
noncomputable def penalisedLoss {p : ℕ} (forget lam alpha : ℝ) (ri fi : Bool)
    (d : List (Obs (designDim p fi))) (b : Row (designDim p fi)) : ℝ :=
  1 / 2 * discSSE forget d b + lam * totalPenalty alpha ri fi b

open Classical in
/-- The number of coefficients that differ from zero by more than `1e-8`. -/
noncomputable def modelSize {q : ℕ} (b : Row q) : ℕ :=
  (Finset.univ.filter fun j : Fin q => (1 : ℝ) / 10 ^ 8 < |b j|).card

/-- `b` is the first row of `path` with the smallest criterion by the textbook: `n` observations, the size of a row as number
of parameters, and the Gaussian log-likelihood at the variance `rss / n`. -/
def BestByTextbook {q : ℕ} (ic : Criterion) (n : ℝ) (path : List (Row q)) (rss : List ℝ) (b : Row q) : Prop :=
  ∃ (i : ℕ) (r : ℝ), path[i]? = some b ∧ rss[i]? = some r ∧
    ∀ (j : ℕ) (b' : Row q) (r' : ℝ), path[j]? = some b' → rss[j]? = some r' →
      textbookIc ic n (modelSize b) (gaussianLL n r (r / n)) ≤ textbookIc ic n (modelSize b') (gaussianLL n r' (r' / n)) ∧
      (j < i → textbookIc ic n (modelSize b) (gaussianLL n r (r / n)) <
        textbookIc ic n (modelSize b') (gaussianLL n r' (r' / n)))

/-- Without scaling: the observations with an intercept column if requested. -/
def plainObs {p : ℕ} (fi : Bool) (b : List (Obs p)) : List (Obs (designDim p fi)) :=
  b.map fun o => ⟨designRow fi o.x, o.y, o.w⟩

end Ondil
