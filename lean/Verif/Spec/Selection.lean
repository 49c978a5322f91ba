import Verif.Spec.Criteria
import Verif.Model.GamlssInstances
import Verif.Spec.LeastSquares

/-!
# Specification vocabulary: choice of a model on a coefficient path (C89, C90)

From the model only the names of the options and the types of arrays are used, and for what an estimator stores the
attributes of the estimator and the working quantities of an iteration.
-/

namespace Ondil

/-- The log-likelihood a stored statistic stands for: under "global_ll" the statistic is the log-likelihood, under "local_rss"
it is a residual sum of squares, and the log-likelihood is that of normal errors with variance `rss / n`. -/
noncomputable def statisticLL (m : Selecting) (n stat : ℝ) : ℝ :=
  match m with
  | .localRss => -(n / 2) * (Real.log (2 * Real.pi * (stat / n)) + 1)
  | .globalLL => stat

open Classical in
/-- The number of coefficients different from zero. -/
noncomputable def activeCoefs (b : Arr1) : ℕ := b.countP fun v => decide (v ≠ Flt.fin 0)

/-- Row `i` is the first best row of the path: no row has a smaller criterion, and every earlier row has a larger one. -/
def BestRow (m : Selecting) (c : Criterion) (n : ℝ) (path : Arr2) (stats : Arr1) (i : ℕ) : Prop :=
  ∃ b r, path[i]? = some b ∧ stats[i]? = some (.fin r) ∧ ∀ j b' r', path[j]? = some b' → stats[j]? = some (.fin r') →
    textbookIc c n (activeCoefs b) (statisticLL m n r) ≤ textbookIc c n (activeCoefs b') (statisticLL m n r') ∧
    (j < i → textbookIc c n (activeCoefs b) (statisticLL m n r) < textbookIc c n (activeCoefs b') (statisticLL m n r'))

/-- The statistics are numbers for which the criteria are defined. -/
def Scorable (m : Selecting) (stats : Arr1) : Prop :=
  ∀ d ∈ stats, ∃ r, d = Flt.fin r ∧ (m = .localRss → 0 < r)

/-- The statistics of a path under "local_rss" after `fit`: whenever the arrays are numbers, namely the rows of a weighted
regression `d` (regressors, working response, sample weight times working weight), the statistic of the row `b` of the path is
the discounted weighted residual sum of squares of `b` over the mean of the discounted weights. -/
def RssStatistics (forget : ℝ) (w : List ℝ) (X : Arr2) (wt wv : Arr1) (path : Arr2) (stats : Arr1) : Prop :=
  ∀ (J : ℕ) (d : List (Obs J)) (W : List ℝ), d ≠ [] → X = d.map (fun o => ofVec o.x) → wv = d.map (fun o => .fin o.y) →
    wt = W.map Flt.fin → W.length = d.length → w.length = d.length → ws d = List.zipWith (fun a b => a * b) w W →
    discSum forget d Obs.w ≠ 0 → ∀ (j : ℕ) (b : Row J), path[j]? = some (ofVec b) →
      stats[j]? = some (.fin (discSSE forget d b / (discSum forget d Obs.w / d.length)))

/-- The statistics of a path under "global_ll": the discounted log-likelihood, weighted by `w`, of the responses when
parameter `k` is predicted with the row of the path and the others are `theta`. -/
def LLStatistics (D : DistOps) (k : ℕ) (y : List ℝ) (forget : ℝ) (w : List ℝ) (X : Arr2) (theta : Fv) (path : Arr2)
    (stats : Arr1) : Prop :=
  ∀ (j : ℕ) (b : Arr1), path[j]? = some b → ∃ eta v, matVec X b = .ok eta ∧ D.linkInverse k eta = .ok v ∧
    ∀ l : List ℝ, D.logpdf y (theta.setCol k v) = l.map Flt.fin → l.length = y.length → w.length = y.length →
      stats[j]? = some (.fin (discSum forget (w.zip l) fun q => q.1 * q.2))

/-- The statistics of a path under "local_rss" after `update`, `old` being the ones before: the weighted residual sum of squares
of the new rows, and the old statistic times `meanW` discounted, over `denom`. -/
def UpdateRssStatistics (forget : ℝ) (w : List ℝ) (X : Arr2) (wt wv : Arr1) (path : Arr2) (old : Arr1) (meanW denom : Flt)
    (stats : Arr1) : Prop :=
  ∀ (J : ℕ) (d : List (Obs J)) (W : List ℝ), X = d.map (fun o => ofVec o.x) → wv = d.map (fun o => .fin o.y) →
    wt = W.map Flt.fin → W.length = d.length → w.length = d.length → ws d = List.zipWith (fun a b => a * b) w W →
    ∀ m q : ℝ, meanW = .fin m → denom = .fin q → q ≠ 0 → ∀ (j : ℕ) (b : Row J) (o : ℝ), path[j]? = some (ofVec b) →
      old[j]? = some (.fin o) → stats[j]? = some (.fin ((discSSE forget d b + (1 - forget) ^ d.length * (o * m)) / q))

/-- The statistics of a path under "global_ll" after `update`: the discounted weighted log-likelihood of the new responses, and
the old statistic discounted. -/
def UpdateLLStatistics (D : DistOps) (k : ℕ) (y : List ℝ) (forget : ℝ) (w : List ℝ) (X : Arr2) (theta : Fv) (path : Arr2)
    (old stats : Arr1) : Prop :=
  ∃ new, LLStatistics D k y forget w X theta path new ∧ ∀ (j : ℕ) (l o : ℝ), new[j]? = some (.fin l) → old[j]? = some (.fin o) →
    stats[j]? = some (.fin (l + (1 - forget) ^ y.length * o))

section

variable {μ : Type} {p : ℕ}

/-- The selection stored for parameter `k`: the coefficients are the row of the stored path at the stored position, and by the
stored statistics and the configured criterion no other row is better. -/
structure SelectedRow (m : Selecting) (t : GState μ p) (k : ℕ) (path : Arr2) (stats : Arr1) : Prop where
  stored : t.selection k = some stats
  row : ∃ b, t.coef k = some b ∧ path[t.bestIc k]? = some b
  best : ∃ n ic, t.nTraining.get? k = some n ∧ t.ic.get? k = some ic ∧
    (1 < n → Scorable m stats → BestRow m ic n path stats (t.bestIc k))

/-- The statistics of the rows of a path of parameter `k` in `fit`: the path is what the estimation method returned for the
Gramians of the working response and weights of one iteration, and the statistics score its rows by the data, the design
matrix, the forget factor and, under "local_rss", the same working response and weights `wt`. -/
def RowStatistics (c : Call μ p) (k : ℕ) (forget : ℝ) (wt : Arr1) (path : Arr2) (stats : Arr1) : Prop :=
  stats.length = path.length ∧ ∃ X fv wk, c.X k = some X ∧ fv.length = c.y.length ∧
    working c.D fitClip c.y fv k = .ok wk ∧ wk.wt = wt ∧
    (∃ m xg yg reg first start m', c.M.initX m X (wmul c.w wk.wt) forget = .ok xg ∧
      c.M.initY m X wk.wv (wmul c.w wk.wt) forget = .ok yg ∧ fitPathFrom c.M m xg yg reg first start = .ok (path, m')) ∧
    (c.cfg.modelSelection = .localRss → RssStatistics forget c.w X wk.wt wk.wv path stats) ∧
    (c.cfg.modelSelection = .globalLL →
      ∃ theta : Fv, theta.length = c.y.length ∧ LLStatistics c.D k c.y forget (List.replicate c.y.length 1) X theta path stats)

/-- The statistics stored by `fit` for parameter `k`, with sum and mean of the weights of the regression. -/
def FitStatistics (c : Call μ p) (t : GState μ p) (k : ℕ) (path : Arr2) (stats : Arr1) : Prop :=
  ∃ forget wt, t.forget.get? k = some forget ∧ t.sumW k = some (asum (wmul c.w wt)) ∧ t.meanW k = some (amean (wmul c.w wt)) ∧
    RowStatistics c k forget wt path stats

/-- The statistics of the rows of a path of parameter `k` in `update`: the path is what the estimation method returned for the
Gramians of the estimator `s`, updated with the working response and weights of one iteration, and the statistics add up the
scores of its rows by the batch and the old statistics. -/
def UpdatedRows (c : Call μ p) (s : GState μ p) (k : ℕ) (forget nObs : ℝ) (meanW : Flt) (wt : Arr1) (path : Arr2) (old stats : Arr1) : Prop :=
  stats.length = min path.length old.length ∧ ∃ X fv wk, c.X k = some X ∧ fv.length = c.y.length ∧
    working c.D updateClip c.y fv k = .ok wk ∧ wk.wt = wt ∧
    (∃ m x0 xg y0 yg start reg m', s.xGram k = some x0 ∧ s.yGram k = some y0 ∧ c.M.updateX m x0 X (wmul c.w wk.wt) forget = .ok xg ∧
      c.M.updateY m y0 X wk.wv (wmul c.w wk.wt) forget = .ok yg ∧ c.M.updatePath m xg yg start reg = .ok (path, m')) ∧
    (c.cfg.modelSelection = .localRss →
      UpdateRssStatistics forget c.w X wk.wt wk.wv path old meanW (onlineMeanLoopFlt forget nObs meanW wt) stats) ∧
    (c.cfg.modelSelection = .globalLL →
      ∃ theta : Fv, theta.length = c.y.length ∧ UpdateLLStatistics c.D k c.y forget c.w X theta path old stats)

/-- The statistics stored by `update` for parameter `k` of an estimator with attributes `s`, with sum and mean of the weights. -/
def UpdateStatistics (c : Call μ p) (s t : GState μ p) (k : ℕ) (path : Arr2) (stats : Arr1) : Prop :=
  ∃ forget old meanW sumW nObs nTraining wt, s.forget.get? k = some forget ∧ s.selection k = some old ∧ s.meanW k = some meanW ∧
    s.sumW k = some sumW ∧ t.nObs = some nObs ∧ t.nTraining.get? k = some nTraining ∧
    t.sumW k = some (Flt.add (asum (wmul c.w wt)) (Flt.mul (Flt.sub (.fin 1) (.fin forget)) sumW)) ∧
    t.meanW k = some (Flt.div (Flt.add (asum (wmul c.w wt)) (Flt.mul (Flt.sub (.fin 1) (.fin forget)) sumW)) (.fin nTraining)) ∧
    UpdatedRows c s k forget nObs meanW wt path old stats

end

end Ondil
