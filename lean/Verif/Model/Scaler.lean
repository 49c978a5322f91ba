import Verif.Model.Gram
import Verif.Model.Flt

/-!
# Model of `src/ondil/scaler.py` (`OnlineScaler`)

`to_scale` selects columns by a boolean mask or an index array; both amount to a map
`sel : Fin k → Fin p` from positions of `mean_`/`var_` to columns (`X[:, self._selection]`).
Negative numpy indices are taken as already normalised; the same column may be selected more than once.
`to_scale=False` (`_do_scale = False`) is the constructor `ToScale.off`.
-/

open scoped BigOperators

namespace Ondil

/-- The constructor argument `to_scale`, scaler.py:18-36. -/
inductive ToScale (p : ℕ)
  | all
  | off
  | mask (m : Fin p → Bool)
  | index (l : List (Fin p))

/-- `_prepare_estimator`, scaler.py:41-52: the selected columns; `none` means `_do_scale = False`. -/
def ToScale.selection {p : ℕ} : ToScale p → Option (List (Fin p))
  | .all => some (List.finRange p)
  | .off => none
  | .mask m => some ((List.finRange p).filter fun j => m j)
  | .index l => some l

/-- The fitted attributes of the scaler for `k` selected columns. -/
structure ScalerState (k : ℕ) where
  /-- `n_observations_` -/
  nObs : ℝ
  /-- `_cumulative_w` -/
  cumW : ℝ
  /-- `mean_` -/
  mean : Fin k → ℝ
  /-- `var_` -/
  var : Fin k → ℝ
  /-- `_M` -/
  M : Fin k → ℝ

/-- `np.average(v, weights=w)`. -/
noncomputable def npAverage (v w : List ℝ) : ℝ :=
  (List.zipWith (fun a b => a * b) v w).sum / w.sum

/-- `OnlineScaler.fit` with `_do_scale`, scaler.py:84-112.  `validate_data(ensure_min_samples=2)` is the
`ValueError`; `np.average` raises `ZeroDivisionError` when the weights sum to zero. -/
noncomputable def scalerFit {p k : ℕ} (sel : Fin k → Fin p) (forget : ℝ) (X : List (Row p))
    (sample_weight : List ℝ) : Except PyErr (ScalerState k) :=
  if X.length < 2 then .error .valueError
  else
    let forget_vector := initForgetVector forget X.length
    let effective_weights := List.zipWith (fun a b => a * b) sample_weight forget_vector
    let cumulative_w := effective_weights.sum
    if cumulative_w = 0 then .error .zeroDivision
    else
      let mean : Fin k → ℝ := fun i => npAverage (X.map fun x => x (sel i)) effective_weights
      let var : Fin k → ℝ := fun i =>
        npAverage (X.map fun x => (x (sel i) - mean i) ^ 2) effective_weights
      .ok { nObs := sample_weight.sum, cumW := cumulative_w, mean := mean, var := var,
            M := fun i => var i * cumulative_w }

/-- One iteration of the row loop of `OnlineScaler.update`, scaler.py:138-156. -/
noncomputable def scalerStep {p k : ℕ} (sel : Fin k → Fin p) (forget : ℝ) (s : ScalerState k)
    (x : Row p) (w : ℝ) : ScalerState k :=
  let eff_old_w := s.cumW * (1 - forget)
  let cumW := eff_old_w + w
  let diff_old : Fin k → ℝ := fun i => x (sel i) - s.mean i
  let mean : Fin k → ℝ := fun i => (s.mean i * eff_old_w + x (sel i) * w) / cumW
  let diff_new : Fin k → ℝ := fun i => x (sel i) - mean i
  let M : Fin k → ℝ := fun i => s.M i * (1 - forget) + w * diff_old i * diff_new i
  { s with cumW := cumW, mean := mean, M := M, var := fun i => M i / cumW }

/-- The row loop of `OnlineScaler.update`, scaler.py:137. -/
noncomputable def scalerLoop {p k : ℕ} (sel : Fin k → Fin p) (forget : ℝ) :
    ScalerState k → List (Row p) → List ℝ → ScalerState k
  | s, x :: X, w :: W => scalerLoop sel forget (scalerStep sel forget s x w) X W
  | s, _, _ => s

/-- `OnlineScaler.update` with `_do_scale`, scaler.py:123-161. -/
noncomputable def scalerUpdate {p k : ℕ} (sel : Fin k → Fin p) (forget : ℝ) (s : ScalerState k)
    (X : List (Row p)) (sample_weight : List ℝ) : Except PyErr (ScalerState k) :=
  if X.length < 1 then .error .valueError
  else .ok (scalerLoop sel forget { s with nObs := s.nObs + sample_weight.sum } X sample_weight)

/-- The assignment `out[:, selection] = vals` for one row: positions are written in order. -/
def assignCols {p k : ℕ} {α : Type*} (sel : Fin k → Fin p) (x : Fin p → α) (vals : Fin k → α) :
    Fin p → α :=
  (List.finRange k).foldl (fun out i => Function.update out (sel i) (vals i)) x

/-- One row of `OnlineScaler.transform` with `_do_scale`, scaler.py:183-187 (real arithmetic; a zero
variance gives a non-finite result in the code, see `transformRowFlt`). -/
noncomputable def transformRow {p k : ℕ} (sel : Fin k → Fin p) (s : ScalerState k) (x : Row p) : Row p :=
  assignCols sel x fun i => (x (sel i) - s.mean i) / Real.sqrt (s.var i)

/-- One row of `OnlineScaler.inverse_transform` with `_do_scale`, scaler.py:210-214. -/
noncomputable def inverseTransformRow {p k : ℕ} (sel : Fin k → Fin p) (s : ScalerState k) (x : Row p) :
    Row p :=
  assignCols sel x fun i => x (sel i) * Real.sqrt (s.var i) + s.mean i

/-- One row of `OnlineScaler.transform` with floating-point division (`x/0` is infinite or NaN). -/
noncomputable def transformRowFlt {p k : ℕ} (sel : Fin k → Fin p) (s : ScalerState k) (x : Row p) :
    Fin p → Flt :=
  assignCols sel (fun j => Flt.fin (x j)) fun i =>
    (Flt.fin (x (sel i) - s.mean i)).div (Flt.fin (s.var i)).sqrt

/-- The scaler object after `fit`: the flag `_do_scale = False` has no statistics. -/
inductive Scaler (p : ℕ)
  | off (nObs : ℝ)
  | on (k : ℕ) (sel : Fin k → Fin p) (s : ScalerState k)

/-- `OnlineScaler.fit`, scaler.py:70-112. -/
noncomputable def Scaler.fit {p : ℕ} (to_scale : ToScale p) (forget : ℝ) (X : List (Row p))
    (sample_weight : List ℝ) : Except PyErr (Scaler p) :=
  match to_scale.selection with
  | none => if X.length < 2 then .error .valueError else .ok (.off sample_weight.sum)
  | some l => do
    let s ← scalerFit l.get forget X sample_weight
    return .on l.length l.get s

/-- `OnlineScaler.update`, scaler.py:115-161. -/
noncomputable def Scaler.update {p : ℕ} (forget : ℝ) (X : List (Row p)) (sample_weight : List ℝ) :
    Scaler p → Except PyErr (Scaler p)
  | .off n => if X.length < 1 then .error .valueError else .ok (.off (n + sample_weight.sum))
  | .on k sel s => do
    let s' ← scalerUpdate sel forget s X sample_weight
    return .on k sel s'

/-- `OnlineScaler.transform`, scaler.py:163-189. -/
noncomputable def Scaler.transform {p : ℕ} (X : List (Row p)) : Scaler p → List (Row p)
  | .off _ => X
  | .on _ sel s => X.map (transformRow sel s)

/-- `OnlineScaler.inverse_transform`, scaler.py:191-216. -/
noncomputable def Scaler.inverseTransform {p : ℕ} (X : List (Row p)) : Scaler p → List (Row p)
  | .off _ => X
  | .on _ sel s => X.map (inverseTransformRow sel s)

/-- `n_observations_`, scaler.py:94 and 133. -/
def Scaler.nObservations {p : ℕ} : Scaler p → ℝ
  | .off n => n
  | .on _ _ s => s.nObs

end Ondil
