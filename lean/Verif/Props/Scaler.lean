import Verif.Lemmas.Scaler
import Mathlib.Tactic.NormNum
import Mathlib.Tactic.FinCases
import Mathlib.LinearAlgebra.Matrix.Notation

/-!
# Properties C12–C16: `OnlineScaler` (`src/ondil/scaler.py`)
-/

open scoped BigOperators

namespace Ondil

variable {p k : ℕ}

/-- The scaler statistics after `fit` and a sequence of `update` calls. -/
noncomputable def onlineScaler (sel : Fin k → Fin p) (forget : ℝ) (init : List (Obs p))
    (batches : List (List (Obs p))) : Except PyErr (ScalerState k) :=
  batches.foldlM (fun s b => scalerUpdate sel forget s (xs b) (ws b))
    =<< scalerFit sel forget (xs init) (ws init)

theorem onlineScaler_eq (sel : Fin k → Fin p) {forget : ℝ} (hf : forget < 1) (init : List (Obs p))
    (batches : List (List (Obs p))) (hlen : 2 ≤ init.length) (hne : ∀ b ∈ batches, b ≠ [])
    (hW : 0 < totalWeight forget init) (hb : ∀ b ∈ batches, NonnegWeights b) :
    onlineScaler sel forget init batches = .ok (canonScaler sel forget (init ++ batches.flatten)) ∧
    0 < totalWeight forget (init ++ batches.flatten) := by
  unfold onlineScaler
  rw [scalerFit_eq sel forget init hlen hW.ne']
  change batches.foldlM _ (canonScaler sel forget init) = _ ∧ _
  clear hlen
  induction batches generalizing init with
  | nil => rw [List.flatten_nil, List.append_nil]; exact ⟨rfl, hW⟩
  | cons b bs ih =>
    have hbb := hb b (by simp)
    rw [List.foldlM_cons, scalerUpdate_canon sel hf init b hW hbb (hne b (by simp))]
    have := ih (init ++ b) (fun c hc => hne c (by simp [hc]))
      (totalWeight_append_pos hf init b hW hbb) (fun c hc => hb c (by simp [hc]))
    simp only [List.flatten_cons, ← List.append_assoc]
    exact this

/-! ## C12 Scaler statistics are the exponentially weighted moments of the whole stream -/

/-- **C12.** After `fit` and any sequence of updates the mean and variance of every selected column
are the exponentially weighted mean and population variance over all data seen. -/
theorem C12_moments (sel : Fin k → Fin p) {forget : ℝ} (hf : forget < 1) (init : List (Obs p))
    (batches : List (List (Obs p))) (hlen : 2 ≤ init.length) (hne : ∀ b ∈ batches, b ≠ [])
    (hW : 0 < totalWeight forget init) (hb : ∀ b ∈ batches, NonnegWeights b) :
    ∃ s, onlineScaler sel forget init batches = .ok s ∧
      ∀ i, s.mean i = ewMean forget (init ++ batches.flatten) (sel i) ∧
           s.var i = ewVar forget (init ++ batches.flatten) (sel i) :=
  ⟨_, (onlineScaler_eq sel hf init batches hlen hne hW hb).1, fun _ => ⟨rfl, rfl⟩⟩

/-- **C12.** The whole state, not only mean and variance, is independent of the chunking. -/
theorem C12_chunking_irrelevant (sel : Fin k → Fin p) {forget : ℝ} (hf : forget < 1)
    (init init' : List (Obs p)) (bs bs' : List (List (Obs p)))
    (hlen : 2 ≤ init.length) (hlen' : 2 ≤ init'.length)
    (hne : ∀ b ∈ bs, b ≠ []) (hne' : ∀ b ∈ bs', b ≠ [])
    (hsame : init ++ bs.flatten = init' ++ bs'.flatten)
    (hW : 0 < totalWeight forget init) (hW' : 0 < totalWeight forget init')
    (hb : ∀ b ∈ bs, NonnegWeights b) (hb' : ∀ b ∈ bs', NonnegWeights b) :
    onlineScaler sel forget init bs = onlineScaler sel forget init' bs' := by
  rw [(onlineScaler_eq sel hf init bs hlen hne hW hb).1,
    (onlineScaler_eq sel hf init' bs' hlen' hne' hW' hb').1, hsame]

theorem scaler_bind_ok {α β : Type} {x : Except PyErr α} {f : α → Except PyErr β} {b : β} :
    (x >>= f) = .ok b ↔ ∃ a, x = .ok a ∧ f a = .ok b := by
  cases x <;> simp [bind, Except.bind]

theorem scalerLoop_nObs (sel : Fin k → Fin p) (forget : ℝ) (s : ScalerState k) (X : List (Row p)) (w : List ℝ) :
    (scalerLoop sel forget s X w).nObs = s.nObs := by
  induction X generalizing s w with
  | nil => rfl
  | cons x X ih =>
    cases w with
    | nil => rfl
    | cons a w => exact ih _ _

/-- **C12.** The scaler counts the sum of all weights seen as `n_observations_`, whether it scales or not. -/
theorem C12_observations (t : ToScale p) (forget : ℝ) (init : List (Obs p)) (batches : List (List (Obs p))) {sc : Scaler p}
    (h : (Scaler.fit t forget (xs init) (ws init) >>= fun s => batches.foldlM (fun s b => s.update forget (xs b) (ws b)) s) = .ok sc) :
    sc.nObservations = ((init ++ batches.flatten).map Obs.w).sum := by
  rw [scaler_bind_ok] at h
  obtain ⟨s0, h0, h⟩ := h
  have h1 : s0.nObservations = (init.map Obs.w).sum := by
    unfold Scaler.fit at h0
    split at h0
    · split_ifs at h0
      cases h0
      rfl
    · rw [scaler_bind_ok] at h0
      obtain ⟨s, hs, h0⟩ := h0
      cases h0
      unfold scalerFit at hs
      simp only at hs
      split_ifs at hs
      cases hs
      rfl
  clear h0
  induction batches generalizing s0 init with
  | nil =>
    cases h
    simpa using h1
  | cons b bs ih =>
    rw [List.foldlM_cons, scaler_bind_ok] at h
    obtain ⟨s1, h2, h⟩ := h
    have := ih (init ++ b) s1 h (by
      rw [List.map_append, List.sum_append, ← h1]
      cases s0 with
      | off n =>
        unfold Scaler.update at h2
        simp only at h2
        split_ifs at h2
        cases h2
        rfl
      | on K sel s =>
        unfold Scaler.update at h2
        simp only [scaler_bind_ok] at h2
        obtain ⟨s', h3, h2⟩ := h2
        cases h2
        unfold scalerUpdate at h3
        split_ifs at h3
        cases h3
        exact scalerLoop_nObs ..)
    rw [this, List.flatten_cons, List.append_assoc]

/-- Two updates without scaling, the second with fractional weights. -/
example : ∃ sc, (Scaler.fit (p := 1) .off 0 (xs [⟨![1], 0, 1⟩, ⟨![2], 0, 2⟩]) (ws [⟨![1], 0, 1⟩, ⟨![2], 0, 2⟩]) >>= fun s =>
    [[⟨![3], 0, 1⟩], [⟨![5], 0, 1 / 2⟩]].foldlM (fun s b => s.update 0 (xs b) (ws b)) s) = .ok sc ∧ sc.nObservations = 9 / 2 := by
  refine ⟨.off (1 + (2 + 0) + (1 + 0) + (1 / 2 + 0)), rfl, ?_⟩
  norm_num [Scaler.nObservations]

/-- **C12.** `fit` rejects fewer than two rows; a zero total weight is a `ZeroDivisionError`. -/
theorem C12_fit_errors (sel : Fin k → Fin p) (forget : ℝ) (h : List (Obs p)) :
    (h.length < 2 → scalerFit sel forget (xs h) (ws h) = .error .valueError) ∧
    (2 ≤ h.length → totalWeight forget h = 0 →
      scalerFit sel forget (xs h) (ws h) = .error .zeroDivision) := by
  have hl : (xs h).length = h.length := by simp [xs]
  constructor
  · intro h2
    simp [scalerFit, hl, h2]
  · intro h2 h3
    unfold scalerFit
    rw [hl, if_neg (by omega)]
    simp only [eff_sum, h3, if_true]

/-- **C12.** Positive weights make the total weight positive, so the theorems above apply. -/
theorem C12_totalWeight_pos {forget : ℝ} (hf : forget < 1) (h : List (Obs p)) (hne : h ≠ [])
    (hw : PosWeights h) : 0 < totalWeight forget h :=
  discSum_pos hf h hne hw

/-- Non-vacuity of C12: a concrete stream cut as `2 + 1`, second column only. -/
def exScale : List (Obs 2) := [⟨![5, 1], 0, 1⟩, ⟨![6, 3], 0, 2⟩]

theorem exScale_pos : PosWeights exScale := by
  intro o ho
  simp only [exScale, List.mem_cons, List.not_mem_nil, or_false] at ho
  rcases ho with rfl | rfl <;> norm_num

example : ∃ s, onlineScaler (fun _ : Fin 1 => (1 : Fin 2)) (1/2) exScale [[⟨![0, 4], 0, 1⟩]] = .ok s ∧
    s.mean 0 = 29/9 := by
  obtain ⟨s, h1, h2⟩ := C12_moments (fun _ : Fin 1 => (1 : Fin 2)) (by norm_num : (1/2:ℝ) < 1) exScale
    [[⟨![0, 4], 0, 1⟩]] (by simp [exScale]) (by simp)
    (C12_totalWeight_pos (by norm_num) _ (by simp [exScale]) exScale_pos)
    (by intro b hb o ho; simp at hb; subst hb; simp at ho; subst ho; norm_num)
  refine ⟨s, h1, ?_⟩
  rw [(h2 0).1]
  simp [exScale, ewMean, totalWeight, discSum_cons]
  norm_num

/-! ## C13 Scaler variance never negative, weight total stays positive -/

theorem ewVar_nonneg {forget : ℝ} (hf : forget ≤ 1) (h : List (Obs p)) (hw : NonnegWeights h)
    (j : Fin p) : 0 ≤ ewVar forget h j :=
  div_nonneg (discSum_nonneg hf h fun o ho => mul_nonneg (hw o ho) (sq_nonneg _))
    (discSum_nonneg hf h hw)

/-- **C13.** In every reachable state the variances are non-negative and the accumulated weight is
positive. -/
theorem C13_invariant (sel : Fin k → Fin p) {forget : ℝ} (hf : forget < 1) (init : List (Obs p))
    (batches : List (List (Obs p))) (hlen : 2 ≤ init.length) (hne : ∀ b ∈ batches, b ≠ [])
    (hi : PosWeights init) (hb : ∀ b ∈ batches, PosWeights b) :
    ∃ s, onlineScaler sel forget init batches = .ok s ∧ 0 < s.cumW ∧ ∀ i, 0 ≤ s.var i := by
  have hne0 : init ≠ [] := by intro h; simp [h] at hlen
  have hW := C12_totalWeight_pos hf init hne0 hi
  have hb' : ∀ b ∈ batches, NonnegWeights b := fun b h1 o h2 => (hb b h1 o h2).le
  obtain ⟨h1, h2⟩ := onlineScaler_eq sel hf init batches hlen hne hW hb'
  refine ⟨_, h1, h2, fun i => ewVar_nonneg hf.le _ ?_ _⟩
  intro o ho
  rcases List.mem_append.1 ho with h | h
  · exact (hi o h).le
  · obtain ⟨b, hb1, hb2⟩ := List.mem_flatten.1 h
    exact hb' b hb1 o hb2

/-- **C13.** Every update of a reachable state divides by a positive number: the accumulated weight
after folding in one more row is positive. -/
theorem C13_no_zero_division (sel : Fin k → Fin p) {forget : ℝ} (hf : forget < 1)
    (init : List (Obs p)) (batches : List (List (Obs p))) (hlen : 2 ≤ init.length)
    (hne : ∀ b ∈ batches, b ≠ []) (hi : PosWeights init) (hb : ∀ b ∈ batches, PosWeights b)
    (x : Row p) (w : ℝ) (hw : 0 ≤ w) (s : ScalerState k)
    (hs : onlineScaler sel forget init batches = .ok s) :
    0 < (scalerStep sel forget s x w).cumW := by
  obtain ⟨s', h1, h2, _⟩ := C13_invariant sel hf init batches hlen hne hi hb
  rw [hs] at h1
  cases h1
  have : 0 < 1 - forget := by linarith
  simp only [scalerStep]
  positivity

/-- Non-vacuity of C13: `exScale` satisfies the hypotheses. -/
example : ∃ s, onlineScaler (id : Fin 2 → Fin 2) (1/2) exScale [exScale] = .ok s ∧ 0 < s.cumW := by
  obtain ⟨s, h1, h2, _⟩ := C13_invariant (id : Fin 2 → Fin 2) (by norm_num : (1/2:ℝ) < 1) exScale [exScale]
    (by simp [exScale]) (by simp [exScale]) exScale_pos (by simpa using exScale_pos)
  exact ⟨s, h1, h2⟩

/-! ## C14 Scaling and inverse scaling are mutually inverse -/

/-- Positions that select the same column carry the same statistics. -/
def ScalerState.Consistent (sel : Fin k → Fin p) (s : ScalerState k) : Prop :=
  ∀ i i', sel i = sel i' → s.mean i = s.mean i' ∧ s.var i = s.var i'

/-- **C14.** Every reachable state is consistent, also when a column is selected twice. -/
theorem C14_reachable_consistent (sel : Fin k → Fin p) {forget : ℝ} (hf : forget < 1)
    (init : List (Obs p)) (batches : List (List (Obs p))) (hlen : 2 ≤ init.length)
    (hne : ∀ b ∈ batches, b ≠ []) (hW : 0 < totalWeight forget init)
    (hb : ∀ b ∈ batches, NonnegWeights b) (s : ScalerState k)
    (hs : onlineScaler sel forget init batches = .ok s) : s.Consistent sel := by
  rw [(onlineScaler_eq sel hf init batches hlen hne hW hb).1] at hs
  cases hs
  intro i i' h
  simp [canonScaler, h]

/-- **C14.** `inverse_transform(transform(x)) = x`. -/
theorem C14_inverse_transform_transform (sel : Fin k → Fin p) (s : ScalerState k)
    (hc : s.Consistent sel) (hv : ∀ i, 0 < s.var i) (x : Row p) :
    inverseTransformRow sel s (transformRow sel s x) = x := by
  funext j
  unfold inverseTransformRow transformRow
  rcases sel_cases sel j with ⟨i, rfl⟩ | h
  · have e : ∀ i', sel i' = sel i → (x (sel i') - s.mean i') / Real.sqrt (s.var i') =
        (x (sel i) - s.mean i) / Real.sqrt (s.var i) := by
      intro i' h; rw [h, (hc i' i h).1, (hc i' i h).2]
    rw [assignCols_of_mem, assignCols_of_mem _ _ _ _ e]
    · have := (Real.sqrt_pos.2 (hv i)).ne'
      field_simp
      ring
    · intro i' h
      rw [h, (hc i' i h).1, (hc i' i h).2]
  · rw [assignCols_of_notMem _ _ _ _ h, assignCols_of_notMem _ _ _ _ h]

/-- **C14.** `transform(inverse_transform(z)) = z`. -/
theorem C14_transform_inverse_transform (sel : Fin k → Fin p) (s : ScalerState k)
    (hc : s.Consistent sel) (hv : ∀ i, 0 < s.var i) (z : Row p) :
    transformRow sel s (inverseTransformRow sel s z) = z := by
  funext j
  unfold inverseTransformRow transformRow
  rcases sel_cases sel j with ⟨i, rfl⟩ | h
  · have e : ∀ i', sel i' = sel i → z (sel i') * Real.sqrt (s.var i') + s.mean i' =
        z (sel i) * Real.sqrt (s.var i) + s.mean i := by
      intro i' h; rw [h, (hc i' i h).1, (hc i' i h).2]
    rw [assignCols_of_mem, assignCols_of_mem _ _ _ _ e]
    · have := (Real.sqrt_pos.2 (hv i)).ne'
      field_simp
      ring
    · intro i' h
      rw [h, (hc i' i h).1, (hc i' i h).2]
  · rw [assignCols_of_notMem _ _ _ _ h, assignCols_of_notMem _ _ _ _ h]

/-- **C14.** Columns that are not selected are untouched; selected ones are centred and divided by the
standard deviation. -/
theorem C14_columns (sel : Fin k → Fin p) (s : ScalerState k) (hc : s.Consistent sel) (x : Row p) :
    (∀ j, (∀ i, sel i ≠ j) → transformRow sel s x j = x j ∧ inverseTransformRow sel s x j = x j) ∧
    (∀ i, transformRow sel s x (sel i) = (x (sel i) - s.mean i) / Real.sqrt (s.var i)) := by
  refine ⟨fun j hj => ⟨assignCols_of_notMem _ _ _ _ hj, assignCols_of_notMem _ _ _ _ hj⟩, fun i => ?_⟩
  unfold transformRow
  rw [assignCols_of_mem]
  intro i' h
  rw [h, (hc i' i h).1, (hc i' i h).2]

/-- **C14.** At the level of the object: the number of rows is preserved, and `to_scale=False` is the
identity in both directions. -/
theorem C14_object (X : List (Row p)) (sc : Scaler p) (n : ℝ) :
    (sc.transform X).length = X.length ∧ (sc.inverseTransform X).length = X.length ∧
    (Scaler.off n : Scaler p).transform X = X ∧ (Scaler.off n : Scaler p).inverseTransform X = X := by
  cases sc <;> simp [Scaler.transform, Scaler.inverseTransform]

/-- **C14.** Round trips at the level of the object: all matrices, all column selections. -/
theorem C14_object_round_trip (X : List (Row p)) (sel : Fin k → Fin p) (s : ScalerState k)
    (hc : s.Consistent sel) (hv : ∀ i, 0 < s.var i) :
    (Scaler.on k sel s).inverseTransform ((Scaler.on k sel s).transform X) = X ∧
    (Scaler.on k sel s).transform ((Scaler.on k sel s).inverseTransform X) = X := by
  simp only [Scaler.transform, Scaler.inverseTransform, List.map_map]
  constructor
  · conv_rhs => rw [← List.map_id X]
    exact List.map_congr_left fun x _ => C14_inverse_transform_transform sel s hc hv x
  · conv_rhs => rw [← List.map_id X]
    exact List.map_congr_left fun x _ => C14_transform_inverse_transform sel s hc hv x

/-- **C14.** `to_scale=False` gives a scaler that is off; a mask selects exactly the marked columns. -/
theorem C14_selection (m : Fin p → Bool) :
    (ToScale.off : ToScale p).selection = none ∧
    (∃ l, (ToScale.mask m).selection = some l ∧ ∀ j, j ∈ l ↔ m j = true) ∧
    (∃ l, (ToScale.all : ToScale p).selection = some l ∧ ∀ j, j ∈ l) :=
  ⟨rfl, ⟨_, rfl, by simp⟩, ⟨_, rfl, by simp⟩⟩

/-- Non-vacuity of C14: a consistent state with positive variance and a duplicated selection. -/
example : let s : ScalerState 2 := ⟨3, 3, fun _ => 1, fun _ => 4, fun _ => 12⟩
    s.Consistent (fun _ => (0 : Fin 2)) ∧ (∀ i, 0 < s.var i) ∧
    transformRow (fun _ => (0 : Fin 2)) s ![5, 7] = ![2, 7] := by
  intro s
  have hc : s.Consistent (fun _ => (0 : Fin 2)) := fun _ _ _ => ⟨rfl, rfl⟩
  refine ⟨hc, fun _ => by norm_num [s], ?_⟩
  have := C14_columns (fun _ => (0 : Fin 2)) s hc ![5, 7]
  funext j
  fin_cases j
  · have h := this.2 0
    simp only [s] at h
    rw [show (4:ℝ) = 2 ^ 2 by norm_num, Real.sqrt_sq (by norm_num)] at h
    rw [show (2:ℝ)^2 = 4 by norm_num] at h
    norm_num at h
    simpa using h
  · simpa using (this.1 1 (by simp)).1

/-! ## C15 Scaled data are standardised -/

/-- **C15.** Transforming the complete history gives columns with discounted weighted mean 0 and
variance 1 for every selected column of positive variance. -/
theorem C15_standardised (sel : Fin k → Fin p) {forget : ℝ} (hf : forget < 1) (init : List (Obs p))
    (batches : List (List (Obs p))) (hlen : 2 ≤ init.length) (hne : ∀ b ∈ batches, b ≠ [])
    (hi : PosWeights init) (hb : ∀ b ∈ batches, NonnegWeights b) (s : ScalerState k)
    (hs : onlineScaler sel forget init batches = .ok s) (i : Fin k) (hv : 0 < s.var i) :
    (let h := init ++ batches.flatten
     let h' := h.map fun o => { o with x := transformRow sel s o.x }
     ewMean forget h' (sel i) = 0 ∧ ewVar forget h' (sel i) = 1) := by
  intro h h'
  have hne0 : init ≠ [] := by intro h; simp [h] at hlen
  have hW0 := C12_totalWeight_pos hf init hne0 hi
  have hcons := C14_reachable_consistent sel hf init batches hlen hne hW0 hb s hs
  obtain ⟨h1, hW⟩ := onlineScaler_eq sel hf init batches hlen hne hW0 hb
  rw [hs] at h1
  have hmean : s.mean i = ewMean forget h (sel i) := by cases h1; rfl
  have hvar : s.var i = ewVar forget h (sel i) := by cases h1; rfl
  have hcol : ∀ x, transformRow sel s x (sel i) = (x (sel i) - s.mean i) / Real.sqrt (s.var i) :=
    fun x => (C14_columns sel s hcons x).2 i
  have hW' : totalWeight forget h' = totalWeight forget h := by
    simp only [totalWeight, h', discSum_map]
  have hsq := Real.sqrt_pos.2 hv
  have hm0 : ewMean forget h' (sel i) = 0 := by
    unfold ewMean
    have : discSum forget h' (fun o => o.w * o.x (sel i)) = 0 := by
      simp only [h', discSum_map, hcol]
      have e : ∀ o ∈ h, o.w * ((o.x (sel i) - s.mean i) / Real.sqrt (s.var i)) =
          (o.w * o.x (sel i) - s.mean i * o.w) * (1 / Real.sqrt (s.var i)) := by
        intro o _; ring
      rw [discSum_congr _ _ e, discSum_mul_right, discSum_sub, discSum_mul_left, hmean]
      have := ewMean_mul forget h (sel i) hW.ne'
      rw [← this, totalWeight]
      ring
    rw [this, zero_div]
  refine ⟨hm0, ?_⟩
  unfold ewVar
  rw [hm0, hW', div_eq_one_iff_eq hW.ne']
  simp only [h', discSum_map, hcol, sub_zero]
  have e : ∀ o ∈ h, o.w * ((o.x (sel i) - s.mean i) / Real.sqrt (s.var i)) ^ 2 =
      (o.w * (o.x (sel i) - ewMean forget h (sel i)) ^ 2) * (1 / s.var i) := by
    intro o _
    rw [div_pow, Real.sq_sqrt hv.le, hmean]
    ring
  rw [discSum_congr _ _ e, discSum_mul_right]
  have hvm : discSum forget h (fun o => o.w * (o.x (sel i) - ewMean forget h (sel i)) ^ 2) =
      s.var i * totalWeight forget h := by
    rw [hvar, ewVar, div_mul_cancel₀ _ hW.ne']
  rw [hvm]
  field_simp
  rfl

/-- Non-vacuity of C15: the second column of `exScale` has positive variance. -/
example : ∃ s, onlineScaler (fun _ : Fin 1 => (1 : Fin 2)) 0 exScale [] = .ok s ∧ 0 < s.var 0 := by
  obtain ⟨s, h1, h2⟩ := C12_moments (fun _ : Fin 1 => (1 : Fin 2)) (by norm_num : (0:ℝ) < 1) exScale
    [] (by simp [exScale]) (by simp)
    (C12_totalWeight_pos (by norm_num) _ (by simp [exScale]) exScale_pos) (by simp)
  refine ⟨s, h1, ?_⟩
  rw [(h2 0).2]
  simp [exScale, ewVar, ewMean, totalWeight, discSum_cons]
  norm_num

/-! ## C16 A constant column cannot be scaled into finite numbers -/

/-- **C16.** If a selected column is constant over the whole history, its variance is 0 and
`transform` gives a non-finite number in that column for every row. -/
theorem C16_constant_column (sel : Fin k → Fin p) {forget : ℝ} (hf : forget < 1) (init : List (Obs p))
    (batches : List (List (Obs p))) (hlen : 2 ≤ init.length) (hne : ∀ b ∈ batches, b ≠ [])
    (hi : PosWeights init) (hb : ∀ b ∈ batches, NonnegWeights b) (s : ScalerState k)
    (hs : onlineScaler sel forget init batches = .ok s) (i : Fin k) (c : ℝ)
    (hconst : ∀ o ∈ init ++ batches.flatten, o.x (sel i) = c) :
    s.mean i = c ∧ s.var i = 0 ∧ ∀ x : Row p, ¬ (transformRowFlt sel s x (sel i)).IsFinite := by
  have hne0 : init ≠ [] := by intro h; simp [h] at hlen
  have hW0 := C12_totalWeight_pos hf init hne0 hi
  have hcons := C14_reachable_consistent sel hf init batches hlen hne hW0 hb s hs
  obtain ⟨h1, hW⟩ := onlineScaler_eq sel hf init batches hlen hne hW0 hb
  rw [hs] at h1
  set h := init ++ batches.flatten with hh
  have hmean : s.mean i = ewMean forget h (sel i) := by cases h1; rfl
  have hvar : s.var i = ewVar forget h (sel i) := by cases h1; rfl
  have hm : ewMean forget h (sel i) = c := by
    rw [ewMean, div_eq_iff hW.ne', totalWeight, ← discSum_mul_left]
    exact discSum_congr _ _ fun o ho => by rw [hconst o ho]; ring
  have hv : ewVar forget h (sel i) = 0 := by
    rw [ewVar, hm]
    rw [discSum_congr (k := fun _ => 0) _ _ fun o ho => by rw [hconst o ho]; ring, discSum_zero, zero_div]
  rw [hm] at hmean
  rw [hv] at hvar
  refine ⟨hmean, hvar, fun x => ?_⟩
  unfold transformRowFlt
  rw [assignCols_of_mem]
  · rw [hvar]
    simp only [Flt.sqrt, le_refl, if_true, Real.sqrt_zero, Flt.div, Flt.infSigned]
    split_ifs <;> simp [Flt.IsFinite]
  · intro i' h'
    rw [h', (hcons i' i h').1, (hcons i' i h').2]

/-- Non-vacuity of C16: a constant column. -/
example : ∃ s, onlineScaler (fun _ : Fin 1 => (0 : Fin 1)) 0 [⟨![3], 0, 1⟩, ⟨![3], 0, 1⟩] [] = .ok s ∧
    ¬ (transformRowFlt (fun _ : Fin 1 => (0 : Fin 1)) s ![3] 0).IsFinite := by
  have hpw : PosWeights [(⟨![3], 0, 1⟩ : Obs 1), ⟨![3], 0, 1⟩] := by
    intro o ho; simp at ho; subst ho; norm_num
  obtain ⟨s, h1, _⟩ := C12_moments (fun _ : Fin 1 => (0 : Fin 1)) (by norm_num : (0:ℝ) < 1)
    [⟨![3], 0, 1⟩, ⟨![3], 0, 1⟩] [] (by simp) (by simp)
    (C12_totalWeight_pos (by norm_num) _ (by simp) hpw) (by simp)
  refine ⟨s, h1, ?_⟩
  exact (C16_constant_column _ (by norm_num) _ _ (by simp) (by simp) hpw (by simp) s h1 0 3
    (by intro o ho; simp at ho; subst ho; simp)).2.2 _

end Ondil
