import Verif.Lemmas.LinearModelTwins
import Verif.Spec.Units

/-!
# Scalers of the same data in different units
-/

namespace Ondil

variable {p : ℕ}

/-- The states of two scalers that have seen the same data in different units. -/
inductive ScalerUnits (a b : Fin p → ℝ) : Scaler p → Scaler p → Prop
  | off (n : ℝ) (h : ∀ j, a j = 1 ∧ b j = 0) : ScalerUnits a b (.off n) (.off n)
  | on (k : ℕ) (sel : Fin k → Fin p) (s s' : ScalerState k) (hcum : s'.cumW = s.cumW) (hpos : 0 < s.cumW)
      (hmean : ∀ i, s'.mean i = a (sel i) * s.mean i + b (sel i)) (hvar : ∀ i, s'.var i = a (sel i) ^ 2 * s.var i)
      (hM : ∀ i, s'.M i = a (sel i) ^ 2 * s.M i) (hkeep : ∀ j, (∀ i, sel i ≠ j) → a j = 1 ∧ b j = 0) :
      ScalerUnits a b (.on k sel s) (.on k sel s')

theorem assignCols_congr {k : ℕ} {α : Type*} (sel : Fin k → Fin p) {x x' : Fin p → α} (vals : Fin k → α)
    (h : ∀ j, (∀ i, sel i ≠ j) → x j = x' j) : assignCols sel x vals = assignCols sel x' vals := by
  have key : ∀ (l : List (Fin k)) (x x' : Fin p → α), (∀ j, (∀ i ∈ l, sel i ≠ j) → x j = x' j) →
      l.foldl (fun out i => Function.update out (sel i) (vals i)) x =
        l.foldl (fun out i => Function.update out (sel i) (vals i)) x' := by
    intro l
    induction l with
    | nil => exact fun x x' h => funext fun j => h j fun i hi => by cases hi
    | cons i l ih =>
      intro x x' h
      refine ih _ _ fun j hj => ?_
      beta_reduce
      by_cases e : sel i = j
      · subst e
        rw [Function.update_self, Function.update_self]
      · rw [Function.update_of_ne (Ne.symm e), Function.update_of_ne (Ne.symm e)]
        refine h j fun i' hi' => ?_
        rcases List.mem_cons.1 hi' with rfl | hi'
        · exact e
        · exact hj i' hi'
  exact key _ _ _ fun j hj => h j fun i => hj i (by simp)

theorem sqrt_units {a v : ℝ} (ha : 0 < a) : Real.sqrt (a ^ 2 * v) = a * Real.sqrt v := by
  rw [Real.sqrt_mul (sq_nonneg a), Real.sqrt_sq ha.le]

theorem infSigned_units {a x : ℝ} (ha : 0 < a) : Flt.infSigned (a * x) = Flt.infSigned x := by
  unfold Flt.infSigned
  have h : a * x < 0 ↔ x < 0 := ⟨fun h => by by_contra hx; exact absurd (mul_nonneg ha.le (not_lt.1 hx)) (not_le.2 h),
    fun h => mul_neg_of_pos_of_neg ha h⟩
  simp only [mul_pos_iff_of_pos_left ha, h]

/-- A standardised value has no unit, also when the column does not vary. -/
theorem standardised_units {a d v : ℝ} (ha : 0 < a) :
    (Flt.fin (a * d)).div (Flt.fin (a ^ 2 * v)).sqrt = (Flt.fin d).div (Flt.fin v).sqrt := by
  unfold Flt.sqrt
  have hv : 0 ≤ a ^ 2 * v ↔ 0 ≤ v := mul_nonneg_iff_of_pos_left (by positivity)
  simp only [hv]
  split_ifs with h
  · rw [sqrt_units ha]
    unfold Flt.div
    by_cases h0 : Real.sqrt v = 0
    · simp only [h0, mul_zero, if_true, infSigned_units ha]
    · simp only [h0, mul_eq_zero, ha.ne', or_self, if_false]
      rw [mul_div_mul_left _ _ ha.ne']
  · rfl

theorem transform_units {a b : Fin p → ℝ} (ha : ∀ j, 0 < a j) (X : List (Row p)) {sc sc' : Scaler p} (h : ScalerUnits a b sc sc') :
    sc'.transformFlt (X.map (Row.inUnits a b)) = sc.transformFlt X := by
  cases h with
  | off n h =>
    simp only [Scaler.transformFlt, List.map_map]
    refine List.map_congr_left fun x _ => funext fun j => ?_
    simp [Row.inUnits, (h j).1, (h j).2]
  | on k sel s s' hcum hpos hmean hvar hM hkeep =>
    simp only [Scaler.transformFlt, List.map_map]
    refine List.map_congr_left fun x _ => ?_
    simp only [Function.comp_apply, transformRowFlt]
    have e : (fun i => (Flt.fin (Row.inUnits a b x (sel i) - s'.mean i)).div (Flt.fin (s'.var i)).sqrt) =
        fun i => (Flt.fin (x (sel i) - s.mean i)).div (Flt.fin (s.var i)).sqrt := by
      funext i
      rw [hmean, hvar, Row.inUnits, ← standardised_units (d := x (sel i) - s.mean i) (ha (sel i))]
      congr 2
      ring
    rw [e]
    refine assignCols_congr sel _ fun j hj => ?_
    simp [Row.inUnits, (hkeep j hj).1, (hkeep j hj).2]

theorem transformReal_units {a b : Fin p → ℝ} (ha : ∀ j, 0 < a j) (X : List (Row p)) {sc sc' : Scaler p}
    (h : ScalerUnits a b sc sc') : sc'.transform (X.map (Row.inUnits a b)) = sc.transform X := by
  cases h with
  | off n h =>
    simp only [Scaler.transform]
    refine (List.map_congr_left fun x _ => funext fun j => ?_).trans (List.map_id X)
    simp [Row.inUnits, (h j).1, (h j).2]
  | on k sel s s' hcum hpos hmean hvar hM hkeep =>
    simp only [Scaler.transform, List.map_map]
    refine List.map_congr_left fun x _ => ?_
    simp only [Function.comp_apply, transformRow]
    have e : (fun i => (Row.inUnits a b x (sel i) - s'.mean i) / Real.sqrt (s'.var i)) =
        fun i => (x (sel i) - s.mean i) / Real.sqrt (s.var i) := by
      funext i
      rw [hmean, hvar, Row.inUnits, sqrt_units (ha (sel i)), ← mul_div_mul_left (x (sel i) - s.mean i) _ (ha (sel i)).ne']
      congr 1
      ring
    rw [e]
    refine assignCols_congr sel _ fun j hj => ?_
    simp [Row.inUnits, (hkeep j hj).1, (hkeep j hj).2]

theorem sameDesign_units {a b : Fin p → ℝ} (ha : ∀ j, 0 < a j) (X : List (Row p)) :
    SameDesign (fun _ => True) (ScalerUnits a b) X (X.map (Row.inUnits a b)) :=
  ⟨by simp, fun _ _ h _ _ _ => by rw [transform_units ha X h], fun _ _ _ h => transformReal_units ha X h⟩

/-! ### Fit -/

theorem npAverage_mul (c : ℝ) (v w : List ℝ) : npAverage (v.map (c * ·)) w = c * npAverage v w := by
  unfold npAverage
  rw [← mul_div_assoc]
  congr 1
  induction v generalizing w with
  | nil => simp
  | cons x v ih =>
    cases w with
    | nil => simp
    | cons y w =>
      simp only [List.map_cons, List.zipWith_cons_cons, List.sum_cons, ih]
      ring

theorem npAverage_add (c : ℝ) {v w : List ℝ} (hl : v.length = w.length) (hw : w.sum ≠ 0) :
    npAverage (v.map (· + c)) w = npAverage v w + c := by
  unfold npAverage
  rw [eq_comm, div_add' _ _ _ hw]
  congr 1
  clear hw
  induction v generalizing w with
  | nil => cases w <;> simp_all
  | cons x v ih =>
    cases w with
    | nil => simp at hl
    | cons y w =>
      simp only [List.length_cons, Nat.add_right_cancel_iff] at hl
      simp only [List.map_cons, List.zipWith_cons_cons, List.sum_cons, ← ih hl]
      ring

theorem initForgetVector_length (f : ℝ) (n : ℕ) : (initForgetVector f n).length = n := by
  rw [initForgetVector_eq]
  simp

theorem initForgetVector_pos {f : ℝ} (hf : f < 1) (n : ℕ) : ∀ v ∈ initForgetVector f n, 0 ≤ v := by
  induction n with
  | zero => simp [initForgetVector_eq]
  | succ n ih =>
    rw [initForgetVector_succ]
    intro v hv
    rcases List.mem_cons.1 hv with rfl | hv
    · exact pow_nonneg (by linarith) _
    · exact ih v hv

theorem sum_zipWith_nonneg {u v : List ℝ} (hu : ∀ x ∈ u, 0 ≤ x) (hv : ∀ x ∈ v, 0 ≤ x) :
    0 ≤ (List.zipWith (fun a b => a * b) u v).sum := by
  refine List.sum_nonneg fun x hx => ?_
  rw [List.mem_iff_getElem] at hx
  obtain ⟨i, hi, rfl⟩ := hx
  rw [List.getElem_zipWith]
  exact mul_nonneg (hu _ (List.getElem_mem _)) (hv _ (List.getElem_mem _))

theorem selection_keeps {t : ToScale p} {a b : Fin p → ℝ} (h : UnitChange t a b) {l : List (Fin p)} (hl : t.selection = some l)
    (j : Fin p) (hj : ∀ i, l.get i ≠ j) : a j = 1 ∧ b j = 0 := by
  refine h.keeps j fun hs => ?_
  obtain ⟨l', hl', hmem⟩ := (selects_iff t j).1 hs
  rw [hl] at hl'
  cases hl'
  obtain ⟨i, hi⟩ := List.mem_iff_get.1 hmem
  exact hj i hi

theorem scaler_fit_units {t : ToScale p} {a b : Fin p → ℝ} (h : UnitChange t a b) {f : ℝ} (hf : f < 1) (data : List (Obs p))
    (hw : NonnegWeights data) :
    BothOr (ScalerUnits a b) (Scaler.fit t f (xs data) (ws data))
      (Scaler.fit t f ((xs data).map (Row.inUnits a b)) (ws data)) := by
  unfold Scaler.fit
  cases hs : t.selection with
  | none =>
    simp only [List.length_map]
    by_cases h2 : (xs data).length < 2
    · simp only [h2, if_true]
      exact .inl ⟨_, rfl, rfl⟩
    · simp only [h2, if_false]
      refine .inr ⟨_, _, rfl, rfl, .off _ fun j => h.keeps j fun hj => ?_⟩
      obtain ⟨l, hl, _⟩ := (selects_iff t j).1 hj
      rw [hs] at hl
      cases hl
  | some l =>
    simp only [scalerFit, List.length_map]
    by_cases h2 : (xs data).length < 2
    · simp only [h2, if_true]
      exact .inl ⟨_, rfl, rfl⟩
    simp only [h2, if_false]
    have hlen : (List.zipWith (fun a b => a * b) (ws data) (initForgetVector f (xs data).length)).length = (xs data).length := by
      rw [List.length_zipWith, initForgetVector_length]
      simp [ws, xs]
    have hnn : 0 ≤ (List.zipWith (fun a b => a * b) (ws data) (initForgetVector f (xs data).length)).sum := by
      refine sum_zipWith_nonneg (fun v hv => ?_) (initForgetVector_pos hf _)
      simp only [ws, List.mem_map] at hv
      obtain ⟨o, ho, rfl⟩ := hv
      exact hw o ho
    generalize List.zipWith (fun a b => a * b) (ws data) (initForgetVector f (xs data).length) = w at hlen hnn ⊢
    by_cases h0 : w.sum = 0
    · simp only [h0, if_true]
      exact .inl ⟨_, rfl, rfl⟩
    simp only [h0, if_false]
    have hmean : ∀ i : Fin l.length, npAverage (((xs data).map (Row.inUnits a b)).map fun x => x (l.get i)) w =
        a (l.get i) * npAverage ((xs data).map fun x => x (l.get i)) w + b (l.get i) := by
      intro i
      rw [← npAverage_mul, ← npAverage_add _ (by simp [hlen]) h0, List.map_map, List.map_map, List.map_map]
      rfl
    have hvar : ∀ i : Fin l.length, npAverage (((xs data).map (Row.inUnits a b)).map fun x => (x (l.get i) -
        npAverage (((xs data).map (Row.inUnits a b)).map fun x => x (l.get i)) w) ^ 2) w =
        a (l.get i) ^ 2 * npAverage ((xs data).map fun x => (x (l.get i) -
          npAverage ((xs data).map fun x => x (l.get i)) w) ^ 2) w := by
      intro i
      rw [← npAverage_mul, hmean, List.map_map, List.map_map]
      congr 1
      refine List.map_congr_left fun x _ => ?_
      simp only [Function.comp_apply, Row.inUnits]
      ring
    refine .inr ⟨_, _, rfl, rfl, .on _ _ _ _ rfl (lt_of_le_of_ne hnn (Ne.symm h0)) hmean hvar ?_
      (selection_keeps h hs)⟩
    intro i
    simp only [hvar i]
    ring

/-! ### Update -/

theorem scalerStep_units {k : ℕ} {sel : Fin k → Fin p} {a b : Fin p → ℝ} {f : ℝ} (hf : f < 1) {s s' : ScalerState k} (x : Row p)
    {w : ℝ} (hw : 0 ≤ w) (hcum : s'.cumW = s.cumW) (hpos : 0 < s.cumW)
    (hmean : ∀ i, s'.mean i = a (sel i) * s.mean i + b (sel i)) (hM : ∀ i, s'.M i = a (sel i) ^ 2 * s.M i) :
    (scalerStep sel f s' (Row.inUnits a b x) w).cumW = (scalerStep sel f s x w).cumW ∧ 0 < (scalerStep sel f s x w).cumW ∧
      (∀ i, (scalerStep sel f s' (Row.inUnits a b x) w).mean i = a (sel i) * (scalerStep sel f s x w).mean i + b (sel i)) ∧
      (∀ i, (scalerStep sel f s' (Row.inUnits a b x) w).var i = a (sel i) ^ 2 * (scalerStep sel f s x w).var i) ∧
      ∀ i, (scalerStep sel f s' (Row.inUnits a b x) w).M i = a (sel i) ^ 2 * (scalerStep sel f s x w).M i := by
  have hc : 0 < s.cumW * (1 - f) + w := add_pos_of_pos_of_nonneg (mul_pos hpos (by linarith)) hw
  have h3 : ∀ i, (scalerStep sel f s' (Row.inUnits a b x) w).mean i =
      a (sel i) * (scalerStep sel f s x w).mean i + b (sel i) := by
    intro i
    simp only [scalerStep, Row.inUnits]
    rw [hcum, hmean, ← mul_div_assoc, div_add' _ _ _ hc.ne']
    congr 1
    ring
  have h5 : ∀ i, (scalerStep sel f s' (Row.inUnits a b x) w).M i = a (sel i) ^ 2 * (scalerStep sel f s x w).M i := by
    intro i
    have e := h3 i
    simp only [scalerStep, Row.inUnits] at e ⊢
    rw [e, hM, hmean]
    ring
  refine ⟨by simp only [scalerStep, hcum], hc, h3, fun i => ?_, h5⟩
  have e := h5 i
  simp only [scalerStep] at e ⊢
  rw [e, hcum, mul_div_assoc]

theorem scalerLoop_units {k : ℕ} {sel : Fin k → Fin p} {a b : Fin p → ℝ} {f : ℝ} (hf : f < 1) (data : List (Obs p))
    (hw : NonnegWeights data) {s s' : ScalerState k} (hcum : s'.cumW = s.cumW) (hpos : 0 < s.cumW)
    (hmean : ∀ i, s'.mean i = a (sel i) * s.mean i + b (sel i)) (hvar : ∀ i, s'.var i = a (sel i) ^ 2 * s.var i)
    (hM : ∀ i, s'.M i = a (sel i) ^ 2 * s.M i) (hkeep : ∀ j, (∀ i, sel i ≠ j) → a j = 1 ∧ b j = 0) :
    ScalerUnits a b (.on k sel (scalerLoop sel f s (xs data) (ws data)))
      (.on k sel (scalerLoop sel f s' ((xs data).map (Row.inUnits a b)) (ws data))) := by
  induction data generalizing s s' with
  | nil => exact .on k sel s s' hcum hpos hmean hvar hM hkeep
  | cons o data ih =>
    obtain ⟨h1, h2, h3, h4, h5⟩ := scalerStep_units hf o.x (hw o (by simp)) hcum hpos hmean hM
    exact ih (fun o ho => hw o (by simp [ho])) h1 h2 h3 h4 h5

theorem scaler_update_units {a b : Fin p → ℝ} {f : ℝ} (hf : f < 1) (data : List (Obs p)) (hw : NonnegWeights data)
    {sc sc' : Scaler p} (h : ScalerUnits a b sc sc') :
    BothOr (ScalerUnits a b) (sc.update f (xs data) (ws data)) (sc'.update f ((xs data).map (Row.inUnits a b)) (ws data)) := by
  cases h with
  | off n h =>
    simp only [Scaler.update, List.length_map]
    by_cases h1 : (xs data).length < 1
    · simp only [h1, if_true]
      exact .inl ⟨_, rfl, rfl⟩
    · simp only [h1, if_false]
      exact .inr ⟨_, _, rfl, rfl, .off _ h⟩
  | on k sel s s' hcum hpos hmean hvar hM hkeep =>
    simp only [Scaler.update, scalerUpdate, List.length_map]
    by_cases h1 : (xs data).length < 1
    · simp only [h1, if_true]
      exact .inl ⟨_, rfl, rfl⟩
    · simp only [h1, if_false]
      exact .inr ⟨_, _, rfl, rfl, scalerLoop_units hf data hw hcum hpos hmean hvar hM hkeep⟩

/-- The same observations in different units are twins. -/
theorem twins_units {a b : Fin p → ℝ} (ha : ∀ j, 0 < a j) (data : List (Obs p)) (hw : NonnegWeights data) :
    Twins (fun f => f < 1) (fun _ => True) (ScalerUnits a b) data (data.map (Obs.inUnits a b)) := by
  have e : xs (data.map (Obs.inUnits a b)) = (xs data).map (Row.inUnits a b) := by simp [xs, Obs.inUnits]
  refine ⟨by simp, by simp [ys, Obs.inUnits], by simp [ws, Obs.inUnits], ?_, ?_⟩
  · rw [e]
    exact sameDesign_units ha _
  · intro f hf sc sc' h
    rw [e]
    exact scaler_update_units hf data hw h

/-- Equal data are twins. -/
theorem twins_refl (data : List (Obs p)) : Twins (fun _ => True) (fun _ => True) Eq data data := by
  refine ⟨rfl, rfl, rfl, ⟨rfl, ?_, ?_⟩, ?_⟩
  · rintro sc _ rfl _ _ _
    rfl
  · rintro _ sc _ rfl
    rfl
  · rintro f _ sc _ rfl
    cases h : sc.update f (xs data) (ws data) with
    | error e => exact .inl ⟨e, rfl, rfl⟩
    | ok a => exact .inr ⟨a, a, rfl, rfl, rfl⟩

theorem bothOr_refl {α : Type} (x : Except PyErr α) : BothOr Eq x x := by
  cases x with
  | error e => exact .inl ⟨e, rfl, rfl⟩
  | ok a => exact .inr ⟨a, a, rfl, rfl, rfl⟩

theorem sameDesign_refl (X : List (Row p)) : SameDesign (fun _ => True) (Eq : Scaler p → Scaler p → Prop) X X := by
  refine ⟨rfl, ?_, ?_⟩
  · rintro sc _ rfl _ _ _
    rfl
  · rintro _ sc _ rfl
    rfl

end Ondil
