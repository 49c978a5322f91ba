import Verif.Model.Scaler
import Verif.Spec.Moments
import Verif.Lemmas.Gram

/-! # Helper lemmas for `scaler.py` -/

open scoped BigOperators

namespace Ondil

variable {p k : ℕ}

/-- The state that describes a history exactly. -/
noncomputable def canonScaler (sel : Fin k → Fin p) (forget : ℝ) (h : List (Obs p)) : ScalerState k where
  nObs := (ws h).sum
  cumW := totalWeight forget h
  mean := fun i => ewMean forget h (sel i)
  var := fun i => ewVar forget h (sel i)
  M := fun i => ewVar forget h (sel i) * totalWeight forget h

theorem eff_sum (forget : ℝ) (h : List (Obs p)) :
    (List.zipWith (fun a b => a * b) (ws h) (initForgetVector forget h.length)).sum =
      totalWeight forget h := by
  unfold totalWeight
  induction h with
  | nil => simp [ws]
  | cons o h ih =>
    rw [List.length_cons, initForgetVector_succ, discSum_cons, ← ih]
    simp only [ws, List.map_cons, List.zipWith_cons_cons, List.sum_cons]
    ring

theorem eff_avg_sum (forget : ℝ) (h : List (Obs p)) (g : Row p → ℝ) :
    (List.zipWith (fun a b => a * b) ((xs h).map g)
      (List.zipWith (fun a b => a * b) (ws h) (initForgetVector forget h.length))).sum =
      discSum forget h (fun o => o.w * g o.x) := by
  induction h with
  | nil => simp [ws, xs]
  | cons o h ih =>
    rw [List.length_cons, initForgetVector_succ, discSum_cons, ← ih]
    simp only [ws, xs, List.map_cons, List.zipWith_cons_cons, List.sum_cons]
    ring

theorem scalerFit_eq (sel : Fin k → Fin p) (forget : ℝ) (h : List (Obs p)) (hlen : 2 ≤ h.length)
    (hW : totalWeight forget h ≠ 0) :
    scalerFit sel forget (xs h) (ws h) = .ok (canonScaler sel forget h) := by
  unfold scalerFit
  have hl : (xs h).length = h.length := by simp [xs]
  rw [hl, if_neg (by omega)]
  simp only [eff_sum, npAverage, eff_avg_sum]
  rw [if_neg hW]
  rfl

theorem ewMean_mul (forget : ℝ) (h : List (Obs p)) (j : Fin p) (hW : totalWeight forget h ≠ 0) :
    ewMean forget h j * totalWeight forget h = discSum forget h (fun o => o.w * o.x j) := by
  rw [ewMean, div_mul_cancel₀ _ hW]

theorem ewVar_mul (forget : ℝ) (h : List (Obs p)) (j : Fin p) (hW : totalWeight forget h ≠ 0) :
    ewVar forget h j * totalWeight forget h =
      discSum forget h (fun o => o.w * o.x j ^ 2) - ewMean forget h j ^ 2 * totalWeight forget h := by
  rw [ewVar, div_mul_cancel₀ _ hW]
  have e1 : discSum forget h (fun o => o.w * (o.x j - ewMean forget h j) ^ 2) =
      discSum forget h (fun o => o.w * o.x j ^ 2) - 2 * ewMean forget h j * discSum forget h (fun o => o.w * o.x j)
        + ewMean forget h j ^ 2 * discSum forget h (fun o => o.w) := by
    rw [← discSum_mul_left, ← discSum_mul_left, ← discSum_sub, ← discSum_add]
    exact discSum_congr _ _ fun o _ => by ring
  rw [e1, ← ewMean_mul forget h j hW]
  unfold totalWeight
  ring

theorem totalWeight_snoc (forget : ℝ) (h : List (Obs p)) (o : Obs p) :
    totalWeight forget (h ++ [o]) = (1 - forget) * totalWeight forget h + o.w := by
  rw [totalWeight, totalWeight, discSum_snoc]

theorem scalerStep_canon (sel : Fin k → Fin p) (forget : ℝ) (h : List (Obs p)) (o : Obs p) (N : ℝ)
    (hW : totalWeight forget h ≠ 0) (hW' : totalWeight forget (h ++ [o]) ≠ 0) :
    scalerStep sel forget { canonScaler sel forget h with nObs := N } o.x o.w =
      { canonScaler sel forget (h ++ [o]) with nObs := N } := by
  have hc : totalWeight forget h * (1 - forget) + o.w = totalWeight forget (h ++ [o]) := by
    rw [totalWeight_snoc]; ring
  have hm : ∀ j, (ewMean forget h j * (totalWeight forget h * (1 - forget)) + o.x j * o.w) /
      totalWeight forget (h ++ [o]) = ewMean forget (h ++ [o]) j := by
    intro j
    rw [div_eq_iff hW', ewMean_mul _ _ _ hW', discSum_snoc, ← ewMean_mul _ _ _ hW]
    ring
  have hM : ∀ j, ewVar forget h j * totalWeight forget h * (1 - forget) +
      o.w * (o.x j - ewMean forget h j) * (o.x j - ewMean forget (h ++ [o]) j) =
      ewVar forget (h ++ [o]) j * totalWeight forget (h ++ [o]) := by
    intro j
    rw [ewVar_mul _ _ _ hW', ewVar_mul _ _ _ hW, discSum_snoc]
    have h1 := ewMean_mul forget h j hW
    have h2 := ewMean_mul forget (h ++ [o]) j hW'
    rw [discSum_snoc, ← h1, totalWeight_snoc] at h2
    rw [totalWeight_snoc]
    set m := ewMean forget h j
    set m' := ewMean forget (h ++ [o]) j
    set W := totalWeight forget h
    linear_combination (m' + m) * h2
  unfold scalerStep canonScaler
  simp only [hc, hm, hM]
  congr 1
  funext i
  rw [mul_div_assoc, div_self hW', mul_one]

theorem totalWeight_append_pos {forget : ℝ} (hf : forget < 1) (h b : List (Obs p))
    (hW : 0 < totalWeight forget h) (hb : NonnegWeights b) : 0 < totalWeight forget (h ++ b) := by
  unfold totalWeight at hW ⊢
  rw [discSum_append]
  have h1 : 0 < (1 - forget) ^ b.length := pow_pos (by linarith) _
  have h2 : 0 ≤ discSum forget b (fun o => o.w) := discSum_nonneg hf.le b hb
  positivity

theorem scalerLoop_canon (sel : Fin k → Fin p) {forget : ℝ} (hf : forget < 1) (b h : List (Obs p))
    (N : ℝ) (hW : 0 < totalWeight forget h) (hb : NonnegWeights b) :
    scalerLoop sel forget { canonScaler sel forget h with nObs := N } (xs b) (ws b) =
      { canonScaler sel forget (h ++ b) with nObs := N } := by
  induction b generalizing h with
  | nil => simp [xs, scalerLoop]
  | cons o b ih =>
    have ho : NonnegWeights [o] := by intro q hq; simp at hq; subst hq; exact hb q (by simp)
    have hW' := totalWeight_append_pos hf h [o] hW ho
    simp only [xs, ws, List.map_cons, scalerLoop]
    rw [scalerStep_canon sel forget h o N hW.ne' hW'.ne']
    have := ih (h ++ [o]) hW' (fun q hq => hb q (by simp [hq]))
    rw [List.append_assoc, List.singleton_append] at this
    exact this

theorem scalerUpdate_canon (sel : Fin k → Fin p) {forget : ℝ} (hf : forget < 1) (h b : List (Obs p))
    (hW : 0 < totalWeight forget h) (hb : NonnegWeights b) (hne : b ≠ []) :
    scalerUpdate sel forget (canonScaler sel forget h) (xs b) (ws b) =
      .ok (canonScaler sel forget (h ++ b)) := by
  have hlen : ¬ (xs b).length < 1 := by
    have := List.length_pos_of_ne_nil hne
    simp only [xs, List.length_map]; omega
  unfold scalerUpdate
  rw [if_neg hlen, scalerLoop_canon sel hf b h _ hW hb]
  congr 1
  simp [canonScaler, ws]

/-! ### column assignment -/

theorem foldl_update_of_notMem {α : Type*} (sel : Fin k → Fin p) (vals : Fin k → α) (l : List (Fin k))
    (x : Fin p → α) (j : Fin p) (hj : ∀ i ∈ l, sel i ≠ j) :
    l.foldl (fun out i => Function.update out (sel i) (vals i)) x j = x j := by
  induction l generalizing x with
  | nil => rfl
  | cons i l ih =>
    rw [List.foldl_cons, ih _ (fun q hq => hj q (by simp [hq])),
      Function.update_of_ne (hj i (by simp)).symm]

theorem foldl_update_of_mem {α : Type*} (sel : Fin k → Fin p) (vals : Fin k → α) (l : List (Fin k))
    (x : Fin p → α) (c : Fin p) (v : α) (hi : ∃ i ∈ l, sel i = c)
    (hcons : ∀ i ∈ l, sel i = c → vals i = v) :
    l.foldl (fun out i => Function.update out (sel i) (vals i)) x c = v := by
  induction l generalizing x with
  | nil => simp at hi
  | cons s l ih =>
    rw [List.foldl_cons]
    by_cases h6 : ∃ t ∈ l, sel t = c
    · exact ih _ h6 (fun t ht => hcons t (by simp [ht]))
    · rw [foldl_update_of_notMem sel vals l _ c (fun t ht h7 => h6 ⟨t, ht, h7⟩)]
      obtain ⟨t, ht, h7⟩ := hi
      rcases List.mem_cons.1 ht with h8 | h8
      · subst h8
        rw [← h7, Function.update_self]
        exact hcons t (by simp) h7
      · exact absurd ⟨t, h8, h7⟩ h6

/-- A column outside the selection keeps its value. -/
theorem assignCols_of_notMem {α : Type*} (sel : Fin k → Fin p) (x : Fin p → α) (vals : Fin k → α)
    (j : Fin p) (hj : ∀ i, sel i ≠ j) : assignCols sel x vals j = x j :=
  foldl_update_of_notMem sel vals _ x j fun i _ => hj i

/-- A selected column gets its value, provided repeated selections agree. -/
theorem assignCols_of_mem {α : Type*} (sel : Fin k → Fin p) (x : Fin p → α) (vals : Fin k → α)
    (i : Fin k) (hcons : ∀ i', sel i' = sel i → vals i' = vals i) :
    assignCols sel x vals (sel i) = vals i :=
  foldl_update_of_mem sel vals _ x (sel i) _ ⟨i, by simp, rfl⟩ fun i' _ h => hcons i' h

/-- A column is either selected or not. -/
theorem sel_cases (sel : Fin k → Fin p) (j : Fin p) : (∃ i, sel i = j) ∨ ∀ i, sel i ≠ j := by
  by_cases h : ∃ i, sel i = j
  · exact .inl h
  · exact .inr fun i hi => h ⟨i, hi⟩

end Ondil
