import Verif.Props.CoordinateDescent
import Verif.Spec.Accuracy

/-! # Lemmas: how exact a sweep of coordinate descent is -/

open scoped BigOperators

namespace Ondil

variable {p : ℕ}

theorem smoothForm_eq (P : CDProblem p) (v : Row p) :
    smoothForm P.G P.lam P.alpha P.reg v = (∑ i, v i * ∑ j, P.G i j * v j)
      + ∑ j, (P.denom j - P.G j j) * v j ^ 2 := by
  unfold smoothForm
  rw [Finset.mul_sum]
  congr 1
  · refine Finset.sum_congr rfl fun i _ => ?_
    rw [Finset.mul_sum]
    exact Finset.sum_congr rfl fun j _ => by ring
  · refine Finset.sum_congr rfl fun j _ => ?_
    unfold CDProblem.denom
    split <;> simp

theorem coupling_nonneg (G : Fin p → Fin p → ℝ) (j : Fin p) : 0 ≤ coupling G j :=
  Finset.sum_nonneg fun k _ => by split <;> positivity

/-- The smooth part of the gradient with the ridge part of the penalty. -/
theorem pen_diff (P : CDProblem p) (j : Fin p) (s t : ℝ) :
    pen P.lam P.alpha (P.reg j) t - pen P.lam P.alpha (P.reg j) s
      = (if P.reg j then P.alpha * P.lam else 0) * (|t| - |s|)
        + (P.denom j - P.G j j) * s * (t - s) + (P.denom j - P.G j j) / 2 * (t - s) ^ 2 := by
  unfold pen CDProblem.denom
  split
  · ring
  · ring

theorem pureSweep_append (P : CDProblem p) (i : ℕ) (A B : List (Fin p)) (b : Row p) :
    pureSweep P i (A ++ B) b = pureSweep P i B (pureSweep P i A b) := by
  unfold pureSweep; rw [List.foldl_append]

/-- The inexact optimality condition that a sweep leaves behind at a coordinate it has updated. -/
theorem pureSweep_vi (P : CDProblem p) (hlam : 0 ≤ P.lam) (ha0 : 0 ≤ P.alpha) (i : ℕ) (JJ : List (Fin p))
    (hn : JJ.Nodup) (s : Row p) (j : Fin p) (hj : j ∈ JJ) (hd : 0 < P.denom j) (hv : i < 2 ∨ s j ≠ 0)
    (δ : ℝ) (hδ : ∀ k, |pureSweep P i JJ s k - s k| ≤ δ) {t : ℝ} (ht : InBounds (P.lower j) (P.upper j) t) :
    0 ≤ (grad P.G P.h (pureSweep P i JJ s) j
          + (P.denom j - P.G j j) * pureSweep P i JJ s j) * (t - pureSweep P i JJ s j)
        + (if P.reg j then P.alpha * P.lam else 0) * (|t| - |pureSweep P i JJ s j|)
        + δ * (coupling P.G j * |t - pureSweep P i JJ s j|) := by
  obtain ⟨A, B, rfl⟩ := List.append_of_mem hj
  obtain ⟨hA, hjB, hd3⟩ := List.nodup_append.mp hn
  have hjA : j ∉ A := fun h => hd3 j h j (List.mem_cons_self ..) rfl
  have hjB' : j ∉ B := (List.nodup_cons.mp hjB).1
  set u := pureSweep P i A s with hu
  have huj : u j = s j := pureSweep_notMem P i A s hjA
  have hstep : pureStep P i u j = Function.update u j (P.newValue u j) :=
    pureStep_eq_update P (by rw [huj]; exact hv)
  have hres : pureSweep P i (A ++ j :: B) s = pureSweep P i B (Function.update u j (P.newValue u j)) := by
    rw [pureSweep_append, pureSweep_cons, hstep]
  set r := pureSweep P i (A ++ j :: B) s with hr
  have hrj : r j = P.newValue u j := by
    rw [hres, pureSweep_notMem P i B _ hjB', Function.update_self]
  have hclose : ∀ k, k ≠ j → |r k - u k| ≤ δ := by
    intro k hk
    by_cases hkB : k ∈ B
    · have hkA : k ∉ A := fun h => hd3 k h k (List.mem_cons_of_mem _ hkB) rfl
      have e : u k = s k := pureSweep_notMem P i A s hkA
      rw [e]; exact hδ k
    · have e : r k = u k := by
        rw [hres, pureSweep_notMem P i B _ hkB, Function.update_of_ne hk]
      rw [e, sub_self, abs_zero]
      exact le_trans (abs_nonneg _) (hδ k)
  have key := newValue_vi P hlam ha0 u j hd ht
  rw [← hrj] at key
  have hsplit : ∀ v : Row p, grad P.G P.h v j - P.G j j * v j
      = (∑ k, if k = j then 0 else P.G j k * v k) - P.h j := by
    intro v
    unfold grad
    have : ∑ k, P.G j k * v k = P.G j j * v j + ∑ k, if k = j then 0 else P.G j k * v k := by
      rw [← Finset.add_sum_erase _ _ (Finset.mem_univ j),
        ← Finset.add_sum_erase _ (fun k => if k = j then (0 : ℝ) else P.G j k * v k) (Finset.mem_univ j)]
      rw [if_pos rfl, zero_add]
      congr 1
      refine Finset.sum_congr rfl fun k hk => ?_
      rw [if_neg (Finset.ne_of_mem_erase hk)]
    rw [this]; ring
  have hdiff : |(grad P.G P.h u j - P.G j j * u j) - (grad P.G P.h r j - P.G j j * r j)|
      ≤ δ * coupling P.G j := by
    rw [hsplit, hsplit]
    have : (∑ k, if k = j then 0 else P.G j k * u k) - P.h j - ((∑ k, if k = j then 0 else P.G j k * r k) - P.h j)
        = ∑ k, if k = j then 0 else P.G j k * (u k - r k) := by
      rw [sub_sub_sub_cancel_right, ← Finset.sum_sub_distrib]
      refine Finset.sum_congr rfl fun k _ => ?_
      split <;> ring
    rw [this]
    refine le_trans (Finset.abs_sum_le_sum_abs _ _) ?_
    unfold coupling
    rw [Finset.mul_sum]
    refine Finset.sum_le_sum fun k _ => ?_
    split
    · simp
    · rename_i hk
      rw [abs_mul, abs_sub_comm, mul_comm]
      exact mul_le_mul_of_nonneg_right (hclose k hk) (abs_nonneg _)
  set x := grad P.G P.h u j - P.G j j * u j with hx
  set y := grad P.G P.h r j - P.G j j * r j with hy
  have e1 : grad P.G P.h u j + P.denom j * r j - P.G j j * u j = x + P.denom j * r j := by rw [hx]; ring
  have e2 : grad P.G P.h r j + (P.denom j - P.G j j) * r j = y + P.denom j * r j := by rw [hy]; ring
  rw [e1] at key
  rw [e2]
  have h3 : (x - y) * (t - r j) ≤ δ * (coupling P.G j * |t - r j|) := by
    refine le_trans (le_abs_self _) ?_
    rw [abs_mul, ← mul_assoc]
    exact mul_le_mul_of_nonneg_right hdiff (abs_nonneg _)
  nlinarith

/-- What a sweep whose changes are at most `δ` says about the objective: no feasible vector that agrees with
the result at the coordinates the sweep skipped is better by more than the coupling allows. -/
theorem pureSweep_accuracy (P : CDProblem p) (hG : P.G.IsSymm) (hlam : 0 ≤ P.lam) (ha0 : 0 ≤ P.alpha)
    (hd : ∀ j, 0 < P.denom j) (i : ℕ) (JJ : List (Fin p)) (hJ : JJ.Perm (List.finRange p)) (s : Row p)
    (δ : ℝ) (hδ : ∀ k, |pureSweep P i JJ s k - s k| ≤ δ) (c : Row p) (hc : Feasible P.lower P.upper c)
    (hskip : ∀ j, (i < 2 ∨ s j ≠ 0) ∨ c j = pureSweep P i JJ s j) :
    enetObjective P.G P.h P.lam P.alpha P.reg (pureSweep P i JJ s)
        + 1 / 2 * smoothForm P.G P.lam P.alpha P.reg (fun j => c j - pureSweep P i JJ s j)
      ≤ enetObjective P.G P.h P.lam P.alpha P.reg c
        + δ * ∑ j, coupling P.G j * |c j - pureSweep P i JJ s j| := by
  set r := pureSweep P i JJ s with hr
  have hstep : ∀ j, 0 ≤ grad P.G P.h r j * (c j - r j)
      + (pen P.lam P.alpha (P.reg j) (c j) - pen P.lam P.alpha (P.reg j) (r j))
      - (P.denom j - P.G j j) / 2 * (c j - r j) ^ 2
      + δ * (coupling P.G j * |c j - r j|) := by
    intro j
    rw [pen_diff]
    rcases hskip j with hv | he
    · have := pureSweep_vi P hlam ha0 i JJ (hJ.nodup_iff.mpr (List.nodup_finRange p)) s j
        (hJ.mem_iff.mpr (List.mem_finRange j)) (hd j) hv δ hδ (hc j)
      rw [← hr] at this
      linarith
    · rw [he]; simp
  have hsum := Finset.sum_nonneg (s := Finset.univ) fun j _ => hstep j
  rw [Finset.sum_add_distrib, Finset.sum_sub_distrib, ← Finset.mul_sum] at hsum
  have e := enetObjective_expand P.G hG P.h P.lam P.alpha P.reg r c
  rw [smoothForm_eq]
  have e3 : ∑ j, (P.denom j - P.G j j) / 2 * (c j - r j) ^ 2
      = 1 / 2 * ∑ j, (P.denom j - P.G j j) * (c j - r j) ^ 2 := by
    rw [Finset.mul_sum]; exact Finset.sum_congr rfl fun j _ => by ring
  rw [e3] at hsum
  rw [mul_add]
  linarith

/-- The same with the coupling term absorbed by the curvature. -/
theorem pureSweep_accuracy_curved (P : CDProblem p) (hG : P.G.IsSymm) (hlam : 0 ≤ P.lam) (ha0 : 0 ≤ P.alpha)
    (hd : ∀ j, 0 < P.denom j) {mu : ℝ} (hmu : 0 < mu) (hcv : CurvedAtLeast P.G P.lam P.alpha P.reg mu)
    (i : ℕ) (JJ : List (Fin p)) (hJ : JJ.Perm (List.finRange p)) (s : Row p)
    (δ : ℝ) (hδ : ∀ k, |pureSweep P i JJ s k - s k| ≤ δ) (c : Row p) (hc : Feasible P.lower P.upper c)
    (hskip : ∀ j, (i < 2 ∨ s j ≠ 0) ∨ c j = pureSweep P i JJ s j) :
    enetObjective P.G P.h P.lam P.alpha P.reg (pureSweep P i JJ s)
        + mu / 4 * ∑ j, (c j - pureSweep P i JJ s j) ^ 2
      ≤ enetObjective P.G P.h P.lam P.alpha P.reg c + δ ^ 2 / mu * ∑ j, coupling P.G j ^ 2 := by
  have h := pureSweep_accuracy P hG hlam ha0 hd i JJ hJ s δ hδ c hc hskip
  set r := pureSweep P i JJ s with hr
  have h2 := hcv fun j => c j - r j
  have h3 : δ * ∑ j, coupling P.G j * |c j - r j|
      ≤ mu / 4 * (∑ j, (c j - r j) ^ 2) + δ ^ 2 / mu * ∑ j, coupling P.G j ^ 2 := by
    rw [Finset.mul_sum, Finset.mul_sum, Finset.mul_sum, ← Finset.sum_add_distrib]
    refine Finset.sum_le_sum fun j _ => ?_
    rw [← sq_abs (c j - r j)]
    have : 0 ≤ (mu / 2 * |c j - r j| - δ * coupling P.G j) ^ 2 / mu := by positivity
    have e : (mu / 2 * |c j - r j| - δ * coupling P.G j) ^ 2 / mu
        = mu / 4 * |c j - r j| ^ 2 + δ ^ 2 / mu * coupling P.G j ^ 2 - δ * (coupling P.G j * |c j - r j|) := by
      field_simp; ring
    linarith
  linarith

/-- Positive curvature makes all denominators positive. -/
theorem denom_of_curved (P : CDProblem p) {mu : ℝ} (hcv : CurvedAtLeast P.G P.lam P.alpha P.reg mu) (j : Fin p) :
    mu ≤ P.denom j := by
  have h := hcv (Pi.single j 1)
  rw [smoothForm_eq] at h
  rw [sum_update_diff (j := j) _ (fun k hk => by simp [hk]),
    sum_update_diff (j := j) _ (fun k hk => by simp [hk]),
    sum_update_diff (j := j) (fun k => P.G j k * (Pi.single j 1 : Row p) k) (fun k hk => by simp [hk]),
    sum_update_diff (j := j) _ (fun k hk => by simp [hk])] at h
  simpa using h

/-- Strict decrease of a step. -/
theorem pureStep_decrease (P : CDProblem p) (hG : P.G.IsSymm) (hlam : 0 ≤ P.lam) (ha0 : 0 ≤ P.alpha)
    {mu : ℝ} (hmu : 0 < mu) (hd : ∀ j, mu ≤ P.denom j) (i : ℕ) (b : Row p) (j : Fin p)
    (hf : Feasible P.lower P.upper b) :
    enetObjective P.G P.h P.lam P.alpha P.reg (pureStep P i b j) + mu / 2 * (pureStep P i b j j - b j) ^ 2
      ≤ enetObjective P.G P.h P.lam P.alpha P.reg b := by
  unfold pureStep
  split
  · have := newValue_minimises P hG hlam ha0 b j (lt_of_lt_of_le hmu (hd j)) (hf j)
    rw [Function.update_eq_self] at this
    rw [Function.update_self]
    have h3 : mu / 2 * (P.newValue b j - b j) ^ 2 ≤ P.denom j / 2 * (b j - P.newValue b j) ^ 2 := by
      rw [show (b j - P.newValue b j) ^ 2 = (P.newValue b j - b j) ^ 2 by ring]
      exact mul_le_mul_of_nonneg_right (by linarith [hd j]) (sq_nonneg _)
    linarith
  · simp

/-- Strict decrease of a sweep, in terms of every single coordinate. -/
theorem pureSweep_decrease (P : CDProblem p) (hG : P.G.IsSymm) (hlam : 0 ≤ P.lam) (ha0 : 0 ≤ P.alpha)
    {mu : ℝ} (hmu : 0 < mu) (hd : ∀ j, mu ≤ P.denom j) (hb : BoundsOk P.lower P.upper) (i : ℕ)
    (JJ : List (Fin p)) (hn : JJ.Nodup) (b : Row p) (hf : Feasible P.lower P.upper b) (k : Fin p) :
    enetObjective P.G P.h P.lam P.alpha P.reg (pureSweep P i JJ b) + mu / 2 * (pureSweep P i JJ b k - b k) ^ 2
      ≤ enetObjective P.G P.h P.lam P.alpha P.reg b := by
  have hd' : ∀ j, 0 < P.denom j := fun j => lt_of_lt_of_le hmu (hd j)
  induction JJ generalizing b with
  | nil => simp [pureSweep_nil]
  | cons j JJ ih =>
    rw [pureSweep_cons]
    obtain ⟨hf', _⟩ := pureStep_objective P hG hlam ha0 hd' hb i b j hf
    have h1 := pureStep_decrease P hG hlam ha0 hmu hd i b j hf
    by_cases hk : k = j
    · subst hk
      rw [pureSweep_notMem _ _ _ _ (List.nodup_cons.mp hn).1]
      have h2 := (pureSweep_objective P hG hlam ha0 hd' hb i JJ (pureStep P i b k) hf').2
      linarith
    · have h2 := ih (List.nodup_cons.mp hn).2 (pureStep P i b j) hf'
      rw [pureStep_apply_ne _ _ _ hk] at h2
      have : 0 ≤ mu / 2 * (pureStep P i b j j - b j) ^ 2 := by positivity
      linarith

/-- A curved objective is bounded below. -/
theorem enetObjective_below (P : CDProblem p) (hlam : 0 ≤ P.lam) (ha0 : 0 ≤ P.alpha) {mu : ℝ} (hmu : 0 < mu)
    (hcv : CurvedAtLeast P.G P.lam P.alpha P.reg mu) (v : Row p) :
    -∑ j, P.h j ^ 2 / (2 * mu) ≤ enetObjective P.G P.h P.lam P.alpha P.reg v := by
  have h := hcv v
  rw [smoothForm_eq] at h
  rw [enetObjective_eq]
  have hp : ∑ j, (P.denom j - P.G j j) / 2 * v j ^ 2 ≤ ∑ j, pen P.lam P.alpha (P.reg j) (v j) := by
    refine Finset.sum_le_sum fun j _ => ?_
    have := pen_diff P j 0 (v j)
    have h0 : pen P.lam P.alpha (P.reg j) 0 = 0 := by unfold pen; split <;> simp
    rw [h0] at this
    have h1 : 0 ≤ (if P.reg j then P.alpha * P.lam else 0) * |v j| :=
      mul_nonneg (by split <;> positivity) (abs_nonneg _)
    simp only [abs_zero, sub_zero, mul_zero, zero_mul, add_zero] at this
    linarith
  have hq : ∑ j, (P.denom j - P.G j j) / 2 * v j ^ 2 = 1 / 2 * ∑ j, (P.denom j - P.G j j) * v j ^ 2 := by
    rw [Finset.mul_sum]; exact Finset.sum_congr rfl fun j _ => by ring
  have hs : ∑ j, P.h j * v j ≤ mu / 2 * (∑ j, v j ^ 2) + ∑ j, P.h j ^ 2 / (2 * mu) := by
    rw [Finset.mul_sum, ← Finset.sum_add_distrib]
    refine Finset.sum_le_sum fun j _ => ?_
    have : 0 ≤ (mu * v j - P.h j) ^ 2 / (2 * mu) := by positivity
    have e : (mu * v j - P.h j) ^ 2 / (2 * mu) = mu / 2 * v j ^ 2 + P.h j ^ 2 / (2 * mu) - P.h j * v j := by
      field_simp; ring
    linarith
  linarith

end Ondil
