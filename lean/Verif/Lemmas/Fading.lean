import Verif.Spec.Fading
import Verif.Lemmas.LinearModelOls
import Mathlib.Algebra.Order.BigOperators.Ring.Finset
import Mathlib.Topology.MetricSpace.ProperSpace
import Mathlib.Topology.Order.Compact
import Mathlib.Analysis.Normed.Group.Constructions
import Mathlib.Analysis.Normed.Group.Bounded

/-! # Helper lemmas: how much of the past is left -/

open scoped BigOperators Matrix

namespace Ondil

variable {p : ℕ}

theorem sseGradient_of_normal {forget : ℝ} (hf : forget ≤ 1) {h : List (Obs p)} (hw : NonnegWeights h) {b : Row p}
    (hb : initGram (xs h) (ws h) forget *ᵥ b = initYGram (xs h) (ys h) (ws h) forget) : sseGradient forget h b = 0 := by
  funext j
  have h1 := congrFun hb j
  rw [gram_mulVec hf h hw, initYGram_apply hf h hw] at h1
  have h2 : sseGradient forget h b j = discSum forget h (fun o => o.w * o.x j * (o.x ⬝ᵥ b) - o.w * o.y * o.x j) :=
    discSum_congr _ _ fun o _ => by rw [linPred_eq_dotProduct]; ring
  rw [h2, discSum_sub, h1, sub_self]
  rfl

theorem sseGradient_append (forget : ℝ) (h r : List (Obs p)) (b : Row p) (j : Fin p) :
    sseGradient forget (h ++ r) b j = (1 - forget) ^ r.length * sseGradient forget h b j + sseGradient forget r b j :=
  discSum_append forget h r _

/-- The difference of two gradients, multiplied with the difference of the coefficients. -/
theorem sum_gradient_diff (forget : ℝ) (h : List (Obs p)) (b b' : Row p) :
    ∑ j, (b' j - b j) * (sseGradient forget h b' j - sseGradient forget h b j) =
      discSum forget h fun o => o.w * linPred o.x (fun j => b' j - b j) ^ 2 := by
  have h1 : ∀ j, (b' j - b j) * (sseGradient forget h b' j - sseGradient forget h b j) =
      discSum forget h fun o => o.w * linPred o.x (fun j => b' j - b j) * (o.x j * (b' j - b j)) := by
    intro j
    unfold sseGradient
    rw [← discSum_sub, ← discSum_mul_left]
    refine discSum_congr _ _ fun o _ => ?_
    have : linPred o.x (fun j => b' j - b j) = linPred o.x b' - linPred o.x b := by
      simp only [linPred, mul_sub, Finset.sum_sub_distrib]
    rw [this]; ring
  simp only [h1]
  rw [← discSum_sum]
  refine discSum_congr _ _ fun o _ => ?_
  rw [← Finset.mul_sum, sq, ← mul_assoc]
  rfl

theorem euclid_sq (b c : Row p) : euclid b c ^ 2 = ∑ j, (c j - b j) ^ 2 :=
  Real.sq_sqrt (Finset.sum_nonneg fun _ _ => sq_nonneg _)

theorem euclid_nonneg (b c : Row p) : 0 ≤ euclid b c := Real.sqrt_nonneg _

theorem abs_sub_le_euclid (b c : Row p) (j : Fin p) : |c j - b j| ≤ euclid b c := by
  refine Real.le_sqrt_of_sq_le ?_
  rw [sq_abs]
  exact Finset.single_le_sum (f := fun j => (c j - b j) ^ 2) (fun _ _ => sq_nonneg _) (Finset.mem_univ j)

theorem sum_mul_le_euclid (b c u v : Row p) : ∑ j, (c j - b j) * (v j - u j) ≤ euclid b c * euclid u v := by
  have h := Finset.sum_mul_sq_le_sq_mul_sq Finset.univ (fun j => c j - b j) (fun j => v j - u j)
  rw [← euclid_sq, ← euclid_sq, ← mul_pow] at h
  exact (le_abs_self _).trans (abs_le_of_sq_le_sq h (mul_nonneg (euclid_nonneg _ _) (euclid_nonneg _ _)))

/-- Solutions of the normal equations of two histories with the same recent part. -/
theorem fading {forget : ℝ} (hf : forget ≤ 1) {h h' r : List (Obs p)} (hw : NonnegWeights h)
    {b b' : Row p} (hb : sseGradient forget (h ++ r) b = 0) (hb' : sseGradient forget (h' ++ r) b' = 0) {mu : ℝ}
    (hmu : Excites forget r mu) :
    mu * euclid b b' ≤ (1 - forget) ^ r.length * euclid (sseGradient forget h' b') (sseGradient forget h b') := by
  set rho := (1 - forget) ^ r.length with hrho
  have hr0 : 0 ≤ rho := pow_nonneg (by linarith) _
  have e1 : ∀ j, sseGradient forget (h ++ r) b' j - sseGradient forget (h ++ r) b j =
      rho * (sseGradient forget h b' j - sseGradient forget h' b' j) := by
    intro j
    have h1 := congrFun hb j
    have h2 := congrFun hb' j
    rw [sseGradient_append] at h2
    rw [h1, sseGradient_append]
    simp only [Pi.zero_apply] at h2 ⊢
    linarith
  have e2 := sum_gradient_diff forget (h ++ r) b b'
  simp only [e1] at e2
  rw [discSum_append] at e2
  have e3 : 0 ≤ discSum forget h fun o => o.w * linPred o.x (fun j => b' j - b j) ^ 2 :=
    discSum_nonneg hf _ fun o ho => mul_nonneg (hw o ho) (sq_nonneg _)
  have e4 := hmu fun j => b' j - b j
  have e5 := sum_mul_le_euclid b b' (sseGradient forget h' b') (sseGradient forget h b')
  have e6 : ∑ j, (b' j - b j) * (rho * (sseGradient forget h b' j - sseGradient forget h' b' j)) =
      rho * ∑ j, (b' j - b j) * (sseGradient forget h b' j - sseGradient forget h' b' j) := by
    rw [Finset.mul_sum]
    exact Finset.sum_congr rfl fun j _ => by ring
  rw [e6] at e2
  rw [← euclid_sq] at e4
  have e7 : mu * euclid b b' ^ 2 ≤ rho * (euclid b b' * euclid (sseGradient forget h' b') (sseGradient forget h b')) := by
    have h8 : 0 ≤ rho * discSum forget h fun o => o.w * linPred o.x (fun j => b' j - b j) ^ 2 := mul_nonneg hr0 e3
    have h9 := mul_le_mul_of_nonneg_left e5 hr0
    linarith
  rcases (euclid_nonneg b b').eq_or_lt with h0 | h0
  · rw [← h0, mul_zero]
    exact mul_nonneg hr0 (euclid_nonneg _ _)
  · refine le_of_mul_le_mul_right ?_ h0
    nlinarith

theorem sseGradient_nil (forget : ℝ) (b : Row p) : sseGradient forget [] b = 0 := by
  funext j
  simp [sseGradient]

/-- A discounted sum of bounded terms is bounded, however long the history. -/
theorem abs_discSum_le {α : Type*} {forget : ℝ} (hf0 : 0 < forget) (hf : forget ≤ 1) {C : ℝ} (h : List α) {g : α → ℝ}
    (hg : ∀ o ∈ h, |g o| ≤ C) (hC : 0 ≤ C) : |discSum forget h g| ≤ C / forget := by
  have key : ∀ l : List α, (∀ o ∈ l, |g o| ≤ C) → forget * |discSum forget l g| ≤ C * (1 - (1 - forget) ^ l.length) := by
    intro l
    induction l with
    | nil => intro; simp
    | cons a l ih =>
      intro hl
      rw [discSum_cons, List.length_cons]
      have h1 := ih fun o ho => hl o (by simp [ho])
      have h2 := hl a (by simp)
      have h3 : 0 ≤ (1 - forget) ^ l.length := pow_nonneg (by linarith) _
      have h4 := abs_add_le ((1 - forget) ^ l.length * g a) (discSum forget l g)
      rw [abs_mul, abs_of_nonneg h3] at h4
      have h5 := mul_le_mul_of_nonneg_left h2 h3
      have h6 := mul_le_mul_of_nonneg_left (h4.trans (add_le_add_left h5 _)) hf0.le
      rw [pow_succ]
      nlinarith
  rw [le_div_iff₀ hf0, mul_comm]
  refine (key h hg).trans ?_
  have : 0 ≤ (1 - forget) ^ h.length := pow_nonneg (by linarith) _
  nlinarith

theorem Excites.append {forget : ℝ} (hf : forget ≤ 1) {h r : List (Obs p)} (hw : NonnegWeights h) {mu : ℝ}
    (hr : Excites forget r mu) : Excites forget (h ++ r) mu := by
  intro v
  rw [discSum_append]
  have h1 : 0 ≤ discSum forget h fun o => o.w * linPred o.x v ^ 2 :=
    discSum_nonneg hf _ fun o ho => mul_nonneg (hw o ho) (sq_nonneg _)
  have h2 : 0 ≤ (1 - forget) ^ r.length := pow_nonneg (by linarith) _
  have h3 := hr v
  have h4 := mul_nonneg h2 h1
  linarith

/-- Coefficients of least squares on bounded data that determine them are bounded. -/
theorem coef_bounded {forget : ℝ} (hf0 : 0 < forget) (hf : forget ≤ 1) {h : List (Obs p)} {B W mu : ℝ}
    (hB : Bounded B W h) (hB0 : 0 ≤ B) (hW0 : 0 ≤ W) (hmu0 : 0 < mu) (hmu : Excites forget h mu) {b : Row p} (hb : sseGradient forget h b = 0) :
    ∀ j, |b j| ≤ Real.sqrt (∑ _j : Fin p, (W * B * B / forget) ^ 2) / mu := by
  have e := sum_gradient_diff forget h 0 b
  rw [hb] at e
  have hg : ∀ j, |sseGradient forget h 0 j| ≤ W * B * B / forget := by
    intro j
    refine abs_discSum_le hf0 hf h (fun o ho => ?_) (by positivity)
    obtain ⟨h1, h2, h3, h4⟩ := hB o ho
    have : linPred o.x (0 : Row p) = 0 := by simp [linPred]
    rw [this, zero_sub, abs_mul, abs_mul, abs_neg, abs_of_nonneg h3]
    exact mul_le_mul (mul_le_mul h4 h2 (abs_nonneg _) hW0) (h1 j) (abs_nonneg _) (by positivity)
  have h1 := hmu fun j => b j - (0 : Row p) j
  rw [← e, ← euclid_sq] at h1
  have h2 := sum_mul_le_euclid 0 b (sseGradient forget h 0) 0
  have h3 : euclid (sseGradient forget h 0) 0 ≤ Real.sqrt (∑ _j : Fin p, (W * B * B / forget) ^ 2) := by
    refine Real.sqrt_le_sqrt (Finset.sum_le_sum fun j _ => ?_)
    rw [Pi.zero_apply, zero_sub, neg_sq]
    exact sq_le_sq' (abs_le.1 (hg j)).1 (abs_le.1 (hg j)).2
  intro j
  refine (show |b j| ≤ euclid 0 b by simpa using abs_sub_le_euclid 0 b j).trans ?_
  rw [le_div_iff₀ hmu0, mul_comm]
  refine le_trans ?_ h3
  rcases (euclid_nonneg 0 b).eq_or_lt with h0 | h0
  · rw [← h0, mul_zero]; exact euclid_nonneg _ _
  · refine le_of_mul_le_mul_right ?_ h0
    have h4 : mu * euclid 0 b ^ 2 ≤ euclid 0 b * euclid (sseGradient forget h 0) 0 := h1.trans h2
    nlinarith

theorem continuous_sseGradient (forget : ℝ) (h : List (Obs p)) : Continuous (sseGradient forget h) := by
  refine continuous_pi fun j => ?_
  unfold sseGradient discSum linPred
  fun_prop

theorem continuous_gradient_distance (forget : ℝ) (h h' : List (Obs p)) :
    Continuous fun b => euclid (sseGradient forget h' b) (sseGradient forget h b) := by
  unfold euclid
  refine Real.continuous_sqrt.comp (continuous_finsetSum _ fun j _ => ?_)
  exact (((continuous_apply j).comp (continuous_sseGradient forget h)).sub
    ((continuous_apply j).comp (continuous_sseGradient forget h'))).pow 2

/-- The distance of the gradients of two histories is bounded as long as the coefficients are. -/
theorem gradient_distance_bounded (forget : ℝ) (h h' : List (Obs p)) (M : ℝ) :
    ∃ K, 0 ≤ K ∧ ∀ b : Row p, (∀ j, |b j| ≤ M) → euclid (sseGradient forget h' b) (sseGradient forget h b) ≤ K := by
  have hc : IsCompact (Metric.closedBall (0 : Row p) |M|) := isCompact_closedBall _ _
  obtain ⟨K, hK⟩ := hc.exists_bound_of_continuousOn (continuous_gradient_distance forget h h').continuousOn
  refine ⟨|K|, abs_nonneg _, fun b hb => ?_⟩
  have h1 : b ∈ Metric.closedBall (0 : Row p) |M| := by
    rw [mem_closedBall_zero_iff, pi_norm_le_iff_of_nonneg (abs_nonneg _)]
    exact fun j => (hb j).trans (le_abs_self M)
  exact ((le_abs_self _).trans (hK b h1)).trans (le_abs_self K)

end Ondil
