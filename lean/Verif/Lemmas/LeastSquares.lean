import Verif.Spec.LeastSquares
import Verif.Lemmas.Gram
import Verif.Props.Gram
import Verif.Model.Methods
import Mathlib.Tactic.Ring

/-! # Helper lemmas on least squares -/

open scoped BigOperators Matrix

namespace Ondil

variable {p : ℕ}

theorem linPred_eq_dotProduct (x b : Row p) : linPred x b = x ⬝ᵥ b := rfl

/-- Quadratic expansion of the discounted squared error around a solution of the normal equations. -/
theorem discSSE_expand {forget : ℝ} (hf : forget ≤ 1) (h : List (Obs p)) (hw : NonnegWeights h)
    (b b' : Row p)
    (hb : initGram (xs h) (ws h) forget *ᵥ b = initYGram (xs h) (ys h) (ws h) forget) :
    discSSE forget h b' = discSSE forget h b +
      (b' - b) ⬝ᵥ (initGram (xs h) (ws h) forget *ᵥ (b' - b)) := by
  have h1 : (b' - b) ⬝ᵥ (initGram (xs h) (ws h) forget *ᵥ b) =
      (b' - b) ⬝ᵥ initYGram (xs h) (ys h) (ws h) forget := by rw [hb]
  have h2 : (b' - b) ⬝ᵥ initYGram (xs h) (ys h) (ws h) forget =
      discSum forget h (fun o => o.w * o.y * ((b' - b) ⬝ᵥ o.x)) := by
    simp only [dotProduct]
    simp_rw [initYGram_apply hf h hw, ← discSum_mul_left, Finset.mul_sum, discSum_sum]
    refine Finset.sum_congr rfl fun i _ => discSum_congr _ _ fun o _ => by ring
  rw [gram_quad hf h hw] at h1 ⊢
  rw [h2] at h1
  unfold discSSE
  have e : discSum forget h (fun o => o.w * (o.y - linPred o.x b') ^ 2) =
      discSum forget h (fun o => (o.w * (o.y - linPred o.x b) ^ 2 +
        o.w * ((b' - b) ⬝ᵥ o.x) * (o.x ⬝ᵥ (b' - b))) +
        (2 * (o.w * ((b' - b) ⬝ᵥ o.x) * (o.x ⬝ᵥ b)) - 2 * (o.w * o.y * ((b' - b) ⬝ᵥ o.x)))) := by
    refine discSum_congr _ _ fun o _ => ?_
    have : (b' - b) ⬝ᵥ o.x = o.x ⬝ᵥ b' - o.x ⬝ᵥ b := by
      rw [dotProduct_comm, dotProduct_sub]
    rw [linPred_eq_dotProduct, linPred_eq_dotProduct, dotProduct_sub, this]
    ring
  rw [e, discSum_add, discSum_add]
  have e2 : discSum forget h (fun o => 2 * (o.w * ((b' - b) ⬝ᵥ o.x) * (o.x ⬝ᵥ b)) -
      2 * (o.w * o.y * ((b' - b) ⬝ᵥ o.x))) = 0 := by
    have : ∀ f g : Obs p → ℝ, discSum forget h (fun o => 2 * f o - 2 * g o) =
        2 * discSum forget h f - 2 * discSum forget h g := by
      intro f g
      rw [← discSum_mul_left, ← discSum_mul_left]
      simp only [sub_eq_add_neg]
      rw [discSum_add]
      congr 1
      rw [← neg_one_mul, ← discSum_mul_left]
      exact discSum_congr _ _ fun o _ => by ring
    rw [this, h1]; ring
  rw [e2, add_zero]

/-- A solution of the normal equations of an invertible Gramian is the strict minimiser. -/
theorem isLeastSquares_of_normal {forget : ℝ} (hf : forget < 1) (h : List (Obs p))
    (hw : NonnegWeights h) (b : Row p) (hu : IsUnit (initGram (xs h) (ws h) forget).det)
    (hb : initGram (xs h) (ws h) forget *ᵥ b = initYGram (xs h) (ys h) (ws h) forget) :
    IsLeastSquares forget h b := by
  intro b' hne
  rw [discSSE_expand hf.le h hw b b' hb]
  have hv : b' - b ≠ 0 := sub_ne_zero.mpr hne
  have hnn : 0 ≤ (b' - b) ⬝ᵥ (initGram (xs h) (ws h) forget *ᵥ (b' - b)) := by
    rw [gram_quad hf.le h hw]
    refine discSum_nonneg hf.le _ fun o ho => ?_
    rw [dotProduct_comm (b' - b) o.x, mul_assoc]
    exact mul_nonneg (hw o ho) (mul_self_nonneg _)
  rcases hnn.eq_or_lt with h0 | h0
  · exfalso
    rw [gram_quad hf.le h hw] at h0
    have hz := discSum_eq_zero hf h (fun o ho => by
        rw [dotProduct_comm (b' - b) o.x, mul_assoc]
        exact mul_nonneg (hw o ho) (mul_self_nonneg _)) h0.symm
    have hker : initGram (xs h) (ws h) forget *ᵥ (b' - b) = 0 := by
      funext a
      rw [gram_mulVec hf.le h hw, discSum_congr (k := fun _ => 0) _ _ (fun o ho => ?_), discSum_zero]
      · rfl
      · have := hz o ho
        rw [dotProduct_comm (b' - b) o.x, mul_assoc] at this
        rcases mul_eq_zero.1 this with h1 | h1
        · rw [h1]; ring
        · rw [mul_self_eq_zero.1 h1]; ring
    exact (not_isUnit_det_iff _).2 ⟨_, hv, hker⟩ hu
  · linarith

theorem isUnit_det_iff_fullRank {forget : ℝ} (hf : forget < 1) (h : List (Obs p))
    (hw : NonnegWeights h) : IsUnit (initGram (xs h) (ws h) forget).det ↔ FullRank h := by
  have h5 := C05_error_iff hf h hw
  have hr : initInvertedGram (xs h) (ws h) forget = .error .valueError ↔
      ¬ IsUnit (initGram (xs h) (ws h) forget).det := by
    rw [← rank_eq_iff_isUnit_det]
    unfold initInvertedGram
    simp only
    split_ifs with h1
    · exact ⟨fun h => (by cases h), fun h => absurd h1 h⟩
    · exact ⟨fun _ => h1, fun _ => rfl⟩
  constructor
  · intro hu v hv
    by_contra hne
    exact (hr.1 (h5.2 ⟨v, hne, hv⟩)) hu
  · intro hfr
    by_contra hu
    obtain ⟨v, hv, h0⟩ := h5.1 (hr.2 hu)
    exact hv (hfr v h0)

theorem isLeastSquares_unique {forget : ℝ} {h : List (Obs p)} {b b' : Row p}
    (hb : IsLeastSquares forget h b) (hb' : IsLeastSquares forget h b') : b = b' := by
  by_contra hne
  exact lt_irrefl _ ((hb b' (Ne.symm hne)).trans (hb' b hne))

theorem FullRank.append {h h' : List (Obs p)} (hr : FullRank h) : FullRank (h ++ h') :=
  fun v hv => hr v fun o ho => hv o (List.mem_append_left _ ho)

end Ondil
