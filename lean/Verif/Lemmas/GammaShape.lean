import Verif.Lemmas.Polygamma
import Mathlib.Analysis.Calculus.Deriv.MeanValue

/-!
# Gamma likelihoods are concave in the logarithm of the shape
-/

open Filter Topology

namespace Ondil

theorem tendsto_shift (x : ℝ) : Tendsto (fun n : ℕ => x + (n : ℝ)) atTop atTop :=
  tendsto_atTop_add_const_left _ x tendsto_natCast_atTop_atTop

/-- A function that does not increase from `x` to `x + 1` and tends to zero is nonnegative. -/
theorem nonneg_of_shift {g : ℝ → ℝ} (hs : ∀ x, 0 < x → g (x + 1) ≤ g x) (hl : Tendsto g atTop (𝓝 0)) {x : ℝ} (hx : 0 < x) :
    0 ≤ g x := by
  have hn : ∀ n : ℕ, g (x + n) ≤ g x := by
    intro n
    induction n with
    | zero => simp
    | succ n ih =>
      have := hs (x + n) (by positivity)
      push_cast
      rw [← add_assoc]
      exact this.trans ih
  exact le_of_tendsto (hl.comp (tendsto_shift x)) (Eventually.of_forall hn)

theorem tendsto_trigamma : Tendsto trigamma atTop (𝓝 0) := by
  have h := tendsto_mul_trigamma.mul (tendsto_inv_atTop_zero (𝕜 := ℝ))
  rw [mul_zero] at h
  refine h.congr' ?_
  filter_upwards [eventually_gt_atTop 0] with x hx
  field_simp

theorem tendsto_log_step : Tendsto (fun x : ℝ => Real.log (x + 1) - Real.log x) atTop (𝓝 0) := by
  have h1 : Tendsto (fun x : ℝ => 1 + x⁻¹) atTop (𝓝 1) := by
    simpa using (tendsto_inv_atTop_zero (𝕜 := ℝ)).const_add 1
  have h2 := (Real.continuousAt_log one_ne_zero).tendsto.comp h1
  rw [Real.log_one] at h2
  refine h2.congr' ?_
  filter_upwards [eventually_gt_atTop 0] with x hx
  have : 1 + x⁻¹ = (x + 1) / x := by field_simp
  simp only [Function.comp]
  rw [this, Real.log_div (by positivity) hx.ne']

theorem log_second_difference {x : ℝ} (hx : 0 < x) :
    1 / (x + 1) ^ 2 ≤ 2 * Real.log (x + 1) - Real.log x - Real.log (x + 2) := by
  have h := Real.log_le_sub_one_of_pos (x := x * (x + 2) / (x + 1) ^ 2) (by positivity)
  rw [Real.log_div (by positivity) (by positivity), Real.log_mul hx.ne' (by positivity), Real.log_pow] at h
  have e : x * (x + 2) / (x + 1) ^ 2 - 1 = -(1 / (x + 1) ^ 2) := by
    field_simp
    ring
  rw [e] at h
  push_cast at h
  linarith

theorem trigamma_add_one_le_log {x : ℝ} (hx : 0 < x) : trigamma (x + 1) ≤ Real.log (x + 1) - Real.log x := by
  have h := nonneg_of_shift (g := fun x => Real.log (x + 1) - Real.log x - trigamma (x + 1)) (fun x hx => ?_) ?_ hx
  · linarith
  · have h1 := trigamma_add_one (show 0 < x + 1 by linarith)
    have h2 := log_second_difference hx
    have e : x + 1 + 1 = x + 2 := by ring
    simp only [e] at h1 ⊢
    linarith
  · have := tendsto_log_step.sub (tendsto_trigamma.comp (tendsto_atTop_add_const_right atTop (1 : ℝ) tendsto_id))
    simpa using this

/-- The derivative of `x (log x - ψ x)` is not positive. -/
theorem log_sub_digamma_le {x : ℝ} (hx : 0 < x) : Real.log x - digamma x + 1 ≤ x * trigamma x := by
  have h := nonneg_of_shift (g := fun x => x * trigamma x - 1 + (digamma x - Real.log x)) (fun x hx => ?_) ?_ hx
  · linarith
  · have h1 := mul_trigamma_add_one hx
    have h2 := digamma_add_one hx
    have h3 := trigamma_add_one_le_log hx
    linarith
  · have := (tendsto_mul_trigamma.sub_const 1).add tendsto_digamma_sub_log
    simpa using this

theorem gammaShape_antitone : AntitoneOn (fun x : ℝ => x * (Real.log x - digamma x)) (Set.Ioi 0) := by
  have hd : ∀ x : ℝ, 0 < x → HasDerivAt (fun x : ℝ => x * (Real.log x - digamma x)) (Real.log x - digamma x + 1 - x * trigamma x) x := by
    intro x hx
    have := (hasDerivAt_id x).mul ((Real.hasDerivAt_log hx.ne').sub (hasDerivAt_digamma hx))
    refine this.congr_deriv ?_
    simp only [id, Pi.sub_apply]
    field_simp
    ring
  refine antitoneOn_of_deriv_nonpos (convex_Ioi 0) (fun x hx => (hd x hx).continuousAt.continuousWithinAt)
    (fun x hx => (hd x (by simpa using hx)).differentiableAt.differentiableWithinAt) fun x hx => ?_
  rw [interior_Ioi] at hx
  rw [(hd x hx).deriv]
  linarith [log_sub_digamma_le hx]

theorem inverseShape_step {x : ℝ} (hx : 0 < x) :
    trigamma (x + 1) + 1 / (x + 1) ^ 2 ≤ 1 / x - 1 / (x + 1) + (Real.log (x + 1) - Real.log x) := by
  have h := nonneg_of_shift (g := fun x => 1 / x - 1 / (x + 1) + (Real.log (x + 1) - Real.log x) -
    trigamma (x + 1) - 1 / (x + 1) ^ 2) (fun x hx => ?_) ?_ hx
  · linarith
  · have h1 := trigamma_add_one (show 0 < x + 1 by linarith)
    have h2 := log_second_difference hx
    have e : x + 1 + 1 = x + 2 := by ring
    simp only [e] at h1 ⊢
    have h3 : 0 ≤ (1 / x - 2 / (x + 1) + 1 / (x + 2)) - 1 / (x + 1) ^ 2 + 1 / (x + 2) ^ 2 := by
      have : (1 / x - 2 / (x + 1) + 1 / (x + 2)) - 1 / (x + 1) ^ 2 + 1 / (x + 2) ^ 2 =
          (2 * (x + 1) * (x + 2) - (2 * (x + 1) + 1) * x) / (x * (x + 1) ^ 2 * (x + 2) ^ 2) := by
        field_simp
        ring
      rw [this]
      refine div_nonneg ?_ (by positivity)
      nlinarith
    have h4 : 2 / (x + 1) = 1 / (x + 1) + 1 / (x + 1) := by ring
    linarith
  · have hi : Tendsto (fun x : ℝ => x⁻¹) atTop (𝓝 0) := tendsto_inv_atTop_zero
    have hs : Tendsto (fun x : ℝ => x + 1) atTop atTop := tendsto_atTop_add_const_right atTop (1 : ℝ) tendsto_id
    have h1 := (((hi.sub (hi.comp hs)).add tendsto_log_step).sub (tendsto_trigamma.comp hs)).sub ((hi.comp hs).pow 2)
    simpa using h1

/-- The derivative of `x (log (x + 1) - ψ x) - x / (x + 1)` is not positive. -/
theorem inverseShape_deriv_nonpos {x : ℝ} (hx : 0 < x) :
    Real.log (x + 1) - digamma x + x / (x + 1) - x * trigamma x - 1 / (x + 1) ^ 2 ≤ 0 := by
  have h := nonneg_of_shift (g := fun x => (x * trigamma x - 1) - trigamma x + (digamma x - Real.log x) + 1 / x + 1 / x ^ 2)
    (fun x hx => ?_) ?_ (show 0 < x + 1 by linarith)
  · have h1 := mul_trigamma_add_one hx
    have h2 := digamma_add_one hx
    have e : x / (x + 1) = 1 - 1 / (x + 1) := by field_simp; ring
    rw [e]
    linarith
  · have h1 := mul_trigamma_add_one hx
    have h2 := digamma_add_one hx
    have h3 := inverseShape_step hx
    have h4 := trigamma_add_one hx
    linarith
  · have hi : Tendsto (fun x : ℝ => x⁻¹) atTop (𝓝 0) := tendsto_inv_atTop_zero
    have h1 := ((((tendsto_mul_trigamma.sub_const 1).sub tendsto_trigamma).add tendsto_digamma_sub_log).add hi).add (hi.pow 2)
    simpa using h1

theorem inverseShape_antitone : AntitoneOn (fun x : ℝ => x * (Real.log (x + 1) - digamma x) - x / (x + 1)) (Set.Ioi 0) := by
  have hd : ∀ x : ℝ, 0 < x → HasDerivAt (fun x : ℝ => x * (Real.log (x + 1) - digamma x) - x / (x + 1))
      (Real.log (x + 1) - digamma x + x / (x + 1) - x * trigamma x - 1 / (x + 1) ^ 2) x := by
    intro x hx
    have hx1 : x + 1 ≠ 0 := by positivity
    have hl : HasDerivAt (fun x : ℝ => Real.log (x + 1)) (1 / (x + 1)) x := by
      simpa using ((hasDerivAt_id x).add_const 1).log hx1
    have := ((hasDerivAt_id x).mul (hl.sub (hasDerivAt_digamma hx))).sub
      ((hasDerivAt_id x).div ((hasDerivAt_id x).add_const 1) hx1)
    refine this.congr_deriv ?_
    simp only [id, Pi.sub_apply]
    field_simp
    ring
  refine antitoneOn_of_deriv_nonpos (convex_Ioi 0) (fun x hx => (hd x hx).continuousAt.continuousWithinAt)
    (fun x hx => (hd x (by simpa using hx)).differentiableAt.differentiableWithinAt) fun x hx => ?_
  rw [interior_Ioi] at hx
  rw [(hd x hx).deriv]
  exact inverseShape_deriv_nonpos hx

end Ondil
