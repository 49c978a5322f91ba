import Verif.Model.SpecialFunctions
import Mathlib.Analysis.SpecialFunctions.Gamma.BohrMollerup
import Mathlib.Analysis.Convex.Deriv
import Mathlib.Analysis.Calculus.SmoothSeries
import Mathlib.Analysis.PSeries
import Mathlib.Tactic.Linarith
import Mathlib.Tactic.FieldSimp
import Mathlib.Tactic.Ring
import Mathlib.Tactic.Positivity

/-! Facts about the real digamma and trigamma functions on the positive half line. -/

namespace Ondil
open Filter Topology Set

theorem hasDerivAt_logGamma {x : ℝ} (hx : 0 < x) : HasDerivAt logGamma (digamma x) x := by
  have h1 : DifferentiableAt ℝ Real.Gamma x :=
    Real.differentiableAt_Gamma fun m => by
      have : (0 : ℝ) ≤ m := Nat.cast_nonneg m
      linarith
  exact (h1.log (Real.Gamma_pos_of_pos hx).ne').hasDerivAt

theorem logGamma_add_one {x : ℝ} (hx : 0 < x) : logGamma (x + 1) = logGamma x + Real.log x := by
  unfold logGamma
  rw [Real.Gamma_add_one hx.ne', Real.log_mul hx.ne' (Real.Gamma_pos_of_pos hx).ne', add_comm]

theorem convexOn_logGamma : ConvexOn ℝ (Ioi 0) logGamma := Real.convexOn_log_Gamma

theorem digamma_add_one {x : ℝ} (hx : 0 < x) : digamma (x + 1) = digamma x + 1 / x := by
  have h1 : HasDerivAt (fun t => logGamma (t + 1)) (digamma (x + 1)) x := by
    have := (hasDerivAt_logGamma (show 0 < x + 1 by linarith)).comp x
      ((hasDerivAt_id x).add_const 1)
    rw [mul_one] at this
    exact this
  have h2 : HasDerivAt (fun t => logGamma t + Real.log t) (digamma x + x⁻¹) x :=
    (hasDerivAt_logGamma hx).add (Real.hasDerivAt_log hx.ne')
  have h3 : HasDerivAt (fun t => logGamma (t + 1)) (digamma x + x⁻¹) x := by
    refine h2.congr_of_eventuallyEq ?_
    filter_upwards [Ioi_mem_nhds hx] with t ht
    exact logGamma_add_one ht
  rw [h1.unique h3, one_div]

theorem digamma_le_log {x : ℝ} (hx : 0 < x) : digamma x ≤ Real.log x := by
  have h := convexOn_logGamma.le_slope_of_hasDerivAt (x := x) (y := x + 1) hx
    (show (0:ℝ) < x + 1 by linarith) (by linarith) (hasDerivAt_logGamma hx)
  rw [slope_def_field, logGamma_add_one hx] at h
  simpa using h

theorem log_le_digamma_add_one {x : ℝ} (hx : 0 < x) : Real.log x ≤ digamma (x + 1) := by
  have h := convexOn_logGamma.slope_le_of_hasDerivAt (x := x) (y := x + 1) hx
    (show (0:ℝ) < x + 1 by linarith) (by linarith) (hasDerivAt_logGamma (by linarith))
  rw [slope_def_field, logGamma_add_one hx] at h
  simpa using h

theorem log_sub_le_digamma {x : ℝ} (hx : 0 < x) : Real.log x - 1 / x ≤ digamma x := by
  have := log_le_digamma_add_one hx
  rw [digamma_add_one hx] at this
  linarith

theorem digamma_add_nat {x : ℝ} (hx : 0 < x) (n : ℕ) :
    digamma (x + n) = digamma x + ∑ k ∈ Finset.range n, 1 / (x + k) := by
  induction n with
  | zero => simp
  | succ n ih =>
    have hn : 0 < x + n := by positivity
    rw [Finset.sum_range_succ, ← add_assoc, ← ih, ← digamma_add_one hn]
    push_cast
    ring_nf

theorem tendsto_digamma_sub_log :
    Tendsto (fun x : ℝ => digamma x - Real.log x) atTop (𝓝 0) := by
  have h1 : Tendsto (fun x : ℝ => -(1 / x)) atTop (𝓝 0) := by
    have := (tendsto_inv_atTop_zero (𝕜 := ℝ)).neg
    simpa [one_div] using this
  refine tendsto_of_tendsto_of_tendsto_of_le_of_le' h1 tendsto_const_nhds ?_ ?_
  · filter_upwards [eventually_gt_atTop 0] with x hx
    have := log_sub_le_digamma hx
    linarith
  · filter_upwards [eventually_gt_atTop 0] with x hx
    have := digamma_le_log hx
    linarith

theorem tendsto_log_ratio (x y : ℝ) (hx : 0 < x) (hy : 0 < y) :
    Tendsto (fun n : ℕ => Real.log (x + n) - Real.log (y + n)) atTop (𝓝 0) := by
  have h1 : Tendsto (fun n : ℕ => (x + n) / (y + n)) atTop (𝓝 1) := by
    have h2 : Tendsto (fun n : ℕ => 1 + (x - y) * (y + n)⁻¹) atTop (𝓝 (1 + (x - y) * 0)) := by
      refine tendsto_const_nhds.add (tendsto_const_nhds.mul ?_)
      exact tendsto_inv_atTop_zero.comp
        (tendsto_atTop_add_const_left _ y tendsto_natCast_atTop_atTop)
    rw [mul_zero, add_zero] at h2
    refine h2.congr fun n => ?_
    have : y + n ≠ 0 := by positivity
    field_simp
    ring
  have h3 := (Real.continuousAt_log one_ne_zero).tendsto.comp h1
  rw [Real.log_one] at h3
  refine h3.congr fun n => ?_
  have h4 : x + n ≠ 0 := by positivity
  have h5 : y + n ≠ 0 := by positivity
  exact Real.log_div h4 h5

theorem tendsto_digamma_shift (x y : ℝ) (hx : 0 < x) (hy : 0 < y) :
    Tendsto (fun n : ℕ => digamma (x + n) - digamma (y + n)) atTop (𝓝 0) := by
  have hs : ∀ z : ℝ, Tendsto (fun n : ℕ => z + (n : ℝ)) atTop atTop := fun z =>
    tendsto_atTop_add_const_left _ z tendsto_natCast_atTop_atTop
  have h1 := tendsto_digamma_sub_log.comp (hs x)
  have h2 := tendsto_digamma_sub_log.comp (hs y)
  have h3 := (h1.sub h2).add (tendsto_log_ratio x y hx hy)
  simp only [sub_zero, add_zero] at h3
  refine h3.congr fun n => ?_
  simp only [Function.comp]
  ring

theorem summable_inv_sq {x : ℝ} (hx : 0 < x) : Summable fun k : ℕ => 1 / (x + k) ^ 2 := by
  have h := (Real.summable_one_div_nat_add_rpow x 2).mpr (by norm_num)
  refine h.congr fun k => ?_
  have : 0 < (k : ℝ) + x := by positivity
  rw [abs_of_pos this, add_comm x]
  norm_num

theorem summable_digamma_terms {x y : ℝ} (hx : 0 < x) (hy : 0 < y) :
    Summable fun k : ℕ => 1 / (y + k) - 1 / (x + k) := by
  have hm : 0 < min x y := lt_min hx hy
  refine Summable.of_norm_bounded ((summable_inv_sq hm).mul_left |x - y|) fun k => ?_
  have h1 : 0 < x + k := by positivity
  have h2 : 0 < y + k := by positivity
  have h3 : 0 < min x y + k := by positivity
  have h4 : 1 / (y + k) - 1 / (x + k) = (x - y) * (1 / ((y + k) * (x + k))) := by
    field_simp
    ring
  rw [h4, Real.norm_eq_abs, abs_mul, abs_of_pos (show 0 < 1 / ((y + k) * (x + k)) by positivity)]
  refine mul_le_mul_of_nonneg_left ?_ (abs_nonneg _)
  refine one_div_le_one_div_of_le (by positivity) ?_
  rw [sq]
  have h5 := min_le_left x y
  have h6 := min_le_right x y
  exact mul_le_mul (by linarith) (by linarith) h3.le h2.le

theorem hasSum_digamma {x y : ℝ} (hx : 0 < x) (hy : 0 < y) :
    HasSum (fun k : ℕ => 1 / (y + k) - 1 / (x + k)) (digamma x - digamma y) := by
  have hs := (summable_digamma_terms hx hy).hasSum
  have h1 := hs.tendsto_sum_nat
  have h2 : Tendsto (fun n : ℕ => ∑ k ∈ Finset.range n, (1 / (y + k) - 1 / (x + k))) atTop
      (𝓝 (digamma x - digamma y)) := by
    have h3 := (tendsto_digamma_shift x y hx hy).const_sub (digamma x - digamma y)
    rw [sub_zero] at h3
    refine h3.congr fun n => ?_
    rw [digamma_add_nat hx, digamma_add_nat hy, Finset.sum_sub_distrib]
    ring
  rw [tendsto_nhds_unique h2 h1]
  exact hs

theorem hasDerivAt_digamma_tsum {x : ℝ} (hx : 0 < x) :
    HasDerivAt digamma (∑' k : ℕ, 1 / (x + k) ^ 2) x := by
  have hx2 : 0 < x / 2 := by linarith
  have hmem : x ∈ Ioi (x / 2) := by simp only [mem_Ioi]; linarith
  have h := hasDerivAt_tsum_of_isPreconnected (t := Ioi (x / 2)) (y₀ := x) (y := x)
    (g := fun (k : ℕ) z => 1 / (x + k) - 1 / (z + k)) (g' := fun (k : ℕ) z => 1 / (z + k) ^ 2)
    (summable_inv_sq hx2) isOpen_Ioi isPreconnected_Ioi
    (fun k z hz => by
      have hz0 : 0 < z := lt_trans hx2 hz
      have hne : z + k ≠ 0 := by positivity
      have h1 := ((hasDerivAt_id z).add_const (k : ℝ)).inv hne
      have h2 := h1.const_sub (1 / (x + k))
      have e : -(-1 / (id z + (k:ℝ)) ^ 2) = 1 / (z + k) ^ 2 := by simp only [id]; ring
      rw [e] at h2
      refine h2.congr_of_eventuallyEq (Eventually.of_forall fun t => ?_)
      simp [one_div])
    (fun k z hz => by
      have hz0 : 0 < z := lt_trans hx2 hz
      rw [Real.norm_eq_abs, abs_of_pos (by positivity)]
      refine one_div_le_one_div_of_le (by positivity) ?_
      have : x / 2 + k ≤ z + k := by
        have := le_of_lt (show x / 2 < z from hz)
        linarith
      exact pow_le_pow_left₀ (by positivity) this 2)
    hmem (by simpa using summable_zero) hmem
  have h2 : HasDerivAt (fun z => digamma x + ∑' k : ℕ, (1 / (x + k) - 1 / (z + k)))
      (∑' k : ℕ, 1 / (x + k) ^ 2) x := h.const_add _
  refine h2.congr_of_eventuallyEq ?_
  filter_upwards [Ioi_mem_nhds hx] with z hz
  rw [(hasSum_digamma (show 0 < z from hz) hx).tsum_eq]
  ring

theorem trigamma_eq_tsum {x : ℝ} (hx : 0 < x) : trigamma x = ∑' k : ℕ, 1 / (x + k) ^ 2 :=
  (hasDerivAt_digamma_tsum hx).deriv

theorem hasDerivAt_digamma {x : ℝ} (hx : 0 < x) : HasDerivAt digamma (trigamma x) x := by
  rw [trigamma_eq_tsum hx]
  exact hasDerivAt_digamma_tsum hx

theorem hasSum_trigamma {x : ℝ} (hx : 0 < x) :
    HasSum (fun k : ℕ => 1 / (x + k) ^ 2) (trigamma x) := by
  rw [trigamma_eq_tsum hx]
  exact (summable_inv_sq hx).hasSum

theorem trigamma_add_one {x : ℝ} (hx : 0 < x) : trigamma x = 1 / x ^ 2 + trigamma (x + 1) := by
  have h := (hasSum_trigamma hx).summable.hasSum
  rw [trigamma_eq_tsum hx, (summable_inv_sq hx).tsum_eq_zero_add,
    trigamma_eq_tsum (show 0 < x + 1 by linarith)]
  simp only [Nat.cast_zero, add_zero]
  congr 1
  refine tsum_congr fun k => ?_
  push_cast
  ring_nf

theorem trigamma_pos {x : ℝ} (hx : 0 < x) : 0 < trigamma x := by
  rw [trigamma_eq_tsum hx]
  exact (summable_inv_sq hx).tsum_pos (fun k => by positivity) 0 (by simp; positivity)

/-- telescoping series `∑ (1/(x+k) - 1/(x+k+1)) = 1/x` -/
theorem hasSum_telescope {x : ℝ} (hx : 0 < x) :
    HasSum (fun k : ℕ => 1 / (x + k) - 1 / (x + 1 + k)) (1 / x) := by
  have h := hasSum_digamma (x := x + 1) (y := x) (by linarith) hx
  rw [digamma_add_one hx] at h
  simpa using h

theorem inv_lt_trigamma {x : ℝ} (hx : 0 < x) : 1 / x < trigamma x := by
  have key : ∀ k : ℕ, 1 / (x + k) - 1 / (x + 1 + k) < 1 / (x + k) ^ 2 := fun k => by
    have h1 : 0 < x + k := by positivity
    have h2 : 0 < x + 1 + k := by positivity
    have e : 1 / (x + k) ^ 2 - (1 / (x + k) - 1 / (x + 1 + k)) =
        1 / ((x + k) ^ 2 * (x + 1 + k)) := by
      field_simp
      ring
    have : 0 < 1 / ((x + k) ^ 2 * (x + 1 + k)) := by positivity
    linarith
  exact hasSum_lt (i := 0) (fun k => (key k).le) (key 0) (hasSum_telescope hx) (hasSum_trigamma hx)

/-- `1/x - ψ₁(x+1)` as a series of strictly decreasing positive terms -/
theorem hasSum_inv_sub_trigamma {x : ℝ} (hx : 0 < x) :
    HasSum (fun k : ℕ => 1 / ((x + k) * (x + 1 + k) ^ 2)) (1 / x - trigamma (x + 1)) := by
  refine ((hasSum_telescope hx).sub (hasSum_trigamma (show 0 < x + 1 by linarith))).congr_fun ?_
  intro k
  have h1 : 0 < x + k := by positivity
  have h2 : 0 < x + 1 + k := by positivity
  field_simp
  ring

theorem inv_sub_trigamma_strictAnti {x y : ℝ} (hx : 0 < x) (hxy : x < y) :
    1 / y - trigamma (y + 1) < 1 / x - trigamma (x + 1) := by
  have hy : 0 < y := hx.trans hxy
  have key : ∀ k : ℕ, 1 / ((y + k) * (y + 1 + k) ^ 2) < 1 / ((x + k) * (x + 1 + k) ^ 2) :=
    fun k => by
      have h1 : 0 < x + k := by positivity
      have h2 : 0 < x + 1 + k := by positivity
      refine one_div_lt_one_div_of_lt (by positivity) ?_
      exact mul_lt_mul'' (by linarith) (pow_lt_pow_left₀ (by linarith) h2.le two_ne_zero) h1.le
        (by positivity)
  exact hasSum_lt (i := 0) (fun k => (key k).le) (key 0) (hasSum_inv_sub_trigamma hy)
    (hasSum_inv_sub_trigamma hx)

theorem trigamma_add_one_lt_inv {x : ℝ} (hx : 0 < x) : trigamma (x + 1) < 1 / x := by
  have h := hasSum_lt (i := 0) (f := fun _ : ℕ => (0 : ℝ)) (fun k => by positivity)
    (by simp; positivity) hasSum_zero (hasSum_inv_sub_trigamma hx)
  linarith

theorem trigamma_lt {x : ℝ} (hx : 0 < x) : trigamma x < 1 / x + 1 / x ^ 2 := by
  rw [trigamma_add_one hx]
  have := trigamma_add_one_lt_inv hx
  linarith

theorem mul_trigamma_add_one {x : ℝ} (hx : 0 < x) :
    x * trigamma x = (1 / x - trigamma (x + 1)) + (x + 1) * trigamma (x + 1) := by
  rw [trigamma_add_one hx]
  field_simp
  ring

theorem tendsto_mul_trigamma : Tendsto (fun x : ℝ => x * trigamma x) atTop (𝓝 1) := by
  have h1 : Tendsto (fun x : ℝ => 1 + x⁻¹) atTop (𝓝 1) := by
    simpa using (tendsto_inv_atTop_zero (𝕜 := ℝ)).const_add 1
  refine tendsto_of_tendsto_of_tendsto_of_le_of_le' tendsto_const_nhds h1 ?_ ?_
  · filter_upwards [eventually_gt_atTop 0] with x hx
    have := mul_lt_mul_of_pos_left (inv_lt_trigamma hx) hx
    rw [mul_one_div_cancel hx.ne'] at this
    exact this.le
  · filter_upwards [eventually_gt_atTop 0] with x hx
    have := mul_lt_mul_of_pos_left (trigamma_lt hx) hx
    have e : x * (1 / x + 1 / x ^ 2) = 1 + x⁻¹ := by field_simp
    rw [e] at this
    exact this.le

theorem mul_trigamma_add_nat {x : ℝ} (hx : 0 < x) (n : ℕ) :
    x * trigamma x = (∑ k ∈ Finset.range n, (1 / (x + k) - trigamma (x + k + 1)))
      + (x + n) * trigamma (x + n) := by
  induction n with
  | zero => simp
  | succ n ih =>
    have hn : 0 < x + n := by positivity
    rw [Finset.sum_range_succ, ih, mul_trigamma_add_one hn]
    push_cast
    ring_nf

/-- `x ψ₁(x)` is strictly decreasing on the positive half line. -/
theorem mul_trigamma_strictAnti {x y : ℝ} (hx : 0 < x) (hxy : x < y) :
    y * trigamma y < x * trigamma x := by
  have hy : 0 < y := hx.trans hxy
  have hs : ∀ z : ℝ, Tendsto (fun n : ℕ => z + (n : ℝ)) atTop atTop := fun z =>
    tendsto_atTop_add_const_left _ z tendsto_natCast_atTop_atTop
  have h1 := (tendsto_mul_trigamma.comp (hs x)).sub (tendsto_mul_trigamma.comp (hs y))
  rw [sub_self] at h1
  have h2 := h1.const_add ((1 / x - trigamma (x + 1)) - (1 / y - trigamma (y + 1)))
  rw [add_zero] at h2
  have h3 : (1 / x - trigamma (x + 1)) - (1 / y - trigamma (y + 1)) ≤
      x * trigamma x - y * trigamma y := by
    refine le_of_tendsto h2 ?_
    filter_upwards [eventually_ge_atTop 1] with n hn
    obtain ⟨m, rfl⟩ : ∃ m, n = m + 1 := ⟨n - 1, by omega⟩
    rw [mul_trigamma_add_nat hx (m + 1), mul_trigamma_add_nat hy (m + 1)]
    have h4 : ∑ k ∈ Finset.range m, (1 / (y + (k + 1 : ℕ)) - trigamma (y + (k + 1 : ℕ) + 1)) ≤
        ∑ k ∈ Finset.range m, (1 / (x + (k + 1 : ℕ)) - trigamma (x + (k + 1 : ℕ) + 1)) := by
      refine Finset.sum_le_sum fun k _ => ?_
      exact (inv_sub_trigamma_strictAnti (by positivity) (by linarith)).le
    rw [Finset.sum_range_succ', Finset.sum_range_succ']
    simp only [Function.comp, Nat.cast_zero, add_zero]
    linarith
  have h5 := inv_sub_trigamma_strictAnti hx hxy
  linarith

/-- strict subadditivity of `x² ψ₁(x)` -/
theorem sq_mul_trigamma_subadd {x y : ℝ} (hx : 0 < x) (hy : 0 < y) :
    (x + y) ^ 2 * trigamma (x + y) < x ^ 2 * trigamma x + y ^ 2 * trigamma y := by
  have h1 := mul_lt_mul_of_pos_left (mul_trigamma_strictAnti hx (show x < x + y by linarith)) hx
  have h2 := mul_lt_mul_of_pos_left (mul_trigamma_strictAnti hy (show y < x + y by linarith)) hy
  nlinarith

theorem trigamma_strictAnti {x y : ℝ} (hx : 0 < x) (hxy : x < y) : trigamma y < trigamma x := by
  have hy : 0 < y := hx.trans hxy
  have key : ∀ k : ℕ, 1 / (y + k) ^ 2 < 1 / (x + k) ^ 2 := fun k => by
    have h1 : 0 < x + k := by positivity
    exact one_div_lt_one_div_of_lt (by positivity)
      (pow_lt_pow_left₀ (by linarith) h1.le two_ne_zero)
  exact hasSum_lt (i := 0) (fun k => (key k).le) (key 0) (hasSum_trigamma hy) (hasSum_trigamma hx)

end Ondil
