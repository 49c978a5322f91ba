import Mathlib.NumberTheory.Harmonic.EulerMascheroni
import Mathlib.Analysis.Complex.ExponentialBounds
import Mathlib.Analysis.Calculus.Deriv.MeanValue

/-!
# Bounds on Euler's constant
-/

namespace Ondil

open Filter Topology Set

/-- `log x + 1/(2x) - 1/(12x²) + e/x⁴`. -/
noncomputable def harm (e x : ℝ) : ℝ := Real.log x + 1 / (2 * x) - 1 / (12 * x ^ 2) + e / x ^ 4

theorem harm_hasDerivAt (e : ℝ) {x : ℝ} (hx : 0 < x) :
    HasDerivAt (harm e) (1 / x - 1 / (2 * x ^ 2) + 1 / (6 * x ^ 3) - 4 * e / x ^ 5) x := by
  have h1 := Real.hasDerivAt_log hx.ne'
  have h2 := (hasDerivAt_const x (1:ℝ)).div ((hasDerivAt_id x).const_mul 2) (by simp [hx.ne'])
  have h3 := (hasDerivAt_const x (1:ℝ)).div ((hasDerivAt_pow 2 x).const_mul 12) (by positivity)
  have h4 := (hasDerivAt_const x e).div (hasDerivAt_pow 4 x) (by positivity)
  refine (((h1.add h2).sub h3).add h4).congr_deriv ?_
  simp only [id, Nat.cast_ofNat]
  field_simp
  ring

/-- The step of `H_n - harm n`. -/
noncomputable def harmStep (e x : ℝ) : ℝ := 1 / (x + 1) - harm e (x + 1) + harm e x

theorem harmStep_hasDerivAt (e : ℝ) {x : ℝ} (hx : 0 < x) :
    HasDerivAt (harmStep e) (1 / (6 * (x * (x + 1)) ^ 3)
      - 4 * e * (1 / (x * (x + 1)) ^ 5 + 5 / (x * (x + 1)) ^ 4 + 5 / (x * (x + 1)) ^ 3)) x := by
  have hx1 : 0 < x + 1 := by linarith
  have h0 := (hasDerivAt_const x (1:ℝ)).div ((hasDerivAt_id x).add_const 1) (by simpa using hx1.ne')
  have h1 : HasDerivAt (fun x => harm e (x + 1)) _ x := (harm_hasDerivAt e hx1).comp_add_const x 1
  refine ((h0.sub h1).add (harm_hasDerivAt e hx)).congr_deriv ?_
  simp only [id]
  field_simp
  ring

theorem harmStep_tendsto (e : ℝ) : Tendsto (harmStep e) atTop (𝓝 0) := by
  have t1 : Tendsto (fun x : ℝ => x + 1) atTop atTop := tendsto_atTop_add_const_right _ _ tendsto_id
  have inv : Tendsto (fun x : ℝ => x⁻¹) atTop (𝓝 0) := tendsto_inv_atTop_zero
  have inv1 : Tendsto (fun x : ℝ => (x + 1)⁻¹) atTop (𝓝 0) := inv.comp t1
  have hlog : Tendsto (fun x : ℝ => Real.log (1 + x⁻¹)) atTop (𝓝 0) := by
    have h2 : Tendsto (fun x : ℝ => 1 + x⁻¹) atTop (𝓝 1) := by simpa using inv.const_add 1
    have := (Real.continuousAt_log (x := (1:ℝ)) one_ne_zero).tendsto.comp h2
    rw [Real.log_one] at this
    exact this
  have key : Tendsto (fun x : ℝ => (x + 1)⁻¹ - Real.log (1 + x⁻¹) - 1 / 2 * (x + 1)⁻¹ + 1 / 12 * (x + 1)⁻¹ ^ 2
      - e * (x + 1)⁻¹ ^ 4 + 1 / 2 * x⁻¹ - 1 / 12 * x⁻¹ ^ 2 + e * x⁻¹ ^ 4) atTop
      (𝓝 (0 - 0 - 1 / 2 * 0 + 1 / 12 * 0 ^ 2 - e * 0 ^ 4 + 1 / 2 * 0 - 1 / 12 * 0 ^ 2 + e * 0 ^ 4)) :=
    ((((((inv1.sub hlog).sub (inv1.const_mul _)).add ((inv1.pow 2).const_mul _)).sub ((inv1.pow 4).const_mul _)).add
      (inv.const_mul _)).sub ((inv.pow 2).const_mul _)).add ((inv.pow 4).const_mul _)
  have e0 : (0:ℝ) - 0 - 1 / 2 * 0 + 1 / 12 * 0 ^ 2 - e * 0 ^ 4 + 1 / 2 * 0 - 1 / 12 * 0 ^ 2 + e * 0 ^ 4 = 0 := by
    norm_num
  rw [e0] at key
  refine key.congr' ?_
  filter_upwards [eventually_gt_atTop 0] with x hx
  have hx1 : 0 < x + 1 := by linarith
  have hl : Real.log (1 + x⁻¹) = Real.log (x + 1) - Real.log x := by
    rw [← Real.log_div hx1.ne' hx.ne']; congr 1; field_simp
  rw [hl]
  unfold harmStep harm
  field_simp
  ring

theorem harmStep_nonpos {x : ℝ} (hx : 0 < x) : harmStep 0 x ≤ 0 := by
  have hmono : MonotoneOn (harmStep 0) (Ioi 0) := by
    refine monotoneOn_of_deriv_nonneg (convex_Ioi 0)
      (fun y hy => (harmStep_hasDerivAt 0 hy).continuousAt.continuousWithinAt)
      (fun y hy => (harmStep_hasDerivAt 0 (by simpa using hy)).differentiableAt.differentiableWithinAt) fun y hy => ?_
    have hy' : 0 < y := by simpa using hy
    rw [(harmStep_hasDerivAt 0 hy').deriv]
    simp
    positivity
  refine ge_of_tendsto (harmStep_tendsto 0) ?_
  filter_upwards [eventually_ge_atTop x] with y hy
  exact hmono hx (lt_of_lt_of_le hx hy) hy

theorem harmStep_nonneg {x : ℝ} (hx : 0 < x) : 0 ≤ harmStep (1 / 120) x := by
  have hanti : AntitoneOn (harmStep (1 / 120)) (Ioi 0) := by
    refine antitoneOn_of_deriv_nonpos (convex_Ioi 0)
      (fun y hy => (harmStep_hasDerivAt _ hy).continuousAt.continuousWithinAt)
      (fun y hy => (harmStep_hasDerivAt _ (by simpa using hy)).differentiableAt.differentiableWithinAt) fun y hy => ?_
    have hy' : 0 < y := by simpa using hy
    rw [(harmStep_hasDerivAt _ hy').deriv]
    have h1 : 0 < y * (y + 1) := by positivity
    have e : 1 / (6 * (y * (y + 1)) ^ 3)
      - 4 * (1 / 120) * (1 / (y * (y + 1)) ^ 5 + 5 / (y * (y + 1)) ^ 4 + 5 / (y * (y + 1)) ^ 3)
      = -(1 / 30 / (y * (y + 1)) ^ 5 + 1 / 6 / (y * (y + 1)) ^ 4) := by
      field_simp
      ring
    rw [e]
    have : 0 < 1 / 30 / (y * (y + 1)) ^ 5 + 1 / 6 / (y * (y + 1)) ^ 4 := by positivity
    linarith
  refine le_of_tendsto (harmStep_tendsto (1 / 120)) ?_
  filter_upwards [eventually_ge_atTop x] with y hy
  exact hanti hx (lt_of_lt_of_le hx hy) hy

/-- `H_n - harm e n`, from `n = 1`. -/
noncomputable def harmSeq (e : ℝ) (n : ℕ) : ℝ := (harmonic (n + 1) : ℝ) - harm e ((n + 1 : ℕ) : ℝ)

theorem harmSeq_succ (e : ℝ) (n : ℕ) : harmSeq e (n + 1) - harmSeq e n = harmStep e ((n + 1 : ℕ) : ℝ) := by
  unfold harmSeq harmStep
  rw [harmonic_succ (n + 1)]
  push_cast
  ring_nf

theorem harmSeq_tendsto (e : ℝ) : Tendsto (harmSeq e) atTop (𝓝 Real.eulerMascheroniConstant) := by
  have h1 : Tendsto (fun n : ℕ => (harmonic (n + 1) : ℝ) - Real.log ((n + 1 : ℕ) : ℝ)) atTop
      (𝓝 Real.eulerMascheroniConstant) :=
    (tendsto_add_atTop_iff_nat (f := fun n : ℕ => (harmonic n : ℝ) - Real.log (n : ℝ)) 1).mpr
      Real.tendsto_harmonic_sub_log
  have inv : Tendsto (fun n : ℕ => (((n + 1 : ℕ) : ℝ))⁻¹) atTop (𝓝 0) :=
    (tendsto_add_atTop_iff_nat (f := fun n : ℕ => ((n : ℝ))⁻¹) 1).mpr tendsto_inv_atTop_nhds_zero_nat
  have h2 := ((h1.sub (inv.const_mul (1 / 2))).add ((inv.pow 2).const_mul (1 / 12))).sub ((inv.pow 4).const_mul e)
  simp only [mul_zero, sub_zero, ne_eq, OfNat.ofNat_ne_zero, not_false_eq_true, zero_pow, add_zero] at h2
  refine h2.congr fun n => ?_
  unfold harmSeq harm
  have : ((n + 1 : ℕ) : ℝ) ≠ 0 := by positivity
  field_simp
  ring

theorem euler_lt (n : ℕ) : Real.eulerMascheroniConstant ≤ harmSeq 0 n := by
  have hanti : Antitone (harmSeq 0) := antitone_nat_of_succ_le fun n => by
    have := harmSeq_succ 0 n
    have h := harmStep_nonpos (x := ((n + 1 : ℕ) : ℝ)) (by positivity)
    linarith
  exact hanti.le_of_tendsto (harmSeq_tendsto 0) n

theorem lt_euler (n : ℕ) : harmSeq (1 / 120) n ≤ Real.eulerMascheroniConstant := by
  have hmono : Monotone (harmSeq (1 / 120)) := monotone_nat_of_le_succ fun n => by
    have := harmSeq_succ (1 / 120) n
    have h := harmStep_nonneg (x := ((n + 1 : ℕ) : ℝ)) (by positivity)
    linarith
  exact hmono.ge_of_tendsto (harmSeq_tendsto _) n

theorem harmonic_16 : harmonic 16 = 2436559 / 720720 := by
  norm_num [harmonic, Finset.sum_range_succ]

/-- Euler's constant to six digits. -/
theorem euler_bounds : 0.5772155 < Real.eulerMascheroniConstant ∧ Real.eulerMascheroniConstant < 0.5772158 := by
  have hl : Real.log ((15 + 1 : ℕ) : ℝ) = 4 * Real.log 2 := by
    rw [show (((15 + 1 : ℕ)) : ℝ) = 2 ^ 4 by norm_num, Real.log_pow]; norm_num
  have l1 := Real.log_two_gt_d9
  have l2 := Real.log_two_lt_d9
  have h1 := euler_lt 15
  have h2 := lt_euler 15
  unfold harmSeq harm at h1 h2
  rw [hl, harmonic_16] at h1 h2
  norm_num at h1 h2
  constructor
  · norm_num; linarith
  · norm_num; linarith

end Ondil
