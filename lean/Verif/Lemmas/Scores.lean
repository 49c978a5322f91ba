import Verif.Spec.Distributions
import Verif.Lemmas.Polygamma
import Mathlib.Analysis.SpecialFunctions.Log.Deriv
import Mathlib.Analysis.SpecialFunctions.Arsinh
import Mathlib.Analysis.SpecialFunctions.Sqrt

/-! Closed forms of the log densities and their derivatives. -/

namespace Ondil
namespace Dist
open Filter Topology

/-! ### Closed forms -/

noncomputable def normalL (y m s : ℝ) : ℝ :=
  -Real.log s - Real.log (Real.sqrt (2 * Real.pi)) - ((y - m) / s) ^ 2 / 2

noncomputable def studentL (y m s ν : ℝ) : ℝ :=
  logGamma ((ν + 1) / 2) - logGamma (ν / 2) - (Real.log Real.pi + Real.log ν) / 2
    - (ν + 1) / 2 * Real.log (1 + ((y - m) / s) ^ 2 / ν) - Real.log s

noncomputable def jsuL (y m s ν τ : ℝ) : ℝ :=
  Real.log τ - Real.log (((y - m) / s) ^ 2 + 1) / 2 - Real.log (Real.sqrt (2 * Real.pi))
    - (ν + τ * Real.arsinh ((y - m) / s)) ^ 2 / 2 - Real.log s

noncomputable def gammaL (y μ σ : ℝ) : ℝ :=
  (1 / σ ^ 2 - 1) * Real.log y - 1 / σ ^ 2 * (2 * Real.log σ + Real.log μ) - y / (σ ^ 2 * μ)
    - logGamma (1 / σ ^ 2)

noncomputable def betaL (y μ σ : ℝ) : ℝ :=
  logGamma (betaA μ σ + betaB μ σ) + (betaA μ σ - 1) * Real.log y + (betaB μ σ - 1) * Real.log (1 - y)
    - logGamma (betaA μ σ) - logGamma (betaB μ σ)

noncomputable def logNormalL (y m s : ℝ) : ℝ :=
  -Real.log y - Real.log s - Real.log (Real.sqrt (2 * Real.pi)) - (Real.log y - m) ^ 2 / (2 * s ^ 2)

noncomputable def logisticL (y m s : ℝ) : ℝ :=
  -((y - m) / s) - 2 * Real.log (1 + Real.exp (-((y - m) / s))) - Real.log s

noncomputable def gumbelL (y m s : ℝ) : ℝ := (y - m) / s - Real.exp ((y - m) / s) - Real.log s

noncomputable def reverseGumbelL (y m s : ℝ) : ℝ :=
  -((y - m) / s) - Real.exp (-((y - m) / s)) - Real.log s

noncomputable def exponentialL (y m : ℝ) : ℝ := -(y / m) - Real.log m

noncomputable def inverseGammaL (y μ σ : ℝ) : ℝ :=
  1 / σ ^ 2 * (Real.log μ + Real.log (1 / σ ^ 2 + 1)) - (1 / σ ^ 2 + 1) * Real.log y
    - logGamma (1 / σ ^ 2) - μ * (1 / σ ^ 2 + 1) / y

noncomputable def inverseGaussianL (y μ σ : ℝ) : ℝ :=
  -(Real.log (2 * Real.pi) + 3 * Real.log y) / 2 - Real.log σ - (y - μ) ^ 2 / (2 * y * μ ^ 2 * σ ^ 2)

/-! ### Derivatives of building blocks -/

theorem hasDerivAt_standard_loc (y m s : ℝ) :
    HasDerivAt (fun t => (y - t) / s) (-1 / s) m :=
  ((hasDerivAt_id m).const_sub y).div_const s

theorem hasDerivAt_standard_scale (y m s : ℝ) (hs : s ≠ 0) :
    HasDerivAt (fun t => (y - m) / t) (-((y - m) / s) / s) s := by
  have h := (hasDerivAt_const s (y - m)).div (hasDerivAt_id s) hs
  have e : (0 * id s - (y - m) * 1) / id s ^ 2 = -((y - m) / s) / s := by
    simp only [id]
    field_simp
    ring
  rw [e] at h
  exact h

theorem hasDerivAt_inv_sq (σ : ℝ) (h : σ ≠ 0) :
    HasDerivAt (fun t => 1 / t ^ 2) (-2 / σ ^ 3) σ := by
  have h1 := (hasDerivAt_const σ (1 : ℝ)).div ((hasDerivAt_pow 2 σ)) (pow_ne_zero 2 h)
  have e : (0 * σ ^ 2 - 1 * (((2 : ℕ) : ℝ) * σ ^ (2 - 1))) / (σ ^ 2) ^ 2 = -2 / σ ^ 3 := by
    field_simp
    norm_num
    ring
  rw [e] at h1
  exact h1

/-! ### Normal -/

theorem normalL_loc (y m s : ℝ) (hs : s ≠ 0) :
    HasDerivAt (fun t => normalL y t s) (1 / s ^ 2 * (y - m)) m := by
  have h := (((hasDerivAt_standard_loc y m s).pow 2).div_const 2).const_sub
    (-Real.log s - Real.log (Real.sqrt (2 * Real.pi)))
  refine HasDerivAt.congr_deriv h ?_
  try simp only [Pi.pow_apply, Pi.neg_apply, Pi.sub_apply, Pi.mul_apply, Pi.add_apply, Pi.div_apply, smul_eq_mul,
    Nat.add_one_sub_one, Nat.cast_ofNat, show (2 : ℕ) - 1 = 1 from rfl, pow_one]
  field_simp

theorem normalL_scale (y m s : ℝ) (hs : s ≠ 0) :
    HasDerivAt (fun t => normalL y m t) (((y - m) ^ 2 - s ^ 2) / s ^ 3) s := by
  have h := (((Real.hasDerivAt_log hs).neg.sub_const (Real.log (Real.sqrt (2 * Real.pi)))).sub
    (((hasDerivAt_standard_scale y m s hs).pow 2).div_const 2))
  refine HasDerivAt.congr_deriv h ?_
  try simp only [Pi.pow_apply, Pi.neg_apply, Pi.sub_apply, Pi.mul_apply, Pi.add_apply, Pi.div_apply, smul_eq_mul,
    Nat.add_one_sub_one, Nat.cast_ofNat, show (2 : ℕ) - 1 = 1 from rfl, pow_one]
  field_simp
  ring

theorem normalL_var (y m v : ℝ) (hv : 0 < v) :
    HasDerivAt (fun t => normalL y m (t ^ ((1 : ℝ) / 2))) (0.5 * ((y - m) ^ 2 - v) / v ^ 2) v := by
  have hs : Real.sqrt v ≠ 0 := (Real.sqrt_pos.mpr hv).ne'
  have h := (normalL_scale y m (Real.sqrt v) hs).comp v (Real.hasDerivAt_sqrt hv.ne')
  have e : ((y - m) ^ 2 - Real.sqrt v ^ 2) / Real.sqrt v ^ 3 * (1 / (2 * Real.sqrt v)) =
      0.5 * ((y - m) ^ 2 - v) / v ^ 2 := by
    have h2 : Real.sqrt v ^ 2 = v := Real.sq_sqrt hv.le
    have h4 : Real.sqrt v ^ 3 * Real.sqrt v = v ^ 2 := by
      calc Real.sqrt v ^ 3 * Real.sqrt v = (Real.sqrt v ^ 2) ^ 2 := by ring
        _ = v ^ 2 := by rw [h2]
    rw [h2, div_mul_div_comm]
    rw [show Real.sqrt v ^ 3 * (2 * Real.sqrt v) = 2 * (Real.sqrt v ^ 3 * Real.sqrt v) by ring, h4]
    field_simp
    ring
  rw [e] at h
  refine h.congr_of_eventuallyEq (Eventually.of_forall fun t => ?_)
  simp only [Function.comp, Real.sqrt_eq_rpow]

/-! ### Student t -/

theorem studentL_loc (y m s ν : ℝ) (hs : 0 < s) (hν : 0 < ν) :
    HasDerivAt (fun t => studentL y t s ν)
      ((ν + 1) / (ν + (y - m) ^ 2 / s ^ 2) * (y - m) / s ^ 2) m := by
  have hpos : 0 < 1 + ((y - m) / s) ^ 2 / ν := by positivity
  have h1 := ((((hasDerivAt_standard_loc y m s).pow 2).div_const ν).const_add 1).log hpos.ne'
  have h := ((h1.const_mul ((ν + 1) / 2)).const_sub
    (logGamma ((ν + 1) / 2) - logGamma (ν / 2) - (Real.log Real.pi + Real.log ν) / 2)).sub_const
      (Real.log s)
  refine HasDerivAt.congr_deriv h ?_
  try simp only [Pi.pow_apply, Pi.neg_apply, Pi.sub_apply, Pi.mul_apply, Pi.add_apply, Pi.div_apply, smul_eq_mul,
    Nat.add_one_sub_one, Nat.cast_ofNat, show (2 : ℕ) - 1 = 1 from rfl, pow_one]
  have h2 : 0 < ν + (y - m) ^ 2 / s ^ 2 := by positivity
  have h3 : 0 < s ^ 2 * ν + (y - m) ^ 2 := by positivity
  field_simp

theorem studentL_scale (y m s ν : ℝ) (hs : 0 < s) (hν : 0 < ν) :
    HasDerivAt (fun t => studentL y m t ν)
      (((ν + 1) / (ν + (y - m) ^ 2 / s ^ 2) * ((y - m) ^ 2 / s ^ 2) - 1) / s) s := by
  have hpos : 0 < 1 + ((y - m) / s) ^ 2 / ν := by positivity
  have h1 := ((((hasDerivAt_standard_scale y m s hs.ne').pow 2).div_const ν).const_add 1).log hpos.ne'
  have h := ((h1.const_mul ((ν + 1) / 2)).const_sub
    (logGamma ((ν + 1) / 2) - logGamma (ν / 2) - (Real.log Real.pi + Real.log ν) / 2)).sub
      (Real.hasDerivAt_log hs.ne')
  refine HasDerivAt.congr_deriv h ?_
  try simp only [Pi.pow_apply, Pi.neg_apply, Pi.sub_apply, Pi.mul_apply, Pi.add_apply, Pi.div_apply, smul_eq_mul,
    Nat.add_one_sub_one, Nat.cast_ofNat, show (2 : ℕ) - 1 = 1 from rfl, pow_one]
  have h2 : 0 < ν + (y - m) ^ 2 / s ^ 2 := by positivity
  have h3 : 0 < s ^ 2 * ν + (y - m) ^ 2 := by positivity
  field_simp

theorem studentL_df (y m s ν : ℝ) (hs : 0 < s) (hν : 0 < ν) :
    HasDerivAt (fun t => studentL y m s t)
      ((-Real.log (1 + (y - m) ^ 2 / s ^ 2 / ν)
        + ((ν + 1) / (ν + (y - m) ^ 2 / s ^ 2) * ((y - m) ^ 2 / s ^ 2) - 1) / ν
        + digamma ((ν + 1) / 2) - digamma (ν / 2)) / 2) ν := by
  have hpos : 0 < 1 + ((y - m) / s) ^ 2 / ν := by positivity
  have hh : HasDerivAt (fun t : ℝ => (t + 1) / 2) (1 / 2) ν :=
    ((hasDerivAt_id ν).add_const 1).div_const 2
  have g1 := (hasDerivAt_logGamma (show 0 < (ν + 1) / 2 by linarith)).comp ν hh
  have g2 := (hasDerivAt_logGamma (show 0 < ν / 2 by linarith)).comp ν ((hasDerivAt_id ν).div_const 2)
  have g3 := ((Real.hasDerivAt_log hν.ne').const_add (Real.log Real.pi)).div_const 2
  have q : HasDerivAt (fun t => 1 + ((y - m) / s) ^ 2 / t) (0 + -(((y - m) / s) ^ 2) / ν ^ 2) ν := by
    have := ((hasDerivAt_const ν (((y - m) / s) ^ 2)).div (hasDerivAt_id ν) hν.ne').const_add 1
    refine HasDerivAt.congr_deriv this ?_
    try simp only [Pi.pow_apply, Pi.neg_apply, Pi.sub_apply, Pi.mul_apply, Pi.add_apply, Pi.div_apply, smul_eq_mul,
    Nat.add_one_sub_one, Nat.cast_ofNat, show (2 : ℕ) - 1 = 1 from rfl, pow_one]
    simp
  have g4 := hh.mul (q.log hpos.ne')
  have h := ((((g1.sub g2).sub g3).sub g4).sub_const (Real.log s))
  refine HasDerivAt.congr_deriv h ?_
  try simp only [Pi.pow_apply, Pi.neg_apply, Pi.sub_apply, Pi.mul_apply, Pi.add_apply, Pi.div_apply, smul_eq_mul,
    Nat.add_one_sub_one, Nat.cast_ofNat, show (2 : ℕ) - 1 = 1 from rfl, pow_one]
  have e : ((y - m) / s) ^ 2 = (y - m) ^ 2 / s ^ 2 := by rw [div_pow]
  rw [e] at hpos ⊢
  have h2 : 0 < ν + (y - m) ^ 2 / s ^ 2 := by positivity
  have e2 : 1 + (y - m) ^ 2 / s ^ 2 / ν = (ν + (y - m) ^ 2 / s ^ 2) / ν := by field_simp
  generalize (y - m) ^ 2 / s ^ 2 = q at *
  generalize Real.log (1 + q / ν) = L
  rw [e2]
  field_simp
  ring

/-! ### Johnson SU -/

theorem jsuL_loc (y m s ν τ : ℝ) (hs : 0 < s) :
    HasDerivAt (fun t => jsuL y t s ν τ)
      ((y - m) / s / (s * ((y - m) / s * ((y - m) / s) + 1))
        + (ν + τ * Real.arsinh ((y - m) / s)) * τ / (s * Real.sqrt ((y - m) / s * ((y - m) / s) + 1))) m := by
  have hz := hasDerivAt_standard_loc y m s
  have hpos : 0 < ((y - m) / s) ^ 2 + 1 := by positivity
  have h1 := (((hz.pow 2).add_const 1).log hpos.ne').div_const 2
  have h2 := ((((hz.arsinh).const_mul τ).const_add ν).pow 2).div_const 2
  have h := (((h1.const_sub (Real.log τ)).sub_const (Real.log (Real.sqrt (2 * Real.pi)))).sub h2).sub_const
    (Real.log s)
  refine HasDerivAt.congr_deriv h ?_
  try simp only [Pi.pow_apply, Pi.neg_apply, Pi.sub_apply, Pi.mul_apply, Pi.add_apply, Pi.div_apply, smul_eq_mul,
    Nat.add_one_sub_one, Nat.cast_ofNat, show (2 : ℕ) - 1 = 1 from rfl, pow_one]
  have hq : 0 < Real.sqrt (1 + ((y - m) / s) ^ 2) := Real.sqrt_pos.mpr (by positivity)
  rw [show (y - m) / s * ((y - m) / s) + 1 = 1 + ((y - m) / s) ^ 2 by ring,
    show ((y - m) / s) ^ 2 + 1 = 1 + ((y - m) / s) ^ 2 by ring]
  rw [show ((y - m) / s) ^ 2 + 1 = 1 + ((y - m) / s) ^ 2 by ring] at hpos
  generalize Real.sqrt (1 + ((y - m) / s) ^ 2) = R at *
  generalize Real.arsinh ((y - m) / s) = A at *
  generalize (y - m) / s = z at *
  have : 1 + z ^ 2 ≠ 0 := hpos.ne'
  field_simp
  ring

theorem jsuL_scale (y m s ν τ : ℝ) (hs : 0 < s) :
    HasDerivAt (fun t => jsuL y m t ν τ)
      (-1 / (s * ((y - m) / s * ((y - m) / s) + 1))
        + (ν + τ * Real.arsinh ((y - m) / s)) * τ * ((y - m) / s)
          / (s * Real.sqrt ((y - m) / s * ((y - m) / s) + 1))) s := by
  have hz := hasDerivAt_standard_scale y m s hs.ne'
  have hpos : 0 < ((y - m) / s) ^ 2 + 1 := by positivity
  have h1 := (((hz.pow 2).add_const 1).log hpos.ne').div_const 2
  have h2 := ((((hz.arsinh).const_mul τ).const_add ν).pow 2).div_const 2
  have h := (((h1.const_sub (Real.log τ)).sub_const (Real.log (Real.sqrt (2 * Real.pi)))).sub h2).sub
    (Real.hasDerivAt_log hs.ne')
  refine HasDerivAt.congr_deriv h ?_
  try simp only [Pi.pow_apply, Pi.neg_apply, Pi.sub_apply, Pi.mul_apply, Pi.add_apply, Pi.div_apply, smul_eq_mul,
    Nat.add_one_sub_one, Nat.cast_ofNat, show (2 : ℕ) - 1 = 1 from rfl, pow_one]
  have hq : 0 < Real.sqrt (1 + ((y - m) / s) ^ 2) := Real.sqrt_pos.mpr (by positivity)
  rw [show (y - m) / s * ((y - m) / s) + 1 = 1 + ((y - m) / s) ^ 2 by ring,
    show ((y - m) / s) ^ 2 + 1 = 1 + ((y - m) / s) ^ 2 by ring]
  rw [show ((y - m) / s) ^ 2 + 1 = 1 + ((y - m) / s) ^ 2 by ring] at hpos
  generalize Real.sqrt (1 + ((y - m) / s) ^ 2) = R at *
  generalize Real.arsinh ((y - m) / s) = A at *
  generalize (y - m) / s = z at *
  have : 1 + z ^ 2 ≠ 0 := hpos.ne'
  field_simp
  ring

theorem jsuL_skew (y m s ν τ : ℝ) :
    HasDerivAt (fun t => jsuL y m s t τ) (-(ν + τ * Real.arsinh ((y - m) / s))) ν := by
  have h2 := (((hasDerivAt_id ν).add_const (τ * Real.arsinh ((y - m) / s))).pow 2).div_const 2
  have h := (h2.const_sub (Real.log τ - Real.log (((y - m) / s) ^ 2 + 1) / 2
    - Real.log (Real.sqrt (2 * Real.pi)))).sub_const (Real.log s)
  refine HasDerivAt.congr_deriv h ?_
  try simp only [Pi.pow_apply, Pi.neg_apply, Pi.sub_apply, Pi.mul_apply, Pi.add_apply, Pi.div_apply, smul_eq_mul,
    Nat.add_one_sub_one, Nat.cast_ofNat, show (2 : ℕ) - 1 = 1 from rfl, pow_one]
  simp only [id]
  ring

theorem jsuL_tail (y m s ν τ : ℝ) (hτ : 0 < τ) :
    HasDerivAt (fun t => jsuL y m s ν t)
      ((1 + (ν + τ * Real.arsinh ((y - m) / s)) * ν
        - (ν + τ * Real.arsinh ((y - m) / s)) * (ν + τ * Real.arsinh ((y - m) / s))) / τ) τ := by
  have h2 := ((((hasDerivAt_id τ).mul_const (Real.arsinh ((y - m) / s))).const_add ν).pow 2).div_const 2
  have h := (((((Real.hasDerivAt_log hτ.ne').sub_const (Real.log (((y - m) / s) ^ 2 + 1) / 2)).sub_const
    (Real.log (Real.sqrt (2 * Real.pi)))).sub h2).sub_const (Real.log s))
  refine HasDerivAt.congr_deriv h ?_
  try simp only [Pi.pow_apply, Pi.neg_apply, Pi.sub_apply, Pi.mul_apply, Pi.add_apply, Pi.div_apply, smul_eq_mul,
    Nat.add_one_sub_one, Nat.cast_ofNat, show (2 : ℕ) - 1 = 1 from rfl, pow_one]
  simp only [id]
  generalize Real.arsinh ((y - m) / s) = A
  field_simp
  ring

/-! ### Gamma -/

theorem gammaL_loc (y μ σ : ℝ) (hμ : 0 < μ) (hσ : 0 < σ) :
    HasDerivAt (fun t => gammaL y t σ) ((y - μ) / (σ ^ 2 * μ ^ 2)) μ := by
  have h1 := (((Real.hasDerivAt_log hμ.ne').const_add (2 * Real.log σ)).const_mul (1 / σ ^ 2)).const_sub
    ((1 / σ ^ 2 - 1) * Real.log y)
  have h2 : HasDerivAt (fun t => y / (σ ^ 2 * t)) (-y / (σ ^ 2 * μ ^ 2)) μ := by
    have := (hasDerivAt_const μ y).div ((hasDerivAt_id μ).const_mul (σ ^ 2))
      (show σ ^ 2 * id μ ≠ 0 by simp only [id]; positivity)
    refine HasDerivAt.congr_deriv this ?_
    try simp only [Pi.pow_apply, Pi.neg_apply, Pi.sub_apply, Pi.mul_apply, Pi.add_apply, Pi.div_apply, smul_eq_mul,
    Nat.add_one_sub_one, Nat.cast_ofNat, show (2 : ℕ) - 1 = 1 from rfl, pow_one]
    simp only [id]
    field_simp
    ring
  have h := (h1.sub h2).sub_const (logGamma (1 / σ ^ 2))
  refine HasDerivAt.congr_deriv h ?_
  try simp only [Pi.pow_apply, Pi.neg_apply, Pi.sub_apply, Pi.mul_apply, Pi.add_apply, Pi.div_apply, smul_eq_mul,
    Nat.add_one_sub_one, Nat.cast_ofNat, show (2 : ℕ) - 1 = 1 from rfl, pow_one]
  field_simp
  ring

theorem gammaL_scale (y μ σ : ℝ) (hμ : 0 < μ) (hσ : 0 < σ) :
    HasDerivAt (fun t => gammaL y μ t)
      (2 / σ ^ 3 * (y / μ - Real.log y + Real.log μ + Real.log (σ ^ 2) - 1 + digamma (1 / σ ^ 2))) σ := by
  have hq := hasDerivAt_inv_sq σ hσ.ne'
  have h1 := (hq.sub_const 1).mul_const (Real.log y)
  have h2 := hq.mul (((Real.hasDerivAt_log hσ.ne').const_mul 2).add_const (Real.log μ))
  have h3 : HasDerivAt (fun t => y / (t ^ 2 * μ)) (y / μ * (-2 / σ ^ 3)) σ := by
    refine (hq.const_mul (y / μ)).congr_of_eventuallyEq ?_
    filter_upwards [Ioi_mem_nhds hσ] with t ht
    have : t ≠ 0 := (show (0:ℝ) < t from ht).ne'
    field_simp
  have h4 := (hasDerivAt_logGamma (show 0 < 1 / σ ^ 2 by positivity)).comp σ hq
  have h := ((h1.sub h2).sub h3).sub h4
  refine HasDerivAt.congr_deriv h ?_
  try simp only [Pi.pow_apply, Pi.neg_apply, Pi.sub_apply, Pi.mul_apply, Pi.add_apply, Pi.div_apply, smul_eq_mul,
    Nat.add_one_sub_one, Nat.cast_ofNat, show (2 : ℕ) - 1 = 1 from rfl, pow_one]
  rw [Real.log_pow]
  generalize digamma (1 / σ ^ 2) = D
  generalize Real.log y = ly
  generalize Real.log μ = lm
  generalize Real.log σ = ls
  push_cast
  field_simp
  ring

/-! ### Beta -/

theorem betaA_pos {μ σ : ℝ} (hμ : 0 < μ) (hσ : 0 < σ) (hσ1 : σ < 1) : 0 < betaA μ σ := by
  have : 0 < 1 - σ ^ 2 := by nlinarith
  unfold betaA
  positivity

theorem betaB_pos {μ σ : ℝ} (hμ : μ < 1) (hσ : 0 < σ) (hσ1 : σ < 1) : 0 < betaB μ σ := by
  have : 0 < 1 - σ ^ 2 := by nlinarith
  have : 0 < 1 - μ := by linarith
  unfold betaB
  positivity

theorem betaA_add_betaB (μ σ : ℝ) : betaA μ σ + betaB μ σ = (1 - σ ^ 2) / σ ^ 2 := by
  unfold betaA betaB
  ring

theorem hasDerivAt_betaA_loc (μ σ : ℝ) :
    HasDerivAt (fun t => betaA t σ) ((1 - σ ^ 2) / σ ^ 2) μ := by
  have h := ((hasDerivAt_id μ).mul_const (1 - σ ^ 2)).div_const (σ ^ 2)
  rw [one_mul] at h
  exact h

theorem hasDerivAt_betaB_loc (μ σ : ℝ) :
    HasDerivAt (fun t => betaB t σ) (-((1 - σ ^ 2) / σ ^ 2)) μ := by
  have h := (((hasDerivAt_id μ).const_sub 1).mul_const (1 - σ ^ 2)).div_const (σ ^ 2)
  refine HasDerivAt.congr_deriv h ?_
  try simp only [Pi.pow_apply, Pi.neg_apply, Pi.sub_apply, Pi.mul_apply, Pi.add_apply, Pi.div_apply, smul_eq_mul,
    Nat.add_one_sub_one, Nat.cast_ofNat, show (2 : ℕ) - 1 = 1 from rfl, pow_one]
  ring

theorem hasDerivAt_ratio (σ : ℝ) (h : σ ≠ 0) :
    HasDerivAt (fun t => (1 - t ^ 2) / t ^ 2) (-2 / σ ^ 3) σ := by
  have h1 := (((hasDerivAt_pow 2 σ)).const_sub 1).div (hasDerivAt_pow 2 σ) (pow_ne_zero 2 h)
  refine HasDerivAt.congr_deriv h1 ?_
  try simp only [Pi.pow_apply, Pi.neg_apply, Pi.sub_apply, Pi.mul_apply, Pi.add_apply, Pi.div_apply, smul_eq_mul,
    Nat.add_one_sub_one, Nat.cast_ofNat, show (2 : ℕ) - 1 = 1 from rfl, pow_one]
  field_simp
  push_cast
  ring

theorem hasDerivAt_betaA_scale (μ σ : ℝ) (h : σ ≠ 0) :
    HasDerivAt (fun t => betaA μ t) (μ * (-2 / σ ^ 3)) σ := by
  refine ((hasDerivAt_ratio σ h).const_mul μ).congr_of_eventuallyEq (Eventually.of_forall fun t => ?_)
  simp only [betaA]
  ring

theorem hasDerivAt_betaB_scale (μ σ : ℝ) (h : σ ≠ 0) :
    HasDerivAt (fun t => betaB μ t) ((1 - μ) * (-2 / σ ^ 3)) σ := by
  refine ((hasDerivAt_ratio σ h).const_mul (1 - μ)).congr_of_eventuallyEq (Eventually.of_forall fun t => ?_)
  simp only [betaB]
  ring

theorem betaL_loc (y μ σ : ℝ) (hμ : 0 < μ) (hμ1 : μ < 1) (hσ : 0 < σ) (hσ1 : σ < 1) :
    HasDerivAt (fun t => betaL y t σ)
      ((1 - σ ^ 2) / σ ^ 2 *
        (-digamma (betaA μ σ) + digamma (betaB μ σ) + Real.log y - Real.log (1 - y))) μ := by
  have ha := hasDerivAt_betaA_loc μ σ
  have hb := hasDerivAt_betaB_loc μ σ
  have pa := betaA_pos hμ hσ hσ1
  have pb := betaB_pos hμ1 hσ hσ1
  have g := ((((hasDerivAt_logGamma (add_pos pa pb)).comp μ (ha.add hb)).add
    ((ha.sub_const 1).mul_const (Real.log y))).add ((hb.sub_const 1).mul_const (Real.log (1 - y)))).sub
    ((hasDerivAt_logGamma pa).comp μ ha)
  have h := g.sub ((hasDerivAt_logGamma pb).comp μ hb)
  refine HasDerivAt.congr_deriv h ?_
  try simp only [Pi.pow_apply, Pi.neg_apply, Pi.sub_apply, Pi.mul_apply, Pi.add_apply, Pi.div_apply, smul_eq_mul,
    Nat.add_one_sub_one, Nat.cast_ofNat, show (2 : ℕ) - 1 = 1 from rfl, pow_one]
  ring

theorem betaL_scale (y μ σ : ℝ) (hμ : 0 < μ) (hμ1 : μ < 1) (hσ : 0 < σ) (hσ1 : σ < 1) :
    HasDerivAt (fun t => betaL y μ t)
      (-(2 / σ ^ 3) * (μ * (-digamma (betaA μ σ) + digamma (betaA μ σ + betaB μ σ) + Real.log y)
        + (1 - μ) * (-digamma (betaB μ σ) + digamma (betaA μ σ + betaB μ σ) + Real.log (1 - y)))) σ := by
  have ha := hasDerivAt_betaA_scale μ σ hσ.ne'
  have hb := hasDerivAt_betaB_scale μ σ hσ.ne'
  have pa := betaA_pos hμ hσ hσ1
  have pb := betaB_pos hμ1 hσ hσ1
  have g := ((((hasDerivAt_logGamma (add_pos pa pb)).comp σ (ha.add hb)).add
    ((ha.sub_const 1).mul_const (Real.log y))).add ((hb.sub_const 1).mul_const (Real.log (1 - y)))).sub
    ((hasDerivAt_logGamma pa).comp σ ha)
  have h := g.sub ((hasDerivAt_logGamma pb).comp σ hb)
  refine HasDerivAt.congr_deriv h ?_
  try simp only [Pi.pow_apply, Pi.neg_apply, Pi.sub_apply, Pi.mul_apply, Pi.add_apply, Pi.div_apply, smul_eq_mul,
    Nat.add_one_sub_one, Nat.cast_ofNat, show (2 : ℕ) - 1 = 1 from rfl, pow_one]
  ring

/-! ### Log-normal -/

theorem logNormalL_loc (y m s : ℝ) (hs : 0 < s) :
    HasDerivAt (fun t => logNormalL y t s) ((Real.log y - m) / s ^ 2) m := by
  have h := ((((hasDerivAt_id m).const_sub (Real.log y)).pow 2).div_const (2 * s ^ 2)).const_sub
    (-Real.log y - Real.log s - Real.log (Real.sqrt (2 * Real.pi)))
  refine HasDerivAt.congr_deriv h ?_
  try simp only [Pi.pow_apply, Pi.neg_apply, Pi.sub_apply, Pi.mul_apply, Pi.add_apply, Pi.div_apply, smul_eq_mul,
    Nat.add_one_sub_one, Nat.cast_ofNat, show (2 : ℕ) - 1 = 1 from rfl, pow_one]
  simp only [id]
  field_simp

theorem logNormalL_scale (y m s : ℝ) (hs : 0 < s) :
    HasDerivAt (fun t => logNormalL y m t) (((Real.log y - m) ^ 2 - s ^ 2) / s ^ 3) s := by
  have h1 : HasDerivAt (fun t => (Real.log y - m) ^ 2 / (2 * t ^ 2))
      ((Real.log y - m) ^ 2 / 2 * (-2 / s ^ 3)) s := by
    refine ((hasDerivAt_inv_sq s hs.ne').const_mul ((Real.log y - m) ^ 2 / 2)).congr_of_eventuallyEq
      (Eventually.of_forall fun t => ?_)
    simp only
    ring
  have h := ((((Real.hasDerivAt_log hs.ne').const_sub (-Real.log y)).sub_const
    (Real.log (Real.sqrt (2 * Real.pi))))).sub h1
  refine HasDerivAt.congr_deriv h ?_
  try simp only [Pi.pow_apply, Pi.neg_apply, Pi.sub_apply, Pi.mul_apply, Pi.add_apply, Pi.div_apply, smul_eq_mul,
    Nat.add_one_sub_one, Nat.cast_ofNat, show (2 : ℕ) - 1 = 1 from rfl, pow_one]
  field_simp
  ring

theorem logNormalL_median (y m s : ℝ) (hm : 0 < m) (hs : 0 < s) :
    HasDerivAt (fun t => logNormalL y (Real.log t) s) ((Real.log y - Real.log m) / (m * s ^ 2)) m := by
  have h := (logNormalL_loc y (Real.log m) s hs).comp m (Real.hasDerivAt_log hm.ne')
  refine HasDerivAt.congr_deriv h ?_
  try simp only [Pi.pow_apply, Pi.neg_apply, Pi.sub_apply, Pi.mul_apply, Pi.add_apply, Pi.div_apply, smul_eq_mul,
    Nat.add_one_sub_one, Nat.cast_ofNat, show (2 : ℕ) - 1 = 1 from rfl, pow_one]
  field_simp

/-! ### Logistic, Gumbel, exponential -/

theorem logisticL_loc (y m s : ℝ) (hs : 0 < s) :
    HasDerivAt (fun t => logisticL y t s)
      (1 / s * (Real.exp ((y - m) / s) - 1) / (1 + Real.exp ((y - m) / s))) m := by
  have hz := (hasDerivAt_standard_loc y m s).neg
  have hp : 0 < 1 + Real.exp (-((y - m) / s)) := by positivity
  have h := (hz.sub (((hz.exp.const_add 1).log hp.ne').const_mul 2)).sub_const (Real.log s)
  refine HasDerivAt.congr_deriv h ?_
  try simp only [Pi.pow_apply, Pi.neg_apply, Pi.sub_apply, Pi.mul_apply, Pi.add_apply, Pi.div_apply, smul_eq_mul,
    Nat.add_one_sub_one, Nat.cast_ofNat, show (2 : ℕ) - 1 = 1 from rfl, pow_one]
  rw [Real.exp_neg]
  have : 0 < Real.exp ((y - m) / s) := Real.exp_pos _
  generalize Real.exp ((y - m) / s) = E at *
  have : E + 1 ≠ 0 := by positivity
  field_simp
  ring

theorem logisticL_scale (y m s : ℝ) (hs : 0 < s) :
    HasDerivAt (fun t => logisticL y m t)
      (-1 / s - (y - m) / s ^ 2 + 2 * ((y - m) / s ^ 2) * Real.exp ((y - m) / s)
        / (1 + Real.exp ((y - m) / s))) s := by
  have hz := (hasDerivAt_standard_scale y m s hs.ne').neg
  have hp : 0 < 1 + Real.exp (-((y - m) / s)) := by positivity
  have h := (hz.sub (((hz.exp.const_add 1).log hp.ne').const_mul 2)).sub (Real.hasDerivAt_log hs.ne')
  refine HasDerivAt.congr_deriv h ?_
  try simp only [Pi.pow_apply, Pi.neg_apply, Pi.sub_apply, Pi.mul_apply, Pi.add_apply, Pi.div_apply, smul_eq_mul,
    Nat.add_one_sub_one, Nat.cast_ofNat, show (2 : ℕ) - 1 = 1 from rfl, pow_one]
  rw [Real.exp_neg]
  have : 0 < Real.exp ((y - m) / s) := Real.exp_pos _
  generalize Real.exp ((y - m) / s) = E at *
  have : E + 1 ≠ 0 := by positivity
  field_simp
  ring

theorem gumbelL_loc (y m s : ℝ) :
    HasDerivAt (fun t => gumbelL y t s) ((Real.exp ((y - m) / s) - 1) / s) m := by
  have hz := hasDerivAt_standard_loc y m s
  have h := (hz.sub hz.exp).sub_const (Real.log s)
  refine HasDerivAt.congr_deriv h ?_
  try simp only [Pi.pow_apply, Pi.neg_apply, Pi.sub_apply, Pi.mul_apply, Pi.add_apply, Pi.div_apply, smul_eq_mul,
    Nat.add_one_sub_one, Nat.cast_ofNat, show (2 : ℕ) - 1 = 1 from rfl, pow_one]
  ring

theorem gumbelL_scale (y m s : ℝ) (hs : 0 < s) :
    HasDerivAt (fun t => gumbelL y m t)
      (-(1 / s) + (y - m) / s / s * (Real.exp ((y - m) / s) - 1)) s := by
  have hz := hasDerivAt_standard_scale y m s hs.ne'
  have h := (hz.sub hz.exp).sub (Real.hasDerivAt_log hs.ne')
  refine HasDerivAt.congr_deriv h ?_
  try simp only [Pi.pow_apply, Pi.neg_apply, Pi.sub_apply, Pi.mul_apply, Pi.add_apply, Pi.div_apply, smul_eq_mul,
    Nat.add_one_sub_one, Nat.cast_ofNat, show (2 : ℕ) - 1 = 1 from rfl, pow_one]
  field_simp
  ring

theorem reverseGumbelL_loc (y m s : ℝ) :
    HasDerivAt (fun t => reverseGumbelL y t s) ((1 - Real.exp (-((y - m) / s))) / s) m := by
  have hz := (hasDerivAt_standard_loc y m s).neg
  have h := (hz.sub hz.exp).sub_const (Real.log s)
  refine HasDerivAt.congr_deriv h ?_
  try simp only [Pi.pow_apply, Pi.neg_apply, Pi.sub_apply, Pi.mul_apply, Pi.add_apply, Pi.div_apply, smul_eq_mul,
    Nat.add_one_sub_one, Nat.cast_ofNat, show (2 : ℕ) - 1 = 1 from rfl, pow_one]
  ring

theorem reverseGumbelL_scale (y m s : ℝ) (hs : 0 < s) :
    HasDerivAt (fun t => reverseGumbelL y m t)
      (-(1 / s) * (1 - (y - m) / s) - (y - m) / s / s * Real.exp (-((y - m) / s))) s := by
  have hz := (hasDerivAt_standard_scale y m s hs.ne').neg
  have h := (hz.sub hz.exp).sub (Real.hasDerivAt_log hs.ne')
  refine HasDerivAt.congr_deriv h ?_
  try simp only [Pi.pow_apply, Pi.neg_apply, Pi.sub_apply, Pi.mul_apply, Pi.add_apply, Pi.div_apply, smul_eq_mul,
    Nat.add_one_sub_one, Nat.cast_ofNat, show (2 : ℕ) - 1 = 1 from rfl, pow_one]
  field_simp
  ring

theorem exponentialL_loc (y m : ℝ) (hm : 0 < m) :
    HasDerivAt (fun t => exponentialL y t) ((y - m) / m ^ 2) m := by
  have h1 := ((hasDerivAt_const m y).div (hasDerivAt_id m) hm.ne').neg
  have h := h1.sub (Real.hasDerivAt_log hm.ne')
  refine HasDerivAt.congr_deriv h ?_
  try simp only [Pi.pow_apply, Pi.neg_apply, Pi.sub_apply, Pi.mul_apply, Pi.add_apply, Pi.div_apply, smul_eq_mul,
    Nat.add_one_sub_one, Nat.cast_ofNat, show (2 : ℕ) - 1 = 1 from rfl, pow_one]
  simp only [id]
  field_simp
  ring

/-! ### Inverse gamma and inverse Gaussian -/

theorem inverseGammaL_loc (y μ σ : ℝ) (hμ : 0 < μ) (hσ : 0 < σ) :
    HasDerivAt (fun t => inverseGammaL y t σ) (1 / σ ^ 2 / μ - (1 / σ ^ 2 + 1) / y) μ := by
  have h1 := ((((Real.hasDerivAt_log hμ.ne').add_const (Real.log (1 / σ ^ 2 + 1))).const_mul
    (1 / σ ^ 2)).sub_const ((1 / σ ^ 2 + 1) * Real.log y)).sub_const (logGamma (1 / σ ^ 2))
  have h2 := ((hasDerivAt_id μ).mul_const (1 / σ ^ 2 + 1)).div_const y
  have h := h1.sub h2
  refine HasDerivAt.congr_deriv h ?_
  try simp only [Pi.pow_apply, Pi.neg_apply, Pi.sub_apply, Pi.mul_apply, Pi.add_apply, Pi.div_apply, smul_eq_mul,
    Nat.add_one_sub_one, Nat.cast_ofNat, show (2 : ℕ) - 1 = 1 from rfl, pow_one]
  ring

theorem inverseGammaL_scale (y μ σ : ℝ) (hμ : 0 < μ) (hσ : 0 < σ) :
    HasDerivAt (fun t => inverseGammaL y μ t)
      (-2 / σ ^ 3 * (Real.log μ + 1 / σ ^ 2 / (1 / σ ^ 2 + 1) + Real.log (1 / σ ^ 2 + 1)
        - digamma (1 / σ ^ 2) - Real.log y - μ / y)) σ := by
  have hq := hasDerivAt_inv_sq σ hσ.ne'
  have hp : 0 < 1 / σ ^ 2 := by positivity
  have h1 := hq.mul (((hq.add_const 1).log (show (1 / σ ^ 2 + 1) ≠ 0 by positivity)).const_add (Real.log μ))
  have h2 := (hq.add_const 1).mul_const (Real.log y)
  have h3 := (hasDerivAt_logGamma hp).comp σ hq
  have h4 := ((hq.add_const 1).const_mul μ).div_const y
  have h := ((h1.sub h2).sub h3).sub h4
  refine HasDerivAt.congr_deriv h ?_
  try simp only [Pi.pow_apply, Pi.neg_apply, Pi.sub_apply, Pi.mul_apply, Pi.add_apply, Pi.div_apply, smul_eq_mul,
    Nat.add_one_sub_one, Nat.cast_ofNat, show (2 : ℕ) - 1 = 1 from rfl, pow_one]
  ring

theorem inverseGaussianL_loc (y μ σ : ℝ) (hy : 0 < y) (hμ : 0 < μ) (hσ : 0 < σ) :
    HasDerivAt (fun t => inverseGaussianL y t σ) ((y - μ) / (σ ^ 2 * μ ^ 3)) μ := by
  have h1 := (((hasDerivAt_id μ).const_sub y).pow 2).div
    (((hasDerivAt_pow 2 μ).const_mul (2 * y)).mul_const (σ ^ 2))
    (show 2 * y * μ ^ 2 * σ ^ 2 ≠ 0 by positivity)
  have h := h1.const_sub (-(Real.log (2 * Real.pi) + 3 * Real.log y) / 2 - Real.log σ)
  refine HasDerivAt.congr_deriv h ?_
  try simp only [Pi.pow_apply, Pi.neg_apply, Pi.sub_apply, Pi.mul_apply, Pi.add_apply, Pi.div_apply, smul_eq_mul,
    Nat.add_one_sub_one, Nat.cast_ofNat, show (2 : ℕ) - 1 = 1 from rfl, pow_one]
  simp only [id]
  field_simp
  push_cast
  ring

theorem inverseGaussianL_scale (y μ σ : ℝ) (hy : 0 < y) (hμ : 0 < μ) (hσ : 0 < σ) :
    HasDerivAt (fun t => inverseGaussianL y μ t)
      (-1 / σ + (y - μ) ^ 2 / (σ ^ 3 * μ ^ 2 * y)) σ := by
  have h1 : HasDerivAt (fun t => (y - μ) ^ 2 / (2 * y * μ ^ 2 * t ^ 2))
      ((y - μ) ^ 2 / (2 * y * μ ^ 2) * (-2 / σ ^ 3)) σ := by
    refine ((hasDerivAt_inv_sq σ hσ.ne').const_mul _).congr_of_eventuallyEq
      (Eventually.of_forall fun t => ?_)
    simp only
    rw [div_mul_div_comm, mul_one]
  have h := ((Real.hasDerivAt_log hσ.ne').const_sub (-(Real.log (2 * Real.pi) + 3 * Real.log y) / 2)).sub h1
  refine HasDerivAt.congr_deriv h ?_
  try simp only [Pi.pow_apply, Pi.neg_apply, Pi.sub_apply, Pi.mul_apply, Pi.add_apply, Pi.div_apply, smul_eq_mul,
    Nat.add_one_sub_one, Nat.cast_ofNat, show (2 : ℕ) - 1 = 1 from rfl, pow_one]
  field_simp
  ring

end Dist
end Ondil
