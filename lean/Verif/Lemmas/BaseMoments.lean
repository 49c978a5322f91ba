import Verif.Lemmas.ExpFamily
import Verif.Lemmas.LawOf
import Mathlib.MeasureTheory.Integral.IntegralEqImproper

/-!
# Moments of the statistics of the remaining laws
-/

namespace Ondil

open MeasureTheory ProbabilityTheory Set Filter Topology

/-! ### The normal law -/

theorem gaussian_eq_withDensity :
    gaussianReal 0 1 = volume.withDensity fun z => ENNReal.ofReal (stdNormPdf z) := by
  rw [← Frozen.stdLaw_norm 0 1]; rfl

theorem measurable_stdNormPdf : Measurable stdNormPdf := by unfold stdNormPdf; fun_prop

theorem stdNormPdf_hasDerivAt (z : ℝ) : HasDerivAt stdNormPdf (-(z * stdNormPdf z)) z := by
  have h1 : HasDerivAt (fun z : ℝ => -z ^ 2 / 2) (-z) z := by
    have := ((hasDerivAt_pow 2 z).neg).div_const 2
    refine this.congr_deriv ?_
    simp
    ring
  have h2 := h1.exp.div_const (Real.sqrt (2 * Real.pi))
  refine h2.congr_deriv ?_
  unfold stdNormPdf
  ring

theorem integrable_gaussian_iff (g : ℝ → ℝ) :
    Integrable g (gaussianReal 0 1) ↔ Integrable fun z => stdNormPdf z * g z := by
  rw [gaussian_eq_withDensity]
  exact integrable_withDensity_real measurable_stdNormPdf (fun z => (stdNormPdf_pos z).le) g

theorem integral_gaussian (g : ℝ → ℝ) : ∫ z, g z ∂gaussianReal 0 1 = ∫ z, stdNormPdf z * g z := by
  rw [gaussian_eq_withDensity]
  exact integral_withDensity_real measurable_stdNormPdf (fun z => (stdNormPdf_pos z).le) g

/-- Stein's identity. -/
theorem stein {g g' : ℝ → ℝ} (hg : ∀ z, HasDerivAt g (g' z) z) (h0 : Integrable g (gaussianReal 0 1))
    (h1 : Integrable g' (gaussianReal 0 1)) (h2 : Integrable (fun z => z * g z) (gaussianReal 0 1)) :
    ∫ z, z * g z ∂gaussianReal 0 1 = ∫ z, g' z ∂gaussianReal 0 1 := by
  rw [integrable_gaussian_iff] at h0 h1 h2
  rw [integral_gaussian, integral_gaussian]
  have := integral_mul_deriv_eq_deriv_mul_of_integrable (u := g) (u' := g') (v := stdNormPdf)
    (v' := fun z => -(z * stdNormPdf z)) (fun z _ => hg z) (fun z _ => stdNormPdf_hasDerivAt z)
    (by
      refine h2.neg.congr (Eventually.of_forall fun z => ?_)
      simp only [Pi.neg_apply, Pi.mul_apply]; ring)
    (by
      refine h1.congr (Eventually.of_forall fun z => ?_)
      simp only [Pi.mul_apply]; ring)
    (by
      refine h0.congr (Eventually.of_forall fun z => ?_)
      simp only [Pi.mul_apply]; ring)
  have e1 : ∫ z, stdNormPdf z * (z * g z) = -∫ z, g z * -(z * stdNormPdf z) := by
    rw [← integral_neg]
    refine integral_congr_ae (Eventually.of_forall fun z => ?_)
    ring
  rw [e1, this, neg_neg]
  refine integral_congr_ae (Eventually.of_forall fun z => ?_)
  ring

theorem gaussian_integrable_pow (n : ℕ) : Integrable (fun z : ℝ => z ^ n) (gaussianReal 0 1) := by
  rcases Nat.eq_zero_or_pos n with rfl | hn
  · simp
  have h := memLp_id_gaussianReal' (μ := 0) (v := 1) n (by simp)
  have h2 := h.integrable_norm_pow (by omega)
  refine h2.mono' (by fun_prop) (Eventually.of_forall fun z => ?_)
  simp

theorem gaussian_pow_rec (n : ℕ) :
    ∫ z : ℝ, z ^ (n + 2) ∂gaussianReal 0 1 = (n + 1) * ∫ z : ℝ, z ^ n ∂gaussianReal 0 1 := by
  have h := stein (g := fun z => z ^ (n + 1)) (g' := fun z => (n + 1) * z ^ n)
    (fun z => by simpa using hasDerivAt_pow (n + 1) z) (gaussian_integrable_pow _)
    ((gaussian_integrable_pow n).const_mul _)
    (by
      refine (gaussian_integrable_pow (n + 2)).congr (Eventually.of_forall fun z => ?_)
      simp only
      ring)
  rw [integral_const_mul] at h
  rw [← h]
  refine integral_congr_ae (Eventually.of_forall fun z => ?_)
  simp only
  ring

theorem gaussian_pow_one : ∫ z : ℝ, z ^ 1 ∂gaussianReal 0 1 = 0 := by
  simp only [pow_one]; exact integral_id_gaussianReal

theorem gaussian_pow_two : ∫ z : ℝ, z ^ 2 ∂gaussianReal 0 1 = 1 := by
  rw [gaussian_pow_rec 0]; simp

theorem gaussian_pow_three : ∫ z : ℝ, z ^ 3 ∂gaussianReal 0 1 = 0 := by
  rw [gaussian_pow_rec 1, gaussian_pow_one]; simp

theorem gaussian_pow_four : ∫ z : ℝ, z ^ 4 ∂gaussianReal 0 1 = 3 := by
  rw [gaussian_pow_rec 2, gaussian_pow_two]; norm_num

theorem gaussian_memLp_pow (n : ℕ) : MemLp (fun z : ℝ => z ^ n) 2 (gaussianReal 0 1) := by
  refine (memLp_two_iff_integrable_sq (by fun_prop)).mpr ?_
  simp only [← pow_mul]
  exact gaussian_integrable_pow _

/-- The statistics `z` and `z²` of the standard normal law. -/
theorem gaussian_moments : Moments2 (gaussianReal 0 1) (fun z => z) (fun z => z ^ 2) 0 1 1 2 0 where
  memX := by simpa using gaussian_memLp_pow 1
  memY := gaussian_memLp_pow 2
  meanX := integral_id_gaussianReal
  meanY := gaussian_pow_two
  varX := by simpa using gaussian_pow_two
  varY := by
    have e : ∀ z : ℝ, (z ^ 2 - 1) ^ 2 = z ^ 4 - 2 * z ^ 2 + 1 := fun z => by ring
    simp only [e]
    have i1 : Integrable (fun z : ℝ => z ^ 4 - 2 * z ^ 2) (gaussianReal 0 1) :=
      (gaussian_integrable_pow 4).sub ((gaussian_integrable_pow 2).const_mul 2)
    rw [integral_add i1 (integrable_const _), integral_sub (gaussian_integrable_pow 4)
      ((gaussian_integrable_pow 2).const_mul 2), integral_const_mul, gaussian_pow_two, gaussian_pow_four]
    simp
    norm_num
  cov := by
    have e : ∀ z : ℝ, (z - 0) * (z ^ 2 - 1) = z ^ 3 - z ^ 1 := fun z => by ring
    simp only [e]
    rw [integral_sub (gaussian_integrable_pow 3) (gaussian_integrable_pow 1), gaussian_pow_three, gaussian_pow_one]
    simp

/-! ### The inverse Gaussian law -/

namespace Dist
open Frozen

section
variable {m : ℝ} (hm : 0 < m)
include hm

theorem igW_le (x : ℝ) : igW m x ≤ 2 := by linarith [igW_add hm x, igW_pos hm (-x)]

theorem igBase_integral (g : ℝ → ℝ) : ∫ x, g x ∂igBase m = ∫ x, igW m x * g x ∂gaussianReal 0 1 :=
  integral_withDensity_real igW_measurable (fun x => (igW_pos hm x).le) g

theorem igBase_integrable (g : ℝ → ℝ) : Integrable g (igBase m) ↔ Integrable (fun x => igW m x * g x) (gaussianReal 0 1) :=
  integrable_withDensity_real igW_measurable (fun x => (igW_pos hm x).le) g

theorem igBase_even {g : ℝ → ℝ} (hg : Integrable g (gaussianReal 0 1)) (he : ∀ x, g (-x) = g x) :
    Integrable g (igBase m) ∧ ∫ x, g x ∂igBase m = ∫ x, g x ∂gaussianReal 0 1 := by
  have hi : Integrable (fun x => igW m x * g x) (gaussianReal 0 1) := by
    refine hg.bdd_mul (c := 2) igW_measurable.aestronglyMeasurable (Eventually.of_forall fun x => ?_)
    rw [Real.norm_of_nonneg (igW_pos hm x).le]
    exact igW_le hm x
  refine ⟨(igBase_integrable hm g).mpr hi, ?_⟩
  rw [igBase_integral hm, gaussian_symm hi]
  refine integral_congr_ae (Eventually.of_forall fun x => ?_)
  simp only [he]
  linear_combination (g x / 2) * igW_add hm x

theorem igBase_prob : IsProbabilityMeasure (igBase m) := by
  have h := igBase_even hm (g := fun _ => 1) (integrable_const _) fun _ => rfl
  have hfin : IsFiniteMeasure (igBase m) := by
    refine ⟨?_⟩
    have := h.1
    rw [integrable_const_iff_isFiniteMeasure one_ne_zero] at this
    exact this.measure_univ_lt_top
  have h2 := h.2
  simp only [integral_const, smul_eq_mul, mul_one, probReal_univ] at h2
  refine ⟨?_⟩
  have : (igBase m univ).toReal = 1 := h2
  rw [ENNReal.toReal_eq_one_iff] at this
  exact this

theorem igS_neg (x : ℝ) : igS m (-x) = m / igS m x := by
  have h1 := igS_pos hm x
  have := igS_mul_neg hm x
  field_simp
  linarith

theorem igW_mul_sq (x : ℝ) : igW m x * (igS m x ^ 2 - m) ^ 2 = 2 * m ^ 3 * x ^ 2 * (igS m x ^ 2 / (igS m x ^ 2 + m)) := by
  have h1 := igS_pos hm x
  rw [igW_eq hm, show igS m x ^ 2 - m = m * x * igS m x by rw [igS_eq hm x]; ring]
  field_simp

/-- The response and the squared standardised response of the inverse Gaussian law. -/
theorem ig_moments : Moments2 (igBase m) (fun x => igS m x ^ 2) (fun x => x ^ 2) m 1 (m ^ 3) 2 0 := by
  haveI := igBase_prob hm
  have hmeas : AEStronglyMeasurable (fun x => igS m x ^ 2 - m) (igBase m) :=
    ((igS_measurable.pow_const 2).sub_const m).aestronglyMeasurable
  have isq : Integrable (fun x => igW m x * (igS m x ^ 2 - m) ^ 2) (gaussianReal 0 1) := by
    refine ((gaussian_integrable_pow 2).const_mul (2 * m ^ 3)).mono'
      ((igW_measurable.mul (((igS_measurable.pow_const 2).sub_const m).pow_const 2)).aestronglyMeasurable)
      (Eventually.of_forall fun x => ?_)
    have hW := igW_pos hm x
    rw [Real.norm_of_nonneg (by positivity), igW_mul_sq hm]
    have h1 := igS_pos hm x
    have : igS m x ^ 2 / (igS m x ^ 2 + m) ≤ 1 := by
      rw [div_le_one (by positivity)]; linarith
    calc 2 * m ^ 3 * x ^ 2 * (igS m x ^ 2 / (igS m x ^ 2 + m)) ≤ 2 * m ^ 3 * x ^ 2 * 1 := by gcongr
      _ = 2 * m ^ 3 * x ^ 2 := mul_one _
  have memD : MemLp (fun x => igS m x ^ 2 - m) 2 (igBase m) :=
    (memLp_two_iff_integrable_sq hmeas).mpr ((igBase_integrable hm _).mpr isq)
  have memX : MemLp (fun x => igS m x ^ 2) 2 (igBase m) := by
    have := memD.add (memLp_const m)
    refine this.congr_norm (igS_measurable.pow_const 2).aestronglyMeasurable (Eventually.of_forall fun x => ?_)
    simp
  have memY : MemLp (fun x : ℝ => x ^ 2) 2 (igBase m) := by
    refine (memLp_two_iff_integrable_sq (by fun_prop)).mpr ?_
    exact (igBase_even hm (g := fun x => (x ^ 2) ^ 2)
      (by simp only [← pow_mul]; exact gaussian_integrable_pow _) fun x => by rw [neg_sq]).1
  have odd : ∀ g : ℝ → ℝ, (∀ x, g (-x) = g x) → Integrable (fun x => (igS m x ^ 2 - m) * g x) (igBase m) →
      ∫ x, (igS m x ^ 2 - m) * g x ∂igBase m = 0 := by
    intro g he hi
    rw [igBase_integrable hm] at hi
    rw [igBase_integral hm, gaussian_symm hi]
    have : ∀ x, (igW m x * ((igS m x ^ 2 - m) * g x) + igW m (-x) * ((igS m (-x) ^ 2 - m) * g (-x))) / 2 = 0 := by
      intro x
      have h1 := igS_pos hm x
      rw [he, igW_eq hm, igW_eq hm, igS_neg hm]
      field_simp
      ring
    simp only [this, integral_zero]
  have meanD : ∫ x, (igS m x ^ 2 - m) ∂igBase m = 0 := by
    have := odd (fun _ => 1) (fun _ => rfl) (by simpa using memD.integrable (by norm_num))
    simpa using this
  refine ⟨memX, memY, ?_, ?_, ?_, ?_, ?_⟩
  · rw [integral_sub (memX.integrable (by norm_num)) (integrable_const m)] at meanD
    simp only [integral_const, probReal_univ, smul_eq_mul, one_mul] at meanD
    linarith
  · rw [(igBase_even hm (gaussian_integrable_pow 2) fun x => neg_sq x).2, gaussian_pow_two]
  · rw [igBase_integral hm, gaussian_symm isq]
    have : ∀ x, (igW m x * (igS m x ^ 2 - m) ^ 2 + igW m (-x) * (igS m (-x) ^ 2 - m) ^ 2) / 2 = m ^ 3 * x ^ 2 := by
      intro x
      have h1 := igS_pos hm x
      rw [igW_mul_sq hm, igW_mul_sq hm, igS_neg hm]
      field_simp
      ring
    simp only [this]
    rw [integral_const_mul, gaussian_pow_two, mul_one]
  · rw [(igBase_even hm (g := fun x => (x ^ 2 - 1) ^ 2) (gaussian_moments.memY.sub (memLp_const 1)).integrable_sq
      fun x => by rw [neg_sq]).2]
    exact gaussian_moments.varY
  · exact odd (fun x => x ^ 2 - 1) (fun x => by rw [neg_sq])
      (memD.integrable_mul (memY.sub (memLp_const 1)))

end
end Dist
end Ondil
