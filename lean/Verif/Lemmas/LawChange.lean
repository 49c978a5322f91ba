import Verif.Lemmas.Law
import Mathlib.MeasureTheory.Function.JacobianOneDim
import Mathlib.Probability.Distributions.Gaussian.Real
import Mathlib.Analysis.SpecialFunctions.Trigonometric.DerivHyp

/-!
# The scipy laws as images of the normal, the gamma and the beta law
-/

namespace Ondil

open MeasureTheory ProbabilityTheory Set

/-- Change of variables for measures with densities on the line. -/
theorem map_withDensity_of_deriv {φ φ' : ℝ → ℝ} {S T : Set ℝ} {p q : ℝ → ℝ} (hS : MeasurableSet S)
    (hφ : Measurable φ) (hd : ∀ x ∈ S, HasDerivAt φ (φ' x) x) (hinj : InjOn φ S) (himg : φ '' S = T)
    (hp : ∀ᵐ x : ℝ, x ∉ S → p x = 0) (hq : ∀ᵐ x : ℝ, x ∉ T → q x = 0) (hT : MeasurableSet T)
    (hpq : ∀ x ∈ S, p x = |φ' x| * q (φ x)) :
    (volume.withDensity fun x => ENNReal.ofReal (p x)).map φ = volume.withDensity fun y => ENNReal.ofReal (q y) := by
  ext A hA
  rw [Measure.map_apply hφ hA, withDensity_apply _ (hφ hA), withDensity_apply _ hA]
  rw [← lintegral_indicator (hφ hA), ← lintegral_indicator hA]
  have e1 : ∫⁻ y, A.indicator (fun y => ENNReal.ofReal (q y)) y
      = ∫⁻ y in T, A.indicator (fun y => ENNReal.ofReal (q y)) y := by
    rw [← lintegral_indicator hT]
    refine lintegral_congr_ae ?_
    filter_upwards [hq] with y hy
    by_cases h : y ∈ T
    · rw [indicator_of_mem h]
    · rw [indicator_of_notMem h]
      by_cases h' : y ∈ A
      · rw [indicator_of_mem h', hy h, ENNReal.ofReal_zero]
      · rw [indicator_of_notMem h']
  have e2 : ∫⁻ x, (φ ⁻¹' A).indicator (fun x => ENNReal.ofReal (p x)) x
      = ∫⁻ x in S, (φ ⁻¹' A).indicator (fun x => ENNReal.ofReal (p x)) x := by
    rw [← lintegral_indicator hS]
    refine lintegral_congr_ae ?_
    filter_upwards [hp] with y hy
    by_cases h : y ∈ S
    · rw [indicator_of_mem h]
    · rw [indicator_of_notMem h]
      by_cases h' : y ∈ φ ⁻¹' A
      · rw [indicator_of_mem h', hy h, ENNReal.ofReal_zero]
      · rw [indicator_of_notMem h']
  rw [e1, e2, ← himg, lintegral_image_eq_lintegral_abs_deriv_mul hS (fun x hx => (hd x hx).hasDerivWithinAt) hinj]
  refine setLIntegral_congr_fun hS fun x hx => ?_
  by_cases h : φ x ∈ A
  · rw [indicator_of_mem (show x ∈ φ ⁻¹' A from h), indicator_of_mem h, hpq x hx,
      ENNReal.ofReal_mul (abs_nonneg _)]
  · rw [indicator_of_notMem (show x ∉ φ ⁻¹' A from h), indicator_of_notMem h, mul_zero]

namespace Frozen

/-- The law of the standardised variable. -/
noncomputable def stdLaw (f : Frozen) : Measure ℝ := volume.withDensity fun z => ENNReal.ofReal (f.stdPdf z)

/-- Every frozen distribution is a location-scale image of the standardised one. -/
theorem law_eq_map (f : Frozen) (hs : 0 < f.scale) : f.law = f.stdLaw.map fun z => f.loc + f.scale * z := by
  symm
  refine map_withDensity_of_deriv (φ' := fun _ => f.scale) (S := univ) (T := univ) MeasurableSet.univ (by fun_prop)
    (fun x _ => ?_) (fun x _ y _ h => ?_) ?_ (by simp) (by simp) MeasurableSet.univ fun x _ => ?_
  · simpa using ((hasDerivAt_id x).const_mul f.scale).const_add f.loc
  · have : f.scale * x = f.scale * y := by simpa using h
    exact mul_left_cancel₀ hs.ne' this
  · rw [image_univ]
    refine range_eq_univ.mpr fun y => ⟨(y - f.loc) / f.scale, ?_⟩
    field_simp
    ring
  · have : (f.loc + f.scale * x - f.loc) / f.scale = x := by field_simp; ring
    rw [Frozen.pdf, this, abs_of_pos hs]
    field_simp

theorem stdLaw_norm (l s : ℝ) : (Frozen.norm l s).stdLaw = gaussianReal 0 1 := by
  rw [gaussianReal_of_var_ne_zero _ one_ne_zero]
  unfold stdLaw
  congr 1
  funext z
  unfold gaussianPDF gaussianPDFReal
  congr 1
  simp only [stdPdf, stdNormPdf, NNReal.coe_one, mul_one, sub_zero]
  rw [div_eq_inv_mul]

theorem stdLaw_lognorm {s : ℝ} (hs : 0 < s) (l c : ℝ) :
    (Frozen.lognorm s l c).stdLaw = (gaussianReal 0 1).map fun z => Real.exp (s * z) := by
  rw [← stdLaw_norm 0 1]
  symm
  refine map_withDensity_of_deriv (φ' := fun z => Real.exp (s * z) * s) (S := univ) (T := Ioi 0) MeasurableSet.univ
    (by fun_prop) (fun x _ => ?_) (fun x _ y _ h => ?_) ?_ (by simp) ?_ measurableSet_Ioi fun x _ => ?_
  · simpa using ((hasDerivAt_id x).const_mul s).exp
  · exact mul_left_cancel₀ hs.ne' (Real.exp_injective h)
  · ext y
    simp only [image_univ, mem_range, mem_Ioi]
    constructor
    · rintro ⟨z, rfl⟩; exact Real.exp_pos _
    · intro hy
      refine ⟨Real.log y / s, ?_⟩
      rw [mul_div_cancel₀ _ hs.ne', Real.exp_log hy]
  · refine Filter.Eventually.of_forall fun x hx => ?_
    exact if_neg hx
  · have hE := Real.exp_pos (s * x)
    rw [abs_of_pos (mul_pos hE hs)]
    simp only [stdPdf, stdNormPdf]
    rw [if_pos hE, Real.log_exp]
    have : -(s * x) ^ 2 / (2 * s ^ 2) = -x ^ 2 / 2 := by field_simp
    rw [this]
    have h2 : (0 : ℝ) < Real.sqrt (2 * Real.pi) := Real.sqrt_pos.mpr (by positivity)
    field_simp

theorem stdLaw_johnsonsu {b : ℝ} (hb : 0 < b) (a l c : ℝ) :
    (Frozen.johnsonsu a b l c).stdLaw = (gaussianReal 0 1).map fun z => Real.sinh ((z - a) / b) := by
  rw [← stdLaw_norm 0 1]
  symm
  refine map_withDensity_of_deriv (φ' := fun z => Real.cosh ((z - a) / b) * (1 / b)) (S := univ) (T := univ)
    MeasurableSet.univ (by fun_prop) (fun x _ => ?_) (fun x _ y _ h => ?_) ?_ (by simp) (by simp) MeasurableSet.univ
    fun x _ => ?_
  · have h1 : HasDerivAt (fun z : ℝ => (z - a) / b) (1 / b) x := ((hasDerivAt_id x).sub_const a).div_const b
    exact h1.sinh
  · have := Real.sinh_injective h
    field_simp at this
    linarith
  · rw [image_univ]
    refine range_eq_univ.mpr fun y => ⟨a + b * Real.arsinh y, ?_⟩
    have : (a + b * Real.arsinh y - a) / b = Real.arsinh y := by field_simp; ring
    simp only [this, Real.sinh_arsinh]
  · have hC := Real.cosh_pos ((x - a) / b)
    rw [abs_of_pos (by positivity)]
    simp only [stdPdf, Real.arsinh_sinh]
    have h1 : Real.sqrt (Real.sinh ((x - a) / b) ^ 2 + 1) = Real.cosh ((x - a) / b) := by
      rw [← Real.cosh_sq, Real.sqrt_sq hC.le]
    have h2 : a + b * ((x - a) / b) = x := by field_simp; ring
    rw [h1, h2]
    field_simp

theorem stdLaw_gamma {a : ℝ} (ha : 0 < a) (l c : ℝ) : (Frozen.gamma a l c).stdLaw = gammaMeasure a 1 := by
  have h := Frozen.gamma_law ha one_pos
  rw [law_eq_map _ (by exact one_pos)] at h
  simp only [Frozen.loc, Frozen.scale, one_mul, zero_add, Measure.map_id', div_one] at h
  exact h

theorem stdLaw_beta {a b : ℝ} (ha : 0 < a) (hb : 0 < b) (l c : ℝ) : (Frozen.beta a b l c).stdLaw = betaMeasure a b := by
  have h := Frozen.beta_law ha hb
  rw [law_eq_map _ (by exact one_pos)] at h
  simp only [Frozen.loc, Frozen.scale, one_mul, zero_add, Measure.map_id'] at h
  exact h

theorem stdLaw_expon (l c : ℝ) : (Frozen.expon l c).stdLaw = gammaMeasure 1 1 := by
  rw [← stdLaw_gamma one_pos 0 1]
  unfold stdLaw
  refine withDensity_congr_ae ?_
  have h0 : ∀ᵐ y : ℝ, y ≠ 0 := by simp [ae_iff]
  filter_upwards [h0] with y hy
  simp only [stdPdf]
  rcases lt_or_gt_of_ne hy with h | h
  · rw [if_neg (not_le.mpr h), if_neg (not_lt.mpr h.le)]
  · rw [if_pos h.le, if_pos h]; simp

theorem stdLaw_invgamma {a : ℝ} (ha : 0 < a) (l c : ℝ) :
    (Frozen.invgamma a l c).stdLaw = (gammaMeasure a 1).map fun x => x⁻¹ := by
  rw [← stdLaw_gamma ha 0 1]
  symm
  refine map_withDensity_of_deriv (φ' := fun x => -(x ^ 2)⁻¹) (S := Ioi 0) (T := Ioi 0) measurableSet_Ioi
    (by fun_prop) (fun x hx => hasDerivAt_inv (ne_of_gt hx)) (fun x _ y _ h => inv_injective h) ?_ ?_ ?_
    measurableSet_Ioi fun x hx => ?_
  · ext y
    simp only [mem_image, mem_Ioi]
    constructor
    · rintro ⟨z, hz, rfl⟩; exact inv_pos.mpr hz
    · intro hy; exact ⟨y⁻¹, inv_pos.mpr hy, inv_inv y⟩
  · exact Filter.Eventually.of_forall fun x hx => if_neg hx
  · exact Filter.Eventually.of_forall fun x hx => if_neg hx
  · have hx' : 0 < x := hx
    simp only [stdPdf]
    rw [if_pos hx', if_pos (inv_pos.mpr hx'), abs_neg, abs_of_pos (by positivity)]
    have e1 : -1 / x⁻¹ = -x := by field_simp
    have e2 : (x⁻¹) ^ (-a - 1) = x ^ (a - 1) * x ^ 2 := by
      rw [Real.inv_rpow hx'.le, ← Real.rpow_neg hx'.le, ← Real.rpow_natCast x 2, ← Real.rpow_add hx']
      congr 1
      push_cast
      ring
    rw [e1, e2]
    field_simp

theorem stdLaw_gumbelL (l c : ℝ) : (Frozen.gumbelL l c).stdLaw = (gammaMeasure 1 1).map Real.log := by
  rw [← stdLaw_gamma one_pos 0 1]
  symm
  refine map_withDensity_of_deriv (φ' := fun x => x⁻¹) (S := Ioi 0) (T := univ) measurableSet_Ioi
    (by fun_prop) (fun x hx => Real.hasDerivAt_log (ne_of_gt hx)) Real.log_injOn_pos ?_ ?_ (by simp)
    MeasurableSet.univ fun x hx => ?_
  · refine eq_univ_of_forall fun y => ⟨Real.exp y, Real.exp_pos y, Real.log_exp y⟩
  · exact Filter.Eventually.of_forall fun x hx => if_neg hx
  · have hx' : 0 < x := hx
    simp only [stdPdf]
    rw [if_pos hx', abs_of_pos (inv_pos.mpr hx'), Real.exp_sub, Real.exp_log hx']
    simp only [sub_self, Real.rpow_zero, Real.Gamma_one, one_mul, div_one, Real.exp_neg]
    field_simp

theorem stdLaw_gumbelR (l c : ℝ) : (Frozen.gumbelR l c).stdLaw = (gammaMeasure 1 1).map fun x => -Real.log x := by
  rw [← stdLaw_gamma one_pos 0 1]
  symm
  refine map_withDensity_of_deriv (φ' := fun x => -x⁻¹) (S := Ioi 0) (T := univ) measurableSet_Ioi
    (by fun_prop) (fun x hx => (Real.hasDerivAt_log (ne_of_gt hx)).neg)
    (fun x hx y hy h => Real.log_injOn_pos hx hy (neg_injective h)) ?_ ?_ (by simp)
    MeasurableSet.univ fun x hx => ?_
  · refine eq_univ_of_forall fun y => ⟨Real.exp (-y), Real.exp_pos _, by simp⟩
  · exact Filter.Eventually.of_forall fun x hx => if_neg hx
  · have hx' : 0 < x := hx
    simp only [stdPdf]
    rw [if_pos hx', abs_neg, abs_of_pos (inv_pos.mpr hx'), neg_neg, neg_add, neg_neg, Real.exp_add, Real.exp_log hx']
    simp only [sub_self, Real.rpow_zero, Real.Gamma_one, one_mul, div_one]
    field_simp

theorem stdLaw_logistic (l c : ℝ) :
    (Frozen.logistic l c).stdLaw = (betaMeasure 1 1).map fun u => Real.log u - Real.log (1 - u) := by
  rw [← stdLaw_beta one_pos one_pos 0 1]
  symm
  refine map_withDensity_of_deriv (φ' := fun u => u⁻¹ - (-1) / (1 - u)) (S := Ioo 0 1) (T := univ) measurableSet_Ioo
    (by fun_prop) (fun x hx => ?_) (fun x hx y hy h => ?_) ?_ ?_ (by simp) MeasurableSet.univ fun x hx => ?_
  · have h1 : HasDerivAt (fun u : ℝ => 1 - u) (-1) x := by simpa using (hasDerivAt_id x).const_sub 1
    exact (Real.hasDerivAt_log hx.1.ne').sub (h1.log (by linarith [hx.2]))
  · have hx1 : 0 < 1 - x := by linarith [hx.2]
    have hy1 : 0 < 1 - y := by linarith [hy.2]
    beta_reduce at h
    rw [← Real.log_div hx.1.ne' hx1.ne', ← Real.log_div hy.1.ne' hy1.ne'] at h
    have := Real.log_injOn_pos (div_pos hx.1 hx1) (div_pos hy.1 hy1) h
    rw [div_eq_div_iff hx1.ne' hy1.ne'] at this
    linarith
  · refine eq_univ_of_forall fun y => ⟨1 / (1 + Real.exp (-y)), ⟨by positivity, ?_⟩, ?_⟩
    · rw [div_lt_one (by positivity)]
      linarith [Real.exp_pos (-y)]
    · have hE := Real.exp_pos (-y)
      have e : 1 - 1 / (1 + Real.exp (-y)) = Real.exp (-y) * (1 / (1 + Real.exp (-y))) := by field_simp; ring
      simp only [e]
      rw [Real.log_mul hE.ne' (by positivity), Real.log_exp]
      ring
  · exact Filter.Eventually.of_forall fun x hx => if_neg hx
  · obtain ⟨h0, h1⟩ := hx
    have h1' : 0 < 1 - x := by linarith
    simp only [stdPdf]
    rw [if_pos ⟨h0, h1⟩]
    have e : Real.exp (-(Real.log x - Real.log (1 - x))) = (1 - x) / x := by
      rw [neg_sub, Real.exp_sub, Real.exp_log h1', Real.exp_log h0]
    have e2 : x⁻¹ - -1 / (1 - x) = 1 / (x * (1 - x)) := by field_simp; ring
    rw [e, e2, abs_of_pos (by positivity)]
    have e3 : Real.Gamma (1 + 1) = 1 := by rw [Real.Gamma_add_one one_ne_zero, Real.Gamma_one, one_mul]
    rw [e3]
    have e4 : 1 + (1 - x) / x = 1 / x := by field_simp; ring
    rw [e4]
    simp only [sub_self, Real.rpow_zero, Real.Gamma_one]
    field_simp

end Frozen
end Ondil
