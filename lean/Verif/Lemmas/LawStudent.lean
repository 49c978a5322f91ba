import Verif.Lemmas.LawChange

/-!
# Student's t law and the beta law
-/

namespace Ondil

open MeasureTheory ProbabilityTheory Set

namespace Frozen

/-- `z ↦ z² / (ν + z²)`. -/
noncomputable def tRatio (ν z : ℝ) : ℝ := z ^ 2 / (ν + z ^ 2)

theorem tRatio_measurable (ν : ℝ) : Measurable (tRatio ν) := by unfold tRatio; fun_prop

theorem tRatio_hasDerivAt {ν : ℝ} (hν : 0 < ν) (z : ℝ) :
    HasDerivAt (tRatio ν) (2 * z * ν / (ν + z ^ 2) ^ 2) z := by
  have hpos : 0 < ν + z ^ 2 := by positivity
  have h1 : HasDerivAt (fun z : ℝ => z ^ 2) (2 * z) z := by simpa using hasDerivAt_pow 2 z
  have h2 := h1.div (h1.const_add ν) hpos.ne'
  refine h2.congr_deriv ?_
  congr 1
  ring

theorem tRatio_injOn {ν : ℝ} (hν : 0 < ν) : InjOn (tRatio ν) (Ioi 0) := by
  intro x hx y hy h
  have hx' : 0 < x := hx
  have hy' : 0 < y := hy
  unfold tRatio at h
  rw [div_eq_div_iff (by positivity) (by positivity)] at h
  have h2 : ν * x ^ 2 = ν * y ^ 2 := by linarith
  have h3 := mul_left_cancel₀ hν.ne' h2
  exact (pow_left_inj₀ hx'.le hy'.le two_ne_zero).mp h3

theorem tRatio_image {ν : ℝ} (hν : 0 < ν) : tRatio ν '' Ioi 0 = Ioo 0 1 := by
  ext b
  simp only [mem_image, mem_Ioi, mem_Ioo]
  constructor
  · rintro ⟨z, hz, rfl⟩
    unfold tRatio
    refine ⟨by positivity, ?_⟩
    rw [div_lt_one (by positivity)]
    linarith
  · rintro ⟨h0, h1⟩
    have h1' : 0 < 1 - b := by linarith
    refine ⟨Real.sqrt (ν * b / (1 - b)), Real.sqrt_pos.mpr (by positivity), ?_⟩
    unfold tRatio
    rw [Real.sq_sqrt (by positivity)]
    field_simp
    ring

theorem tRatio_neg (ν z : ℝ) : tRatio ν (-z) = tRatio ν z := by unfold tRatio; rw [neg_sq]

/-- The density of t in terms of the density of the ratio. -/
theorem t_pdf_ratio {ν : ℝ} (hν : 0 < ν) (l c : ℝ) {z : ℝ} (hz : 0 < z) :
    (Frozen.t ν l c).stdPdf z
      = |2 * z * ν / (ν + z ^ 2) ^ 2| * ((Frozen.beta (1 / 2) (ν / 2) 0 1).stdPdf (tRatio ν z) / 2) := by
  have hw : 0 < 1 + z ^ 2 / ν := by positivity
  have hb : tRatio ν z ∈ Ioo 0 1 := by rw [← tRatio_image hν]; exact ⟨z, hz, rfl⟩
  rw [abs_of_pos (by positivity)]
  simp only [stdPdf]
  rw [if_pos ⟨hb.1, hb.2⟩]
  have e1 : 1 - tRatio ν z = (1 + z ^ 2 / ν)⁻¹ := by unfold tRatio; field_simp; ring
  have e2 : tRatio ν z = z ^ 2 / ν * (1 + z ^ 2 / ν)⁻¹ := by unfold tRatio; field_simp
  have e3 : ν + z ^ 2 = ν * (1 + z ^ 2 / ν) := by field_simp
  rw [e1, e2, e3]
  generalize hW : 1 + z ^ 2 / ν = w at *
  have hG1 := Real.Gamma_pos_of_pos (show 0 < ν / 2 by positivity)
  have e4 : (1 : ℝ) / 2 + ν / 2 = (ν + 1) / 2 := by ring
  rw [e4, Real.Gamma_one_half_eq, Real.sqrt_mul Real.pi_pos.le]
  have e5 : (z ^ 2 / ν * w⁻¹) ^ ((1 : ℝ) / 2 - 1) = Real.sqrt ν / z * w ^ ((1 : ℝ) / 2) := by
    have : (1 : ℝ) / 2 - 1 = -(1 / 2) := by norm_num
    rw [this, Real.rpow_neg (by positivity), Real.mul_rpow (by positivity) (by positivity),
      Real.div_rpow (by positivity) hν.le, ← Real.sqrt_eq_rpow, ← Real.sqrt_eq_rpow, Real.sqrt_sq hz.le,
      Real.inv_rpow hw.le, mul_inv, inv_inv, inv_div]
  have e6 : (w⁻¹) ^ (ν / 2 - 1) = w ^ (1 - ν / 2) := by
    rw [Real.inv_rpow hw.le, ← Real.rpow_neg hw.le]; congr 1; ring
  rw [e5, e6]
  have e7 : w ^ (-(ν + 1) / 2) = w ^ ((1 : ℝ) / 2) * w ^ (1 - ν / 2) / w ^ 2 := by
    rw [← Real.rpow_add hw, ← Real.rpow_natCast w 2, ← Real.rpow_sub hw]
    congr 1
    push_cast
    ring
  rw [e7]
  have hsn : Real.sqrt ν * Real.sqrt ν = ν := Real.mul_self_sqrt hν.le
  have hsp : 0 < Real.sqrt ν := Real.sqrt_pos.mpr hν
  have hpi : 0 < Real.sqrt Real.pi := Real.sqrt_pos.mpr Real.pi_pos
  generalize Real.sqrt ν = s at *
  subst hsn
  field_simp

theorem t_stdPdf_neg (ν l c z : ℝ) : (Frozen.t ν l c).stdPdf (-z) = (Frozen.t ν l c).stdPdf z := by
  simp only [stdPdf, neg_sq]

theorem t_stdPdf_nonneg {ν : ℝ} (hν : 0 < ν) (l c z : ℝ) : 0 ≤ (Frozen.t ν l c).stdPdf z := by
  simp only [stdPdf]
  have h1 := (Real.Gamma_pos_of_pos (show 0 < (ν + 1) / 2 by positivity)).le
  have h2 := (Real.Gamma_pos_of_pos (show 0 < ν / 2 by positivity)).le
  have hw : 0 < 1 + z ^ 2 / ν := by positivity
  have h3 := (Real.rpow_pos_of_pos hw (-(ν + 1) / 2)).le
  positivity

theorem t_stdPdf_measurable (ν l c : ℝ) : Measurable (Frozen.t ν l c).stdPdf := by
  have : (Frozen.t ν l c).stdPdf = fun z => Real.Gamma ((ν + 1) / 2) / (Real.sqrt (Real.pi * ν) * Real.Gamma (ν / 2))
      * (1 + z ^ 2 / ν) ^ (-(ν + 1) / 2) := rfl
  rw [this]
  fun_prop

open Classical in
/-- The ratio `z² / (ν + z²)` of a t variable has a beta law. -/
theorem stdLaw_t {ν : ℝ} (hν : 0 < ν) (l c : ℝ) :
    ((Frozen.t ν l c).stdLaw).map (tRatio ν) = betaMeasure (1 / 2) (ν / 2) := by
  set f := Frozen.t ν l c with hf
  set g := Frozen.beta (1 / 2) (ν / 2) 0 1 with hg
  have hpos := map_withDensity_of_deriv (φ := tRatio ν) (φ' := fun z => 2 * z * ν / (ν + z ^ 2) ^ 2) (S := Ioi 0)
    (T := Ioo 0 1) (p := fun z => if 0 < z then f.stdPdf z else 0) (q := fun b => g.stdPdf b / 2)
    measurableSet_Ioi (tRatio_measurable ν) (fun x _ => tRatio_hasDerivAt hν x) (tRatio_injOn hν) (tRatio_image hν)
    (Filter.Eventually.of_forall fun x hx => if_neg hx)
    (Filter.Eventually.of_forall fun x hx => by
      simp only [hg, stdPdf]; rw [if_neg (show ¬(0 < x ∧ x < 1) from hx), zero_div])
    measurableSet_Ioo (fun z hz => by rw [if_pos (show 0 < z from hz)]; exact t_pdf_ratio hν l c hz)
  have hneg := map_withDensity_of_deriv (φ := tRatio ν) (φ' := fun z => 2 * z * ν / (ν + z ^ 2) ^ 2) (S := Iio 0)
    (T := Ioo 0 1) (p := fun z => if z < 0 then f.stdPdf z else 0) (q := fun b => g.stdPdf b / 2)
    measurableSet_Iio (tRatio_measurable ν) (fun x _ => tRatio_hasDerivAt hν x)
    (fun x hx y hy h => by
      have hx' : x < 0 := hx
      have hy' : y < 0 := hy
      rw [← tRatio_neg ν x, ← tRatio_neg ν y] at h
      exact neg_injective (tRatio_injOn hν (by simpa using hx') (by simpa using hy') h))
    (by
      rw [← tRatio_image hν]
      ext b
      constructor
      · rintro ⟨z, hz, rfl⟩
        exact ⟨-z, by simpa using hz, tRatio_neg ν z⟩
      · rintro ⟨z, hz, rfl⟩
        exact ⟨-z, by simpa using hz, tRatio_neg ν z⟩)
    (Filter.Eventually.of_forall fun x hx => if_neg hx)
    (Filter.Eventually.of_forall fun x hx => by
      simp only [hg, stdPdf]; rw [if_neg (show ¬(0 < x ∧ x < 1) from hx), zero_div])
    measurableSet_Ioo (fun z hz => by
      have hz' : z < 0 := hz
      rw [if_pos hz', ← tRatio_neg ν z, hf, ← t_stdPdf_neg]
      have := t_pdf_ratio hν l c (show 0 < -z by linarith)
      rw [this]
      congr 1
      rw [show 2 * -z * ν / (ν + (-z) ^ 2) ^ 2 = -(2 * z * ν / (ν + z ^ 2) ^ 2) by rw [neg_sq]; ring, abs_neg])
  have hfm := t_stdPdf_measurable ν l c
  have hsplit : f.stdLaw = volume.withDensity (fun z => ENNReal.ofReal (if 0 < z then f.stdPdf z else 0))
      + volume.withDensity (fun z => ENNReal.ofReal (if z < 0 then f.stdPdf z else 0)) := by
    rw [← withDensity_add_left (Measurable.ennreal_ofReal
      (Measurable.ite measurableSet_Ioi hfm measurable_const))]
    refine withDensity_congr_ae ?_
    have h0 : ∀ᵐ y : ℝ, y ≠ 0 := by simp [ae_iff]
    filter_upwards [h0] with z hz
    rcases lt_or_gt_of_ne hz with h | h
    · simp [h, not_lt.mpr h.le]
    · simp [h, not_lt.mpr h.le, hf]
  have hgm : Measurable fun b => g.stdPdf b := by
    have := Dist.measurable_betaPdf (1 / 2) (ν / 2)
    simp only [Frozen.pdf, Frozen.loc, Frozen.scale, sub_zero, div_one] at this
    exact this
  have hg0 : ∀ b, 0 ≤ g.stdPdf b := fun b => by
    have := Frozen.pdf_nonneg_beta (a := 1 / 2) (b := ν / 2) (by norm_num) (by positivity) b
    simp only [Frozen.pdf, Frozen.loc, Frozen.scale, sub_zero, div_one] at this
    exact this
  rw [hsplit, Measure.map_add _ _ (tRatio_measurable ν), hpos, hneg,
    ← withDensity_add_left (Measurable.ennreal_ofReal (hgm.div_const 2)),
    ← stdLaw_beta (a := 1 / 2) (b := ν / 2) (by norm_num) (by positivity) 0 1]
  unfold stdLaw
  congr 1
  funext b
  have hb : 0 ≤ g.stdPdf b / 2 := div_nonneg (hg0 b) zero_le_two
  rw [Pi.add_apply, ← ENNReal.ofReal_add hb hb, add_halves]

theorem t_std_prob {ν : ℝ} (hν : 0 < ν) (l c : ℝ) : IsProbabilityMeasure (Frozen.t ν l c).stdLaw := by
  have h := stdLaw_t hν l c
  have := isProbabilityMeasureBeta (α := 1 / 2) (β := ν / 2) (by norm_num) (by positivity)
  refine ⟨?_⟩
  have h1 : (betaMeasure (1 / 2) (ν / 2)) univ = 1 := measure_univ
  rw [← h, Measure.map_apply (tRatio_measurable ν) MeasurableSet.univ, preimage_univ] at h1
  exact h1

/-- The t law is symmetric. -/
theorem stdLaw_t_neg {ν : ℝ} (l c : ℝ) : ((Frozen.t ν l c).stdLaw).map (fun z => -z) = (Frozen.t ν l c).stdLaw := by
  refine map_withDensity_of_deriv (φ' := fun _ => -1) (S := univ) (T := univ) MeasurableSet.univ (by fun_prop)
    (fun x _ => hasDerivAt_neg x) (fun x _ y _ h => neg_injective h) ?_ (by simp) (by simp)
    MeasurableSet.univ fun x _ => ?_
  · rw [image_univ]; exact range_eq_univ.mpr neg_surjective
  · rw [t_stdPdf_neg]; simp

end Frozen
end Ondil
