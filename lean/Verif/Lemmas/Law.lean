import Verif.Spec.Law
import Verif.Model.DistributionFunctions
import Mathlib.Probability.Distributions.Beta
import Mathlib.Probability.Distributions.Gamma
import Mathlib.Probability.CDF

/-!
# Laws of the scipy distributions and of the inflated distributions
-/

namespace Ondil

open MeasureTheory ProbabilityTheory Set

/-! ### Measures on the line -/

/-- `cdf` of Mathlib and the measure of a half line. -/
theorem cdf_eq_measure (P : Measure ℝ) [IsProbabilityMeasure P] (y : ℝ) :
    ProbabilityTheory.cdf P y = (P (Iic y)).toReal := ProbabilityTheory.cdf_eq_real P y

/-- The generalised inverse of a distribution function. -/
theorem sInf_cdf_le_iff (P : Measure ℝ) [IsProbabilityMeasure P] {q : ℝ} (h0 : 0 < q) (h1 : q < 1) (y : ℝ) :
    sInf {x | q ≤ (P (Iic x)).toReal} ≤ y ↔ q ≤ (P (Iic y)).toReal := by
  have hF : ∀ x, (P (Iic x)).toReal = ProbabilityTheory.cdf P x := fun x => (cdf_eq_measure P x).symm
  simp only [hF]
  set S : Set ℝ := {x | q ≤ ProbabilityTheory.cdf P x} with hS
  have hne : S.Nonempty := by
    have := (ProbabilityTheory.tendsto_cdf_atTop P).eventually (eventually_ge_nhds h1)
    obtain ⟨x, hx⟩ := this.exists
    exact ⟨x, hx⟩
  have hbdd : BddBelow S := by
    have := (ProbabilityTheory.tendsto_cdf_atBot P).eventually (eventually_lt_nhds h0)
    obtain ⟨x, hx⟩ := this.exists
    refine ⟨x, fun z hz => ?_⟩
    by_contra hlt
    have := ProbabilityTheory.monotone_cdf P (not_le.mp hlt).le
    have hz' : q ≤ ProbabilityTheory.cdf P z := hz
    linarith
  constructor
  · intro h
    have hmem : q ≤ ProbabilityTheory.cdf P (sInf S) := by
      have hrc := (ProbabilityTheory.cdf P).right_continuous (sInf S)
      have hrc' : ContinuousWithinAt (ProbabilityTheory.cdf P) (Ioi (sInf S)) (sInf S) :=
        hrc.mono Ioi_subset_Ici_self
      refine ge_of_tendsto hrc'.tendsto ?_
      filter_upwards [self_mem_nhdsWithin] with z hz
      obtain ⟨x, hx, hxz⟩ := exists_lt_of_csInf_lt hne hz
      exact le_trans hx (ProbabilityTheory.monotone_cdf P hxz.le)
    exact le_trans hmem (ProbabilityTheory.monotone_cdf P h)
  · intro h
    exact csInf_le hbdd h

/-! ### The beta and the gamma law -/

theorem Frozen.beta_law {a b : ℝ} (ha : 0 < a) (hb : 0 < b) :
    (Frozen.beta a b 0 1).law = betaMeasure a b := by
  unfold Frozen.law betaMeasure
  congr 1
  funext y
  unfold betaPDF betaPDFReal
  congr 1
  simp only [Frozen.pdf, Frozen.stdPdf, Frozen.loc, Frozen.scale, sub_zero, div_one]
  have hA := (Real.Gamma_pos_of_pos ha).ne'
  have hB := (Real.Gamma_pos_of_pos hb).ne'
  have hAB := (Real.Gamma_pos_of_pos (add_pos ha hb)).ne'
  by_cases h : 0 < y ∧ y < 1
  · rw [if_pos h, if_pos h, ProbabilityTheory.beta]
    field_simp
  · rw [if_neg h, if_neg h]

theorem Frozen.beta_prob {a b : ℝ} (ha : 0 < a) (hb : 0 < b) :
    IsProbabilityMeasure (Frozen.beta a b 0 1).law := by
  rw [Frozen.beta_law ha hb]; exact isProbabilityMeasureBeta ha hb

theorem Frozen.gamma_law {a s : ℝ} (ha : 0 < a) (hs : 0 < s) :
    (Frozen.gamma a 0 s).law = gammaMeasure a (1 / s) := by
  unfold Frozen.law gammaMeasure
  refine withDensity_congr_ae ?_
  have h0 : ∀ᵐ y : ℝ, y ≠ 0 := by
    simp [ae_iff]
  filter_upwards [h0] with y hy
  unfold gammaPDF gammaPDFReal
  congr 1
  simp only [Frozen.pdf, Frozen.stdPdf, Frozen.loc, Frozen.scale, sub_zero]
  rcases lt_or_gt_of_ne hy with h | h
  · rw [if_neg (by rw [not_lt]; exact (div_neg_of_neg_of_pos h hs).le), if_neg (not_le.mpr h), zero_div]
  · rw [if_pos (div_pos h hs), if_pos h.le]
    rw [Real.div_rpow h.le hs.le, Real.div_rpow zero_le_one hs.le, Real.one_rpow,
      Real.rpow_sub_one hs.ne' a]
    have e : -(1 / s * y) = -(y / s) := by ring
    rw [e]
    have hsa := (Real.rpow_pos_of_pos hs a).ne'
    field_simp

theorem Frozen.gamma_prob {a s : ℝ} (ha : 0 < a) (hs : 0 < s) :
    IsProbabilityMeasure (Frozen.gamma a 0 s).law := by
  rw [Frozen.gamma_law ha hs]; exact isProbabilityMeasure_gammaMeasure ha (by positivity)

/-- A law with a density vanishing on a set gives that set no mass. -/
theorem Frozen.law_eq_zero (f : Frozen) {s : Set ℝ} (hs : MeasurableSet s) (h : ∀ y ∈ s, f.pdf y = 0) :
    f.law s = 0 := by
  unfold Frozen.law
  rw [withDensity_apply _ hs]
  rw [setLIntegral_congr_fun hs (g := fun _ => 0) (fun y hy => by simp [h y hy])]
  simp

/-- Absolutely continuous laws have no atoms. -/
theorem Frozen.law_singleton (f : Frozen) (y : ℝ) : f.law {y} = 0 := by
  unfold Frozen.law
  exact withDensity_absolutelyContinuous volume _ (by simp)

theorem Frozen.cdf_beta_nonpos {a b y : ℝ} (hy : y ≤ 0) : (Frozen.beta a b 0 1).cdf y = 0 := by
  unfold Frozen.cdf
  rw [Frozen.law_eq_zero _ measurableSet_Iic (fun x hx => ?_)]
  · simp
  · have hx' : x ≤ 0 := le_trans hx hy
    simp only [Frozen.pdf, Frozen.stdPdf, Frozen.loc, Frozen.scale, sub_zero, div_one]
    rw [if_neg (by rintro ⟨h, _⟩; linarith)]

theorem Frozen.cdf_beta_one_le {a b y : ℝ} (ha : 0 < a) (hb : 0 < b) (hy : 1 ≤ y) :
    (Frozen.beta a b 0 1).cdf y = 1 := by
  have := Frozen.beta_prob ha hb
  unfold Frozen.cdf
  have h0 : (Frozen.beta a b 0 1).law (Iic y)ᶜ = 0 := by
    refine Frozen.law_eq_zero _ measurableSet_Iic.compl (fun x hx => ?_)
    have hx' : y < x := by simpa using hx
    simp only [Frozen.pdf, Frozen.stdPdf, Frozen.loc, Frozen.scale, sub_zero, div_one]
    rw [if_neg (by rintro ⟨_, h⟩; linarith)]
  rw [prob_compl_eq_zero_iff measurableSet_Iic] at h0
  rw [h0, ENNReal.toReal_one]

theorem Frozen.cdf_gamma_nonpos {a s y : ℝ} (hs : 0 < s) (hy : y ≤ 0) : (Frozen.gamma a 0 s).cdf y = 0 := by
  unfold Frozen.cdf
  rw [Frozen.law_eq_zero _ measurableSet_Iic (fun x hx => ?_)]
  · simp
  · have hx' : x ≤ 0 := le_trans hx hy
    simp only [Frozen.pdf, Frozen.stdPdf, Frozen.loc, Frozen.scale, sub_zero]
    rw [if_neg (by rw [not_lt]; exact div_nonpos_of_nonpos_of_nonneg hx' hs.le), zero_div]

/-! ### The inflated laws -/

theorem Frozen.pdf_nonneg_beta {a b : ℝ} (ha : 0 < a) (hb : 0 < b) (y : ℝ) : 0 ≤ (Frozen.beta a b 0 1).pdf y := by
  simp only [Frozen.pdf, Frozen.stdPdf, Frozen.loc, Frozen.scale, sub_zero, div_one]
  split_ifs with h
  · have h1 := (Real.Gamma_pos_of_pos ha).le
    have h2 := (Real.Gamma_pos_of_pos hb).le
    have h3 := (Real.Gamma_pos_of_pos (add_pos ha hb)).le
    have h4 := Real.rpow_nonneg h.1.le (a - 1)
    have h5 := Real.rpow_nonneg (by linarith [h.2] : (0 : ℝ) ≤ 1 - y) (b - 1)
    positivity
  · exact le_rfl

namespace Dist

theorem shapeA_pos {μ σ : ℝ} (hμ : 0 < μ ∧ μ < 1) (hσ : 0 < σ ∧ σ < 1) : 0 < betaA μ σ := by
  have : 0 < 1 - σ ^ 2 := by nlinarith [hσ.1, hσ.2]
  unfold betaA
  exact div_pos (mul_pos hμ.1 this) (pow_pos hσ.1 2)

theorem shapeB_pos {μ σ : ℝ} (hμ : 0 < μ ∧ μ < 1) (hσ : 0 < σ ∧ σ < 1) : 0 < betaB μ σ := by
  have : 0 < 1 - σ ^ 2 := by nlinarith [hσ.1, hσ.2]
  unfold betaB
  exact div_pos (mul_pos (by linarith [hμ.2]) this) (pow_pos hσ.1 2)

theorem cdfBeta_eq {μ σ : ℝ} (hμ : 0 < μ) :
    Frozen.beta (μ * (1 - σ ^ 2) / σ ^ 2) (μ * (1 - σ ^ 2) / σ ^ 2 * (1 - μ) / μ) 0 1 = innerBeta μ σ := by
  unfold innerBeta betaA betaB
  congr 1
  field_simp

/-- Scaling a density by a constant. -/
theorem withDensity_div (f : ℝ → ℝ) (hf : Measurable fun y => ENNReal.ofReal (f y)) {c : ℝ} (hc : 0 < c) :
    (volume : Measure ℝ).withDensity (fun y => ENNReal.ofReal (f y / c))
      = ENNReal.ofReal (1 / c) • volume.withDensity (fun y => ENNReal.ofReal (f y)) := by
  rw [← withDensity_smul _ hf]
  congr 1
  funext y
  simp only [Pi.smul_apply, smul_eq_mul]
  rw [← ENNReal.ofReal_mul (by positivity)]
  congr 1
  ring

theorem measurable_betaPdf (a b : ℝ) : Measurable fun y => (Frozen.beta a b 0 1).pdf y := by
  simp only [Frozen.pdf, Frozen.stdPdf, Frozen.loc, Frozen.scale, sub_zero, div_one]
  exact Measurable.ite measurableSet_Ioo (by fun_prop) (by fun_prop)

theorem measurable_gammaPdf (a s : ℝ) : Measurable fun y => (Frozen.gamma a 0 s).pdf y := by
  simp only [Frozen.pdf, Frozen.stdPdf, Frozen.loc, Frozen.scale, sub_zero]
  refine Measurable.div_const (Measurable.ite ?_ (by fun_prop) (by fun_prop)) s
  exact measurableSet_lt measurable_const (by fun_prop)

end Dist
end Ondil
