import Verif.Lemmas.Law

/-!
# The laws of the inflated distributions as mixtures
-/

namespace Ondil
namespace Dist

open MeasureTheory ProbabilityTheory Set

theorem ae_ne (a : ℝ) : ∀ᵐ y : ℝ, y ≠ a := by simp [ae_iff]

theorem zagaPdf_pos {y μ σ ν : ℝ} (hy : 0 < y) (hμ : 0 < μ) (hσ : 0 < σ) :
    zagaPdf y μ σ ν = .fin ((1 - ν) * (innerGamma μ σ).pdf y) := by
  have hs : 0 < μ * σ ^ 2 := by positivity
  have hq : 0 < y / (μ * σ ^ 2) := div_pos hy hs
  have hk : 0 < 1 / σ ^ 2 := by positivity
  have hG := Real.Gamma_pos_of_pos hk
  have e1 : fltPow (y / (μ * σ ^ 2)) (1 / σ ^ 2) = .fin ((y / (μ * σ ^ 2)) ^ (1 / σ ^ 2)) := by
    unfold fltPow
    rw [if_neg (fun h => absurd h.1 (not_lt.mpr hq.le)), if_neg (fun h => absurd h.1 hq.ne')]
  unfold zagaPdf
  rw [if_neg hy.ne', e1]
  simp only [Flt.mul, Flt.exp, Flt.div]
  rw [if_neg (mul_pos hy hG).ne']
  congr 1
  simp only [innerGamma, Frozen.pdf, Frozen.stdPdf, Frozen.loc, Frozen.scale, sub_zero]
  rw [if_pos hq, Real.rpow_sub_one hq.ne']
  have e2 : -y / (μ * σ ^ 2) = -(y / (μ * σ ^ 2)) := by ring
  rw [e2]
  field_simp

/-- The law of BetaInflated: beta, and point masses at 0 and 1. -/
theorem law_betaInflated (θ : ℕ → ℝ) (h : betaInflated.Admissible θ) :
    betaInflated.law θ = ENNReal.ofReal (1 / (1 + θ 2 + θ 3)) • (innerBeta (θ 0) (θ 1)).law
      + (ENNReal.ofReal (θ 2 / (1 + θ 2 + θ 3)) • Measure.dirac 0
        + ENNReal.ofReal (θ 3 / (1 + θ 2 + θ 3)) • Measure.dirac 1) := by
  obtain ⟨hμ, hσ, hν, hτ⟩ := h
  have hD : 0 < 1 + θ 2 + θ 3 := by linarith
  unfold law lawOf
  congr 1
  · rw [← withDensity_indicator (by exact measurableSet_Icc)]
    unfold Frozen.law innerBeta
    rw [← withDensity_div _ ((measurable_betaPdf _ _).ennreal_ofReal) hD]
    refine withDensity_congr_ae ?_
    filter_upwards [ae_ne 0, ae_ne 1] with y h0 h1
    by_cases hy : y ∈ Icc (0 : ℝ) 1
    · rw [indicator_of_mem (show y ∈ betaInflated.Responses from hy)]
      congr 1
      change (betaInflatedPdf y (θ 0) (θ 1) (θ 2) (θ 3)).toReal = _
      unfold betaInflatedPdf
      rw [if_neg (by rintro (h | h); exacts [absurd hy.1 (not_le.mpr h), absurd hy.2 (not_le.mpr h)]), if_neg h0,
        if_neg h1]
      rfl
    · rw [indicator_of_notMem (show y ∉ betaInflated.Responses from hy)]
      have : (Frozen.beta (betaA (θ 0) (θ 1)) (betaB (θ 0) (θ 1)) 0 1).pdf y = 0 := by
        simp only [Frozen.pdf, Frozen.stdPdf, Frozen.loc, Frozen.scale, sub_zero, div_one]
        exact if_neg fun h => hy ⟨h.1.le, h.2.le⟩
      rw [this]; simp
  · have e0 : (betaInflated.pdf 0 θ).toReal = θ 2 / (1 + θ 2 + θ 3) := by
      change (betaInflatedPdf 0 (θ 0) (θ 1) (θ 2) (θ 3)).toReal = _
      unfold betaInflatedPdf
      rw [if_neg (by norm_num), if_pos rfl]; rfl
    have e1 : (betaInflated.pdf 1 θ).toReal = θ 3 / (1 + θ 2 + θ 3) := by
      change (betaInflatedPdf 1 (θ 0) (θ 1) (θ 2) (θ 3)).toReal = _
      unfold betaInflatedPdf
      rw [if_neg (by norm_num), if_neg (by norm_num), if_pos rfl]; rfl
    simp only [inflatedPoints, List.map_cons, List.map_nil, List.sum_cons, List.sum_nil, add_zero, e0, e1]

/-- The law of BetaInflatedZero. -/
theorem law_betaInflatedZero (θ : ℕ → ℝ) (h : betaInflatedZero.Admissible θ) :
    betaInflatedZero.law θ = ENNReal.ofReal (1 / (1 + θ 2)) • (innerBeta (θ 0) (θ 1)).law
      + ENNReal.ofReal (θ 2 / (1 + θ 2)) • Measure.dirac 0 := by
  obtain ⟨hμ, hσ, hν⟩ := h
  have hD : 0 < 1 + θ 2 := by linarith
  unfold law lawOf
  congr 1
  · rw [← withDensity_indicator (by exact measurableSet_Ico)]
    unfold Frozen.law innerBeta
    rw [← withDensity_div _ ((measurable_betaPdf _ _).ennreal_ofReal) hD]
    refine withDensity_congr_ae ?_
    filter_upwards [ae_ne 0] with y h0
    by_cases hy : y ∈ Ico (0 : ℝ) 1
    · rw [indicator_of_mem (show y ∈ betaInflatedZero.Responses from hy)]
      congr 1
      change (betaInflatedZeroPdf y (θ 0) (θ 1) (θ 2)).toReal = _
      unfold betaInflatedZeroPdf
      rw [if_neg (by rintro (h | h); exacts [absurd hy.1 (not_le.mpr h), absurd hy.2 (not_lt.mpr h)]), if_neg h0]
      rfl
    · rw [indicator_of_notMem (show y ∉ betaInflatedZero.Responses from hy)]
      have : (Frozen.beta (betaA (θ 0) (θ 1)) (betaB (θ 0) (θ 1)) 0 1).pdf y = 0 := by
        simp only [Frozen.pdf, Frozen.stdPdf, Frozen.loc, Frozen.scale, sub_zero, div_one]
        exact if_neg fun h => hy ⟨h.1.le, h.2⟩
      rw [this]; simp
  · have e0 : (betaInflatedZero.pdf 0 θ).toReal = θ 2 / (1 + θ 2) := by
      change (betaInflatedZeroPdf 0 (θ 0) (θ 1) (θ 2)).toReal = _
      unfold betaInflatedZeroPdf
      rw [if_neg (by norm_num), if_pos rfl]; rfl
    simp only [inflatedPoints, List.map_cons, List.map_nil, List.sum_cons, List.sum_nil, add_zero, e0]

/-- The law of ZeroAdjustedGamma. -/
theorem law_zaga (θ : ℕ → ℝ) (h : zeroAdjustedGamma.Admissible θ) :
    zeroAdjustedGamma.law θ = ENNReal.ofReal (1 - θ 2) • (innerGamma (θ 0) (θ 1)).law
      + ENNReal.ofReal (θ 2) • Measure.dirac 0 := by
  obtain ⟨⟨hμ, hσ⟩, hν, hν1⟩ := h
  have hD : 0 < 1 / (1 - θ 2) := by
    have : 0 < 1 - θ 2 := by linarith
    positivity
  unfold law lawOf
  congr 1
  · rw [← withDensity_indicator (by exact measurableSet_Ici)]
    unfold Frozen.law innerGamma
    have e : (1 : ℝ) - θ 2 = 1 / (1 / (1 - θ 2)) := by simp
    rw [e, ← withDensity_div _ ((measurable_gammaPdf _ _).ennreal_ofReal) hD]
    refine withDensity_congr_ae ?_
    filter_upwards [ae_ne 0] with y h0
    by_cases hy : y ∈ Ici (0 : ℝ)
    · rw [indicator_of_mem (show y ∈ zeroAdjustedGamma.Responses from hy)]
      congr 1
      have hy0 : 0 < y := lt_of_le_of_ne hy (Ne.symm h0)
      change (zagaPdf y (θ 0) (θ 1) (θ 2)).toReal = _
      rw [zagaPdf_pos hy0 hμ hσ, div_div_eq_mul_div, div_one, mul_comm]
      rfl
    · rw [indicator_of_notMem (show y ∉ zeroAdjustedGamma.Responses from hy)]
      have : (innerGamma (θ 0) (θ 1)).pdf y = 0 := by
        simp only [innerGamma, Frozen.pdf, Frozen.stdPdf, Frozen.loc, Frozen.scale, sub_zero]
        rw [if_neg, zero_div]
        rw [not_lt]
        exact div_nonpos_of_nonpos_of_nonneg (not_le.mp hy).le (by positivity)
      have h2 : (Frozen.gamma (1 / θ 1 ^ 2) 0 (θ 0 * θ 1 ^ 2)).pdf y = 0 := this
      rw [h2]; simp
  · have e0 : (zeroAdjustedGamma.pdf 0 θ).toReal = θ 2 := by
      change (zagaPdf 0 (θ 0) (θ 1) (θ 2)).toReal = _
      unfold zagaPdf
      rw [if_pos rfl]; rfl
    simp only [inflatedPoints, List.map_cons, List.map_nil, List.sum_cons, List.sum_nil, add_zero, e0]

end Dist
end Ondil
