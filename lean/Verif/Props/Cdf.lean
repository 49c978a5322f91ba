import Verif.Lemmas.InflatedLaw
import Verif.Props.Scores

/-!
# Properties of the distribution and quantile functions: C50, C51, C74
-/

namespace Ondil
namespace Dist

open MeasureTheory ProbabilityTheory Set Filter Topology

/-- The classes with point masses. -/
def Inflated : Dist → Prop
  | betaInflated | betaInflatedZero | zeroAdjustedGamma => True
  | _ => False

/-- A distribution function on the line. -/
structure IsDistributionFunction (F : ℝ → ℝ) : Prop where
  mono : Monotone F
  rightContinuous : ∀ y, ContinuousWithinAt F (Ici y) y
  atBot : Tendsto F atBot (𝓝 0)
  atTop : Tendsto F atTop (𝓝 1)

/-! ### C50: distribution functions of the inflated classes -/

theorem innerBeta_prob {θ : ℕ → ℝ} (hμ : 0 < θ 0 ∧ θ 0 < 1) (hσ : 0 < θ 1 ∧ θ 1 < 1) :
    IsProbabilityMeasure (innerBeta (θ 0) (θ 1)).law :=
  Frozen.beta_prob (shapeA_pos hμ hσ) (shapeB_pos hμ hσ)

theorem innerGamma_prob {μ σ : ℝ} (hμ : 0 < μ) (hσ : 0 < σ) : IsProbabilityMeasure (innerGamma μ σ).law :=
  Frozen.gamma_prob (by positivity) (by positivity)

/-- The density over the support and the point masses add up to one, for all admissible parameters. -/
theorem C50_total_mass (d : Dist) (hd : d.Inflated) (θ : ℕ → ℝ) (hθ : d.Admissible θ) : d.law θ univ = 1 := by
  cases d <;> simp only [Inflated] at hd
  · obtain ⟨hμ, hσ, hν, hτ⟩ := id hθ
    have hD : 0 < 1 + θ 2 + θ 3 := by linarith
    have := innerBeta_prob hμ hσ
    rw [law_betaInflated θ hθ]
    simp only [Measure.add_apply, Measure.smul_apply, measure_univ, smul_eq_mul, mul_one]
    rw [← ENNReal.ofReal_add (by positivity) (by positivity), ← ENNReal.ofReal_add (by positivity) (by positivity),
      ENNReal.ofReal_eq_one]
    field_simp
    ring
  · obtain ⟨hμ, hσ, hν⟩ := id hθ
    have hD : 0 < 1 + θ 2 := by linarith
    have := innerBeta_prob hμ hσ
    rw [law_betaInflatedZero θ hθ]
    simp only [Measure.add_apply, Measure.smul_apply, measure_univ, smul_eq_mul, mul_one]
    rw [← ENNReal.ofReal_add (by positivity) (by positivity), ENNReal.ofReal_eq_one]
    field_simp
  · obtain ⟨⟨hμ, hσ⟩, hν, hν1⟩ := id hθ
    have := innerGamma_prob hμ hσ
    rw [law_zaga θ hθ]
    simp only [Measure.add_apply, Measure.smul_apply, measure_univ, smul_eq_mul, mul_one]
    rw [← ENNReal.ofReal_add (by linarith) (by linarith), ENNReal.ofReal_eq_one]
    ring

theorem dirac_Iic (a y : ℝ) : (Measure.dirac a (Iic y)) = if a ≤ y then 1 else 0 := by
  rw [Measure.dirac_apply' _ measurableSet_Iic]
  simp [indicator]

/-- Mass of a half line under the law of BetaInflated. -/
theorem law_betaInflated_Iic (θ : ℕ → ℝ) (h : betaInflated.Admissible θ) (y : ℝ) :
    (betaInflated.law θ (Iic y)).toReal
      = ((innerBeta (θ 0) (θ 1)).cdf y + (if 0 ≤ y then θ 2 else 0) + (if 1 ≤ y then θ 3 else 0))
        / (1 + θ 2 + θ 3) := by
  obtain ⟨hμ, hσ, hν, hτ⟩ := id h
  have hD : 0 < 1 + θ 2 + θ 3 := by linarith
  have := innerBeta_prob hμ hσ
  rw [law_betaInflated θ h]
  simp only [Measure.add_apply, Measure.smul_apply, smul_eq_mul, dirac_Iic]
  have hfin : (innerBeta (θ 0) (θ 1)).law (Iic y) ≠ ⊤ := measure_ne_top _ _
  rw [ENNReal.toReal_add (ENNReal.mul_ne_top (by simp) hfin) (by split_ifs <;> simp),
    ENNReal.toReal_add (by split_ifs <;> simp) (by split_ifs <;> simp), ENNReal.toReal_mul, ENNReal.toReal_mul,
    ENNReal.toReal_mul, ENNReal.toReal_ofReal (by positivity), ENNReal.toReal_ofReal (by positivity),
    ENNReal.toReal_ofReal (by positivity)]
  change 1 / (1 + θ 2 + θ 3) * (innerBeta (θ 0) (θ 1)).cdf y + _ = _
  split_ifs <;> simp <;> field_simp <;> ring

theorem law_betaInflatedZero_Iic (θ : ℕ → ℝ) (h : betaInflatedZero.Admissible θ) (y : ℝ) :
    (betaInflatedZero.law θ (Iic y)).toReal
      = ((innerBeta (θ 0) (θ 1)).cdf y + (if 0 ≤ y then θ 2 else 0)) / (1 + θ 2) := by
  obtain ⟨hμ, hσ, hν⟩ := id h
  have hD : 0 < 1 + θ 2 := by linarith
  have := innerBeta_prob hμ hσ
  rw [law_betaInflatedZero θ h]
  simp only [Measure.add_apply, Measure.smul_apply, smul_eq_mul, dirac_Iic]
  have hfin : (innerBeta (θ 0) (θ 1)).law (Iic y) ≠ ⊤ := measure_ne_top _ _
  rw [ENNReal.toReal_add (ENNReal.mul_ne_top (by simp) hfin) (by split_ifs <;> simp), ENNReal.toReal_mul,
    ENNReal.toReal_mul, ENNReal.toReal_ofReal (by positivity), ENNReal.toReal_ofReal (by positivity)]
  change 1 / (1 + θ 2) * (innerBeta (θ 0) (θ 1)).cdf y + _ = _
  split_ifs <;> simp <;> field_simp

theorem law_zaga_Iic (θ : ℕ → ℝ) (h : zeroAdjustedGamma.Admissible θ) (y : ℝ) :
    (zeroAdjustedGamma.law θ (Iic y)).toReal
      = (1 - θ 2) * (innerGamma (θ 0) (θ 1)).cdf y + (if 0 ≤ y then θ 2 else 0) := by
  obtain ⟨⟨hμ, hσ⟩, hν, hν1⟩ := id h
  have := innerGamma_prob hμ hσ
  rw [law_zaga θ h]
  simp only [Measure.add_apply, Measure.smul_apply, smul_eq_mul, dirac_Iic]
  have hfin : (innerGamma (θ 0) (θ 1)).law (Iic y) ≠ ⊤ := measure_ne_top _ _
  rw [ENNReal.toReal_add (ENNReal.mul_ne_top (by simp) hfin) (by split_ifs <;> simp), ENNReal.toReal_mul,
    ENNReal.toReal_mul, ENNReal.toReal_ofReal (by linarith), ENNReal.toReal_ofReal (by linarith)]
  change (1 - θ 2) * (innerGamma (θ 0) (θ 1)).cdf y + _ = _
  split_ifs <;> simp

/-- Negative responses of ZeroAdjustedGamma: the only place where `cdf` is wrong. -/
def WrongBelow : Dist → ℝ → Prop
  | zeroAdjustedGamma, y => y < 0
  | _, _ => False

/-- `cdf(y)` is the mass which the density method and its point masses give to the responses up to `y`.  The full claim
covers negative `y` for ZeroAdjustedGamma as well, see `C50_zaga_negative_fails`. -/
theorem C50_cdf_partial (d : Dist) (hd : d.Inflated) (θ : ℕ → ℝ) (hθ : d.Admissible θ) (y : ℝ)
    (hy : ¬ d.WrongBelow y) : d.cdf y θ = .fin (d.law θ (Iic y)).toReal := by
  cases d <;> simp only [Inflated] at hd
  · rw [law_betaInflated_Iic θ hθ]
    obtain ⟨hμ, hσ, hν, hτ⟩ := id hθ
    have hD : 0 < 1 + θ 2 + θ 3 := by linarith
    change Flt.fin (betaInflatedCdf y (θ 0) (θ 1) (θ 2) (θ 3)) = _
    congr 1
    unfold betaInflatedCdf
    simp only [cdfBeta_eq hμ.1]
    have hA := shapeA_pos hμ hσ
    have hB := shapeB_pos hμ hσ
    rcases lt_trichotomy y 0 with h | h | h
    · rw [if_neg (by linarith), if_pos h, if_neg (by linarith), if_neg (by linarith)]
      rw [innerBeta, Frozen.cdf_beta_nonpos h.le]; simp
    · subst h
      rw [if_neg (by norm_num), if_neg (by norm_num), if_neg (by norm_num), if_pos rfl, if_pos le_rfl,
        if_neg (by norm_num), innerBeta, Frozen.cdf_beta_nonpos le_rfl]; simp
    · rcases lt_trichotomy y 1 with h1 | h1 | h1
      · rw [if_neg (by linarith), if_neg (by linarith), if_pos ⟨h, h1⟩, if_pos h.le, if_neg (by linarith)]
        ring
      · subst h1
        rw [if_neg (by norm_num), if_neg (by norm_num), if_neg (by norm_num), if_neg (by norm_num), if_pos rfl,
          if_pos (by norm_num), if_pos le_rfl, innerBeta, Frozen.cdf_beta_one_le hA hB le_rfl]
      · rw [if_pos h1, if_pos h.le, if_pos h1.le, innerBeta, Frozen.cdf_beta_one_le hA hB h1.le]
        field_simp
  · rw [law_betaInflatedZero_Iic θ hθ]
    obtain ⟨hμ, hσ, hν⟩ := id hθ
    have hD : 0 < 1 + θ 2 := by linarith
    change Flt.fin (betaInflatedZeroCdf y (θ 0) (θ 1) (θ 2)) = _
    congr 1
    unfold betaInflatedZeroCdf
    simp only [cdfBeta_eq hμ.1]
    have hA := shapeA_pos hμ hσ
    have hB := shapeB_pos hμ hσ
    rcases lt_trichotomy y 0 with h | h | h
    · rw [if_neg (by linarith), if_pos h, if_neg (by linarith)]
      rw [innerBeta, Frozen.cdf_beta_nonpos h.le]; simp
    · subst h
      rw [if_neg (by norm_num), if_neg (by norm_num), if_pos rfl, if_pos le_rfl, innerBeta,
        Frozen.cdf_beta_nonpos le_rfl]; simp
    · rcases lt_or_ge y 1 with h1 | h1
      · rw [if_neg (by linarith), if_neg (by linarith), if_neg h.ne', if_pos h.le]
        ring
      · rw [if_pos h1, if_pos h.le, innerBeta, Frozen.cdf_beta_one_le hA hB h1]
        field_simp
  · rw [law_zaga_Iic θ hθ]
    obtain ⟨⟨hμ, hσ⟩, hν, hν1⟩ := id hθ
    change Flt.fin (zagaCdf y (θ 0) (θ 1) (θ 2)) = _
    congr 1
    unfold zagaCdf
    have hy0 : 0 ≤ y := not_lt.mp hy
    simp only
    by_cases h : y = 0
    · subst h
      rw [if_pos rfl, if_pos le_rfl, innerGamma, Frozen.cdf_gamma_nonpos (by positivity) le_rfl]; simp
    · rw [if_neg h, if_pos hy0]; ring

/-- The laws are probability measures. -/
theorem law_prob (d : Dist) (hd : d.Inflated) (θ : ℕ → ℝ) (hθ : d.Admissible θ) : IsProbabilityMeasure (d.law θ) :=
  ⟨C50_total_mass d hd θ hθ⟩

/-- A law gives a distribution function. -/
theorem isDistributionFunction_law (P : Measure ℝ) [IsProbabilityMeasure P] :
    IsDistributionFunction fun y => (P (Iic y)).toReal := by
  have hF : (fun y => (P (Iic y)).toReal) = ProbabilityTheory.cdf P := by
    funext y; exact (cdf_eq_measure P y).symm
  rw [hF]
  exact ⟨ProbabilityTheory.monotone_cdf P, (ProbabilityTheory.cdf P).right_continuous,
    ProbabilityTheory.tendsto_cdf_atBot P, ProbabilityTheory.tendsto_cdf_atTop P⟩

/-- The `cdf` of the two inflated beta classes is a distribution function: non-decreasing, right continuous, from 0
to 1. -/
theorem C50_distribution_function (d : Dist) (hd : d = betaInflated ∨ d = betaInflatedZero) (θ : ℕ → ℝ)
    (hθ : d.Admissible θ) :
    ∃ F : ℝ → ℝ, (∀ y, d.cdf y θ = .fin (F y)) ∧ IsDistributionFunction F ∧ (∀ y < 0, F y = 0) ∧
      (∀ y, 1 ≤ y → F y = 1) := by
  have hinf : d.Inflated := by rcases hd with rfl | rfl <;> trivial
  have hw : ∀ y, ¬ d.WrongBelow y := by rcases hd with rfl | rfl <;> exact fun _ h => h
  have := law_prob d hinf θ hθ
  refine ⟨fun y => (d.law θ (Iic y)).toReal, fun y => C50_cdf_partial d hinf θ hθ y (hw y),
    isDistributionFunction_law _, ?_, ?_⟩
  · intro y hy
    rcases hd with rfl | rfl
    · simp only
      rw [law_betaInflated_Iic θ hθ, if_neg (by linarith), if_neg (by linarith), innerBeta,
        Frozen.cdf_beta_nonpos hy.le]; simp
    · simp only
      rw [law_betaInflatedZero_Iic θ hθ, if_neg (by linarith), innerBeta,
        Frozen.cdf_beta_nonpos hy.le]; simp
  · intro y hy
    rcases hd with rfl | rfl
    · obtain ⟨hμ, hσ, hν, hτ⟩ := id hθ
      have hD : 0 < 1 + θ 2 + θ 3 := by linarith
      simp only
      rw [law_betaInflated_Iic θ hθ, if_pos (by linarith), if_pos (by linarith), innerBeta,
        Frozen.cdf_beta_one_le (shapeA_pos hμ hσ) (shapeB_pos hμ hσ) hy]
      field_simp
    · obtain ⟨hμ, hσ, hν⟩ := id hθ
      have hD : 0 < 1 + θ 2 := by linarith
      simp only
      rw [law_betaInflatedZero_Iic θ hθ, if_pos (by linarith), innerBeta,
        Frozen.cdf_beta_one_le (shapeA_pos hμ hσ) (shapeB_pos hμ hσ) hy]
      field_simp

/-- The `cdf` of ZeroAdjustedGamma agrees with a distribution function on the non-negative responses.  The full claim has
no such restriction. -/
theorem C50_distribution_function_zaga_partial (θ : ℕ → ℝ) (hθ : zeroAdjustedGamma.Admissible θ) :
    ∃ F : ℝ → ℝ, (∀ y, 0 ≤ y → zeroAdjustedGamma.cdf y θ = .fin (F y)) ∧ IsDistributionFunction F ∧
      (∀ y < 0, F y = 0) := by
  have := law_prob zeroAdjustedGamma trivial θ hθ
  refine ⟨fun y => (zeroAdjustedGamma.law θ (Iic y)).toReal,
    fun y hy => C50_cdf_partial zeroAdjustedGamma trivial θ hθ y (not_lt.mpr hy), isDistributionFunction_law _, ?_⟩
  intro y hy
  obtain ⟨⟨hμ, hσ⟩, hν, hν1⟩ := id hθ
  simp only
  rw [law_zaga_Iic θ hθ, if_neg (by linarith), innerGamma, Frozen.cdf_gamma_nonpos (by positivity) hy.le]; simp

/-- ZeroAdjustedGamma gives every negative response the distribution function value `nu > 0` instead of 0. -/
theorem C50_zaga_negative_fails (θ : ℕ → ℝ) (hθ : zeroAdjustedGamma.Admissible θ) (y : ℝ) (hy : y < 0) :
    zeroAdjustedGamma.cdf y θ = .fin (θ 2) ∧ 0 < θ 2 ∧ zeroAdjustedGamma.law θ (Iic y) = 0 := by
  obtain ⟨⟨hμ, hσ⟩, hν, hν1⟩ := id hθ
  have := law_prob zeroAdjustedGamma trivial θ hθ
  have hc : (innerGamma (θ 0) (θ 1)).cdf y = 0 := Frozen.cdf_gamma_nonpos (by positivity) hy.le
  refine ⟨?_, hν, ?_⟩
  · change Flt.fin (zagaCdf y (θ 0) (θ 1) (θ 2)) = _
    unfold zagaCdf
    rw [if_neg hy.ne, hc]; simp
  · have h := law_zaga_Iic θ hθ y
    rw [hc, if_neg (by linarith), mul_zero, add_zero] at h
    rcases (ENNReal.toReal_eq_zero_iff _).mp h with h | h
    · exact h
    · exact absurd h (measure_ne_top _ _)

/-- The mass strictly below an inflated point. -/
theorem law_Iio (d : Dist) (hd : d.Inflated) (θ : ℕ → ℝ) (hθ : d.Admissible θ) (a : ℝ) (ha : a ∈ d.inflatedPoints) :
    ∃ F p : ℝ, d.cdf a θ = .fin F ∧ d.pdf a θ = .fin p ∧ 0 < p ∧
      (d.law θ (Iio a)).toReal = F - p := by
  have hP := law_prob d hd θ hθ
  have ha0 : ¬ d.WrongBelow a := by
    cases d <;> simp only [Inflated] at hd <;> simp_all [inflatedPoints, WrongBelow]
  have hsplit : (d.law θ (Iic a)).toReal = (d.law θ (Iio a)).toReal + (d.law θ {a}).toReal := by
    rw [← ENNReal.toReal_add (measure_ne_top _ _) (measure_ne_top _ _), ← measure_union (by simp) (by simp)]
    congr 2
    ext x; simp [le_iff_lt_or_eq]
  have key : ∃ p, d.pdf a θ = .fin p ∧ 0 < p ∧ (d.law θ {a}).toReal = p := by
    cases d <;> simp only [Inflated] at hd
    · obtain ⟨hμ, hσ, hν, hτ⟩ := id hθ
      have hD : 0 < 1 + θ 2 + θ 3 := by linarith
      simp only [inflatedPoints, List.mem_cons, List.not_mem_nil, or_false] at ha
      rw [law_betaInflated θ hθ]
      rcases ha with rfl | rfl
      · refine ⟨θ 2 / (1 + θ 2 + θ 3), ?_, by positivity, ?_⟩
        · change betaInflatedPdf 0 (θ 0) (θ 1) (θ 2) (θ 3) = _
          unfold betaInflatedPdf
          rw [if_neg (by norm_num), if_pos rfl]
        · simp only [Measure.add_apply, Measure.smul_apply, smul_eq_mul, Frozen.law_singleton]
          simp
          positivity
      · refine ⟨θ 3 / (1 + θ 2 + θ 3), ?_, by positivity, ?_⟩
        · change betaInflatedPdf 1 (θ 0) (θ 1) (θ 2) (θ 3) = _
          unfold betaInflatedPdf
          rw [if_neg (by norm_num), if_neg (by norm_num), if_pos rfl]
        · simp only [Measure.add_apply, Measure.smul_apply, smul_eq_mul, Frozen.law_singleton]
          simp
          positivity
    · obtain ⟨hμ, hσ, hν⟩ := id hθ
      have hD : 0 < 1 + θ 2 := by linarith
      simp only [inflatedPoints, List.mem_cons, List.not_mem_nil, or_false] at ha
      subst ha
      rw [law_betaInflatedZero θ hθ]
      refine ⟨θ 2 / (1 + θ 2), ?_, by positivity, ?_⟩
      · change betaInflatedZeroPdf 0 (θ 0) (θ 1) (θ 2) = _
        unfold betaInflatedZeroPdf
        rw [if_neg (by norm_num), if_pos rfl]
      · simp only [Measure.add_apply, Measure.smul_apply, smul_eq_mul, Frozen.law_singleton]
        simp
        positivity
    · obtain ⟨⟨hμ, hσ⟩, hν, hν1⟩ := id hθ
      simp only [inflatedPoints, List.mem_cons, List.not_mem_nil, or_false] at ha
      subst ha
      rw [law_zaga θ hθ]
      refine ⟨θ 2, ?_, hν, ?_⟩
      · change zagaPdf 0 (θ 0) (θ 1) (θ 2) = _
        unfold zagaPdf
        rw [if_pos rfl]
      · simp only [Measure.add_apply, Measure.smul_apply, smul_eq_mul, Frozen.law_singleton]
        simp
        exact hν.le
  obtain ⟨p, h1, h2, h3⟩ := key
  refine ⟨_, p, C50_cdf_partial d hd θ hθ a ha0, h1, h2, ?_⟩
  rw [hsplit, h3]; ring

/-- At each inflated point of the inflated beta classes `cdf` jumps by exactly `pdf` of that point: the limit from the
left is `cdf - pdf`.  The full claim includes ZeroAdjustedGamma, for which it is false by `C50_zaga_negative_fails`. -/
theorem C50_jump_partial (d : Dist) (hd : d = betaInflated ∨ d = betaInflatedZero) (θ : ℕ → ℝ) (hθ : d.Admissible θ)
    (a : ℝ) (ha : a ∈ d.inflatedPoints) :
    ∃ F p : ℝ, d.cdf a θ = .fin F ∧ d.pdf a θ = .fin p ∧ 0 < p ∧
      Tendsto (fun y => (d.cdf y θ).toReal) (𝓝[<] a) (𝓝 (F - p)) := by
  have hinf : d.Inflated := by rcases hd with rfl | rfl <;> trivial
  have hw : ∀ y, ¬ d.WrongBelow y := by rcases hd with rfl | rfl <;> exact fun _ h => h
  have hP := law_prob d hinf θ hθ
  obtain ⟨F, p, h1, h2, h3, h4⟩ := law_Iio d hinf θ hθ a ha
  refine ⟨F, p, h1, h2, h3, ?_⟩
  rw [← h4]
  have hfun : (fun y => (d.cdf y θ).toReal) = ProbabilityTheory.cdf (d.law θ) := by
    funext y
    rw [C50_cdf_partial d hinf θ hθ y (hw y), cdf_eq_measure]; rfl
  rw [hfun]
  have hl := (ProbabilityTheory.monotone_cdf (d.law θ)).tendsto_leftLim a
  have hm : (d.law θ (Iio a)).toReal = Function.leftLim (ProbabilityTheory.cdf (d.law θ)) a := by
    conv_lhs => rw [← ProbabilityTheory.measure_cdf (d.law θ)]
    rw [StieltjesFunction.measure_Iio _ (ProbabilityTheory.tendsto_cdf_atBot _), sub_zero, ENNReal.toReal_ofReal]
    refine le_of_tendsto_of_tendsto' tendsto_const_nhds hl fun y => ProbabilityTheory.cdf_nonneg _ _
  rw [hm]
  exact hl

/-- The hypotheses are met by the parameters `half`, and the point masses are not trivial. -/
example : betaInflated.law half univ = 1 ∧ (1 : ℝ) ∈ betaInflated.inflatedPoints ∧
    betaInflatedZero.cdf 0 half = .fin (betaInflatedZero.law half (Iic 0)).toReal ∧
    zeroAdjustedGamma.cdf (-1) half = .fin (1 / 2) :=
  ⟨C50_total_mass betaInflated trivial _ (half_admissible _), by simp [inflatedPoints],
    C50_cdf_partial betaInflatedZero trivial _ (half_admissible _) _ (fun h => h),
    (C50_zaga_negative_fails half (half_admissible _) (-1) (by norm_num)).1⟩

/-! ### C74: log distribution functions -/

/-- `logcdf` is the logarithm of `cdf` (`-inf` where `cdf` is zero), for every response and all admissible
parameters. -/
theorem C74_logcdf (d : Dist) (hd : d.Inflated) (θ : ℕ → ℝ) (hθ : d.Admissible θ) (y : ℝ) :
    d.logcdf y θ = Flt.log (d.cdf y θ) := by
  have log0 : Flt.log (.fin 0) = .ninf := by simp [Flt.log]
  have log1 : Flt.log (.fin 1) = .fin 0 := by simp [Flt.log]
  cases d <;> simp only [Inflated] at hd
  · obtain ⟨hμ, hσ, hν, hτ⟩ := id hθ
    have hD : 0 < 1 + θ 2 + θ 3 := by linarith
    change betaInflatedLogCdf y (θ 0) (θ 1) (θ 2) (θ 3) = Flt.log (.fin (betaInflatedCdf y (θ 0) (θ 1) (θ 2) (θ 3)))
    unfold betaInflatedLogCdf betaInflatedCdf
    simp only [cdfBeta_eq hμ.1]
    by_cases h1 : y > 1
    · rw [if_pos h1, if_pos h1, log1]
    · rw [if_neg h1, if_neg h1]
      by_cases h0 : y < 0
      · rw [if_pos h0, if_pos h0, log0]
      · rw [if_neg h0, if_neg h0, Flt.div, if_neg hD.ne']
  · obtain ⟨hμ, hσ, hν⟩ := id hθ
    have hD : 0 < 1 + θ 2 := by linarith
    change betaInflatedZeroLogCdf y (θ 0) (θ 1) (θ 2) = Flt.log (.fin (betaInflatedZeroCdf y (θ 0) (θ 1) (θ 2)))
    unfold betaInflatedZeroLogCdf betaInflatedZeroCdf
    simp only [cdfBeta_eq hμ.1]
    by_cases h1 : y ≥ 1
    · rw [if_pos h1, if_pos h1, log1]
    · rw [if_neg h1, if_neg h1]
      by_cases h0 : y < 0
      · rw [if_pos h0, if_pos h0, log0]
      · rw [if_neg h0, if_neg h0, Flt.div, if_neg hD.ne']
        by_cases hy : y = 0
        · rw [if_neg (by rintro ⟨h, _⟩; linarith), if_pos hy, if_pos hy]
        · rw [if_pos ⟨lt_of_le_of_ne (not_lt.mp h0) (Ne.symm hy), (not_le.mp h1).le⟩, if_neg hy]
  · change zagaLogCdf y (θ 0) (θ 1) (θ 2) = Flt.log (.fin (zagaCdf y (θ 0) (θ 1) (θ 2)))
    unfold zagaLogCdf zagaCdf
    by_cases h : y = 0
    · rw [if_pos h, if_pos h]
    · rw [if_neg h, if_neg h]

example : betaInflated.logcdf (-1) half = .ninf := by
  rw [C74_logcdf betaInflated trivial _ (half_admissible _)]
  obtain ⟨F, h1, _, h2, _⟩ := C50_distribution_function betaInflated (Or.inl rfl) half (half_admissible _)
  rw [h1, h2 (-1) (by norm_num)]
  simp [Flt.log]

/-! ### C51: quantile functions -/

/-- A beta distribution function is below one inside the unit interval. -/
theorem cdf_beta_lt_one {a b : ℝ} (ha : 0 < a) (hb : 0 < b) {y : ℝ} (hy : y < 1) :
    (Frozen.beta a b 0 1).cdf y < 1 := by
  have hP := Frozen.beta_prob ha hb
  have hpos : (Frozen.beta a b 0 1).law (Ioo (max y 0) 1) ≠ 0 := by
    intro h0
    rw [Frozen.beta_law ha hb, betaMeasure,
      withDensity_apply_eq_zero' (by unfold betaPDF; fun_prop)] at h0
    have hsub : Ioo (max y 0) 1 ⊆ {x | betaPDF a b x ≠ 0} ∩ Ioo (max y 0) 1 := by
      intro x hx
      have hx0 : 0 < x := lt_of_le_of_lt (le_max_right _ _) hx.1
      refine ⟨?_, hx⟩
      simp only [betaPDF, mem_setOf_eq, ne_eq, ENNReal.ofReal_eq_zero, not_le]
      exact betaPDFReal_pos hx0 hx.2 ha hb
    have h1 := measure_mono_null hsub h0
    rw [Real.volume_Ioo, ENNReal.ofReal_eq_zero] at h1
    have : max y 0 < 1 := max_lt hy one_pos
    linarith
  have hdis : Disjoint (Iic y) (Ioo (max y 0) 1) := by
    rw [Set.disjoint_left]
    intro x hx hx2
    have := lt_of_le_of_lt (le_max_left y 0) hx2.1
    exact absurd hx (not_le.mpr this)
  have hle : (Frozen.beta a b 0 1).law (Iic y) + (Frozen.beta a b 0 1).law (Ioo (max y 0) 1) ≤ 1 := by
    rw [← measure_union hdis measurableSet_Ioo]
    exact prob_le_one
  have hlt : (Frozen.beta a b 0 1).law (Iic y) < 1 := by
    refine lt_of_lt_of_le ?_ hle
    exact ENNReal.lt_add_right (measure_ne_top _ _) hpos
  unfold Frozen.cdf
  have := (ENNReal.toReal_lt_toReal (measure_ne_top _ _) ENNReal.one_ne_top).mpr hlt
  rwa [ENNReal.toReal_one] at this

theorem Frozen_ppf_mid (f : Frozen) {q : ℝ} (h0 : 0 < q) (h1 : q < 1) :
    f.ppf q = .fin (sInf {x | q ≤ f.cdf x}) := by
  unfold Frozen.ppf
  rw [if_neg (by rintro (h | h) <;> linarith), if_neg h0.ne', if_neg h1.ne]

/-- For every probability strictly between 0 and 1 `ppf` returns a number which is at most `y` exactly when the
probability is at most `cdf(y)`, for every response `y` of the distribution. -/
theorem C51_generalised_inverse (ulp : ℝ) (d : Dist) (hd : d.Inflated) (θ : ℕ → ℝ) (hθ : d.Admissible θ) (q : ℝ)
    (hq0 : 0 < q) (hq1 : q < 1) (y : ℝ) (hy : y ∈ d.Responses) :
    ∃ x F, d.ppf ulp q θ = .fin x ∧ d.cdf y θ = .fin F ∧ (x ≤ y ↔ q ≤ F) := by
  have hw : ¬ d.WrongBelow y := by
    cases d <;> simp only [Inflated] at hd <;> simp only [WrongBelow, not_false_eq_true, not_lt]
    exact hy
  rw [C50_cdf_partial d hd θ hθ y hw]
  cases d <;> simp only [Inflated] at hd
  · rw [law_betaInflated_Iic θ hθ]
    obtain ⟨hμ, hσ, hν, hτ⟩ := id hθ
    have hD : 0 < 1 + θ 2 + θ 3 := by linarith
    have hA := shapeA_pos hμ hσ
    have hB := shapeB_pos hμ hσ
    have hP := innerBeta_prob hμ hσ
    have hy0 : 0 ≤ y := hy.1
    have hy1 : y ≤ 1 := hy.2
    rw [if_pos hy0]
    have hF0 : 0 ≤ (innerBeta (θ 0) (θ 1)).cdf y := ENNReal.toReal_nonneg
    change ∃ x F, betaInflatedPpf q (θ 0) (θ 1) (θ 2) (θ 3) = .fin x ∧ _
    unfold betaInflatedPpf
    simp only
    rw [if_neg (by rintro (h | h) <;> linarith)]
    by_cases hl : q ≤ θ 2 / (1 + θ 2 + θ 3)
    · rw [if_pos (Or.inr hl)]
      refine ⟨0, _, rfl, rfl, ?_⟩
      refine ⟨fun _ => le_trans hl ?_, fun _ => hy0⟩
      rw [div_le_div_iff_of_pos_right hD]
      split_ifs <;> linarith
    · rw [if_neg (by rintro (h | h); exacts [hq0.ne' h, hl h])]
      have hl' := not_le.mp hl
      by_cases hu : q ≥ (1 + θ 2) / (1 + θ 2 + θ 3)
      · rw [if_pos (Or.inr hu)]
        refine ⟨1, _, rfl, rfl, ?_⟩
        constructor
        · intro h1
          have e : y = 1 := le_antisymm hy1 h1
          subst e
          rw [if_pos le_rfl, innerBeta, Frozen.cdf_beta_one_le hA hB le_rfl, div_self hD.ne']
          exact hq1.le
        · intro h
          by_contra hlt
          have hlt' := not_le.mp hlt
          have hs := cdf_beta_lt_one hA hB hlt'
          rw [if_neg hlt, add_zero] at h
          have h2 := le_trans hu h
          rw [div_le_div_iff_of_pos_right hD] at h2
          have : (innerBeta (θ 0) (θ 1)).cdf y < 1 := hs
          linarith
      · rw [if_neg (by rintro (h | h); exacts [hq1.ne h, hu h])]
        have hu' := not_le.mp hu
        rw [lt_div_iff₀ hD] at hu'
        rw [div_lt_iff₀ hD] at hl'
        have e : (q - θ 2 / (1 + θ 2 + θ 3)) * (1 + θ 2 + θ 3) = q * (1 + θ 2 + θ 3) - θ 2 := by
          field_simp
        rw [e, Frozen_ppf_mid _ (by linarith) (by linarith)]
        refine ⟨_, _, rfl, rfl, ?_⟩
        have hg := sInf_cdf_le_iff (innerBeta (θ 0) (θ 1)).law (q := q * (1 + θ 2 + θ 3) - θ 2) (by linarith)
          (by linarith) y
        refine hg.trans ?_
        change _ ≤ (innerBeta (θ 0) (θ 1)).cdf y ↔ _
        rw [le_div_iff₀ hD]
        by_cases h1 : 1 ≤ y
        · rw [if_pos h1]
          have : (innerBeta (θ 0) (θ 1)).cdf y = 1 := Frozen.cdf_beta_one_le hA hB h1
          constructor <;> intro h <;> linarith
        · rw [if_neg h1]
          constructor <;> intro h <;> linarith
  · rw [law_betaInflatedZero_Iic θ hθ]
    obtain ⟨hμ, hσ, hν⟩ := id hθ
    have hD : 0 < 1 + θ 2 := by linarith
    have hA := shapeA_pos hμ hσ
    have hB := shapeB_pos hμ hσ
    have hP := innerBeta_prob hμ hσ
    have hy0 : 0 ≤ y := hy.1
    rw [if_pos hy0]
    have hF0 : 0 ≤ (innerBeta (θ 0) (θ 1)).cdf y := ENNReal.toReal_nonneg
    change ∃ x F, betaInflatedZeroPpf ulp q (θ 0) (θ 1) (θ 2) = .fin x ∧ _
    unfold betaInflatedZeroPpf
    simp only
    rw [if_neg (by rintro (h | h) <;> linarith), if_neg hq1.ne, if_neg hq0.ne']
    by_cases hl : q ≤ θ 2 / (1 + θ 2)
    · rw [if_pos hl]
      refine ⟨0, _, rfl, rfl, ?_⟩
      refine ⟨fun _ => le_trans hl ?_, fun _ => hy0⟩
      rw [div_le_div_iff_of_pos_right hD]
      linarith
    · rw [if_neg hl]
      have hl' := not_le.mp hl
      rw [div_lt_iff₀ hD] at hl'
      have e : (q - θ 2 / (1 + θ 2)) * (1 + θ 2) = q * (1 + θ 2) - θ 2 := by
        field_simp
      rw [e, Frozen_ppf_mid _ (by linarith) (by nlinarith)]
      refine ⟨_, _, rfl, rfl, ?_⟩
      have hg := sInf_cdf_le_iff (innerBeta (θ 0) (θ 1)).law (q := q * (1 + θ 2) - θ 2) (by linarith)
        (by nlinarith) y
      refine hg.trans ?_
      change _ ≤ (innerBeta (θ 0) (θ 1)).cdf y ↔ _
      rw [le_div_iff₀ hD]
      constructor <;> intro h <;> linarith
  · rw [law_zaga_Iic θ hθ]
    obtain ⟨⟨hμ, hσ⟩, hν, hν1⟩ := id hθ
    have hD : 0 < 1 - θ 2 := by linarith
    have hP := innerGamma_prob hμ hσ
    have hy0 : 0 ≤ y := hy
    rw [if_pos hy0]
    have hF0 : 0 ≤ (innerGamma (θ 0) (θ 1)).cdf y := ENNReal.toReal_nonneg
    change ∃ x F, zagaPpf q (θ 0) (θ 1) (θ 2) = .fin x ∧ _
    unfold zagaPpf
    simp only
    by_cases hl : q ≤ θ 2
    · rw [if_pos hl]
      refine ⟨0, _, rfl, rfl, ?_⟩
      refine ⟨fun _ => le_trans hl ?_, fun _ => hy0⟩
      have := mul_nonneg hD.le hF0
      linarith
    · rw [if_neg hl]
      have hl' := not_le.mp hl
      have p0 : 0 < (q - θ 2) / (1 - θ 2) := div_pos (by linarith) hD
      have p1 : (q - θ 2) / (1 - θ 2) < 1 := by rw [div_lt_one hD]; linarith
      rw [Frozen_ppf_mid _ p0 p1]
      refine ⟨_, _, rfl, rfl, ?_⟩
      have hg := sInf_cdf_le_iff (innerGamma (θ 0) (θ 1)).law p0 p1 y
      refine hg.trans ?_
      change _ ≤ (innerGamma (θ 0) (θ 1)).cdf y ↔ _
      rw [div_le_iff₀ hD]
      constructor <;> intro h <;> linarith

example : ∃ x F, betaInflated.ppf (1 / 4) (1 / 2) half = .fin x ∧ betaInflated.cdf 1 half = .fin F ∧
    (x ≤ 1 ↔ 1 / 2 ≤ F) :=
  C51_generalised_inverse _ betaInflated trivial _ (half_admissible _) _ (by norm_num) (by norm_num) 1 ⟨by norm_num, le_rfl⟩

/-- The quantile of a law without mass on the negative responses is not negative. -/
theorem sInf_cdf_nonneg (P : Measure ℝ) [IsProbabilityMeasure P] {q : ℝ} (h0 : 0 < q) (h1 : q < 1)
    (hneg : ∀ y < 0, (P (Iic y)).toReal = 0) : 0 ≤ sInf {x | q ≤ (P (Iic x)).toReal} := by
  by_contra h
  have h' := not_le.mp h
  have := (sInf_cdf_le_iff P h0 h1 _).mp le_rfl
  rw [hneg _ h'] at this
  linarith

/-- The quantile of a law which is concentrated below 1 is below 1. -/
theorem sInf_cdf_lt_one (P : Measure ℝ) [IsProbabilityMeasure P] {q : ℝ} (h0 : 0 < q) (h1 : q < 1)
    (hone : P (Iio 1) = 1) : sInf {x | q ≤ (P (Iic x)).toReal} < 1 := by
  have hl := (ProbabilityTheory.monotone_cdf P).tendsto_leftLim 1
  have hm : Function.leftLim (ProbabilityTheory.cdf P) 1 = 1 := by
    have h := StieltjesFunction.measure_Iio (ProbabilityTheory.cdf P) (ProbabilityTheory.tendsto_cdf_atBot P) 1
    rw [ProbabilityTheory.measure_cdf, hone, sub_zero] at h
    exact ENNReal.ofReal_eq_one.mp h.symm
  rw [hm] at hl
  have hev := hl.eventually (eventually_gt_nhds h1)
  obtain ⟨y, hy1, hy2⟩ := (hev.and self_mem_nhdsWithin).exists
  have := (sInf_cdf_le_iff P h0 h1 y).mpr (by rw [← cdf_eq_measure]; exact hy1.le)
  exact lt_of_le_of_lt this hy2

/-- The quantiles of probabilities strictly between 0 and 1 are responses of the distribution. -/
theorem C51_quantile_in_support (ulp : ℝ) (d : Dist) (hd : d.Inflated) (θ : ℕ → ℝ) (hθ : d.Admissible θ) (q : ℝ)
    (hq0 : 0 < q) (hq1 : q < 1) : ∃ x, d.ppf ulp q θ = .fin x ∧ x ∈ d.Responses := by
  cases d <;> simp only [Inflated] at hd
  · obtain ⟨x, F, hx, -, -⟩ := C51_generalised_inverse ulp betaInflated trivial θ hθ q hq0 hq1 1 ⟨by norm_num, le_rfl⟩
    obtain ⟨x', F', hx', hF', hiff⟩ :=
      C51_generalised_inverse ulp betaInflated trivial θ hθ q hq0 hq1 1 ⟨by norm_num, le_rfl⟩
    obtain ⟨G, hG, -, -, hG1⟩ := C50_distribution_function betaInflated (Or.inl rfl) θ hθ
    have hF1 : F' = 1 := by
      have := hF'.symm.trans (hG 1)
      rw [hG1 1 le_rfl] at this
      exact Flt.fin.inj this
    refine ⟨x', hx', ?_, hiff.mpr (by rw [hF1]; exact hq1.le)⟩
    obtain ⟨hμ, hσ, hν, hτ⟩ := id hθ
    have hD : 0 < 1 + θ 2 + θ 3 := by linarith
    have hP := innerBeta_prob hμ hσ
    change betaInflatedPpf q (θ 0) (θ 1) (θ 2) (θ 3) = .fin x' at hx'
    unfold betaInflatedPpf at hx'
    simp only at hx'
    rw [if_neg (by rintro (h | h) <;> linarith)] at hx'
    split_ifs at hx' with ha hb
    · rw [← Flt.fin.inj hx']
    · rw [← Flt.fin.inj hx']; exact zero_le_one
    · push Not at ha hb
      have hl' := ha.2
      have hu' := hb.2
      rw [lt_div_iff₀ hD] at hu'
      rw [div_lt_iff₀ hD] at hl'
      have e : (q - θ 2 / (1 + θ 2 + θ 3)) * (1 + θ 2 + θ 3) = q * (1 + θ 2 + θ 3) - θ 2 := by
        field_simp
      rw [e, Frozen_ppf_mid _ (by linarith) (by linarith)] at hx'
      rw [← Flt.fin.inj hx']
      exact sInf_cdf_nonneg (innerBeta (θ 0) (θ 1)).law (by linarith) (by linarith)
        fun y hy => Frozen.cdf_beta_nonpos hy.le
  · obtain ⟨hμ, hσ, hν⟩ := id hθ
    have hD : 0 < 1 + θ 2 := by linarith
    have hP := innerBeta_prob hμ hσ
    change ∃ x, betaInflatedZeroPpf ulp q (θ 0) (θ 1) (θ 2) = .fin x ∧ _
    unfold betaInflatedZeroPpf
    simp only
    rw [if_neg (by rintro (h | h) <;> linarith), if_neg hq1.ne, if_neg hq0.ne']
    by_cases hl : q ≤ θ 2 / (1 + θ 2)
    · rw [if_pos hl]
      exact ⟨0, rfl, le_rfl, one_pos⟩
    · rw [if_neg hl]
      have hl' := not_le.mp hl
      rw [div_lt_iff₀ hD] at hl'
      have e : (q - θ 2 / (1 + θ 2)) * (1 + θ 2) = q * (1 + θ 2) - θ 2 := by
        field_simp
      rw [e, Frozen_ppf_mid _ (by linarith) (by nlinarith)]
      refine ⟨_, rfl, ?_, ?_⟩
      · exact sInf_cdf_nonneg (innerBeta (θ 0) (θ 1)).law (by linarith) (by nlinarith)
          fun y hy => Frozen.cdf_beta_nonpos hy.le
      · refine sInf_cdf_lt_one (innerBeta (θ 0) (θ 1)).law (by linarith) (by nlinarith) ?_
        rw [← prob_compl_eq_zero_iff measurableSet_Iio]
        refine Frozen.law_eq_zero _ measurableSet_Iio.compl fun x hx => ?_
        have hx' : 1 ≤ x := by simpa using hx
        simp only [innerBeta, Frozen.pdf, Frozen.stdPdf, Frozen.loc, Frozen.scale, sub_zero, div_one]
        rw [if_neg (by rintro ⟨_, h⟩; linarith)]
  · obtain ⟨⟨hμ, hσ⟩, hν, hν1⟩ := id hθ
    have hD : 0 < 1 - θ 2 := by linarith
    have hP := innerGamma_prob hμ hσ
    change ∃ x, zagaPpf q (θ 0) (θ 1) (θ 2) = .fin x ∧ _
    unfold zagaPpf
    simp only
    by_cases hl : q ≤ θ 2
    · rw [if_pos hl]
      exact ⟨0, rfl, Set.mem_Ici.mpr le_rfl⟩
    · rw [if_neg hl]
      have hl' := not_le.mp hl
      have p0 : 0 < (q - θ 2) / (1 - θ 2) := div_pos (by linarith) hD
      have p1 : (q - θ 2) / (1 - θ 2) < 1 := by rw [div_lt_one hD]; linarith
      rw [Frozen_ppf_mid _ p0 p1]
      refine ⟨_, rfl, ?_⟩
      exact sInf_cdf_nonneg (innerGamma (θ 0) (θ 1)).law p0 p1
        fun y hy => Frozen.cdf_gamma_nonpos (by positivity) hy.le

example : ∃ x, betaInflatedZero.ppf (1 / 4) (9 / 10) half = .fin x ∧ x ∈ betaInflatedZero.Responses :=
  C51_quantile_in_support _ betaInflatedZero trivial _ (half_admissible _) _ (by norm_num) (by norm_num)

/-- Invalid probabilities give NaN for the inflated beta classes. -/
theorem C51_invalid_probability_partial (ulp : ℝ) (d : Dist) (hd : d = betaInflated ∨ d = betaInflatedZero)
    (θ : ℕ → ℝ) (q : ℝ) (hq : q < 0 ∨ 1 < q) : d.ppf ulp q θ = .nan := by
  rcases hd with rfl | rfl
  · exact if_pos hq
  · exact if_pos hq

/-- ZeroAdjustedGamma returns the quantile 0 for a negative probability. -/
theorem C51_zaga_negative_probability_fails (ulp : ℝ) (θ : ℕ → ℝ) (hθ : zeroAdjustedGamma.Admissible θ) (q : ℝ)
    (hq : q < 0) : zeroAdjustedGamma.ppf ulp q θ = .fin 0 :=
  if_pos (by linarith [hθ.2.1])

end Dist
end Ondil
