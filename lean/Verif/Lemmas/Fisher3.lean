import Verif.Lemmas.Fisher2

/-!
# Second moments of the score functions: the inflated classes
-/

namespace Ondil
namespace Dist

open MeasureTheory ProbabilityTheory Set Filter Topology

/-- A mixture of a law with point masses at 0 and 1. -/
noncomputable def mixture (Q : Measure ℝ) (w p q : ℝ) : Measure ℝ :=
  ENNReal.ofReal w • Q + (ENNReal.ofReal p • Measure.dirac 0 + ENNReal.ofReal q • Measure.dirac 1)

section
variable {Q : Measure ℝ} [IsProbabilityMeasure Q] {w p q : ℝ}

theorem mixture_integral (hw : 0 ≤ w) (hp : 0 ≤ p) (hq : 0 ≤ q) {f g : ℝ → ℝ} (hf : Measurable f) (hfg : f =ᵐ[Q] g)
    (hg : Integrable g Q) :
    Integrable f (mixture Q w p q) ∧ ∫ y, f y ∂mixture Q w p q = w * ∫ y, g y ∂Q + (p * f 0 + q * f 1) := by
  have hfQ : Integrable f Q := hg.congr hfg.symm
  have hd : ∀ a : ℝ, Integrable f (Measure.dirac a) := fun a =>
    integrable_dirac' hf.stronglyMeasurable (by simp)
  have i0 : Integrable f (ENNReal.ofReal w • Q) := hfQ.smul_measure (by simp)
  have i1 : Integrable f (ENNReal.ofReal p • Measure.dirac 0) := (hd 0).smul_measure (by simp)
  have i2 : Integrable f (ENNReal.ofReal q • Measure.dirac 1) := (hd 1).smul_measure (by simp)
  refine ⟨i0.add_measure (i1.add_measure i2), ?_⟩
  unfold mixture
  rw [integral_add_measure i0 (i1.add_measure i2), integral_add_measure i1 i2, integral_smul_measure,
    integral_smul_measure, integral_smul_measure, integral_dirac' f 0 hf.stronglyMeasurable,
    integral_dirac' f 1 hf.stronglyMeasurable, integral_congr_ae hfg, ENNReal.toReal_ofReal hw, ENNReal.toReal_ofReal hp,
    ENNReal.toReal_ofReal hq]
  simp only [smul_eq_mul]

/-- Scores of a mixture: those of the law for the first two parameters, constants for the others. -/
theorem mixture_scores (hw : 0 ≤ w) (hp : 0 ≤ p) (hq : 0 ≤ q) {t s : ℕ → ℝ → ℝ} (ht : IsScore Q 2 t) {n : ℕ}
    (hs : ∀ i < n, Measurable (s i)) {c : ℕ → ℝ}
    (he : ∀ i < n, ∀ᵐ y ∂Q, s i y = (if i < 2 then t i y else 0) + c i) :
    (∀ i < n, Integrable (s i) (mixture Q w p q) ∧
      ∫ y, s i y ∂mixture Q w p q = w * c i + (p * s i 0 + q * s i 1)) ∧
    ∀ i < n, ∀ j < n, Integrable (fun y => s i y * s j y) (mixture Q w p q) ∧
      fisher (mixture Q w p q) s i j
        = w * ((if i < 2 ∧ j < 2 then fisher Q t i j else 0) + c i * c j)
          + (p * (s i 0 * s j 0) + q * (s i 1 * s j 1)) := by
  have iT : ∀ i, Integrable (fun y => if i < 2 then t i y else 0) Q := fun i => by
    split_ifs with h
    · exact ht.integrable i h
    · exact integrable_zero _ _ _
  have mT : ∀ i, ∫ y, (if i < 2 then t i y else 0) ∂Q = 0 := fun i => by
    split_ifs with h
    · exact ht.mean_zero i h
    · exact integral_zero _ _
  have iTT : ∀ i j, Integrable (fun y => (if i < 2 then t i y else 0) * (if j < 2 then t j y else 0)) Q := fun i j => by
    by_cases hi : i < 2
    · by_cases hj : j < 2
      · simp only [hi, hj, if_true]; exact ht.integrable_mul i hi j hj
      · simp [hj]
    · simp [hi]
  have mTT : ∀ i j, ∫ y, (if i < 2 then t i y else 0) * (if j < 2 then t j y else 0) ∂Q
      = if i < 2 ∧ j < 2 then fisher Q t i j else 0 := fun i j => by
    by_cases hi : i < 2
    · by_cases hj : j < 2
      · simp only [hi, hj, if_true, and_self]; rfl
      · simp [hj]
    · simp [hi]
  constructor
  · intro i hi
    have ic : Integrable (fun y => (if i < 2 then t i y else 0) + c i) Q := (iT i).add (integrable_const _)
    obtain ⟨h1, h2⟩ := mixture_integral hw hp hq (hs i hi) (he i hi) ic
    refine ⟨h1, h2.trans ?_⟩
    rw [integral_add (iT i) (integrable_const _), mT]
    simp
  · intro i hi j hj
    have hmul : Measurable fun y => s i y * s j y := (hs i hi).mul (hs j hj)
    have hae : (fun y => s i y * s j y) =ᵐ[Q] fun y =>
        (if i < 2 then t i y else 0) * (if j < 2 then t j y else 0)
          + (c j * (if i < 2 then t i y else 0) + c i * (if j < 2 then t j y else 0)) + c i * c j := by
      filter_upwards [he i hi, he j hj] with y h1 h2
      rw [h1, h2]
      ring
    have i2 : Integrable (fun y => c j * (if i < 2 then t i y else 0) + c i * (if j < 2 then t j y else 0)) Q :=
      ((iT i).const_mul _).add ((iT j).const_mul _)
    have i1 : Integrable (fun y => (if i < 2 then t i y else 0) * (if j < 2 then t j y else 0)
          + (c j * (if i < 2 then t i y else 0) + c i * (if j < 2 then t j y else 0))) Q := (iTT i j).add i2
    have i0 : Integrable (fun y => (if i < 2 then t i y else 0) * (if j < 2 then t j y else 0)
          + (c j * (if i < 2 then t i y else 0) + c i * (if j < 2 then t j y else 0)) + c i * c j) Q :=
      i1.add (integrable_const _)
    obtain ⟨h1, h2⟩ := mixture_integral hw hp hq hmul hae i0
    refine ⟨h1, h2.trans ?_⟩
    rw [integral_add i1 (integrable_const _), integral_add (iTT i j) i2, integral_add ((iT i).const_mul _)
      ((iT j).const_mul _), integral_const_mul, integral_const_mul, mT, mT, mTT]
    simp

end

variable {θ : ℕ → ℝ}

theorem innerBeta_law_eq (h : 0 < θ 0 ∧ θ 0 < 1) (h' : 0 < θ 1 ∧ θ 1 < 1) :
    (innerBeta (θ 0) (θ 1)).law = Dist.beta.law θ := by
  rw [law_beta θ ⟨h, h'⟩]
  exact Frozen.beta_law (shapeA_pos h h') (shapeB_pos h h')

theorem innerGamma_law_eq (h : 0 < θ 0) (h' : 0 < θ 1) : (innerGamma (θ 0) (θ 1)).law = gamma.law θ := by
  have hs : 0 < 1 / (1 / (θ 1 ^ 2 * θ 0)) := by positivity
  have e : innerGamma (θ 0) (θ 1) = .gamma (1 / θ 1 ^ 2) 0 (1 / (1 / (θ 1 ^ 2 * θ 0))) := by
    unfold innerGamma
    congr 1
    field_simp
  rw [e]
  exact (law_of_frozen (d := gamma) (θ := θ) (f := .gamma (1 / θ 1 ^ 2) 0 (1 / (1 / (θ 1 ^ 2 * θ 0)))) rfl
    (.of_forall fun _ _ => rfl) (off_Ioi rfl hs fun z hz => if_neg (not_lt.mpr hz.le))).symm

theorem beta_ae_mem (h : Dist.beta.Admissible θ) : ∀ᵐ y ∂Dist.beta.law θ, 0 < y ∧ y < 1 := by
  rw [law_beta θ h]; exact betaMeasure_mem_ae

theorem gamma_ae_pos (h : gamma.Admissible θ) : ∀ᵐ y ∂gamma.law θ, 0 < y := by
  rw [law_gamma θ h]
  obtain ⟨h0, h1⟩ := h
  have : MeasurableSet {y : ℝ | 0 < y} := measurableSet_Ioi
  rw [ae_map_iff (by fun_prop) this]
  filter_upwards [gammaMeasure_pos_ae (a := 1 / θ 1 ^ 2) (r := 1)] with x hx
  positivity

theorem beta_law_prob (h : Dist.beta.Admissible θ) : IsProbabilityMeasure (Dist.beta.law θ) := by
  rw [law_beta θ h]
  exact isProbabilityMeasureBeta (shapeA_pos h.1 h.2) (shapeB_pos h.1 h.2)

theorem gamma_law_prob (h : gamma.Admissible θ) : IsProbabilityMeasure (gamma.law θ) := by
  rw [law_gamma θ h]
  obtain ⟨h0, h1⟩ := h
  haveI := isProbabilityMeasure_gammaMeasure (a := 1 / θ 1 ^ 2) (r := 1) (by positivity) one_pos
  exact Measure.isProbabilityMeasure_map (by fun_prop)

theorem measurable_betaScore0 (θ : ℕ → ℝ) : Measurable (Dist.beta.score θ 0) := by
  change Measurable fun y => (1 - θ 1 ^ 2) / θ 1 ^ 2 * (-digamma (betaA (θ 0) (θ 1)) + digamma (betaB (θ 0) (θ 1))
      + Real.log y - Real.log (1 - y)); fun_prop

theorem measurable_betaScore1 (θ : ℕ → ℝ) : Measurable (Dist.beta.score θ 1) := by
  change Measurable fun y => -(2 / θ 1 ^ 3) * (θ 0 * (-digamma (betaA (θ 0) (θ 1))
        + digamma (betaA (θ 0) (θ 1) + betaB (θ 0) (θ 1)) + Real.log y)
      + (1 - θ 0) * (-digamma (betaB (θ 0) (θ 1)) + digamma (betaA (θ 0) (θ 1) + betaB (θ 0) (θ 1))
        + Real.log (1 - y))); fun_prop

theorem measurable_gammaScore0 (θ : ℕ → ℝ) : Measurable (gamma.score θ 0) := by
  change Measurable fun y => (y - θ 0) / (θ 1 ^ 2 * θ 0 ^ 2); fun_prop

theorem measurable_gammaScore1 (θ : ℕ → ℝ) : Measurable (gamma.score θ 1) := by
  change Measurable fun y => 2 / θ 1 ^ 3 * (y / θ 0 - Real.log y + Real.log (θ 0) + Real.log (θ 1 ^ 2) - 1
      + digamma (1 / θ 1 ^ 2)); fun_prop

open Classical in
theorem betaInflated_fisher (h : betaInflated.Admissible θ) :
    IsScore (betaInflated.law θ) 4 (betaInflated.score θ) ∧ ∀ i < 4, ∀ j < 4,
      fisher (betaInflated.law θ) (betaInflated.score θ) i j
        = 1 / (1 + θ 2 + θ 3) * ((if i < 2 ∧ j < 2 then fisher (Dist.beta.law θ) (Dist.beta.score θ) i j else 0)
            + co [0, 0, -(1 / (1 + θ 2 + θ 3)), -(1 / (1 + θ 2 + θ 3))] i
              * co [0, 0, -(1 / (1 + θ 2 + θ 3)), -(1 / (1 + θ 2 + θ 3))] j)
          + (θ 2 / (1 + θ 2 + θ 3) * (co [0, 0, 1 / θ 2 - 1 / (1 + θ 2 + θ 3), -(1 / (1 + θ 2 + θ 3))] i
                * co [0, 0, 1 / θ 2 - 1 / (1 + θ 2 + θ 3), -(1 / (1 + θ 2 + θ 3))] j)
            + θ 3 / (1 + θ 2 + θ 3) * (co [0, 0, -(1 / (1 + θ 2 + θ 3)), 1 / θ 3 - 1 / (1 + θ 2 + θ 3)] i
                * co [0, 0, -(1 / (1 + θ 2 + θ 3)), 1 / θ 3 - 1 / (1 + θ 2 + θ 3)] j)) := by
  obtain ⟨hμ, hσ, hν, hτ⟩ := id h
  have hβ : Dist.beta.Admissible θ := ⟨hμ, hσ⟩
  have hD : 0 < 1 + θ 2 + θ 3 := by linarith
  haveI := beta_law_prob hβ
  have hlaw : betaInflated.law θ
      = mixture (Dist.beta.law θ) (1 / (1 + θ 2 + θ 3)) (θ 2 / (1 + θ 2 + θ 3)) (θ 3 / (1 + θ 2 + θ 3)) := by
    rw [law_betaInflated θ h, innerBeta_law_eq hμ hσ]; rfl
  have S01 : MeasurableSet {y : ℝ | y = 0 ∨ y = 1} := (measurableSet_eq).union measurableSet_eq
  have meas : ∀ i < 4, Measurable (betaInflated.score θ i) := by
    refine lt_four ?_ ?_ ?_ ?_
    · exact Measurable.ite S01 measurable_const (measurable_betaScore0 θ)
    · exact Measurable.ite S01 measurable_const (measurable_betaScore1 θ)
    · exact Measurable.ite measurableSet_eq measurable_const measurable_const
    · exact Measurable.ite measurableSet_eq measurable_const measurable_const
  have at0 : ∀ i < 4, betaInflated.score θ i 0 = co [0, 0, 1 / θ 2 - 1 / (1 + θ 2 + θ 3), -(1 / (1 + θ 2 + θ 3))] i := by
    refine lt_four ?_ ?_ ?_ ?_
    · exact if_pos (Or.inl rfl)
    · exact if_pos (Or.inl rfl)
    · exact if_pos rfl
    · exact (if_neg (by norm_num)).trans (zero_sub _)
  have at1 : ∀ i < 4, betaInflated.score θ i 1 = co [0, 0, -(1 / (1 + θ 2 + θ 3)), 1 / θ 3 - 1 / (1 + θ 2 + θ 3)] i := by
    refine lt_four ?_ ?_ ?_ ?_
    · exact if_pos (Or.inr rfl)
    · exact if_pos (Or.inr rfl)
    · exact (if_neg (by norm_num)).trans (zero_sub _)
    · exact if_pos rfl
  have ae : ∀ i < 4, ∀ᵐ y ∂Dist.beta.law θ, betaInflated.score θ i y
      = (if i < 2 then Dist.beta.score θ i y else 0)
        + co [0, 0, -(1 / (1 + θ 2 + θ 3)), -(1 / (1 + θ 2 + θ 3))] i := by
    have hy : ∀ y : ℝ, 0 < y ∧ y < 1 → ¬ (y = 0 ∨ y = 1) := fun y hy => by
      rintro (rfl | rfl)
      · exact lt_irrefl _ hy.1
      · exact lt_irrefl _ hy.2
    refine lt_four ?_ ?_ ?_ ?_ <;> filter_upwards [beta_ae_mem hβ] with y h01
    · exact (if_neg (hy y h01)).trans (add_zero _).symm
    · exact (if_neg (hy y h01)).trans (add_zero _).symm
    · exact (if_neg fun e => hy y h01 (Or.inl e)).trans ((zero_sub _).trans (zero_add _).symm)
    · exact (if_neg fun e => hy y h01 (Or.inr e)).trans ((zero_sub _).trans (zero_add _).symm)
  obtain ⟨m1, m2⟩ := mixture_scores (w := 1 / (1 + θ 2 + θ 3)) (p := θ 2 / (1 + θ 2 + θ 3)) (q := θ 3 / (1 + θ 2 + θ 3))
    (by positivity) (by positivity) (by positivity) (beta_fisher hβ).1 meas ae
  rw [hlaw]
  refine ⟨⟨fun i hi => (m1 i hi).1, fun i hi j hj => (m2 i hi j hj).1, fun i hi => (m1 i hi).2.trans ?_⟩,
    fun i hi j hj => (m2 i hi j hj).2.trans ?_⟩
  · rw [at0 i hi, at1 i hi]
    revert i
    refine lt_four ?_ ?_ ?_ ?_ <;> simp only [co, List.getD_cons_zero, List.getD_cons_succ] <;> field_simp <;> ring
  · rw [at0 i hi, at1 i hi, at0 j hj, at1 j hj]

open Classical in
theorem betaInflatedZero_fisher (h : betaInflatedZero.Admissible θ) :
    IsScore (betaInflatedZero.law θ) 3 (betaInflatedZero.score θ) ∧ ∀ i < 3, ∀ j < 3,
      fisher (betaInflatedZero.law θ) (betaInflatedZero.score θ) i j
        = 1 / (1 + θ 2) * ((if i < 2 ∧ j < 2 then fisher (Dist.beta.law θ) (Dist.beta.score θ) i j else 0)
            + co [0, 0, -(1 / (1 + θ 2))] i * co [0, 0, -(1 / (1 + θ 2))] j)
          + θ 2 / (1 + θ 2) * (co [0, 0, 1 / θ 2 - 1 / (1 + θ 2)] i * co [0, 0, 1 / θ 2 - 1 / (1 + θ 2)] j) := by
  obtain ⟨hμ, hσ, hν⟩ := id h
  have hβ : Dist.beta.Admissible θ := ⟨hμ, hσ⟩
  have hD : 0 < 1 + θ 2 := by linarith
  haveI := beta_law_prob hβ
  have hlaw : betaInflatedZero.law θ = mixture (Dist.beta.law θ) (1 / (1 + θ 2)) (θ 2 / (1 + θ 2)) 0 := by
    rw [law_betaInflatedZero θ h, innerBeta_law_eq hμ hσ]
    unfold mixture
    simp
  have S0 : MeasurableSet {y : ℝ | y = 0} := measurableSet_eq
  have meas : ∀ i < 3, Measurable (betaInflatedZero.score θ i) := by
    refine lt_three ?_ ?_ ?_
    · exact Measurable.ite S0 measurable_const (measurable_betaScore0 θ)
    · exact Measurable.ite S0 measurable_const (measurable_betaScore1 θ)
    · exact (Measurable.ite S0 measurable_const measurable_const).sub_const _
  have at0 : ∀ i < 3, betaInflatedZero.score θ i 0 = co [0, 0, 1 / θ 2 - 1 / (1 + θ 2)] i := by
    refine lt_three ?_ ?_ ?_
    · exact if_pos rfl
    · exact if_pos rfl
    · exact congrArg (· - 1 / (1 + θ 2)) (if_pos rfl)
  have ae : ∀ i < 3, ∀ᵐ y ∂Dist.beta.law θ, betaInflatedZero.score θ i y
      = (if i < 2 then Dist.beta.score θ i y else 0) + co [0, 0, -(1 / (1 + θ 2))] i := by
    refine lt_three ?_ ?_ ?_ <;> filter_upwards [beta_ae_mem hβ] with y h01
    · exact (if_neg h01.1.ne').trans (add_zero _).symm
    · exact (if_neg h01.1.ne').trans (add_zero _).symm
    · exact (congrArg (· - 1 / (1 + θ 2)) (if_neg h01.1.ne')).trans ((zero_sub _).trans (zero_add _).symm)
  obtain ⟨m1, m2⟩ := mixture_scores (w := 1 / (1 + θ 2)) (p := θ 2 / (1 + θ 2)) (q := 0)
    (by positivity) (by positivity) le_rfl (beta_fisher hβ).1 meas ae
  rw [hlaw]
  refine ⟨⟨fun i hi => (m1 i hi).1, fun i hi j hj => (m2 i hi j hj).1, fun i hi => (m1 i hi).2.trans ?_⟩,
    fun i hi j hj => (m2 i hi j hj).2.trans ?_⟩
  · rw [at0 i hi, zero_mul, add_zero]
    revert i
    refine lt_three ?_ ?_ ?_ <;> simp only [co, List.getD_cons_zero, List.getD_cons_succ] <;> field_simp <;> ring
  · rw [at0 i hi, at0 j hj, zero_mul, add_zero]

open Classical in
theorem zaga_fisher (h : zeroAdjustedGamma.Admissible θ) :
    IsScore (zeroAdjustedGamma.law θ) 3 (zeroAdjustedGamma.score θ) ∧ ∀ i < 3, ∀ j < 3,
      fisher (zeroAdjustedGamma.law θ) (zeroAdjustedGamma.score θ) i j
        = (1 - θ 2) * ((if i < 2 ∧ j < 2 then fisher (gamma.law θ) (gamma.score θ) i j else 0)
            + co [0, 0, -1 / (1 - θ 2)] i * co [0, 0, -1 / (1 - θ 2)] j)
          + θ 2 * (co [0, 0, 1 / θ 2] i * co [0, 0, 1 / θ 2] j) := by
  obtain ⟨⟨hμ, hσ⟩, hν, hν1⟩ := id h
  have hγ : gamma.Admissible θ := ⟨hμ, hσ⟩
  have hD : 0 < 1 - θ 2 := by linarith
  haveI := gamma_law_prob hγ
  have hlaw : zeroAdjustedGamma.law θ = mixture (gamma.law θ) (1 - θ 2) (θ 2) 0 := by
    rw [law_zaga θ h, innerGamma_law_eq hμ hσ]
    unfold mixture
    simp
  have S0 : MeasurableSet {y : ℝ | y = 0} := measurableSet_eq
  have meas : ∀ i < 3, Measurable (zeroAdjustedGamma.score θ i) := by
    refine lt_three ?_ ?_ ?_
    · exact Measurable.ite S0 measurable_const (measurable_gammaScore0 θ)
    · exact Measurable.ite S0 measurable_const (measurable_gammaScore1 θ)
    · exact Measurable.ite S0 measurable_const measurable_const
  have at0 : ∀ i < 3, zeroAdjustedGamma.score θ i 0 = co [0, 0, 1 / θ 2] i := by
    refine lt_three ?_ ?_ ?_
    · exact if_pos rfl
    · exact if_pos rfl
    · exact if_pos rfl
  have ae : ∀ i < 3, ∀ᵐ y ∂gamma.law θ, zeroAdjustedGamma.score θ i y
      = (if i < 2 then gamma.score θ i y else 0) + co [0, 0, -1 / (1 - θ 2)] i := by
    refine lt_three ?_ ?_ ?_ <;> filter_upwards [gamma_ae_pos hγ] with y h01
    · exact (if_neg h01.ne').trans (add_zero _).symm
    · exact (if_neg h01.ne').trans (add_zero _).symm
    · exact (if_neg h01.ne').trans (zero_add _).symm
  obtain ⟨m1, m2⟩ := mixture_scores (w := 1 - θ 2) (p := θ 2) (q := 0)
    hD.le hν.le le_rfl (gamma_fisher hγ).1 meas ae
  rw [hlaw]
  refine ⟨⟨fun i hi => (m1 i hi).1, fun i hi j hj => (m2 i hi j hj).1, fun i hi => (m1 i hi).2.trans ?_⟩,
    fun i hi j hj => (m2 i hi j hj).2.trans ?_⟩
  · rw [at0 i hi, zero_mul, add_zero]
    revert i
    refine lt_three ?_ ?_ ?_ <;> simp only [co, List.getD_cons_zero, List.getD_cons_succ] <;> field_simp <;> ring
  · rw [at0 i hi, at0 j hj, zero_mul, add_zero]

end Dist
end Ondil
