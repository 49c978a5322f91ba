import Verif.Lemmas.LawStudent
import Verif.Lemmas.LawInverseGauss
import Verif.Lemmas.InflatedLaw
import Verif.Lemmas.LogPdf

/-!
# The laws of the distribution classes
-/

namespace Ondil
namespace Dist

open MeasureTheory ProbabilityTheory Set

theorem measurableSet_responses (d : Dist) : MeasurableSet d.Responses := by
  cases d <;> simp only [Responses] <;> measurability

/-- The law of a class whose density is that of a frozen scipy distribution. -/
theorem law_of_frozen {d : Dist} {θ : ℕ → ℝ} {f : Frozen} (hinf : d.inflatedPoints = [])
    (hpdf : ∀ᵐ y : ℝ, y ∈ d.Responses → d.pdf y θ = .fin (f.pdf y)) (h0 : ∀ᵐ y : ℝ, y ∉ d.Responses → f.pdf y = 0) :
    d.law θ = f.law := by
  unfold law lawOf Frozen.law
  rw [hinf, ← withDensity_indicator d.measurableSet_responses]
  simp only [List.map_nil, List.sum_nil, add_zero]
  refine withDensity_congr_ae ?_
  filter_upwards [hpdf, h0] with y h1 h2
  by_cases hy : y ∈ d.Responses
  · rw [indicator_of_mem hy, h1 hy]; rfl
  · rw [indicator_of_notMem hy, h2 hy]; simp

/-- The image of a standardised law. -/
theorem law_of_std {d : Dist} {θ : ℕ → ℝ} {f : Frozen} {P : Measure ℝ} {T : ℝ → ℝ} (hT : Measurable T) (hlaw : d.law θ = f.law)
    (hs : 0 < f.scale) (hstd : f.stdLaw = P.map T) : d.law θ = P.map fun x => f.loc + f.scale * T x := by
  rw [hlaw, Frozen.law_eq_map f hs, hstd, Measure.map_map (by fun_prop) hT]
  rfl

theorem frozen_pdf_off {f : Frozen} (hl : f.loc = 0) (hs : 0 < f.scale) (h : ∀ z, z < 0 → f.stdPdf z = 0) {y : ℝ} (hy : y < 0) :
    f.pdf y = 0 := by
  rw [Frozen.pdf, hl, sub_zero, h _ (div_neg_of_neg_of_pos hy hs), zero_div]

theorem off_Ioi {f : Frozen} (hl : f.loc = 0) (hs : 0 < f.scale) (h : ∀ z, z < 0 → f.stdPdf z = 0) :
    ∀ᵐ y : ℝ, y ∉ Ioi (0 : ℝ) → f.pdf y = 0 := by
  filter_upwards [ae_ne 0] with y hy hmem
  exact frozen_pdf_off hl hs h (lt_of_le_of_ne (not_lt.mp hmem) hy)

theorem law_normal (θ : ℕ → ℝ) (h : normal.Admissible θ) :
    normal.law θ = (gaussianReal 0 1).map fun z => θ 0 + θ 1 * z :=
  law_of_std (f := .norm (θ 0) (θ 1)) measurable_id (law_of_frozen rfl (.of_forall fun _ _ => rfl) (by simp [Responses])) h
    (by rw [Frozen.stdLaw_norm]; exact Measure.map_id.symm)

theorem law_normalMeanVariance (θ : ℕ → ℝ) (h : normalMeanVariance.Admissible θ) :
    normalMeanVariance.law θ = (gaussianReal 0 1).map fun z => θ 0 + Real.sqrt (θ 1) * z := by
  rw [Real.sqrt_eq_rpow]
  exact law_of_std (f := .norm (θ 0) (θ 1 ^ ((1 : ℝ) / 2))) measurable_id
    (law_of_frozen rfl (.of_forall fun _ _ => rfl) (by simp [Responses]))
    (Real.rpow_pos_of_pos h _) (by rw [Frozen.stdLaw_norm]; exact Measure.map_id.symm)

theorem law_studentT (θ : ℕ → ℝ) (h : studentT.Admissible θ) :
    studentT.law θ = ((Frozen.t (θ 2) 0 1).stdLaw).map fun z => θ 0 + θ 1 * z :=
  law_of_std (f := .t (θ 2) (θ 0) (θ 1)) measurable_id (law_of_frozen rfl (.of_forall fun _ _ => rfl) (by simp [Responses]))
    h.1 (by exact Measure.map_id.symm)

theorem law_jsu (b : Bool) (θ : ℕ → ℝ) (h : (jsu b).Admissible θ) :
    (jsu b).law θ = (gaussianReal 0 1).map fun z => θ 0 + θ 1 * Real.sinh ((z - θ 2) / θ 3) :=
  law_of_std (f := .johnsonsu (θ 2) (θ 3) (θ 0) (θ 1)) (by fun_prop)
    (law_of_frozen rfl (.of_forall fun _ _ => rfl) (by simp [Responses])) h.1 (Frozen.stdLaw_johnsonsu h.2 _ _ _)

theorem law_gamma (θ : ℕ → ℝ) (h : gamma.Admissible θ) :
    gamma.law θ = (gammaMeasure (1 / θ 1 ^ 2) 1).map fun x => θ 1 ^ 2 * θ 0 * x := by
  obtain ⟨h0, h1⟩ := h
  have hs : 0 < 1 / (1 / (θ 1 ^ 2 * θ 0)) := by positivity
  have := law_of_std (d := gamma) (θ := θ) (f := .gamma (1 / θ 1 ^ 2) 0 (1 / (1 / (θ 1 ^ 2 * θ 0)))) measurable_id
    (law_of_frozen rfl (.of_forall fun _ _ => rfl) (off_Ioi rfl hs fun z hz => if_neg (not_lt.mpr hz.le))) hs
    (P := gammaMeasure (1 / θ 1 ^ 2) 1) (by rw [Frozen.stdLaw_gamma (by positivity)]; exact Measure.map_id.symm)
  rw [this]
  simp only [Frozen.loc, Frozen.scale, zero_add, one_div_one_div, id]

theorem law_beta (θ : ℕ → ℝ) (h : Dist.beta.Admissible θ) :
    Dist.beta.law θ = betaMeasure (betaA (θ 0) (θ 1)) (betaB (θ 0) (θ 1)) := by
  rw [law_of_frozen (d := Dist.beta) (θ := θ) (f := .beta (betaA (θ 0) (θ 1)) (betaB (θ 0) (θ 1)) 0 1) rfl
    (.of_forall fun _ _ => rfl) (.of_forall fun y hy => ?_), Frozen.beta_law (shapeA_pos h.1 h.2) (shapeB_pos h.1 h.2)]
  simp only [Frozen.pdf, Frozen.stdPdf, Frozen.loc, Frozen.scale, sub_zero, div_one]
  exact if_neg hy

theorem law_logNormalMedian (θ : ℕ → ℝ) (h : logNormalMedian.Admissible θ) :
    logNormalMedian.law θ = (gaussianReal 0 1).map fun z => θ 0 * Real.exp (θ 1 * z) := by
  have := law_of_std (d := logNormalMedian) (θ := θ) (f := .lognorm (θ 1) 0 (θ 0)) (by fun_prop)
    (law_of_frozen rfl (.of_forall fun _ _ => rfl) (off_Ioi rfl h.1 fun z hz => if_neg (not_lt.mpr hz.le))) h.1
    (Frozen.stdLaw_lognorm h.2 _ _)
  rw [this]
  simp only [Frozen.loc, Frozen.scale, zero_add]

theorem law_logistic (θ : ℕ → ℝ) (h : logistic.Admissible θ) :
    logistic.law θ = (betaMeasure 1 1).map fun u => θ 0 + θ 1 * (Real.log u - Real.log (1 - u)) :=
  law_of_std (f := .logistic (θ 0) (θ 1)) (by fun_prop)
    (law_of_frozen rfl (.of_forall fun _ _ => rfl) (by simp [Responses])) h (Frozen.stdLaw_logistic _ _)

theorem law_gumbel (θ : ℕ → ℝ) (h : gumbel.Admissible θ) :
    gumbel.law θ = (gammaMeasure 1 1).map fun x => θ 0 + θ 1 * Real.log x :=
  law_of_std (f := .gumbelL (θ 0) (θ 1)) (by fun_prop)
    (law_of_frozen rfl (.of_forall fun _ _ => rfl) (by simp [Responses])) h (Frozen.stdLaw_gumbelL _ _)

theorem law_reverseGumbel (θ : ℕ → ℝ) (h : reverseGumbel.Admissible θ) :
    reverseGumbel.law θ = (gammaMeasure 1 1).map fun x => θ 0 + θ 1 * -Real.log x :=
  law_of_std (f := .gumbelR (θ 0) (θ 1)) (by fun_prop)
    (law_of_frozen rfl (.of_forall fun _ _ => rfl) (by simp [Responses])) h (Frozen.stdLaw_gumbelR _ _)

theorem law_exponential (θ : ℕ → ℝ) (h : exponential.Admissible θ) :
    exponential.law θ = (gammaMeasure 1 1).map fun x => θ 0 * x := by
  have := law_of_std (d := exponential) (θ := θ) (f := .expon 0 (θ 0)) measurable_id
    (law_of_frozen rfl (.of_forall fun _ _ => rfl) (off_Ioi rfl h fun z hz => if_neg (not_le.mpr hz))) h
    (P := gammaMeasure 1 1) (by rw [Frozen.stdLaw_expon]; exact Measure.map_id.symm)
  rw [this]
  simp only [Frozen.loc, Frozen.scale, zero_add, id]

theorem law_inverseGamma (θ : ℕ → ℝ) (h : inverseGamma.Admissible θ) :
    inverseGamma.law θ = (gammaMeasure (1 / θ 1 ^ 2) 1).map fun x => θ 0 * (1 + θ 1 ^ 2) / θ 1 ^ 2 * x⁻¹ := by
  obtain ⟨h0, h1⟩ := h
  have hs : 0 < θ 0 * (1 + θ 1 ^ 2) / θ 1 ^ 2 := by positivity
  have := law_of_std (d := inverseGamma) (θ := θ) (f := .invgamma (1 / θ 1 ^ 2) 0 (θ 0 * (1 + θ 1 ^ 2) / θ 1 ^ 2))
    (by fun_prop)
    (law_of_frozen rfl (.of_forall fun _ _ => rfl) (off_Ioi rfl hs fun z hz => if_neg (not_lt.mpr hz.le))) hs
    (Frozen.stdLaw_invgamma (by positivity) _ _)
  rw [this]
  simp only [Frozen.loc, Frozen.scale, zero_add]

/-- The normal law weighted for the inverse Gaussian. -/
noncomputable def igBase (m : ℝ) : Measure ℝ := (gaussianReal 0 1).withDensity fun x => ENNReal.ofReal (Frozen.igW m x)

theorem law_inverseGaussian (θ : ℕ → ℝ) (h : inverseGaussian.Admissible θ) :
    inverseGaussian.law θ = (igBase (θ 0 * θ 1 ^ 2)).map fun x => 1 / θ 1 ^ 2 * Frozen.igS (θ 0 * θ 1 ^ 2) x ^ 2 := by
  obtain ⟨h0, h1⟩ := h
  have hs : 0 < 1 / θ 1 ^ 2 := by positivity
  have := law_of_std (d := inverseGaussian) (θ := θ) (f := .invgauss (θ 0 * θ 1 ^ 2) 0 (1 / θ 1 ^ 2))
    (Frozen.igS_measurable.pow_const 2)
    (law_of_frozen rfl (.of_forall fun _ _ => rfl) (off_Ioi rfl hs fun z hz => if_neg (not_lt.mpr hz.le))) hs
    (Frozen.stdLaw_invgauss' (by positivity) _ _)
  rw [this]
  simp only [Frozen.loc, Frozen.scale, zero_add]
  rfl

end Dist
end Ondil
