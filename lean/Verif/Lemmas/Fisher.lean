import Verif.Lemmas.BaseMoments
import Verif.Lemmas.BaseMoments2
import Verif.Spec.Information
import Verif.Lemmas.LogDensity
import Mathlib.NumberTheory.Harmonic.GammaDeriv
import Mathlib.NumberTheory.ZetaValues

/-!
# Second moments of the score functions
-/

namespace Ondil

open MeasureTheory ProbabilityTheory Set Filter Topology

/-- Moments of statistics of a transformed variable. -/
theorem Moments2.of_map {Ω Ω' : Type*} [MeasurableSpace Ω] [MeasurableSpace Ω'] {P : Measure Ω} {T : Ω → Ω'} {X Y : Ω' → ℝ}
    {mX mY vX vY c : ℝ} (hT : Measurable T) (hX : Measurable X) (hY : Measurable Y)
    (h : Moments2 (P.map T) X Y mX mY vX vY c) :
    Moments2 P (fun x => X (T x)) (fun x => Y (T x)) mX mY vX vY c where
  memX := (memLp_map_measure_iff hX.aestronglyMeasurable hT.aemeasurable).mp h.memX
  memY := (memLp_map_measure_iff hY.aestronglyMeasurable hT.aemeasurable).mp h.memY
  meanX := by rw [← h.meanX, integral_map hT.aemeasurable hX.aestronglyMeasurable]
  meanY := by rw [← h.meanY, integral_map hT.aemeasurable hY.aestronglyMeasurable]
  varX := by
    rw [← h.varX, integral_map hT.aemeasurable ((hX.sub_const _).pow_const 2).aestronglyMeasurable]
  varY := by
    rw [← h.varY, integral_map hT.aemeasurable ((hY.sub_const _).pow_const 2).aestronglyMeasurable]
  cov := by
    have hmeas : Measurable fun x => (X x - mX) * (Y x - mY) := (hX.sub_const _).mul (hY.sub_const _)
    rw [← h.cov, integral_map hT.aemeasurable hmeas.aestronglyMeasurable]

theorem digamma_one : digamma 1 = -Real.eulerMascheroniConstant := by
  have h := Real.hasDerivAt_Gamma_one
  have h2 := h.log (by rw [Real.Gamma_one]; norm_num)
  rw [Real.Gamma_one, div_one] at h2
  exact (hasDerivAt_logGamma one_pos).unique h2

theorem trigamma_one : trigamma 1 = Real.pi ^ 2 / 6 := by
  rw [trigamma_eq_tsum one_pos]
  have h := hasSum_zeta_two
  rw [← h.tsum_eq, h.summable.tsum_eq_zero_add]
  simp [add_comm]

namespace Dist

/-- Scores as functions of a base variable. -/
theorem fisher_of_fun {d : Dist} {θ : ℕ → ℝ} {Ω : Type*} [MeasurableSpace Ω] {P : Measure Ω} [IsProbabilityMeasure P]
    {T : Ω → ℝ} (hlaw : d.law θ = P.map T) (hT : Measurable T) {n : ℕ} (L : ℕ → Ω → ℝ)
    (hL : ∀ k < n, MemLp (L k) 2 P) (h0 : ∀ k < n, ∫ x, L k x ∂P = 0) (hs : ∀ k < n, Measurable (d.score θ k))
    (he : ∀ k < n, ∀ᵐ x ∂P, d.score θ k (T x) = L k x) :
    IsScore (d.law θ) n (d.score θ) ∧ ∀ i < n, ∀ j < n,
      fisher (d.law θ) (d.score θ) i j = ∫ x, L i x * L j x ∂P := by
  have hprod : ∀ i < n, ∀ j < n, (fun x => d.score θ i (T x) * d.score θ j (T x)) =ᵐ[P] fun x => L i x * L j x := by
    intro i hi j hj
    filter_upwards [he i hi, he j hj] with x h1 h2
    rw [h1, h2]
  have hmul : ∀ i < n, ∀ j < n, Measurable fun y => d.score θ i y * d.score θ j y := fun i hi j hj =>
    (hs i hi).mul (hs j hj)
  refine ⟨⟨fun i hi => ?_, fun i hi j hj => ?_, fun i hi => ?_⟩, fun i hi j hj => ?_⟩
  · rw [hlaw, integrable_map_measure (hs i hi).aestronglyMeasurable hT.aemeasurable]
    exact ((hL i hi).integrable (by norm_num)).congr ((he i hi).mono fun x h => h.symm)
  · rw [hlaw, integrable_map_measure (hmul i hi j hj).aestronglyMeasurable hT.aemeasurable]
    exact ((hL i hi).integrable_mul (hL j hj)).congr ((hprod i hi j hj).mono fun x h => h.symm)
  · rw [hlaw, integral_map hT.aemeasurable (hs i hi).aestronglyMeasurable, integral_congr_ae (he i hi), h0 i hi]
  · rw [fisher, hlaw, integral_map hT.aemeasurable (hmul i hi j hj).aestronglyMeasurable,
      integral_congr_ae (hprod i hi j hj)]

/-- Scores that are linear in two statistics of a base law. -/
theorem fisher_of_lin {d : Dist} {θ : ℕ → ℝ} {Ω : Type*} [MeasurableSpace Ω] {P : Measure Ω} [IsProbabilityMeasure P]
    {T : Ω → ℝ} {X Y : Ω → ℝ} {mX mY vX vY c : ℝ} (hlaw : d.law θ = P.map T) (hT : Measurable T)
    (hm : Moments2 P X Y mX mY vX vY c) {n : ℕ} (u v : ℕ → ℝ) (hs : ∀ k < n, Measurable (d.score θ k))
    (he : ∀ k < n, ∀ᵐ x ∂P, d.score θ k (T x) = Moments2.lin (u k) (v k) mX mY X Y x) :
    IsScore (d.law θ) n (d.score θ) ∧ ∀ i < n, ∀ j < n,
      fisher (d.law θ) (d.score θ) i j = u i * u j * vX + (u i * v j + u j * v i) * c + v i * v j * vY := by
  have h := fisher_of_fun hlaw hT (fun k => Moments2.lin (u k) (v k) mX mY X Y) (fun k _ => hm.memLp_lin _ _)
    (fun k _ => hm.integral_lin _ _) hs he
  exact ⟨h.1, fun i hi j hj => (h.2 i hi j hj).trans (hm.integral_lin_mul _ _ _ _)⟩

theorem lt_two {P : ℕ → Prop} (h0 : P 0) (h1 : P 1) : ∀ k < 2, P k := by
  intro k hk
  rcases k with _ | _ | k
  · exact h0
  · exact h1
  · omega

/-- Coefficients given by a list. -/
def co (l : List ℝ) (k : ℕ) : ℝ := l.getD k 0

theorem law_logNormal (θ : ℕ → ℝ) (h : logNormal.Admissible θ) :
    logNormal.law θ = (gaussianReal 0 1).map fun z => Real.exp (θ 0) * Real.exp (θ 1 * z) := by
  have hA : logNormalMedian.Admissible (fun k => if k = 0 then Real.exp (θ 0) else θ k) := ⟨Real.exp_pos _, h⟩
  have := law_logNormalMedian _ hA
  simp only [one_ne_zero, if_true, if_false] at this
  rw [← this]
  unfold law lawOf
  congr 1
  refine withDensity_congr_ae ?_
  refine (ae_restrict_iff' (measurableSet_responses _)).mpr (.of_forall fun y hy => ?_)
  obtain ⟨p, h1, h2, h3, h4⟩ := pdf_logpdf logNormal y θ hy h
  obtain ⟨q, g1, g2, g3, g4⟩ := pdf_logpdf logNormalMedian y _ hy hA
  have hl : logNormalMedian.logDensity y (fun k => if k = 0 then Real.exp (θ 0) else θ k) = logNormal.logDensity y θ := by
    simp only [logDensity, one_ne_zero, if_true, if_false, Real.log_exp]
  have hpq : p = q := by
    rw [← Real.exp_log h1, ← Real.exp_log g1, h3, g3, hl]
  beta_reduce
  rw [h2, g2, hpq]

section
variable {θ : ℕ → ℝ}

theorem normal_fisher (h : normal.Admissible θ) :
    IsScore (normal.law θ) 2 (normal.score θ) ∧ ∀ i < 2, ∀ j < 2,
      fisher (normal.law θ) (normal.score θ) i j
        = co [1 / θ 1, 0] i * co [1 / θ 1, 0] j * 1
          + (co [1 / θ 1, 0] i * co [0, 1 / θ 1] j + co [1 / θ 1, 0] j * co [0, 1 / θ 1] i) * 0
          + co [0, 1 / θ 1] i * co [0, 1 / θ 1] j * 2 := by
  have hσ : 0 < θ 1 := h
  refine fisher_of_lin (law_normal θ h) (by fun_prop) gaussian_moments _ _ (lt_two ?_ ?_)
    (lt_two (.of_forall fun x => ?_) (.of_forall fun x => ?_))
  · change Measurable fun y => 1 / θ 1 ^ 2 * (y - θ 0); fun_prop
  · change Measurable fun y => ((y - θ 0) ^ 2 - θ 1 ^ 2) / θ 1 ^ 3; fun_prop
  · change 1 / θ 1 ^ 2 * (θ 0 + θ 1 * x - θ 0) = 1 / θ 1 * (x - 0) + 0 * (x ^ 2 - 1)
    field_simp; ring
  · change ((θ 0 + θ 1 * x - θ 0) ^ 2 - θ 1 ^ 2) / θ 1 ^ 3 = 0 * (x - 0) + 1 / θ 1 * (x ^ 2 - 1)
    field_simp; ring

theorem normalMeanVariance_fisher (h : normalMeanVariance.Admissible θ) :
    IsScore (normalMeanVariance.law θ) 2 (normalMeanVariance.score θ) ∧ ∀ i < 2, ∀ j < 2,
      fisher (normalMeanVariance.law θ) (normalMeanVariance.score θ) i j
        = co [1 / √(θ 1), 0] i * co [1 / √(θ 1), 0] j * 1
          + (co [1 / √(θ 1), 0] i * co [0, 1 / (2 * θ 1)] j + co [1 / √(θ 1), 0] j * co [0, 1 / (2 * θ 1)] i) * 0
          + co [0, 1 / (2 * θ 1)] i * co [0, 1 / (2 * θ 1)] j * 2 := by
  have hσ : 0 < θ 1 := h
  have hs : 0 < √(θ 1) := Real.sqrt_pos.mpr h
  have hq : √(θ 1) ^ 2 = θ 1 := Real.sq_sqrt hσ.le
  refine fisher_of_lin (law_normalMeanVariance θ h) (by fun_prop) gaussian_moments _ _ (lt_two ?_ ?_)
    (lt_two (.of_forall fun x => ?_) (.of_forall fun x => ?_))
  · change Measurable fun y => 1 / θ 1 * (y - θ 0); fun_prop
  · change Measurable fun y => 0.5 * ((y - θ 0) ^ 2 - θ 1) / θ 1 ^ 2; fun_prop
  · change 1 / θ 1 * (θ 0 + √(θ 1) * x - θ 0) = 1 / √(θ 1) * (x - 0) + 0 * (x ^ 2 - 1)
    nth_rewrite 1 [← hq]
    field_simp; ring
  · change 0.5 * ((θ 0 + √(θ 1) * x - θ 0) ^ 2 - θ 1) / θ 1 ^ 2 = 0 * (x - 0) + 1 / (2 * θ 1) * (x ^ 2 - 1)
    have : (θ 0 + √(θ 1) * x - θ 0) ^ 2 = θ 1 * x ^ 2 := by rw [add_sub_cancel_left, mul_pow, hq]
    rw [this]
    field_simp; ring

theorem logNormal_fisher (h : logNormal.Admissible θ) :
    IsScore (logNormal.law θ) 2 (logNormal.score θ) ∧ ∀ i < 2, ∀ j < 2,
      fisher (logNormal.law θ) (logNormal.score θ) i j
        = co [1 / θ 1, 0] i * co [1 / θ 1, 0] j * 1
          + (co [1 / θ 1, 0] i * co [0, 1 / θ 1] j + co [1 / θ 1, 0] j * co [0, 1 / θ 1] i) * 0
          + co [0, 1 / θ 1] i * co [0, 1 / θ 1] j * 2 := by
  have hσ : 0 < θ 1 := h
  have e : ∀ x, Real.log (Real.exp (θ 0) * Real.exp (θ 1 * x)) = θ 0 + θ 1 * x := fun x => by
    rw [← Real.exp_add, Real.log_exp]
  refine fisher_of_lin (law_logNormal θ h) (by fun_prop) gaussian_moments _ _ (lt_two ?_ ?_)
    (lt_two (.of_forall fun x => ?_) (.of_forall fun x => ?_))
  · change Measurable fun y => (Real.log y - θ 0) / θ 1 ^ 2; fun_prop
  · change Measurable fun y => ((Real.log y - θ 0) ^ 2 - θ 1 ^ 2) / θ 1 ^ 3; fun_prop
  · change (Real.log (Real.exp (θ 0) * Real.exp (θ 1 * x)) - θ 0) / θ 1 ^ 2 = 1 / θ 1 * (x - 0) + 0 * (x ^ 2 - 1)
    rw [e]
    field_simp; ring
  · change ((Real.log (Real.exp (θ 0) * Real.exp (θ 1 * x)) - θ 0) ^ 2 - θ 1 ^ 2) / θ 1 ^ 3
      = 0 * (x - 0) + 1 / θ 1 * (x ^ 2 - 1)
    rw [e]
    field_simp; ring

theorem logNormalMedian_fisher (h : logNormalMedian.Admissible θ) :
    IsScore (logNormalMedian.law θ) 2 (logNormalMedian.score θ) ∧ ∀ i < 2, ∀ j < 2,
      fisher (logNormalMedian.law θ) (logNormalMedian.score θ) i j
        = co [1 / (θ 0 * θ 1), 0] i * co [1 / (θ 0 * θ 1), 0] j * 1
          + (co [1 / (θ 0 * θ 1), 0] i * co [0, 1 / θ 1] j + co [1 / (θ 0 * θ 1), 0] j * co [0, 1 / θ 1] i) * 0
          + co [0, 1 / θ 1] i * co [0, 1 / θ 1] j * 2 := by
  obtain ⟨hμ, hσ⟩ := id h
  have e : ∀ x, Real.log (θ 0 * Real.exp (θ 1 * x)) = Real.log (θ 0) + θ 1 * x := fun x => by
    rw [Real.log_mul hμ.ne' (Real.exp_pos _).ne', Real.log_exp]
  refine fisher_of_lin (law_logNormalMedian θ h) (by fun_prop) gaussian_moments _ _ (lt_two ?_ ?_)
    (lt_two (.of_forall fun x => ?_) (.of_forall fun x => ?_))
  · change Measurable fun y => (Real.log y - Real.log (θ 0)) / (θ 0 * θ 1 ^ 2); fun_prop
  · change Measurable fun y => ((Real.log y - Real.log (θ 0)) ^ 2 - θ 1 ^ 2) / θ 1 ^ 3; fun_prop
  · change (Real.log (θ 0 * Real.exp (θ 1 * x)) - Real.log (θ 0)) / (θ 0 * θ 1 ^ 2)
      = 1 / (θ 0 * θ 1) * (x - 0) + 0 * (x ^ 2 - 1)
    rw [e]
    field_simp; ring
  · change ((Real.log (θ 0 * Real.exp (θ 1 * x)) - Real.log (θ 0)) ^ 2 - θ 1 ^ 2) / θ 1 ^ 3
      = 0 * (x - 0) + 1 / θ 1 * (x ^ 2 - 1)
    rw [e]
    field_simp; ring

theorem logistic_fisher (h : logistic.Admissible θ) :
    IsScore (logistic.law θ) 2 (logistic.score θ) ∧ ∀ i < 2, ∀ j < 2,
      fisher (logistic.law θ) (logistic.score θ) i j
        = co [1 / θ 1, 0] i * co [1 / θ 1, 0] j * (1 / 3)
          + (co [1 / θ 1, 0] i * co [0, 1 / θ 1] j + co [1 / θ 1, 0] j * co [0, 1 / θ 1] i) * 0
          + co [0, 1 / θ 1] i * co [0, 1 / θ 1] j * (1 / 3 + 2 / 3 * trigamma 1) := by
  have hσ : 0 < θ 1 := h
  haveI := isProbabilityMeasureBeta (α := (1:ℝ)) (β := 1) one_pos one_pos
  have e : ∀ u : ℝ, 0 < u → u < 1 →
      Real.exp ((θ 0 + θ 1 * (Real.log u - Real.log (1 - u)) - θ 0) / θ 1) = u / (1 - u) := by
    intro u h0 h1
    rw [add_sub_cancel_left, mul_div_cancel_left₀ _ hσ.ne', Real.exp_sub, Real.exp_log h0, Real.exp_log (by linarith)]
  refine fisher_of_lin (law_logistic θ h) (by fun_prop) logistic_moments _ _ (lt_two ?_ ?_)
    (lt_two ?_ ?_)
  · change Measurable fun y => 1 / θ 1 * (Real.exp ((y - θ 0) / θ 1) - 1) / (1 + Real.exp ((y - θ 0) / θ 1)); fun_prop
  · change Measurable fun y => -1 / θ 1 - (y - θ 0) / θ 1 ^ 2
      + 2 * ((y - θ 0) / θ 1 ^ 2) * Real.exp ((y - θ 0) / θ 1) / (1 + Real.exp ((y - θ 0) / θ 1)); fun_prop
  · filter_upwards [betaMeasure_mem_ae (a := 1) (b := 1)] with u hu
    have h1 : 0 < 1 - u := by linarith [hu.2]
    change 1 / θ 1 * (Real.exp ((θ 0 + θ 1 * (Real.log u - Real.log (1 - u)) - θ 0) / θ 1) - 1)
      / (1 + Real.exp ((θ 0 + θ 1 * (Real.log u - Real.log (1 - u)) - θ 0) / θ 1))
      = 1 / θ 1 * (2 * u - 1 - 0) + 0 * (logitZ u * (2 * u - 1) - 1)
    rw [e u hu.1 hu.2]
    field_simp
    ring
  · filter_upwards [betaMeasure_mem_ae (a := 1) (b := 1)] with u hu
    have h1 : 0 < 1 - u := by linarith [hu.2]
    change -1 / θ 1 - (θ 0 + θ 1 * logitZ u - θ 0) / θ 1 ^ 2
      + 2 * ((θ 0 + θ 1 * logitZ u - θ 0) / θ 1 ^ 2)
        * Real.exp ((θ 0 + θ 1 * (Real.log u - Real.log (1 - u)) - θ 0) / θ 1)
          / (1 + Real.exp ((θ 0 + θ 1 * (Real.log u - Real.log (1 - u)) - θ 0) / θ 1))
      = 0 * (2 * u - 1 - 0) + 1 / θ 1 * (logitZ u * (2 * u - 1) - 1)
    rw [e u hu.1 hu.2]
    field_simp
    ring

theorem gumbel_fisher (h : gumbel.Admissible θ) :
    IsScore (gumbel.law θ) 2 (gumbel.score θ) ∧ ∀ i < 2, ∀ j < 2,
      fisher (gumbel.law θ) (gumbel.score θ) i j
        = co [1 / θ 1, 0] i * co [1 / θ 1, 0] j * 1
          + (co [1 / θ 1, 0] i * co [0, 1 / θ 1] j + co [1 / θ 1, 0] j * co [0, 1 / θ 1] i) * (digamma 1 + 1)
          + co [0, 1 / θ 1] i * co [0, 1 / θ 1] j * (trigamma 1 + (digamma 1 + 1) ^ 2) := by
  have hσ : 0 < θ 1 := h
  haveI := isProbabilityMeasure_gammaMeasure (a := (1:ℝ)) (r := 1) one_pos one_pos
  have e : ∀ x : ℝ, (θ 0 + θ 1 * Real.log x - θ 0) / θ 1 = Real.log x := fun x => by
    rw [add_sub_cancel_left, mul_div_cancel_left₀ _ hσ.ne']
  refine fisher_of_lin (law_gumbel θ h) (by fun_prop) gumbel_moments _ _ (lt_two ?_ ?_)
    (lt_two ?_ ?_)
  · change Measurable fun y => (Real.exp ((y - θ 0) / θ 1) - 1) / θ 1; fun_prop
  · change Measurable fun y => -(1 / θ 1) + (y - θ 0) / θ 1 / θ 1 * (Real.exp ((y - θ 0) / θ 1) - 1); fun_prop
  · filter_upwards [gammaMeasure_pos_ae (a := 1) (r := 1)] with x hx
    change (Real.exp ((θ 0 + θ 1 * Real.log x - θ 0) / θ 1) - 1) / θ 1
      = 1 / θ 1 * (x - 1) + 0 * (Real.log x * (x - 1) - 1)
    rw [e, Real.exp_log hx]
    field_simp; ring
  · filter_upwards [gammaMeasure_pos_ae (a := 1) (r := 1)] with x hx
    change -(1 / θ 1) + (θ 0 + θ 1 * Real.log x - θ 0) / θ 1 / θ 1
        * (Real.exp ((θ 0 + θ 1 * Real.log x - θ 0) / θ 1) - 1)
      = 0 * (x - 1) + 1 / θ 1 * (Real.log x * (x - 1) - 1)
    rw [e, Real.exp_log hx]
    field_simp; ring

theorem reverseGumbel_fisher (h : reverseGumbel.Admissible θ) :
    IsScore (reverseGumbel.law θ) 2 (reverseGumbel.score θ) ∧ ∀ i < 2, ∀ j < 2,
      fisher (reverseGumbel.law θ) (reverseGumbel.score θ) i j
        = co [-(1 / θ 1), 0] i * co [-(1 / θ 1), 0] j * 1
          + (co [-(1 / θ 1), 0] i * co [0, 1 / θ 1] j + co [-(1 / θ 1), 0] j * co [0, 1 / θ 1] i) * (digamma 1 + 1)
          + co [0, 1 / θ 1] i * co [0, 1 / θ 1] j * (trigamma 1 + (digamma 1 + 1) ^ 2) := by
  have hσ : 0 < θ 1 := h
  haveI := isProbabilityMeasure_gammaMeasure (a := (1:ℝ)) (r := 1) one_pos one_pos
  have e : ∀ x : ℝ, (θ 0 + θ 1 * -Real.log x - θ 0) / θ 1 = -Real.log x := fun x => by
    rw [add_sub_cancel_left, mul_div_cancel_left₀ _ hσ.ne']
  refine fisher_of_lin (law_reverseGumbel θ h) (by fun_prop) gumbel_moments _ _ (lt_two ?_ ?_)
    (lt_two ?_ ?_)
  · change Measurable fun y => (1 - Real.exp (-((y - θ 0) / θ 1))) / θ 1; fun_prop
  · change Measurable fun y => -(1 / θ 1) * (1 - (y - θ 0) / θ 1)
      - (y - θ 0) / θ 1 / θ 1 * Real.exp (-((y - θ 0) / θ 1)); fun_prop
  · filter_upwards [gammaMeasure_pos_ae (a := 1) (r := 1)] with x hx
    change (1 - Real.exp (-((θ 0 + θ 1 * -Real.log x - θ 0) / θ 1))) / θ 1
      = -(1 / θ 1) * (x - 1) + 0 * (Real.log x * (x - 1) - 1)
    rw [e, neg_neg, Real.exp_log hx]
    field_simp; ring
  · filter_upwards [gammaMeasure_pos_ae (a := 1) (r := 1)] with x hx
    change -(1 / θ 1) * (1 - (θ 0 + θ 1 * -Real.log x - θ 0) / θ 1)
      - (θ 0 + θ 1 * -Real.log x - θ 0) / θ 1 / θ 1 * Real.exp (-((θ 0 + θ 1 * -Real.log x - θ 0) / θ 1))
      = 0 * (x - 1) + 1 / θ 1 * (Real.log x * (x - 1) - 1)
    rw [e, neg_neg, Real.exp_log hx]
    field_simp; ring

theorem gamma_fisher (h : gamma.Admissible θ) :
    IsScore (gamma.law θ) 2 (gamma.score θ) ∧ ∀ i < 2, ∀ j < 2,
      fisher (gamma.law θ) (gamma.score θ) i j
        = co [1 / θ 0, 2 / θ 1] i * co [1 / θ 0, 2 / θ 1] j * (1 / θ 1 ^ 2)
          + (co [1 / θ 0, 2 / θ 1] i * co [0, -(2 / θ 1 ^ 3)] j
            + co [1 / θ 0, 2 / θ 1] j * co [0, -(2 / θ 1 ^ 3)] i) * 1
          + co [0, -(2 / θ 1 ^ 3)] i * co [0, -(2 / θ 1 ^ 3)] j * trigamma (1 / θ 1 ^ 2) := by
  obtain ⟨hμ, hσ⟩ := id h
  have ha : 0 < 1 / θ 1 ^ 2 := by positivity
  haveI := isProbabilityMeasure_gammaMeasure ha one_pos
  refine fisher_of_lin (law_gamma θ h) (by fun_prop) (gamma_moments ha) _ _ (lt_two ?_ ?_)
    (lt_two ?_ ?_)
  · change Measurable fun y => (y - θ 0) / (θ 1 ^ 2 * θ 0 ^ 2); fun_prop
  · change Measurable fun y => 2 / θ 1 ^ 3 * (y / θ 0 - Real.log y + Real.log (θ 0) + Real.log (θ 1 ^ 2) - 1
      + digamma (1 / θ 1 ^ 2)); fun_prop
  · filter_upwards [gammaMeasure_pos_ae (a := 1 / θ 1 ^ 2) (r := 1)] with x hx
    change (θ 1 ^ 2 * θ 0 * x - θ 0) / (θ 1 ^ 2 * θ 0 ^ 2)
      = 1 / θ 0 * (x - 1 / θ 1 ^ 2) + 0 * (Real.log x - digamma (1 / θ 1 ^ 2))
    field_simp; ring
  · filter_upwards [gammaMeasure_pos_ae (a := 1 / θ 1 ^ 2) (r := 1)] with x hx
    change 2 / θ 1 ^ 3 * (θ 1 ^ 2 * θ 0 * x / θ 0 - Real.log (θ 1 ^ 2 * θ 0 * x) + Real.log (θ 0) + Real.log (θ 1 ^ 2) - 1
        + digamma (1 / θ 1 ^ 2))
      = 2 / θ 1 * (x - 1 / θ 1 ^ 2) + -(2 / θ 1 ^ 3) * (Real.log x - digamma (1 / θ 1 ^ 2))
    rw [Real.log_mul (by positivity) hx.ne', Real.log_mul (by positivity) hμ.ne']
    field_simp; ring

theorem beta_fisher (h : Dist.beta.Admissible θ) :
    IsScore (Dist.beta.law θ) 2 (Dist.beta.score θ) ∧ ∀ i < 2, ∀ j < 2,
      fisher (Dist.beta.law θ) (Dist.beta.score θ) i j
        = co [(1 - θ 1 ^ 2) / θ 1 ^ 2, -(2 / θ 1 ^ 3) * θ 0] i * co [(1 - θ 1 ^ 2) / θ 1 ^ 2, -(2 / θ 1 ^ 3) * θ 0] j
            * (trigamma (betaA (θ 0) (θ 1)) - trigamma (betaA (θ 0) (θ 1) + betaB (θ 0) (θ 1)))
          + (co [(1 - θ 1 ^ 2) / θ 1 ^ 2, -(2 / θ 1 ^ 3) * θ 0] i
              * co [-((1 - θ 1 ^ 2) / θ 1 ^ 2), -(2 / θ 1 ^ 3) * (1 - θ 0)] j
            + co [(1 - θ 1 ^ 2) / θ 1 ^ 2, -(2 / θ 1 ^ 3) * θ 0] j
              * co [-((1 - θ 1 ^ 2) / θ 1 ^ 2), -(2 / θ 1 ^ 3) * (1 - θ 0)] i)
            * (-trigamma (betaA (θ 0) (θ 1) + betaB (θ 0) (θ 1)))
          + co [-((1 - θ 1 ^ 2) / θ 1 ^ 2), -(2 / θ 1 ^ 3) * (1 - θ 0)] i
            * co [-((1 - θ 1 ^ 2) / θ 1 ^ 2), -(2 / θ 1 ^ 3) * (1 - θ 0)] j
            * (trigamma (betaB (θ 0) (θ 1)) - trigamma (betaA (θ 0) (θ 1) + betaB (θ 0) (θ 1))) := by
  have hA := shapeA_pos h.1 h.2
  have hB := shapeB_pos h.1 h.2
  haveI := isProbabilityMeasureBeta hA hB
  refine fisher_of_lin (T := id) ((law_beta θ h).trans Measure.map_id.symm) measurable_id (beta_moments hA hB) _ _
    (lt_two ?_ ?_) (lt_two (.of_forall fun x => ?_) (.of_forall fun x => ?_))
  · change Measurable fun y => (1 - θ 1 ^ 2) / θ 1 ^ 2 * (-digamma (betaA (θ 0) (θ 1)) + digamma (betaB (θ 0) (θ 1))
      + Real.log y - Real.log (1 - y)); fun_prop
  · change Measurable fun y => -(2 / θ 1 ^ 3) * (θ 0 * (-digamma (betaA (θ 0) (θ 1))
        + digamma (betaA (θ 0) (θ 1) + betaB (θ 0) (θ 1)) + Real.log y)
      + (1 - θ 0) * (-digamma (betaB (θ 0) (θ 1)) + digamma (betaA (θ 0) (θ 1) + betaB (θ 0) (θ 1))
        + Real.log (1 - y))); fun_prop
  · change (1 - θ 1 ^ 2) / θ 1 ^ 2 * (-digamma (betaA (θ 0) (θ 1)) + digamma (betaB (θ 0) (θ 1))
      + Real.log x - Real.log (1 - x))
      = (1 - θ 1 ^ 2) / θ 1 ^ 2 * (Real.log x - (digamma (betaA (θ 0) (θ 1))
          - digamma (betaA (θ 0) (θ 1) + betaB (θ 0) (θ 1))))
        + -((1 - θ 1 ^ 2) / θ 1 ^ 2) * (Real.log (1 - x) - (digamma (betaB (θ 0) (θ 1))
          - digamma (betaA (θ 0) (θ 1) + betaB (θ 0) (θ 1))))
    ring
  · change -(2 / θ 1 ^ 3) * (θ 0 * (-digamma (betaA (θ 0) (θ 1))
        + digamma (betaA (θ 0) (θ 1) + betaB (θ 0) (θ 1)) + Real.log x)
      + (1 - θ 0) * (-digamma (betaB (θ 0) (θ 1)) + digamma (betaA (θ 0) (θ 1) + betaB (θ 0) (θ 1))
        + Real.log (1 - x)))
      = -(2 / θ 1 ^ 3) * θ 0 * (Real.log x - (digamma (betaA (θ 0) (θ 1))
          - digamma (betaA (θ 0) (θ 1) + betaB (θ 0) (θ 1))))
        + -(2 / θ 1 ^ 3) * (1 - θ 0) * (Real.log (1 - x) - (digamma (betaB (θ 0) (θ 1))
          - digamma (betaA (θ 0) (θ 1) + betaB (θ 0) (θ 1))))
    ring

theorem exponential_fisher (h : exponential.Admissible θ) :
    IsScore (exponential.law θ) 1 (exponential.score θ) ∧ ∀ i < 1, ∀ j < 1,
      fisher (exponential.law θ) (exponential.score θ) i j
        = co [1 / θ 0] i * co [1 / θ 0] j * 1 + (co [1 / θ 0] i * co [0] j + co [1 / θ 0] j * co [0] i) * 1
          + co [0] i * co [0] j * trigamma 1 := by
  have hσ : 0 < θ 0 := h
  haveI := isProbabilityMeasure_gammaMeasure (a := (1:ℝ)) (r := 1) one_pos one_pos
  refine fisher_of_lin (law_exponential θ h) (by fun_prop) (gamma_moments one_pos) _ _ ?_ ?_
  · intro k hk
    obtain rfl : k = 0 := by omega
    change Measurable fun y => (y - θ 0) / θ 0 ^ 2; fun_prop
  · intro k hk
    obtain rfl : k = 0 := by omega
    refine .of_forall fun x => ?_
    change (θ 0 * x - θ 0) / θ 0 ^ 2 = 1 / θ 0 * (x - 1) + 0 * (Real.log x - digamma 1)
    field_simp; ring

theorem inverseGamma_fisher (h : inverseGamma.Admissible θ) :
    IsScore (inverseGamma.law θ) 2 (inverseGamma.score θ) ∧ ∀ i < 2, ∀ j < 2,
      fisher (inverseGamma.law θ) (inverseGamma.score θ) i j
        = co [-(1 / θ 0), 2 / (θ 1 * (1 + θ 1 ^ 2))] i * co [-(1 / θ 0), 2 / (θ 1 * (1 + θ 1 ^ 2))] j * (1 / θ 1 ^ 2)
          + (co [-(1 / θ 0), 2 / (θ 1 * (1 + θ 1 ^ 2))] i * co [0, -(2 / θ 1 ^ 3)] j
            + co [-(1 / θ 0), 2 / (θ 1 * (1 + θ 1 ^ 2))] j * co [0, -(2 / θ 1 ^ 3)] i) * 1
          + co [0, -(2 / θ 1 ^ 3)] i * co [0, -(2 / θ 1 ^ 3)] j * trigamma (1 / θ 1 ^ 2) := by
  obtain ⟨hμ, hσ⟩ := id h
  have ha : 0 < 1 / θ 1 ^ 2 := by positivity
  haveI := isProbabilityMeasure_gammaMeasure ha one_pos
  refine fisher_of_lin (law_inverseGamma θ h) (by fun_prop) (gamma_moments ha) _ _ (lt_two ?_ ?_)
    (lt_two ?_ ?_)
  · change Measurable fun y => 1 / θ 1 ^ 2 / θ 0 - (1 / θ 1 ^ 2 + 1) / y; fun_prop
  · change Measurable fun y => -2 / θ 1 ^ 3 * (Real.log (θ 0) + 1 / θ 1 ^ 2 / (1 / θ 1 ^ 2 + 1)
      + Real.log (1 / θ 1 ^ 2 + 1) - digamma (1 / θ 1 ^ 2) - Real.log y - θ 0 / y); fun_prop
  · filter_upwards [gammaMeasure_pos_ae (a := 1 / θ 1 ^ 2) (r := 1)] with x hx
    change 1 / θ 1 ^ 2 / θ 0 - (1 / θ 1 ^ 2 + 1) / (θ 0 * (1 + θ 1 ^ 2) / θ 1 ^ 2 * x⁻¹)
      = -(1 / θ 0) * (x - 1 / θ 1 ^ 2) + 0 * (Real.log x - digamma (1 / θ 1 ^ 2))
    field_simp; ring
  · filter_upwards [gammaMeasure_pos_ae (a := 1 / θ 1 ^ 2) (r := 1)] with x hx
    change -2 / θ 1 ^ 3 * (Real.log (θ 0) + 1 / θ 1 ^ 2 / (1 / θ 1 ^ 2 + 1)
        + Real.log (1 / θ 1 ^ 2 + 1) - digamma (1 / θ 1 ^ 2) - Real.log (θ 0 * (1 + θ 1 ^ 2) / θ 1 ^ 2 * x⁻¹)
        - θ 0 / (θ 0 * (1 + θ 1 ^ 2) / θ 1 ^ 2 * x⁻¹))
      = 2 / (θ 1 * (1 + θ 1 ^ 2)) * (x - 1 / θ 1 ^ 2) + -(2 / θ 1 ^ 3) * (Real.log x - digamma (1 / θ 1 ^ 2))
    have e1 : θ 0 * (1 + θ 1 ^ 2) / θ 1 ^ 2 * x⁻¹ = θ 0 * (1 / θ 1 ^ 2 + 1) * x⁻¹ := by field_simp
    have e2 : Real.log (θ 0 * (1 + θ 1 ^ 2) / θ 1 ^ 2 * x⁻¹)
        = Real.log (θ 0) + Real.log (1 / θ 1 ^ 2 + 1) - Real.log x := by
      rw [e1, Real.log_mul (by positivity) (by positivity), Real.log_mul (by positivity) (by positivity), Real.log_inv]
      ring
    rw [e2]
    field_simp; ring

theorem inverseGaussian_fisher (h : inverseGaussian.Admissible θ) :
    IsScore (inverseGaussian.law θ) 2 (inverseGaussian.score θ) ∧ ∀ i < 2, ∀ j < 2,
      fisher (inverseGaussian.law θ) (inverseGaussian.score θ) i j
        = co [1 / (θ 1 ^ 4 * θ 0 ^ 3), 0] i * co [1 / (θ 1 ^ 4 * θ 0 ^ 3), 0] j * ((θ 0 * θ 1 ^ 2) ^ 3)
          + (co [1 / (θ 1 ^ 4 * θ 0 ^ 3), 0] i * co [0, 1 / θ 1] j
            + co [1 / (θ 1 ^ 4 * θ 0 ^ 3), 0] j * co [0, 1 / θ 1] i) * 0
          + co [0, 1 / θ 1] i * co [0, 1 / θ 1] j * 2 := by
  obtain ⟨hμ, hσ⟩ := id h
  have hm : 0 < θ 0 * θ 1 ^ 2 := by positivity
  haveI := igBase_prob hm
  refine fisher_of_lin (law_inverseGaussian θ h) ((Frozen.igS_measurable.pow_const 2).const_mul _) (ig_moments hm) _ _
    (lt_two ?_ ?_) (lt_two (.of_forall fun x => ?_) (.of_forall fun x => ?_))
  · change Measurable fun y => (y - θ 0) / (θ 1 ^ 2 * θ 0 ^ 3); fun_prop
  · change Measurable fun y => -1 / θ 1 + (y - θ 0) ^ 2 / (θ 1 ^ 3 * θ 0 ^ 2 * y); fun_prop
  · change (1 / θ 1 ^ 2 * Frozen.igS (θ 0 * θ 1 ^ 2) x ^ 2 - θ 0) / (θ 1 ^ 2 * θ 0 ^ 3)
      = 1 / (θ 1 ^ 4 * θ 0 ^ 3) * (Frozen.igS (θ 0 * θ 1 ^ 2) x ^ 2 - θ 0 * θ 1 ^ 2) + 0 * (x ^ 2 - 1)
    field_simp; ring
  · change -1 / θ 1 + (1 / θ 1 ^ 2 * Frozen.igS (θ 0 * θ 1 ^ 2) x ^ 2 - θ 0) ^ 2
        / (θ 1 ^ 3 * θ 0 ^ 2 * (1 / θ 1 ^ 2 * Frozen.igS (θ 0 * θ 1 ^ 2) x ^ 2))
      = 0 * (Frozen.igS (θ 0 * θ 1 ^ 2) x ^ 2 - θ 0 * θ 1 ^ 2) + 1 / θ 1 * (x ^ 2 - 1)
    have hS := Frozen.igS_pos hm x
    have e : 1 / θ 1 ^ 2 * Frozen.igS (θ 0 * θ 1 ^ 2) x ^ 2 - θ 0 = θ 0 * x * Frozen.igS (θ 0 * θ 1 ^ 2) x := by
      rw [Frozen.igS_eq hm x]
      generalize Frozen.igS (θ 0 * θ 1 ^ 2) x = S
      field_simp
      ring
    rw [e]
    generalize Frozen.igS (θ 0 * θ 1 ^ 2) x = S at hS e ⊢
    have e2 : 1 / θ 1 ^ 2 * S ^ 2 ≠ 0 := by positivity
    field_simp; ring

end
end Dist
end Ondil
