import Verif.Props.Ordering
import Verif.Props.Moments
import Mathlib.MeasureTheory.Integral.Lebesgue.Markov
import Mathlib.Probability.Independence.Integration

/-!
# Comparing forecasts by their log density is fair: C125
-/

namespace Ondil

open MeasureTheory ProbabilityTheory Set

namespace Dist

theorem logDensity_measurable (d : Dist) (θ : ℕ → ℝ) : Measurable fun y => d.logDensity y θ := by
  by_cases hd : d.OnLine
  · exact onLine_measurable hd θ
  have hb : Measurable fun y => betaL y (θ 0) (θ 1) := by unfold betaL; fun_prop
  have hg : Measurable fun y => gammaL y (θ 0) (θ 1) := by unfold gammaL; fun_prop
  have e0 : MeasurableSet {y : ℝ | y = 0} := measurableSet_singleton 0
  have e1 : MeasurableSet {y : ℝ | y = 1} := measurableSet_singleton 1
  cases d <;> simp only [OnLine, not_true_eq_false] at hd <;> simp only [logDensity]
  case beta => exact hb
  case gamma => exact hg
  case betaInflated => exact (Measurable.ite e0 measurable_const (Measurable.ite e1 measurable_const hb)).sub_const _
  case betaInflatedZero => exact (Measurable.ite e0 measurable_const hb).sub_const _
  case zeroAdjustedGamma => exact Measurable.ite e0 measurable_const (hg.const_add _)
  all_goals
    simp only [logNormalL, exponentialL, inverseGammaL, inverseGaussianL]
    fun_prop

/-- The measure with respect to which `pdf` is the density. -/
noncomputable def baseMeasure (d : Dist) : Measure ℝ := volume.restrict d.Responses + ((d.inflatedPoints).map Measure.dirac).sum

theorem base_mem (d : Dist) : ∀ᵐ y ∂d.baseMeasure, y ∈ d.Responses := by
  unfold baseMeasure
  have : ∀ᵐ y ∂(volume.restrict d.Responses), y ∈ d.Responses := ae_restrict_mem d.measurableSet_responses
  cases d <;> simp_all [inflatedPoints, ae_add_measure_iff, ae_dirac_eq, Responses]

theorem law_withDensity (d : Dist) (θ : ℕ → ℝ) (h : d.Admissible θ) :
    d.law θ = d.baseMeasure.withDensity fun y => ENNReal.ofReal (Real.exp (d.logDensity y θ)) := by
  have e : d.law θ = d.baseMeasure.withDensity fun y => ENNReal.ofReal (d.pdf y θ).toReal := by
    unfold law lawOf baseMeasure
    rw [withDensity_add_measure]
    congr 1
    cases d <;> simp [inflatedPoints, withDensity_add_measure, dirac_withDensity, withDensity_zero_left]
  rw [e]
  refine withDensity_congr_ae ?_
  filter_upwards [base_mem d] with y hy
  obtain ⟨p, hp, h1, h2, -⟩ := pdf_logpdf d y θ hy h
  rw [h1, ← h2, Real.exp_log hp]
  rfl

theorem law_mem (d : Dist) (θ : ℕ → ℝ) (h : d.Admissible θ) : ∀ᵐ y ∂d.law θ, y ∈ d.Responses := by
  rw [law_withDensity d θ h]
  exact withDensity_absolutelyContinuous _ _ (base_mem d)

theorem logpdf_toReal {d : Dist} {θ : ℕ → ℝ} (h : d.Admissible θ) {y : ℝ} (hy : y ∈ d.Responses) : (d.logpdf y θ).toReal = d.logDensity y θ := by
  obtain ⟨-, -, -, -, h3⟩ := pdf_logpdf d y θ hy h
  rw [h3]
  rfl

theorem law_ratio (d : Dist) (θ θ' : ℕ → ℝ) (h : d.Admissible θ) (h' : d.Admissible θ') :
    d.law θ' = (d.law θ).withDensity fun y => ENNReal.ofReal (Real.exp (d.logDensity y θ' - d.logDensity y θ)) := by
  have m := logDensity_measurable d θ
  have m' := logDensity_measurable d θ'
  rw [law_withDensity d θ h, law_withDensity d θ' h', ← withDensity_mul]
  · congr 1
    funext y
    rw [Pi.mul_apply, ← ENNReal.ofReal_mul (Real.exp_pos _).le, ← Real.exp_add]
    congr 2
    ring
  · fun_prop
  · fun_prop

/-- The difference of two log densities converts probabilities: weighting the draws from one set of parameters by its exponential gives
the probabilities under the other. -/
theorem C125_weights (d : Dist) (θ θ' : ℕ → ℝ) (h : d.Admissible θ) (h' : d.Admissible θ') (s : Set ℝ) (hs : MeasurableSet s) :
    ∫⁻ y in s, ENNReal.ofReal (Real.exp ((d.logpdf y θ').toReal - (d.logpdf y θ).toReal)) ∂d.law θ = d.law θ' s := by
  rw [law_ratio d θ θ' h h', withDensity_apply _ hs]
  refine lintegral_congr_ae (ae_restrict_of_ae ?_)
  filter_upwards [law_mem d θ h] with y hy
  rw [logpdf_toReal h hy, logpdf_toReal h' hy]

/-- For independent responses, each with its own parameters, the wrong forecasts beat the true ones by `t` in the sum of the log densities
with probability at most `exp (-t)`. -/
theorem C125_wrong_wins (d : Dist) {n : ℕ} (θ θ' : Fin n → ℕ → ℝ) (h : ∀ i, d.Admissible (θ i)) (h' : ∀ i, d.Admissible (θ' i)) (t : ℝ) :
    Measure.pi (fun i => d.law (θ i)) {y | (∑ i, (d.logpdf (y i) (θ i)).toReal) + t ≤ ∑ i, (d.logpdf (y i) (θ' i)).toReal} ≤
      ENNReal.ofReal (Real.exp (-t)) := by
  haveI := fun i => law_isProbability d (θ i) (h i)
  haveI := fun i => law_isProbability d (θ' i) (h' i)
  set r : Fin n → ℝ → ENNReal := fun i y => ENNReal.ofReal (Real.exp (d.logDensity y (θ' i) - d.logDensity y (θ i))) with hr
  have hrm : ∀ i, Measurable (r i) := fun i => by
    have m := logDensity_measurable d (θ i)
    have m' := logDensity_measurable d (θ' i)
    rw [hr]
    fun_prop
  have hone : ∀ i, ∫⁻ y, r i y ∂d.law (θ i) = 1 := fun i => by
    have := congrArg (fun μ : Measure ℝ => μ univ) (law_ratio d (θ i) (θ' i) (h i) (h' i))
    simp only [measure_univ, withDensity_apply _ MeasurableSet.univ, Measure.restrict_univ] at this
    exact this.symm
  have hprod : ∫⁻ y, ∏ i, r i (y i) ∂Measure.pi (fun i => d.law (θ i)) = 1 := by
    rw [lintegral_prod_eq_prod_lintegral_of_indepFun Finset.univ (fun i (y : Fin n → ℝ) => r i (y i))
      (iIndepFun_pi fun i => (hrm i).aemeasurable) fun i => (hrm i).comp (measurable_pi_apply i)]
    refine Finset.prod_eq_one fun i _ => ?_
    rw [(measurePreserving_eval (fun i => d.law (θ i)) i).lintegral_comp (hrm i), hone i]
  have hae : ∀ᵐ y ∂Measure.pi (fun i => d.law (θ i)), ∀ i, y i ∈ d.Responses :=
    ae_all_iff.2 fun i => (Measure.quasiMeasurePreserving_eval (fun i => d.law (θ i)) i).ae (law_mem d (θ i) (h i))
  have hle : Measure.pi (fun i => d.law (θ i)) {y | (∑ i, (d.logpdf (y i) (θ i)).toReal) + t ≤ ∑ i, (d.logpdf (y i) (θ' i)).toReal} ≤
      Measure.pi (fun i => d.law (θ i)) {y | ENNReal.ofReal (Real.exp t) ≤ ∏ i, r i (y i)} := by
    refine measure_mono_ae ?_
    filter_upwards [hae] with y hy hle
    have hle' : (∑ i, (d.logpdf (y i) (θ i)).toReal) + t ≤ ∑ i, (d.logpdf (y i) (θ' i)).toReal := hle
    have e : ∏ i, r i (y i) = ENNReal.ofReal (Real.exp (∑ i, (d.logDensity (y i) (θ' i) - d.logDensity (y i) (θ i)))) := by
      rw [Real.exp_sum, ENNReal.ofReal_prod_of_nonneg fun i _ => (Real.exp_pos _).le]
    show ENNReal.ofReal (Real.exp t) ≤ ∏ i, r i (y i)
    rw [e]
    refine ENNReal.ofReal_le_ofReal (Real.exp_le_exp.2 ?_)
    simp only [logpdf_toReal (h _) (hy _), logpdf_toReal (h' _) (hy _)] at hle'
    rw [Finset.sum_sub_distrib]
    linarith
  refine hle.trans ((meas_ge_le_lintegral_div ?_ ?_ ENNReal.ofReal_ne_top).trans ?_)
  · exact (Finset.measurable_prod _ fun i _ => (hrm i).comp (measurable_pi_apply i)).aemeasurable
  · simp [Real.exp_pos]
  · rw [hprod, Real.exp_neg, ENNReal.ofReal_inv_of_pos (Real.exp_pos t), one_div]

theorem log_ratio_integral (d : Dist) (θ θ' : ℕ → ℝ) (h : d.Admissible θ) (h' : d.Admissible θ')
    (hui : Integrable (fun y => d.logDensity y θ' - d.logDensity y θ) (d.law θ)) :
    ∫ y, (d.logDensity y θ' - d.logDensity y θ) ∂d.law θ ≤ 0 ∧
      (d.law θ' ≠ d.law θ → ∫ y, (d.logDensity y θ' - d.logDensity y θ) ∂d.law θ < 0) := by
  haveI := law_isProbability d θ h
  haveI := law_isProbability d θ' h'
  have m := logDensity_measurable d θ
  have m' := logDensity_measurable d θ'
  set u : ℝ → ℝ := fun y => d.logDensity y θ' - d.logDensity y θ with hu
  have hum : Measurable u := m'.sub m
  have hone : ∫⁻ y, ENNReal.ofReal (Real.exp (u y)) ∂d.law θ = 1 := by
    have := congrArg (fun μ : Measure ℝ => μ univ) (law_ratio d θ θ' h h')
    simp only [measure_univ, withDensity_apply _ MeasurableSet.univ, Measure.restrict_univ] at this
    exact this.symm
  have hei : Integrable (fun y => Real.exp (u y)) (d.law θ) := by
    refine ⟨(Real.measurable_exp.comp hum).aestronglyMeasurable, ?_⟩
    rw [hasFiniteIntegral_iff_ofReal (Filter.Eventually.of_forall fun y => (Real.exp_pos _).le), hone]
    exact ENNReal.one_lt_top
  have hint : ∫ y, Real.exp (u y) ∂d.law θ = 1 := by
    rw [integral_eq_lintegral_of_nonneg_ae (Filter.Eventually.of_forall fun y => (Real.exp_pos _).le)
      (Real.measurable_exp.comp hum).aestronglyMeasurable, hone, ENNReal.toReal_one]
  have hgap : ∫ y, (Real.exp (u y) - 1 - u y) ∂d.law θ = - ∫ y, u y ∂d.law θ := by
    have e1 : ∫ y, (Real.exp (u y) - 1) ∂d.law θ = 0 := by
      rw [integral_sub hei (integrable_const 1), hint]
      simp
    have hi1 : Integrable (fun y => Real.exp (u y) - 1) (d.law θ) := hei.sub (integrable_const 1)
    rw [integral_sub hi1 hui, e1]
    simp
  have hnn : 0 ≤ fun y => Real.exp (u y) - 1 - u y := fun y => by
    have := Real.add_one_le_exp (u y)
    simp only [Pi.zero_apply]
    linarith
  have hge : 0 ≤ ∫ y, (Real.exp (u y) - 1 - u y) ∂d.law θ := integral_nonneg hnn
  refine ⟨by linarith, fun hne => lt_of_le_of_ne (by linarith) fun heq => hne ?_⟩
  have hz : ∫ y, (Real.exp (u y) - 1 - u y) ∂d.law θ = 0 := by linarith
  rw [integral_eq_zero_iff_of_nonneg hnn ((hei.sub (integrable_const 1)).sub hui)] at hz
  rw [law_ratio d θ θ' h h']
  have : (fun y => ENNReal.ofReal (Real.exp (d.logDensity y θ' - d.logDensity y θ))) =ᵐ[d.law θ] 1 := by
    filter_upwards [hz] with y hy
    have h0 : u y = 0 := by
      by_contra hc
      have := Real.add_one_lt_exp hc
      simp only [Pi.zero_apply] at hy
      linarith
    have h0' : d.logDensity y θ' - d.logDensity y θ = 0 := h0
    rw [h0', Real.exp_zero]
    simp
  rw [withDensity_congr_ae this, withDensity_one]

/-- The expected log density is highest for the true parameters, and equally high only for parameters that describe the same law. -/
theorem C125_proper (d : Dist) (θ θ' : ℕ → ℝ) (h : d.Admissible θ) (h' : d.Admissible θ')
    (hi : Integrable (fun y => (d.logpdf y θ).toReal) (d.law θ)) (hi' : Integrable (fun y => (d.logpdf y θ').toReal) (d.law θ)) :
    ∫ y, (d.logpdf y θ').toReal ∂d.law θ ≤ ∫ y, (d.logpdf y θ).toReal ∂d.law θ ∧
      (d.law θ' ≠ d.law θ → ∫ y, (d.logpdf y θ').toReal ∂d.law θ < ∫ y, (d.logpdf y θ).toReal ∂d.law θ) := by
  have hae : ∀ᵐ y ∂d.law θ, (d.logpdf y θ').toReal - (d.logpdf y θ).toReal = d.logDensity y θ' - d.logDensity y θ := by
    filter_upwards [law_mem d θ h] with y hy
    rw [logpdf_toReal h hy, logpdf_toReal h' hy]
  have hdiff : ∫ y, (d.logpdf y θ').toReal ∂d.law θ - ∫ y, (d.logpdf y θ).toReal ∂d.law θ =
      ∫ y, (d.logDensity y θ' - d.logDensity y θ) ∂d.law θ := by
    rw [← integral_sub hi' hi]
    exact integral_congr_ae hae
  obtain ⟨h1, h2⟩ := log_ratio_integral d θ θ' h h' ((hi'.sub hi).congr hae)
  exact ⟨by linarith, fun hne => by linarith [h2 hne]⟩

/-! ### No integrability needed: normal, log-normal and exponential classes -/

/-- The classes whose parameters are determined by the moments of the response or of its logarithm. -/
def ByMoments : Dist → Prop
  | normal | normalMeanVariance | exponential | logNormal | logNormalMedian => True
  | _ => False

theorem normalL_integrable {P : Measure ℝ} [IsProbabilityMeasure P] {m v : ℝ} (h : HasMoments P m v) (a s : ℝ) :
    Integrable (fun y => normalL y a s) P := by
  have e : (fun y => normalL y a s) = fun y => -(1 / (2 * s ^ 2)) * y ^ 2 + (a / s ^ 2 * y +
      (-Real.log s - Real.log (Real.sqrt (2 * Real.pi)) - a ^ 2 / (2 * s ^ 2))) := by
    funext y
    unfold normalL
    by_cases hs : s = 0
    · subst hs; simp
    · field_simp
      ring
  rw [e]
  exact (h.integrable_sq.const_mul _).add ((h.integrable.const_mul _).add (integrable_const _))

theorem byMoments_integrable {d : Dist} (hd : d.ByMoments) {θ : ℕ → ℝ} (h : d.Admissible θ) (η : ℕ → ℝ) :
    Integrable (fun y => d.logDensity y η) (d.law θ) := by
  haveI := law_isProbability d θ h
  have logn : ∀ (a s m v : ℝ), HasMoments ((d.law θ).map Real.log) m v → Integrable (fun y => logNormalL y a s) (d.law θ) := by
    intro a s m v hm
    haveI : IsProbabilityMeasure ((d.law θ).map Real.log) := Measure.isProbabilityMeasure_map Real.measurable_log.aemeasurable
    have h1 := (integrable_map_measure (by unfold normalL; fun_prop) Real.measurable_log.aemeasurable).1 (normalL_integrable hm a s)
    have h2 := (integrable_map_measure (by fun_prop) Real.measurable_log.aemeasurable).1 hm.integrable
    refine (h1.sub h2).congr (Filter.Eventually.of_forall fun y => ?_)
    simp only [Pi.sub_apply, Function.comp, normalL, logNormalL]
    ring
  cases d <;> simp only [ByMoments] at hd <;> simp only [logDensity]
  case normal => exact normalL_integrable (C52_moments _ θ h _ _ rfl) _ _
  case normalMeanVariance => exact normalL_integrable (C52_moments _ θ h _ _ rfl) _ _
  case exponential =>
    have := (C52_moments _ θ h _ _ rfl).integrable
    unfold exponentialL
    exact ((this.div_const _).neg).sub (integrable_const _)
  case logNormal => exact logn _ _ _ _ (C52_log_moments _ θ h _ _ rfl)
  case logNormalMedian => exact logn _ _ _ _ (C52_log_moments _ θ h _ _ rfl)

theorem HasMoments_unique {P : Measure ℝ} {m v m' v' : ℝ} (h : HasMoments P m v) (h' : HasMoments P m' v') : m = m' ∧ v = v' := by
  have e : m = m' := h.mean.symm.trans h'.mean
  subst e
  exact ⟨rfl, h.variance.symm.trans h'.variance⟩

theorem law_inflated {d : Dist} {θ : ℕ → ℝ} (h : d.Admissible θ) {a : ℝ} (ha : a ∈ d.inflatedPoints) :
    d.law θ {a} = ENNReal.ofReal (Real.exp (d.logDensity a θ)) := by
  rw [law_withDensity d θ h, withDensity_apply _ (measurableSet_singleton a), lintegral_singleton]
  have : d.baseMeasure {a} = 1 := by
    unfold baseMeasure
    rw [Measure.add_apply, Measure.restrict_apply (measurableSet_singleton a)]
    have h0 : volume ({a} ∩ d.Responses) = 0 := measure_mono_null inter_subset_left (by simp)
    rw [h0, zero_add]
    cases d <;> simp only [inflatedPoints, List.mem_cons, List.not_mem_nil, or_false] at ha
    case betaInflated => rcases ha with rfl | rfl <;> simp [inflatedPoints]
    case betaInflatedZero => subst ha; simp [inflatedPoints]
    case zeroAdjustedGamma => subst ha; simp [inflatedPoints]
  rw [this, mul_one]

theorem logDensity_eq {d : Dist} (hinf : d.inflatedPoints = []) (ho : IsOpen d.Responses) {θ θ' : ℕ → ℝ} (h : d.Admissible θ)
    (h' : d.Admissible θ') (hc : ContinuousOn (fun y => d.logDensity y θ) d.Responses)
    (hc' : ContinuousOn (fun y => d.logDensity y θ') d.Responses) (he : d.law θ' = d.law θ) (y : ℝ) (hy : y ∈ d.Responses) :
    d.logDensity y θ' = d.logDensity y θ := by
  haveI := law_isProbability d θ' h'
  have m := logDensity_measurable d θ
  have m' := logDensity_measurable d θ'
  have hb : d.baseMeasure = volume.restrict d.Responses := by simp [baseMeasure, hinf]
  have e' := law_withDensity d θ' h'
  have e := law_withDensity d θ h
  rw [hb] at e e'
  have hae := (withDensity_eq_iff_of_sigmaFinite (by fun_prop) (by fun_prop)).1 (e'.symm.trans (he.trans e))
  have hae' : (fun y => d.logDensity y θ') =ᵐ[volume.restrict d.Responses] fun y => d.logDensity y θ := by
    filter_upwards [hae] with z hz
    exact Real.exp_injective ((ENNReal.ofReal_eq_ofReal_iff (Real.exp_pos _).le (Real.exp_pos _).le).1 hz)
  exact Measure.eqOn_open_of_ae_eq hae' ho hc' hc hy

theorem inverseGamma_identified {θ θ' : ℕ → ℝ} (h : inverseGamma.Admissible θ) (h' : inverseGamma.Admissible θ')
    (he : inverseGamma.law θ' = inverseGamma.law θ) : θ' 0 = θ 0 ∧ θ' 1 = θ 1 := by
  have hc : ∀ η : ℕ → ℝ, ContinuousOn (fun y => inverseGamma.logDensity y η) inverseGamma.Responses := by
    intro η
    simp only [logDensity, inverseGammaL]
    refine ((continuousOn_const.sub (continuousOn_const.mul ?_)).sub continuousOn_const).sub (continuousOn_const.div continuousOn_id ?_)
    · exact Real.continuousOn_log.mono fun y hy => ne_of_gt hy
    · exact fun y hy => ne_of_gt hy
  have key := logDensity_eq (d := inverseGamma) rfl isOpen_Ioi h h' (hc θ) (hc θ') he
  have k1 := key 1 (show (0 : ℝ) < 1 by norm_num)
  have k2 := key 2 (show (0 : ℝ) < 2 by norm_num)
  have k4 := key 4 (show (0 : ℝ) < 4 by norm_num)
  have l4 : Real.log 4 = 2 * Real.log 2 := by
    rw [show (4 : ℝ) = 2 ^ 2 by norm_num, Real.log_pow]
    norm_num
  have l2 : 0 < Real.log 2 := Real.log_pos (by norm_num)
  simp only [logDensity, inverseGammaL, l4, Real.log_one] at k1 k2 k4
  have hB : θ' 0 * (1 / θ' 1 ^ 2 + 1) = θ 0 * (1 / θ 1 ^ 2 + 1) := by linarith
  have hA : (1 / θ' 1 ^ 2 + 1) * Real.log 2 = (1 / θ 1 ^ 2 + 1) * Real.log 2 := by linarith
  have hA' := mul_right_cancel₀ l2.ne' hA
  have hs : 1 / θ' 1 ^ 2 = 1 / θ 1 ^ 2 := by linarith
  have h1 : θ' 1 = θ 1 := by
    rw [div_eq_div_iff (pow_pos h'.2 2).ne' (pow_pos h.2 2).ne'] at hs
    exact (sq_eq_sq₀ h'.2.le h.2.le).1 (by linarith)
  rw [hA'] at hB
  have hp : 0 < 1 / θ 1 ^ 2 + 1 := by positivity
  exact ⟨mul_right_cancel₀ hp.ne' hB, h1⟩

theorem log_curves {A A' a a' : ℝ} (hA : 0 < A) (ha : 0 < a) (hA' : 0 < A') (ha' : 0 < a')
    (he : ∀ t : ℝ, 0 ≤ t → A' * Real.log (1 + t * a') = A * Real.log (1 + t * a)) : A' = A ∧ a' = a := by
  have hd : ∀ {B b : ℝ}, 0 < b → ∀ t : ℝ, 0 < t → HasDerivAt (fun t => B * Real.log (1 + t * b)) (B * (b / (1 + t * b))) t := by
    intro B b hb t ht
    have : HasDerivAt (fun t : ℝ => 1 + t * b) b t := by simpa using ((hasDerivAt_id t).mul_const b).const_add 1
    exact (this.log (by positivity)).const_mul B
  have key : ∀ t : ℝ, 0 < t → A' * a' * (1 + t * a) = A * a * (1 + t * a') := by
    intro t ht
    have heq : (fun t => A' * Real.log (1 + t * a')) =ᶠ[nhds t] fun t => A * Real.log (1 + t * a) := by
      filter_upwards [lt_mem_nhds ht] with u hu
      exact he u (le_of_lt hu)
    have := ((hd (B := A') ha' t ht).congr_of_eventuallyEq heq.symm).unique (hd (B := A) ha t ht)
    have p : 0 < 1 + t * a := by positivity
    have p' : 0 < 1 + t * a' := by positivity
    field_simp at this
    linarith
  have k1 := key 1 one_pos
  have k2 := key 2 two_pos
  have hAA : A' * (a * a') = A * (a * a') := by linarith
  have e := mul_right_cancel₀ (mul_pos ha ha').ne' hAA
  refine ⟨e, ?_⟩
  rw [e] at k1 k2
  exact mul_left_cancel₀ hA.ne' (by linarith)

theorem studentT_identified {θ θ' : ℕ → ℝ} (h : studentT.Admissible θ) (h' : studentT.Admissible θ')
    (he : studentT.law θ' = studentT.law θ) : θ' 0 = θ 0 ∧ θ' 1 = θ 1 ∧ θ' 2 = θ 2 := by
  have hc : ∀ η : ℕ → ℝ, studentT.Admissible η → ContinuousOn (fun y => studentT.logDensity y η) studentT.Responses := by
    intro η hη
    have h2 := hη.2
    simp only [logDensity, studentL]
    refine Continuous.continuousOn ?_
    refine (continuous_const.sub (continuous_const.mul (Continuous.log (by fun_prop) fun y => ?_))).sub continuous_const
    positivity
  have key : ∀ y : ℝ, studentL y (θ' 0) (θ' 1) (θ' 2) = studentL y (θ 0) (θ 1) (θ 2) :=
    fun y => logDensity_eq (d := studentT) rfl isOpen_univ h h' (hc θ h) (hc θ' h') he y (mem_univ y)
  have top : ∀ (m s ν y : ℝ), 0 < s → 0 < ν → y ≠ m → studentL y m s ν < studentL m m s ν := by
    intro m s ν y hs hν hy
    have hz : 0 < ((y - m) / s) ^ 2 / ν := div_pos (by have := div_ne_zero (sub_ne_zero.2 hy) hs.ne'; positivity) hν
    have := mul_pos (show 0 < (ν + 1) / 2 by positivity) (Real.log_pos (show 1 < 1 + ((y - m) / s) ^ 2 / ν by linarith))
    simp only [studentL, sub_self, zero_div, ne_eq, OfNat.ofNat_ne_zero, not_false_eq_true, zero_pow, add_zero, Real.log_one, mul_zero]
    linarith
  have h0 : θ' 0 = θ 0 := by
    by_contra hne
    have t1 := top (θ 0) (θ 1) (θ 2) (θ' 0) h.1 h.2 hne
    have t2 := top (θ' 0) (θ' 1) (θ' 2) (θ 0) h'.1 h'.2 (Ne.symm hne)
    linarith [key (θ 0), key (θ' 0)]
  have hν := h.2
  have hν' := h'.2
  have hs := h.1
  have hs' := h'.1
  have sqr : ∀ t m s ν : ℝ, 0 ≤ t → ((m + Real.sqrt t - m) / s) ^ 2 / ν = t * (1 / (s ^ 2 * ν)) := by
    intro t m s ν ht
    rw [add_sub_cancel_left, div_pow, Real.sq_sqrt ht]
    field_simp
  obtain ⟨eA, ea⟩ := log_curves (A := (θ 2 + 1) / 2) (A' := (θ' 2 + 1) / 2) (a := 1 / (θ 1 ^ 2 * θ 2)) (a' := 1 / (θ' 1 ^ 2 * θ' 2))
    (by positivity) (by positivity) (by positivity) (by positivity) (by
      intro t ht
      have k0 := key (θ 0)
      have kt := key (θ 0 + Real.sqrt t)
      rw [h0] at k0 kt
      simp only [studentL, sqr t _ _ _ ht, sub_self, zero_div, ne_eq, OfNat.ofNat_ne_zero, not_false_eq_true, zero_pow, add_zero,
        Real.log_one, mul_zero] at k0 kt
      linarith)
  have e2 : θ' 2 = θ 2 := by linarith
  refine ⟨h0, ?_, e2⟩
  rw [e2, div_eq_div_iff (by positivity) (by positivity)] at ea
  exact (sq_eq_sq₀ hs'.le hs.le).1 (mul_right_cancel₀ hν.ne' (by linarith))

theorem gaussian_Iic_injective {a b : ℝ} (h : gaussianReal 0 1 (Iic a) = gaussianReal 0 1 (Iic b)) : a = b := by
  have key : ∀ {x z : ℝ}, x < z → gaussianReal 0 1 (Iic x) < gaussianReal 0 1 (Iic z) := by
    intro x z hxz
    have hn : normal.law (Function.update 1 0 0) = gaussianReal 0 1 := by
      rw [law_normal _ (by simp [Admissible])]
      simp
    have hp := onLine_law_pos (d := normal) trivial (Function.update 1 0 0) (by simp [Admissible]) hxz
    rw [hn] at hp
    rw [← Iic_union_Ioc_eq_Iic hxz.le, measure_union (by rw [disjoint_left]; intro u hu hv; exact absurd hv.1 (not_lt.2 hu)) measurableSet_Ioc]
    exact ENNReal.lt_add_right (measure_ne_top _ _) hp.ne'
  rcases lt_trichotomy a b with hl | hl | hl
  · exact absurd h (key hl).ne
  · exact hl
  · exact absurd h (key hl).ne'

theorem sinh_curves {m s ν τ m' s' ν' τ' : ℝ} (hs : 0 < s) (hs' : 0 < s') (hτ : 0 < τ) (hτ' : 0 < τ')
    (he : ∀ z : ℝ, m' + s' * Real.sinh ((z - ν') / τ') = m + s * Real.sinh ((z - ν) / τ)) : m' = m ∧ s' = s ∧ ν' = ν ∧ τ' = τ := by
  have second : ∀ m s ν τ z : ℝ, (m + s * Real.sinh ((z + 1 - ν) / τ)) + (m + s * Real.sinh ((z - 1 - ν) / τ)) =
      2 * m + 2 * Real.cosh (1 / τ) * (s * Real.sinh ((z - ν) / τ)) := by
    intro m s ν τ z
    rw [show (z + 1 - ν) / τ = (z - ν) / τ + 1 / τ by ring, show (z - 1 - ν) / τ = (z - ν) / τ - 1 / τ by ring, Real.sinh_add, Real.sinh_sub]
    ring
  have k : ∀ z, 2 * m' + 2 * Real.cosh (1 / τ') * (s' * Real.sinh ((z - ν') / τ')) =
      2 * m + 2 * Real.cosh (1 / τ) * (s * Real.sinh ((z - ν) / τ)) := by
    intro z
    rw [← second, ← second, he (z + 1), he (z - 1)]
  -- at z = ν and z = ν + τ
  have a0 := he ν
  have a1 := he (ν + τ)
  have b0 := k ν
  have b1 := k (ν + τ)
  simp only [sub_self, zero_div, Real.sinh_zero, mul_zero, add_zero, add_sub_cancel_left, div_self hτ.ne'] at a0 a1 b0 b1
  have hpos : 0 < s * Real.sinh 1 := mul_pos hs (Real.sinh_pos_iff.2 one_pos)
  have hcosh : Real.cosh (1 / τ') = Real.cosh (1 / τ) := by
    have e : (Real.cosh (1 / τ') - Real.cosh (1 / τ)) * (s * Real.sinh 1) = 0 := by
      have e0 : s' * Real.sinh ((ν - ν') / τ') = m - m' := by linarith
      have e1 : s' * Real.sinh ((ν + τ - ν') / τ') = m + s * Real.sinh 1 - m' := by linarith
      rw [e0] at b0
      rw [e1] at b1
      nlinarith
    rcases mul_eq_zero.1 e with e | e
    · linarith
    · exact absurd e hpos.ne'
  have hτe : τ' = τ := by
    have h1 := Real.cosh_strictMonoOn.injOn (show (0 : ℝ) ≤ 1 / τ' by positivity) (show (0 : ℝ) ≤ 1 / τ by positivity) hcosh
    rw [div_eq_div_iff hτ'.ne' hτ.ne'] at h1
    linarith
  have hc1 : 1 < Real.cosh (1 / τ) := Real.one_lt_cosh.2 (by positivity)
  have hm : m' = m := by
    have e0 : s' * Real.sinh ((ν - ν') / τ') = m - m' := by linarith
    rw [e0, hcosh] at b0
    have : (m - m') * (Real.cosh (1 / τ) - 1) = 0 := by nlinarith
    rcases mul_eq_zero.1 this with e | e
    · linarith
    · linarith
  have hν : ν' = ν := by
    rw [hm] at a0
    have : s' * Real.sinh ((ν - ν') / τ') = 0 := by linarith
    rcases mul_eq_zero.1 this with e | e
    · exact absurd e hs'.ne'
    · rw [Real.sinh_eq_zero, div_eq_zero_iff] at e
      rcases e with e | e
      · linarith
      · exact absurd e hτ'.ne'
  refine ⟨hm, ?_, hν, hτe⟩
  rw [hm, hν, hτe, add_sub_cancel_left, div_self hτ.ne'] at a1
  exact mul_right_cancel₀ (Real.sinh_pos_iff.2 one_pos).ne' (by linarith)

theorem jsu_identified {b : Bool} {θ θ' : ℕ → ℝ} (h : (jsu b).Admissible θ) (h' : (jsu b).Admissible θ')
    (he : (jsu b).law θ' = (jsu b).law θ) : θ' 0 = θ 0 ∧ θ' 1 = θ 1 ∧ θ' 2 = θ 2 ∧ θ' 3 = θ 3 := by
  have hIic : ∀ η : ℕ → ℝ, (jsu b).Admissible η → ∀ y : ℝ,
      (jsu b).law η (Iic y) = gaussianReal 0 1 (Iic (η 2 + η 3 * Real.arsinh ((y - η 0) / η 1))) := by
    intro η hη y
    rw [law_jsu b η hη, Measure.map_apply (by fun_prop) measurableSet_Iic]
    congr 1
    ext z
    simp only [mem_preimage, mem_Iic]
    rw [← le_sub_iff_add_le', mul_comm, ← le_div_iff₀ hη.1, ← Real.arsinh_le_arsinh, Real.arsinh_sinh, div_le_iff₀ hη.2]
    constructor <;> intro hz <;> linarith
  refine sinh_curves h.1 h'.1 h.2 h'.2 fun z => ?_
  set y := θ 0 + θ 1 * Real.sinh ((z - θ 2) / θ 3) with hy
  have e := gaussian_Iic_injective ((hIic θ' h' y).symm.trans ((congrArg (fun μ : Measure ℝ => μ (Iic y)) he).trans (hIic θ h y)))
  have e1 : θ 2 + θ 3 * Real.arsinh ((y - θ 0) / θ 1) = z := by
    rw [hy, add_sub_cancel_left, mul_div_cancel_left₀ _ h.1.ne', Real.arsinh_sinh, mul_div_cancel₀ _ h.2.ne']
    ring
  rw [e1] at e
  rw [← e, add_sub_cancel_left, mul_div_cancel_left₀ _ h'.2.ne', Real.sinh_arsinh, mul_div_cancel₀ _ h'.1.ne']
  ring

/-- Different parameters describe different laws. -/
theorem C125_identified (d : Dist) (θ θ' : ℕ → ℝ) (h : d.Admissible θ) (h' : d.Admissible θ') (k : ℕ)
    (hk : k < d.nParams) (hne : θ' k ≠ θ k) : d.law θ' ≠ d.law θ := by
  intro he
  refine hne ?_
  have sq : ∀ {a b : ℝ}, 0 < a → 0 < b → a ^ 2 = b ^ 2 → a = b := fun ha hb hab => (sq_eq_sq₀ ha.le hb.le).1 hab
  have mom : ∀ {m v m' v' : ℝ}, d.moments θ = some (m, v) → d.moments θ' = some (m', v') → m' = m ∧ v' = v := fun e e' =>
    HasMoments_unique (he ▸ C52_moments _ θ' h' _ _ e') (C52_moments _ θ h _ _ e)
  have lmom : ∀ {m v m' v' : ℝ}, d.logMoments θ = some (m, v) → d.logMoments θ' = some (m', v') → m' = m ∧ v' = v := fun e e' =>
    HasMoments_unique (he ▸ C52_log_moments _ θ' h' _ _ e') (C52_log_moments _ θ h _ _ e)
  have atom : ∀ a ∈ d.inflatedPoints, d.logDensity a θ' = d.logDensity a θ := by
    intro a ha
    have := congrArg (fun μ : Measure ℝ => μ {a}) he
    simp only [law_inflated h ha, law_inflated h' ha] at this
    exact Real.exp_injective ((ENNReal.ofReal_eq_ofReal_iff (Real.exp_pos _).le (Real.exp_pos _).le).1 this)
  have two : ∀ {n : ℕ}, n = 2 → θ' 0 = θ 0 → θ' 1 = θ 1 → k < n → θ' k = θ k := by
    intro n hn e0 e1 hk
    subst hn
    interval_cases k
    · exact e0
    · exact e1
  cases d
  case normal =>
    have := mom rfl rfl
    exact two rfl this.1 (sq h' h this.2) hk
  case normalMeanVariance =>
    have := mom rfl rfl
    exact two rfl this.1 this.2 hk
  case exponential =>
    have e := mom rfl rfl
    have : k = 0 := Nat.lt_one_iff.1 hk
    subst this
    exact e.1
  case logNormal =>
    have := lmom rfl rfl
    exact two rfl this.1 (sq h' h this.2) hk
  case logNormalMedian =>
    have := lmom rfl rfl
    exact two rfl (Real.log_injOn_pos h'.1 h.1 this.1) (sq h'.2 h.2 this.2) hk
  case gamma =>
    obtain ⟨e0, e1⟩ := mom rfl rfl
    rw [e0] at e1
    exact two rfl e0 (sq h'.2 h.2 (mul_right_cancel₀ (pow_pos h.1 2).ne' e1)) hk
  case beta =>
    obtain ⟨e0, e1⟩ := mom rfl rfl
    rw [e0] at e1
    exact two rfl e0 (sq h'.2.1 h.2.1 (mul_right_cancel₀ (mul_pos h.1.1 (sub_pos.2 h.1.2)).ne' e1)) hk
  case inverseGaussian =>
    obtain ⟨e0, e1⟩ := mom rfl rfl
    rw [e0] at e1
    exact two rfl e0 (sq h'.2 h.2 (mul_right_cancel₀ (pow_pos h.1 3).ne' e1)) hk
  case logistic =>
    obtain ⟨e0, e1⟩ := mom rfl rfl
    exact two rfl e0 (sq h' h (mul_left_cancel₀ (pow_pos Real.pi_pos 2).ne' (by linarith))) hk
  case gumbel =>
    obtain ⟨e0, e1⟩ := mom rfl rfl
    have es := sq h' h (mul_left_cancel₀ (pow_pos Real.pi_pos 2).ne' (by linarith))
    rw [es] at e0
    exact two rfl (by linarith) es hk
  case reverseGumbel =>
    obtain ⟨e0, e1⟩ := mom rfl rfl
    have es := sq h' h (mul_left_cancel₀ (pow_pos Real.pi_pos 2).ne' (by linarith))
    rw [es] at e0
    exact two rfl (by linarith) es hk
  case zeroAdjustedGamma =>
    have e2 := atom 0 (by simp [inflatedPoints])
    simp only [logDensity, if_true] at e2
    have e2' : θ' 2 = θ 2 := Real.log_injOn_pos h'.2.1 h.2.1 e2
    obtain ⟨e0, e1⟩ := mom rfl rfl
    have hp : 1 - θ 2 ≠ 0 := (sub_pos.2 h.2.2).ne'
    rw [e2'] at e0 e1
    have e0' := mul_left_cancel₀ hp e0
    rw [e0'] at e1
    have e1' := mul_left_cancel₀ (mul_ne_zero hp (pow_pos h.1.1 2).ne') e1
    have hk3 : k < 3 := hk
    interval_cases k
    · exact e0'
    · exact sq h'.1.2 h.1.2 (by linarith)
    · exact e2'
  case betaInflatedZero =>
    have e2 := atom 0 (by simp [inflatedPoints])
    simp only [logDensity, if_true] at e2
    have hn : 0 < θ 2 := h.2.2
    have hn' : 0 < θ' 2 := h'.2.2
    have e2' : θ' 2 = θ 2 := by
      rw [← Real.log_div hn.ne' (by linarith), ← Real.log_div hn'.ne' (by linarith)] at e2
      have := Real.log_injOn_pos (show 0 < θ' 2 / (1 + θ' 2) by positivity) (show 0 < θ 2 / (1 + θ 2) by positivity) e2
      rw [div_eq_div_iff (by linarith) (by linarith)] at this
      linarith
    obtain ⟨e0, e1⟩ := mom rfl rfl
    have hp : 1 - θ 2 / (1 + θ 2) ≠ 0 := by
      rw [show 1 - θ 2 / (1 + θ 2) = 1 / (1 + θ 2) by field_simp; ring]
      positivity
    rw [e2'] at e0 e1
    have e0' := mul_left_cancel₀ hp e0
    rw [e0'] at e1
    have e1' := mul_left_cancel₀ hp (sub_left_inj.1 e1)
    have e1'' := mul_right_cancel₀ (mul_pos h.1.1 (sub_pos.2 h.1.2)).ne' (add_right_cancel e1')
    have hk3 : k < 3 := hk
    interval_cases k
    · exact e0'
    · exact sq h'.2.1.1 h.2.1.1 e1''
    · exact e2'
  case betaInflated =>
    have e2 := atom 0 (by simp [inflatedPoints])
    have e3 := atom 1 (by simp [inflatedPoints])
    simp only [logDensity, if_true, one_ne_zero, if_false] at e2 e3
    have hn : 0 < θ 2 := h.2.2.1
    have hn' : 0 < θ' 2 := h'.2.2.1
    have ht : 0 < θ 3 := h.2.2.2
    have ht' : 0 < θ' 3 := h'.2.2.2
    rw [← Real.log_div hn.ne' (by linarith), ← Real.log_div hn'.ne' (by linarith)] at e2
    rw [← Real.log_div ht.ne' (by linarith), ← Real.log_div ht'.ne' (by linarith)] at e3
    have f2 := Real.log_injOn_pos (show 0 < θ' 2 / (1 + θ' 2 + θ' 3) by positivity) (show 0 < θ 2 / (1 + θ 2 + θ 3) by positivity) e2
    have f3 := Real.log_injOn_pos (show 0 < θ' 3 / (1 + θ' 2 + θ' 3) by positivity) (show 0 < θ 3 / (1 + θ 2 + θ 3) by positivity) e3
    have hD : (1 : ℝ) / (1 + θ' 2 + θ' 3) = 1 / (1 + θ 2 + θ 3) := by
      have a1 : (1 : ℝ) / (1 + θ' 2 + θ' 3) = 1 - θ' 2 / (1 + θ' 2 + θ' 3) - θ' 3 / (1 + θ' 2 + θ' 3) := by field_simp; ring
      have a2 : (1 : ℝ) / (1 + θ 2 + θ 3) = 1 - θ 2 / (1 + θ 2 + θ 3) - θ 3 / (1 + θ 2 + θ 3) := by field_simp; ring
      rw [a1, a2, f2, f3]
    have hD' : 1 + θ' 2 + θ' 3 = 1 + θ 2 + θ 3 := by
      rw [div_eq_div_iff (by linarith) (by linarith)] at hD
      linarith
    rw [hD'] at f2 f3
    have e2' : θ' 2 = θ 2 := (div_left_inj' (by linarith)).1 f2
    have e3' : θ' 3 = θ 3 := (div_left_inj' (by linarith)).1 f3
    obtain ⟨e0, e1⟩ := mom rfl rfl
    have hp : 1 - θ 2 / (1 + θ 2 + θ 3) - θ 3 / (1 + θ 2 + θ 3) ≠ 0 := by
      rw [show 1 - θ 2 / (1 + θ 2 + θ 3) - θ 3 / (1 + θ 2 + θ 3) = 1 / (1 + θ 2 + θ 3) by field_simp; ring]
      positivity
    rw [e2', e3'] at e0 e1
    have e0' := mul_left_cancel₀ hp (add_right_cancel e0)
    rw [e0'] at e1
    have e1' := mul_left_cancel₀ hp (add_right_cancel (sub_left_inj.1 e1))
    have e1'' := mul_right_cancel₀ (mul_pos h.1.1 (sub_pos.2 h.1.2)).ne' (add_right_cancel e1')
    have hk4 : k < 4 := hk
    interval_cases k
    · exact e0'
    · exact sq h'.2.1.1 h.2.1.1 e1''
    · exact e2'
    · exact e3'
  case inverseGamma =>
    obtain ⟨e0, e1⟩ := inverseGamma_identified h h' he
    exact two rfl e0 e1 hk
  case studentT =>
    obtain ⟨e0, e1, e2⟩ := studentT_identified h h' he
    have hk3 : k < 3 := hk
    interval_cases k
    · exact e0
    · exact e1
    · exact e2
  case jsu =>
    obtain ⟨e0, e1, e2, e3⟩ := jsu_identified h h' he
    have hk4 : k < 4 := hk
    interval_cases k
    · exact e0
    · exact e1
    · exact e2
    · exact e3

/-- Every wrong parameter loses on average: what its log density gains on some responses is finite and less than what it loses on the
others. -/
theorem C125_gains_and_losses (d : Dist) (θ θ' : ℕ → ℝ) (h : d.Admissible θ) (h' : d.Admissible θ') (k : ℕ) (hk : k < d.nParams)
    (hne : θ' k ≠ θ k) :
    ∫⁻ y, ENNReal.ofReal ((d.logpdf y θ').toReal - (d.logpdf y θ).toReal) ∂d.law θ ≤ 1 ∧
      ∫⁻ y, ENNReal.ofReal ((d.logpdf y θ').toReal - (d.logpdf y θ).toReal) ∂d.law θ <
        ∫⁻ y, ENNReal.ofReal ((d.logpdf y θ).toReal - (d.logpdf y θ').toReal) ∂d.law θ := by
  haveI := law_isProbability d θ h
  haveI := law_isProbability d θ' h'
  have m := logDensity_measurable d θ
  have m' := logDensity_measurable d θ'
  set u : ℝ → ℝ := fun y => d.logDensity y θ' - d.logDensity y θ with hu
  have hum : Measurable u := m'.sub m
  have e1 : ∫⁻ y, ENNReal.ofReal ((d.logpdf y θ').toReal - (d.logpdf y θ).toReal) ∂d.law θ = ∫⁻ y, ENNReal.ofReal (u y) ∂d.law θ := by
    refine lintegral_congr_ae ?_
    filter_upwards [law_mem d θ h] with y hy
    rw [logpdf_toReal h hy, logpdf_toReal h' hy]
  have e2 : ∫⁻ y, ENNReal.ofReal ((d.logpdf y θ).toReal - (d.logpdf y θ').toReal) ∂d.law θ = ∫⁻ y, ENNReal.ofReal (-u y) ∂d.law θ := by
    refine lintegral_congr_ae ?_
    filter_upwards [law_mem d θ h] with y hy
    rw [logpdf_toReal h hy, logpdf_toReal h' hy, hu]
    simp only [neg_sub]
  rw [e1, e2]
  have hone : ∫⁻ y, ENNReal.ofReal (Real.exp (u y)) ∂d.law θ = 1 := by
    have := congrArg (fun μ : Measure ℝ => μ univ) (law_ratio d θ θ' h h')
    simp only [measure_univ, withDensity_apply _ MeasurableSet.univ, Measure.restrict_univ] at this
    exact this.symm
  have hpos : ∫⁻ y, ENNReal.ofReal (u y) ∂d.law θ ≤ 1 := by
    rw [← hone]
    refine lintegral_mono fun y => ENNReal.ofReal_le_ofReal ?_
    linarith [Real.add_one_le_exp (u y)]
  refine ⟨hpos, ?_⟩
  by_cases ht : ∫⁻ y, ENNReal.ofReal (-u y) ∂d.law θ = ⊤
  · rw [ht]
    exact hpos.trans_lt ENNReal.one_lt_top
  have hp' : ∫⁻ y, ENNReal.ofReal (u y) ∂d.law θ ≠ ⊤ := (hpos.trans_lt ENNReal.one_lt_top).ne
  have hui : Integrable u (d.law θ) := by
    refine ⟨hum.aestronglyMeasurable, ?_⟩
    rw [hasFiniteIntegral_iff_norm]
    have : ∀ y, ENNReal.ofReal ‖u y‖ ≤ ENNReal.ofReal (u y) + ENNReal.ofReal (-u y) := by
      intro y
      rw [Real.norm_eq_abs]
      rcases le_total 0 (u y) with hc | hc
      · rw [abs_of_nonneg hc]; exact le_self_add
      · rw [abs_of_nonpos hc]; exact le_add_self
    refine (lintegral_mono this).trans_lt ?_
    rw [lintegral_add_left hum.ennreal_ofReal]
    exact ENNReal.add_lt_top.2 ⟨hp'.lt_top, Ne.lt_top ht⟩
  have hlt := (log_ratio_integral d θ θ' h h' hui).2 (C125_identified d θ θ' h h' k hk hne)
  have := integral_eq_lintegral_pos_part_sub_lintegral_neg_part hui
  rw [← ENNReal.toReal_lt_toReal hp' ht]
  linarith

theorem affinity_lt_one (d : Dist) (θ θ' : ℕ → ℝ) (h : d.Admissible θ) (h' : d.Admissible θ') (hne : d.law θ' ≠ d.law θ) :
    ∫⁻ y, ENNReal.ofReal (Real.exp ((d.logDensity y θ' - d.logDensity y θ) / 2)) ∂d.law θ < 1 := by
  haveI := law_isProbability d θ h
  haveI := law_isProbability d θ' h'
  have m := logDensity_measurable d θ
  have m' := logDensity_measurable d θ'
  set u : ℝ → ℝ := fun y => d.logDensity y θ' - d.logDensity y θ with hu
  have hum : Measurable u := m'.sub m
  have hone : ∫⁻ y, ENNReal.ofReal (Real.exp (u y)) ∂d.law θ = 1 := by
    have := congrArg (fun μ : Measure ℝ => μ univ) (law_ratio d θ θ' h h')
    simp only [measure_univ, withDensity_apply _ MeasurableSet.univ, Measure.restrict_univ] at this
    exact this.symm
  have hei : Integrable (fun y => Real.exp (u y)) (d.law θ) := by
    refine ⟨(Real.measurable_exp.comp hum).aestronglyMeasurable, ?_⟩
    rw [hasFiniteIntegral_iff_ofReal (Filter.Eventually.of_forall fun y => (Real.exp_pos _).le), hone]
    exact ENNReal.one_lt_top
  have hint : ∫ y, Real.exp (u y) ∂d.law θ = 1 := by
    rw [integral_eq_lintegral_of_nonneg_ae (Filter.Eventually.of_forall fun y => (Real.exp_pos _).le)
      (Real.measurable_exp.comp hum).aestronglyMeasurable, hone, ENNReal.toReal_one]
  have hsq : ∀ y, Real.exp (u y) = Real.exp (u y / 2) ^ 2 := fun y => by
    rw [← Real.exp_nat_mul]
    congr 1
    push_cast
    ring
  have hmean : Integrable (fun y => (1 + Real.exp (u y)) / 2) (d.law θ) := ((integrable_const 1).add hei).div_const 2
  have hhm : Measurable fun y => Real.exp (u y / 2) := by fun_prop
  have hhi : Integrable (fun y => Real.exp (u y / 2)) (d.law θ) := by
    refine hmean.mono' hhm.aestronglyMeasurable (Filter.Eventually.of_forall fun y => ?_)
    rw [Real.norm_eq_abs, abs_of_pos (Real.exp_pos _), hsq y]
    nlinarith [sq_nonneg (Real.exp (u y / 2) - 1)]
  have hnn : 0 ≤ fun y => (1 + Real.exp (u y)) / 2 - Real.exp (u y / 2) := fun y => by
    simp only [Pi.zero_apply, hsq y]
    nlinarith [sq_nonneg (Real.exp (u y / 2) - 1)]
  have hgap : ∫ y, ((1 + Real.exp (u y)) / 2 - Real.exp (u y / 2)) ∂d.law θ = 1 - ∫ y, Real.exp (u y / 2) ∂d.law θ := by
    rw [integral_sub hmean hhi, integral_div, integral_add (integrable_const 1) hei, hint]
    simp
  have hge : 0 ≤ ∫ y, ((1 + Real.exp (u y)) / 2 - Real.exp (u y / 2)) ∂d.law θ := integral_nonneg hnn
  have hlt : ∫ y, Real.exp (u y / 2) ∂d.law θ < 1 := by
    refine lt_of_le_of_ne (by linarith) fun heq => hne ?_
    have hz : ∫ y, ((1 + Real.exp (u y)) / 2 - Real.exp (u y / 2)) ∂d.law θ = 0 := by linarith
    rw [integral_eq_zero_iff_of_nonneg hnn (hmean.sub hhi)] at hz
    rw [law_ratio d θ θ' h h']
    have : (fun y => ENNReal.ofReal (Real.exp (d.logDensity y θ' - d.logDensity y θ))) =ᵐ[d.law θ] 1 := by
      filter_upwards [hz] with y hy
      simp only [Pi.zero_apply, hsq y] at hy
      have h1 : (Real.exp (u y / 2) - 1) ^ 2 = 0 := by linarith
      have h2 : Real.exp (u y / 2) = 1 := by linarith [pow_eq_zero_iff (two_ne_zero) |>.1 h1]
      have h3 : Real.exp (d.logDensity y θ' - d.logDensity y θ) = 1 := by
        have := hsq y
        rw [h2, one_pow] at this
        exact this
      rw [h3]
      simp
    rw [withDensity_congr_ae this, withDensity_one]
  rw [← ofReal_integral_eq_lintegral_ofReal hhi (Filter.Eventually.of_forall fun y => (Real.exp_pos _).le)]
  exact ENNReal.ofReal_lt_one.2 hlt

/-- Given enough independent responses the sum of the log densities tells the true parameters from any wrong ones: the probability that
the wrong ones are at least level falls geometrically with the number of responses. -/
theorem C125_separates (d : Dist) (θ θ' : ℕ → ℝ) (h : d.Admissible θ) (h' : d.Admissible θ') (k : ℕ) (hk : k < d.nParams)
    (hne : θ' k ≠ θ k) :
    ∃ ρ : ENNReal, ρ < 1 ∧ ∀ n : ℕ, Measure.pi (fun _ : Fin n => d.law θ)
      {y | ∑ i, (d.logpdf (y i) θ).toReal ≤ ∑ i, (d.logpdf (y i) θ').toReal} ≤ ρ ^ n := by
  haveI := law_isProbability d θ h
  have m := logDensity_measurable d θ
  have m' := logDensity_measurable d θ'
  refine ⟨_, affinity_lt_one d θ θ' h h' (C125_identified d θ θ' h h' k hk hne), fun n => ?_⟩
  set r : ℝ → ENNReal := fun y => ENNReal.ofReal (Real.exp ((d.logDensity y θ' - d.logDensity y θ) / 2)) with hr
  have hrm : Measurable r := by rw [hr]; fun_prop
  have hprod : ∫⁻ y, ∏ i, r (y i) ∂Measure.pi (fun _ : Fin n => d.law θ) = (∫⁻ y, r y ∂d.law θ) ^ n := by
    rw [lintegral_prod_eq_prod_lintegral_of_indepFun Finset.univ (fun i (y : Fin n → ℝ) => r (y i))
      (iIndepFun_pi (X := fun _ => r) fun i => hrm.aemeasurable) fun i => hrm.comp (measurable_pi_apply i)]
    rw [Finset.prod_congr rfl fun i _ => (measurePreserving_eval (fun _ : Fin n => d.law θ) i).lintegral_comp hrm]
    simp
  have hae : ∀ᵐ y ∂Measure.pi (fun _ : Fin n => d.law θ), ∀ i, y i ∈ d.Responses :=
    ae_all_iff.2 fun i => (Measure.quasiMeasurePreserving_eval (fun _ : Fin n => d.law θ) i).ae (law_mem d θ h)
  have hle : Measure.pi (fun _ : Fin n => d.law θ) {y | ∑ i, (d.logpdf (y i) θ).toReal ≤ ∑ i, (d.logpdf (y i) θ').toReal} ≤
      Measure.pi (fun _ : Fin n => d.law θ) {y | 1 ≤ ∏ i, r (y i)} := by
    refine measure_mono_ae ?_
    filter_upwards [hae] with y hy hle
    have hle' : ∑ i, (d.logpdf (y i) θ).toReal ≤ ∑ i, (d.logpdf (y i) θ').toReal := hle
    have e : ∏ i, r (y i) = ENNReal.ofReal (Real.exp (∑ i, (d.logDensity (y i) θ' - d.logDensity (y i) θ) / 2)) := by
      rw [Real.exp_sum, ENNReal.ofReal_prod_of_nonneg fun i _ => (Real.exp_pos _).le]
    show 1 ≤ ∏ i, r (y i)
    rw [e, ENNReal.one_le_ofReal]
    simp only [logpdf_toReal h (hy _), logpdf_toReal h' (hy _)] at hle'
    rw [← Finset.sum_div, Finset.sum_sub_distrib]
    exact Real.one_le_exp (by linarith)
  refine hle.trans ((meas_ge_le_lintegral_div ?_ one_ne_zero ENNReal.one_ne_top).trans ?_)
  · exact (Finset.measurable_prod _ fun i _ => hrm.comp (measurable_pi_apply i)).aemeasurable
  · rw [hprod, div_one]

/-- For the normal, log-normal and exponential classes every wrong parameter lowers the expected log density. -/
theorem C125_strictly_proper (d : Dist) (hd : d.ByMoments) (θ θ' : ℕ → ℝ) (h : d.Admissible θ) (h' : d.Admissible θ') (k : ℕ)
    (hk : k < d.nParams) (hne : θ' k ≠ θ k) :
    Integrable (fun y => (d.logpdf y θ).toReal) (d.law θ) ∧ Integrable (fun y => (d.logpdf y θ').toReal) (d.law θ) ∧
      ∫ y, (d.logpdf y θ').toReal ∂d.law θ < ∫ y, (d.logpdf y θ).toReal ∂d.law θ := by
  have e : ∀ η, d.Admissible η → Integrable (fun y => (d.logpdf y η).toReal) (d.law θ) := fun η hη =>
    (byMoments_integrable hd h η).congr (by
      filter_upwards [law_mem d θ h] with y hy
      rw [logpdf_toReal hη hy])
  exact ⟨e θ h, e θ' h', (C125_proper d θ θ' h h' (e θ h) (e θ' h')).2 
    (C125_identified d θ θ' h h' k hk hne)⟩

/-- Normal responses with mean 1 and standard deviation 1: the mean 2 is a worse forecast than the mean 1 on average, and in ten responses it is ahead by 3 with
probability at most `exp (-3)`. -/
example : ∫ y, (normal.logpdf y (Function.update 1 0 2)).toReal ∂normal.law 1 < ∫ y, (normal.logpdf y 1).toReal ∂normal.law 1 ∧
    Measure.pi (fun _ : Fin 10 => normal.law 1)
      {y | (∑ i, (normal.logpdf (y i) 1).toReal) + 3 ≤ ∑ i, (normal.logpdf (y i) (Function.update 1 0 2)).toReal} ≤
      ENNReal.ofReal (Real.exp (-3)) :=
  have h : normal.Admissible 1 := by simp [Admissible]
  have h' : normal.Admissible (Function.update 1 0 2) := by simp [Admissible]
  ⟨(C125_strictly_proper normal trivial 1 _ h h' 0 (by decide) (by simp)).2.2, C125_wrong_wins normal _ _ (fun _ => h) (fun _ => h') 3⟩

example : betaInflated.law (Function.update half 3 2) ≠ betaInflated.law half :=
  C125_identified betaInflated half _ (half_admissible _)
    (by simp only [Admissible, half, Function.update]; norm_num) 3 (by decide) (by simp only [half, Function.update]; norm_num)

end Dist
end Ondil
