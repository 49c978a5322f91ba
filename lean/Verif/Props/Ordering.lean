import Verif.Props.UnitOfResponse
import Verif.Props.Relatives

/-!
# Quantiles rise with the first parameter, and intervals widen with the scale: C124
-/

namespace Ondil

open MeasureTheory ProbabilityTheory Set

namespace Dist

/-- A larger first parameter is a change of unit or origin that makes every response larger. -/
theorem changeUnit_of_lt {d : Dist} (hd : d.HasUnit) (hi : d ≠ inverseGaussian) {θ : ℕ → ℝ} (h : d.Admissible θ) {m : ℝ} (hm : θ 0 < m) :
    ∃ a b : ℝ, 0 < a ∧ (d.FixedOrigin → b = 0) ∧ Function.update θ 0 m = d.changeUnit a b θ ∧
      ∀ y ∈ d.Responses, y ≤ b + a * y ∧ (y ≠ 0 ∨ d.OnLine → y < b + a * y) := by
  have line : ∀ y : ℝ, y ≤ (m - θ 0) + 1 * y ∧ (y ≠ 0 ∨ d.OnLine → y < (m - θ 0) + 1 * y) :=
    fun y => ⟨by linarith, fun _ => by linarith⟩
  have pos : ¬ d.OnLine → ∀ a : ℝ, 1 < a → ∀ y : ℝ, 0 ≤ y → y ≤ 0 + a * y ∧ (y ≠ 0 ∨ d.OnLine → y < 0 + a * y) := by
    intro ho a ha y hy
    refine ⟨by nlinarith, fun hc => ?_⟩
    have hy' : 0 < y := lt_of_le_of_ne hy (Ne.symm (hc.resolve_right ho))
    nlinarith
  have quot : 0 < θ 0 → 1 < m / θ 0 ∧ m / θ 0 * θ 0 = m := fun h0 => ⟨(one_lt_div h0).2 hm, div_mul_cancel₀ _ h0.ne'⟩
  cases d <;> simp only [HasUnit] at hd
  case inverseGaussian => exact absurd rfl hi
  case logNormal =>
    have h1 : 1 < Real.exp (m - θ 0) := Real.one_lt_exp_iff.2 (by linarith)
    exact ⟨_, 0, Real.exp_pos (m - θ 0), fun _ => rfl, by simp [changeUnit], fun y hy => pos id _ h1 y (le_of_lt hy)⟩
  case gamma =>
    obtain ⟨h1, h2⟩ := quot h.1
    exact ⟨_, 0, zero_lt_one.trans h1, fun _ => rfl, by simp [changeUnit, h2], fun y hy => pos id _ h1 y (le_of_lt hy)⟩
  case logNormalMedian =>
    obtain ⟨h1, h2⟩ := quot h.1
    exact ⟨_, 0, zero_lt_one.trans h1, fun _ => rfl, by simp [changeUnit, h2], fun y hy => pos id _ h1 y (le_of_lt hy)⟩
  case exponential =>
    obtain ⟨h1, h2⟩ := quot h
    exact ⟨_, 0, zero_lt_one.trans h1, fun _ => rfl, by simp [changeUnit, h2], fun y hy => pos id _ h1 y (le_of_lt hy)⟩
  case inverseGamma =>
    obtain ⟨h1, h2⟩ := quot h.1
    exact ⟨_, 0, zero_lt_one.trans h1, fun _ => rfl, by simp [changeUnit, h2], fun y hy => pos id _ h1 y (le_of_lt hy)⟩
  case zeroAdjustedGamma =>
    obtain ⟨h1, h2⟩ := quot h.1.1
    exact ⟨_, 0, zero_lt_one.trans h1, fun _ => rfl, by simp [changeUnit, h2], fun y hy => pos id _ h1 y hy⟩
  all_goals
    refine ⟨1, m - θ 0, one_pos, False.elim, ?_, fun y _ => line y⟩
    funext k
    by_cases h0 : k = 0
    · subst h0; simp [changeUnit]
    · by_cases h1 : k = 1
      · subst h1; simp [changeUnit]
      · simp [changeUnit, h0, h1]

/-- A larger first parameter (the location, mean or median) gives larger quantiles at every level; only a quantile at the zero of the
zero adjusted gamma distribution may stay. -/
theorem C124_quantiles (ulp : ℝ) (d : Dist) (hd : d.HasUnit) (hi : d ≠ inverseGaussian) (θ : ℕ → ℝ) (h : d.Admissible θ) (m : ℝ)
    (hm : θ 0 < m) (q : ℝ) (hq0 : 0 < q) (hq1 : q < 1) :
    ∃ x x', d.ppf ulp q θ = .fin x ∧ d.ppf ulp q (Function.update θ 0 m) = .fin x' ∧ x ≤ x' ∧
      (d = zeroAdjustedGamma ∧ x = 0 ∨ x < x') := by
  obtain ⟨a, b, ha, hb, he, hy⟩ := changeUnit_of_lt hd hi h hm
  obtain ⟨x, hx, hx'⟩ := C122_ppf ulp ha b d hd hb θ h q hq0 hq1
  obtain ⟨v, hv, hr, -⟩ := ppf_quantile ulp d θ h hq0 hq1
  rw [hx] at hv
  cases hv
  refine ⟨x, _, hx, he ▸ hx', (hy x hr).1, ?_⟩
  by_cases hl : d.OnLine
  · exact .inr ((hy x hr).2 (.inr hl))
  by_cases h0 : x = 0
  · left
    refine ⟨?_, h0⟩
    subst h0
    cases d <;> simp only [HasUnit, OnLine, not_true_eq_false] at hd hl <;> simp [Responses] at hr ⊢
  · exact .inr ((hy x hr).2 (.inl h0))

/-- A larger first parameter gives smaller probabilities of staying below any response. -/
theorem C124_cdf (d : Dist) (hd : d.HasUnit) (hi : d ≠ inverseGaussian) (θ : ℕ → ℝ) (h : d.Admissible θ) (m : ℝ) (hm : θ 0 < m) (y : ℝ)
    (hy : y ∈ d.Responses) : ∃ F F', d.cdf y θ = .fin F ∧ d.cdf y (Function.update θ 0 m) = .fin F' ∧ F' ≤ F := by
  haveI := law_isProbability d θ h
  obtain ⟨a, b, ha, hb, he, hle⟩ := changeUnit_of_lt hd hi h hm
  refine ⟨_, _, C50_cdf d θ h y hy, by
    rw [he]; exact C50_cdf d _ (changeUnit_admissible ha b hd h) y hy, ENNReal.toReal_mono (measure_ne_top _ _) ?_⟩
  rw [C122_law ha b d hd hb θ h, Measure.map_apply (by fun_prop) measurableSet_Iic]
  refine measure_mono_ae ?_
  filter_upwards [law_ae_responses d θ] with z hz hzy
  exact (hle z hz).1.trans hzy

/-- For the classes on the whole line a larger second parameter (the scale, or the variance) makes every central interval between two
quantiles wider. -/
theorem C124_intervals (ulp : ℝ) (d : Dist) (hd : d.OnLine) (θ : ℕ → ℝ) (h : d.Admissible θ) (s : ℝ) (hs : θ 1 < s) (q r : ℝ)
    (hq0 : 0 < q) (hqr : q < r) (hr1 : r < 1) :
    ∃ x y x' y', d.ppf ulp q θ = .fin x ∧ d.ppf ulp r θ = .fin y ∧ d.ppf ulp q (Function.update θ 1 s) = .fin x' ∧
      d.ppf ulp r (Function.update θ 1 s) = .fin y' ∧ x < y ∧ y - x < y' - x' := by
  haveI := law_isProbability d θ h
  have hu : d.HasUnit := by cases d <;> simp only [OnLine] at hd <;> trivial
  have hf : ∀ b : ℝ, d.FixedOrigin → b = 0 := fun b hf => by
    cases d <;> simp only [OnLine] at hd <;> exact False.elim hf
  have hc : ∃ a b : ℝ, 1 < a ∧ Function.update θ 1 s = d.changeUnit a b θ := by
    have h1 : 0 < θ 1 := by
      cases d <;> simp only [OnLine] at hd <;> first | exact h | exact h.1
    by_cases hv : d = normalMeanVariance
    · subst hv
      have h2 : 1 < s / θ 1 := (one_lt_div h1).2 hs
      refine ⟨Real.sqrt (s / θ 1), θ 0 - Real.sqrt (s / θ 1) * θ 0, Real.lt_sqrt_of_sq_lt (by simpa using h2), ?_⟩
      funext k
      by_cases h0 : k = 0
      · subst h0; simp [changeUnit]
      · by_cases hk : k = 1
        · subst hk; simp [changeUnit, Real.sq_sqrt (zero_le_one.trans h2.le), div_mul_cancel₀ _ h1.ne']
        · simp [changeUnit, h0, hk]
    · refine ⟨s / θ 1, θ 0 - s / θ 1 * θ 0, (one_lt_div h1).2 hs, ?_⟩
      funext k
      by_cases h0 : k = 0
      · subst h0
        cases d <;> simp only [OnLine] at hd <;> first | exact absurd rfl hv | simp [changeUnit]
      · by_cases hk : k = 1
        · subst hk
          cases d <;> simp only [OnLine] at hd <;> first | exact absurd rfl hv | simp [changeUnit, div_mul_cancel₀ _ h1.ne']
        · cases d <;> simp only [OnLine] at hd <;> first | exact absurd rfl hv | simp [changeUnit, h0, hk]
  obtain ⟨a, b, ha, he⟩ := hc
  have ha0 : 0 < a := zero_lt_one.trans ha
  obtain ⟨x, hx, hx'⟩ := C122_ppf ulp ha0 b d hu (hf b) θ h q hq0 (hqr.trans hr1)
  obtain ⟨y, hy, hy'⟩ := C122_ppf ulp ha0 b d hu (hf b) θ h r (hq0.trans hqr) hr1
  have hxy : x < y := by
    obtain ⟨v, hv, -, hk, -⟩ := ppf_quantile ulp d θ h hq0 (hqr.trans hr1)
    obtain ⟨w, hw, -, hk', hlt⟩ := ppf_quantile ulp d θ h (hq0.trans hqr) hr1
    rw [hx] at hv
    rw [hy] at hw
    cases hv
    cases hw
    rw [onLine_responses hd] at hk hk'
    have hF := (hk' y (mem_univ _)).1 le_rfl
    refine lt_of_le_of_ne ((hk y (mem_univ _)).2 (hqr.le.trans hF)) fun hc => ?_
    obtain ⟨v, hv, -, -, hlt'⟩ := ppf_quantile ulp d θ h hq0 (hqr.trans hr1)
    rw [hx] at hv
    cases hv
    have : (d.law θ (Iic x)).toReal ≤ q := by
      refine le_trans (ENNReal.toReal_mono (measure_ne_top _ _) ?_) hlt'
      rw [← Iio_union_right]
      refine (measure_union_le _ _).trans ?_
      rw [onLine_law_singleton hd, add_zero]
    rw [hc] at this
    linarith
  refine ⟨x, y, _, _, hx, hy, he ▸ hx', he ▸ hy', hxy, ?_⟩
  nlinarith

/-! ### All classes, by the ratio of the densities -/

/-- If the density for `θ'` gains on the density for `θ` with growing responses, its law has the smaller distribution function. -/
theorem law_le_of_ratio {d : Dist} (hinf : d.inflatedPoints = []) {θ θ' : ℕ → ℝ} (h : d.Admissible θ) (h' : d.Admissible θ')
    (hr : ∀ y ∈ d.Responses, ∀ z ∈ d.Responses, y ≤ z → d.logDensity y θ' - d.logDensity y θ ≤ d.logDensity z θ' - d.logDensity z θ)
    {y : ℝ} (hy : y ∈ d.Responses) : d.law θ' (Iic y) ≤ d.law θ (Iic y) := by
  haveI := law_isProbability d θ h
  haveI := law_isProbability d θ' h'
  have hdens : ∀ {η : ℕ → ℝ}, d.Admissible η → ∀ z ∈ d.Responses, (d.pdf z η).toReal = Real.exp (d.logDensity z η) := by
    intro η hη z hz
    obtain ⟨p, hp, h1, h2, -⟩ := pdf_logpdf d z η hz hη
    rw [h1, ← h2, Real.exp_log hp]
    rfl
  have hlaw : ∀ η : ℕ → ℝ, d.law η = (volume.restrict d.Responses).withDensity fun y => ENNReal.ofReal (d.pdf y η).toReal := by
    intro η
    unfold Dist.law lawOf
    rw [hinf]
    simp
  have mono : ∀ {η ζ : ℕ → ℝ}, d.Admissible η → d.Admissible ζ → ∀ s : Set ℝ, MeasurableSet s →
      (∀ z ∈ s, z ∈ d.Responses → d.logDensity z η ≤ d.logDensity z ζ) → d.law η s ≤ d.law ζ s := by
    intro η ζ hη hζ s hs hle
    rw [hlaw, hlaw, withDensity_apply _ hs, withDensity_apply _ hs]
    refine lintegral_mono_ae ?_
    filter_upwards [ae_restrict_mem hs, ae_restrict_of_ae (ae_restrict_mem d.measurableSet_responses)] with z hz hzr
    refine ENNReal.ofReal_le_ofReal ?_
    rw [hdens hη z hzr, hdens hζ z hzr]
    exact Real.exp_le_exp.2 (hle z hz hzr)
  rcases le_total (d.logDensity y θ') (d.logDensity y θ) with hc | hc
  · exact mono h' h _ measurableSet_Iic fun z hz hzr => by linarith [hr z hzr y hy hz]
  · have h1 := mono h h' (Ioi y) measurableSet_Ioi fun z hz hzr => by linarith [hr y hy z hzr (le_of_lt hz)]
    rw [← compl_Ioi, prob_compl_eq_one_sub measurableSet_Ioi, prob_compl_eq_one_sub measurableSet_Ioi]
    exact tsub_le_tsub_left h1 1

theorem inverseGaussian_ratio {θ : ℕ → ℝ} (h : inverseGaussian.Admissible θ) {m : ℝ} (hm : θ 0 < m) (y : ℝ)
    (hy : y ∈ inverseGaussian.Responses) (z : ℝ) (hz : z ∈ inverseGaussian.Responses) (hyz : y ≤ z) :
    inverseGaussian.logDensity y (Function.update θ 0 m) - inverseGaussian.logDensity y θ ≤
      inverseGaussian.logDensity z (Function.update θ 0 m) - inverseGaussian.logDensity z θ := by
  have h0 := h.1
  have h1 := h.2
  have hm0 : 0 < m := h0.trans hm
  have e : ∀ x : ℝ, 0 < x → inverseGaussian.logDensity x (Function.update θ 0 m) - inverseGaussian.logDensity x θ =
      (1 / m - 1 / θ 0) / θ 1 ^ 2 + x * ((1 / θ 0 ^ 2 - 1 / m ^ 2) / (2 * θ 1 ^ 2)) := by
    intro x hx
    simp only [logDensity, inverseGaussianL, Function.update_self, ne_eq, one_ne_zero, not_false_eq_true, Function.update_of_ne]
    field_simp
    ring
  rw [e y hy, e z hz]
  have : 0 ≤ (1 / θ 0 ^ 2 - 1 / m ^ 2) / (2 * θ 1 ^ 2) := by
    refine div_nonneg (sub_nonneg.2 (one_div_le_one_div_of_le (by positivity) ?_)) (by positivity)
    exact pow_le_pow_left₀ h0.le hm.le 2
  nlinarith

theorem beta_ratio {θ : ℕ → ℝ} (h : Dist.beta.Admissible θ) {m : ℝ} (hm : θ 0 < m) (y : ℝ) (hy : y ∈ Dist.beta.Responses) (z : ℝ)
    (hz : z ∈ Dist.beta.Responses) (hyz : y ≤ z) :
    Dist.beta.logDensity y (Function.update θ 0 m) - Dist.beta.logDensity y θ ≤
      Dist.beta.logDensity z (Function.update θ 0 m) - Dist.beta.logDensity z θ := by
  obtain ⟨-, hs0, hs1⟩ := h
  have hc : 0 < (1 - θ 1 ^ 2) / θ 1 ^ 2 := div_pos (by nlinarith) (by positivity)
  have hA : betaA (θ 0) (θ 1) ≤ betaA m (θ 1) := by
    unfold betaA
    rw [mul_div_assoc, mul_div_assoc]
    exact mul_le_mul_of_nonneg_right hm.le hc.le
  have hB : betaB m (θ 1) ≤ betaB (θ 0) (θ 1) := by
    unfold betaB
    rw [mul_div_assoc, mul_div_assoc]
    exact mul_le_mul_of_nonneg_right (by linarith) hc.le
  have l1 : Real.log y ≤ Real.log z := Real.log_le_log hy.1 hyz
  have l2 : Real.log (1 - z) ≤ Real.log (1 - y) := Real.log_le_log (by linarith [hz.2]) (by linarith)
  simp only [logDensity, betaL, Function.update_self, ne_eq, one_ne_zero, not_false_eq_true, Function.update_of_ne]
  nlinarith [mul_le_mul_of_nonneg_left l1 (sub_nonneg.2 hA), mul_le_mul_of_nonneg_left l2 (sub_nonneg.2 hB)]

theorem betaCdf_le {θ : ℕ → ℝ} (h : Dist.beta.Admissible θ) {m : ℝ} (h' : Dist.beta.Admissible (Function.update θ 0 m)) (hm : θ 0 < m)
    {y : ℝ} (hy : y ∈ Dist.beta.Responses) : (innerBeta m (θ 1)).cdf y ≤ (innerBeta (θ 0) (θ 1)).cdf y := by
  haveI := law_isProbability _ θ h
  have e : ∀ η : ℕ → ℝ, Dist.beta.Admissible η → (innerBeta (η 0) (η 1)).cdf y = (Dist.beta.law η (Iic y)).toReal :=
    fun η hη => Flt.fin.inj (C50_cdf Dist.beta η hη y hy)
  have e' := e _ h'
  simp only [Function.update_self, ne_eq, one_ne_zero, not_false_eq_true, Function.update_of_ne] at e'
  rw [e', e θ h]
  exact ENNReal.toReal_mono (measure_ne_top _ _) (law_le_of_ratio rfl h h' (beta_ratio h hm) hy)

theorem innerBeta_eq {μ : ℝ} (h : μ ≠ 0) (σ : ℝ) :
    innerBeta μ σ = .beta (μ * (1 - σ ^ 2) / σ ^ 2) (μ * (1 - σ ^ 2) / σ ^ 2 * (1 - μ) / μ) 0 1 := by
  have : betaB μ σ = μ * (1 - σ ^ 2) / σ ^ 2 * (1 - μ) / μ := by
    unfold betaB
    field_simp
  rw [innerBeta, this]
  rfl

/-- For every class a larger first parameter gives smaller probabilities of staying below any response. -/
theorem C124_cdf_all (d : Dist) (θ : ℕ → ℝ) (h : d.Admissible θ) (m : ℝ) (h' : d.Admissible (Function.update θ 0 m)) (hm : θ 0 < m) (y : ℝ)
    (hy : y ∈ d.Responses) : ∃ F F', d.cdf y θ = .fin F ∧ d.cdf y (Function.update θ 0 m) = .fin F' ∧ F' ≤ F := by
  haveI := law_isProbability d θ h
  by_cases hu : d.HasUnit
  · by_cases hi : d = inverseGaussian
    · subst hi
      exact ⟨_, _, C50_cdf _ θ h y hy, C50_cdf _ _ h' y hy,
        ENNReal.toReal_mono (measure_ne_top _ _) (law_le_of_ratio rfl h h' (inverseGaussian_ratio h hm) hy)⟩
    · exact C124_cdf d hu hi θ h m hm y hy
  cases d <;> simp only [HasUnit, not_true_eq_false] at hu
  case beta =>
    exact ⟨_, _, C50_cdf _ θ h y hy, C50_cdf _ _ h' y hy,
      ENNReal.toReal_mono (measure_ne_top _ _) (law_le_of_ratio rfl h h' (beta_ratio h hm) hy)⟩
  case betaInflated =>
    have hD : 0 < 1 + θ 2 + θ 3 := by linarith [h.2.2.1, h.2.2.2]
    refine ⟨_, _, rfl, rfl, ?_⟩
    simp only [Function.update_self, ne_eq, one_ne_zero, not_false_eq_true, Function.update_of_ne, OfNat.ofNat_ne_zero]
    by_cases hy1 : 0 < y ∧ y < 1
    · have := betaCdf_le (θ := θ) ⟨h.1, h.2.1⟩ ⟨h'.1, h'.2.1⟩ hm (y := y) hy1
      unfold betaInflatedCdf
      simp only
      rw [innerBeta_eq h.1.1.ne', innerBeta_eq (h.1.1.trans hm).ne'] at this
      split_ifs <;> first | exact le_rfl | (gcongr)
    · rcases eq_or_lt_of_le hy.1 with h0 | h0
      · subst h0; simp [betaInflatedCdf]
      · have : y = 1 := le_antisymm hy.2 (not_lt.1 fun hc => hy1 ⟨h0, hc⟩)
        subst this; simp [betaInflatedCdf]
  case betaInflatedZero =>
    have hD : 0 < 1 + θ 2 := by linarith [h.2.2]
    refine ⟨_, _, rfl, rfl, ?_⟩
    simp only [Function.update_self, ne_eq, one_ne_zero, not_false_eq_true, Function.update_of_ne, OfNat.ofNat_ne_zero]
    rcases eq_or_lt_of_le hy.1 with h0 | h0
    · subst h0; simp [betaInflatedZeroCdf]
    · have := betaCdf_le (θ := θ) ⟨h.1, h.2.1⟩ ⟨h'.1, h'.2.1⟩ hm (y := y) ⟨h0, hy.2⟩
      unfold betaInflatedZeroCdf
      simp only
      rw [innerBeta_eq h.1.1.ne', innerBeta_eq (h.1.1.trans hm).ne'] at this
      split_ifs <;> first | exact le_rfl | (gcongr)

/-- For every class a larger first parameter gives quantiles that are not smaller, at every level. -/
theorem C124_quantiles_all (ulp : ℝ) (d : Dist) (θ : ℕ → ℝ) (h : d.Admissible θ) (m : ℝ) (h' : d.Admissible (Function.update θ 0 m))
    (hm : θ 0 < m) (q : ℝ) (hq0 : 0 < q) (hq1 : q < 1) :
    ∃ x x', d.ppf ulp q θ = .fin x ∧ d.ppf ulp q (Function.update θ 0 m) = .fin x' ∧ x ≤ x' := by
  obtain ⟨x, hx, hxr, hk, -⟩ := ppf_quantile ulp d θ h hq0 hq1
  obtain ⟨x', hx', hxr', hk', -⟩ := ppf_quantile ulp d _ h' hq0 hq1
  obtain ⟨F, F', h1, h2, hle⟩ := C124_cdf_all d θ h m h' hm x' hxr'
  rw [C50_cdf d θ h x' hxr'] at h1
  rw [C50_cdf d _ h' x' hxr'] at h2
  cases h1
  cases h2
  exact ⟨x, x', hx, hx', (hk x' hxr').2 (((hk' x' hxr').1 le_rfl).trans hle)⟩

example : betaInflated.Admissible half ∧ betaInflated.Admissible (Function.update half 0 (3 / 4)) ∧ half 0 < 3 / 4 := by
  refine ⟨half_admissible _, ?_, by norm_num [half]⟩
  simp [Admissible, half]
  norm_num

example : ∃ x x', studentT.ppf 1 (1 / 10) half = .fin x ∧ studentT.ppf 1 (1 / 10) (Function.update half 0 2) = .fin x' ∧ x ≤ x' ∧
    (studentT = zeroAdjustedGamma ∧ x = 0 ∨ x < x') :=
  C124_quantiles 1 studentT trivial (by simp) half (half_admissible _) 2 (by norm_num [half]) _ (by norm_num) (by norm_num)

example : normalMeanVariance.OnLine ∧ normalMeanVariance.Admissible half ∧ half 1 < 3 := ⟨trivial, half_admissible _, by norm_num [half]⟩

end Dist
end Ondil
