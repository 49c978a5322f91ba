import Verif.Spec.BestForecasts
import Verif.Props.Quantiles
import Verif.Props.Moments

/-!
# Predicted quantiles are best under the pinball loss, means under the squared error, and the cdf of a response is uniform: C126
-/

namespace Ondil

open MeasureTheory Set

theorem pinball_lipschitz {q : ℝ} (hq0 : 0 < q) (hq1 : q < 1) (x z y : ℝ) : |pinball q x y - pinball q z y| ≤ |x - z| := by
  unfold pinball
  split_ifs with h1 h2 h2 <;> rw [abs_le] <;> rcases abs_cases (x - z) with ⟨e, s⟩ | ⟨e, s⟩ <;> rw [e] <;> (try rw [not_le] at h1) <;>
    (try rw [not_le] at h2) <;> constructor <;> nlinarith

theorem pinball_measurable (q x : ℝ) : Measurable (pinball q x) := by
  unfold pinball
  exact Measurable.ite measurableSet_Ici (by fun_prop) (by fun_prop)

theorem pinball_above {q : ℝ} {x z : ℝ} (hzx : z ≤ x) (y : ℝ) :
    (x - z) * ((Iic z).indicator 1 y - q) ≤ pinball q x y - pinball q z y := by
  by_cases hy : y ≤ z
  · rw [indicator_of_mem (show y ∈ Iic z from hy), Pi.one_apply]
    unfold pinball
    rcases eq_or_lt_of_le hy with h | h
    · subst h
      rcases eq_or_lt_of_le hzx with h' | h'
      · subst h'; simp
      · rw [if_neg (not_le.2 h'), if_pos le_rfl]; nlinarith
    · rw [if_neg (not_le.2 (h.trans_le hzx)), if_neg (not_le.2 h)]; nlinarith
  · rw [indicator_of_notMem (show y ∉ Iic z from hy)]
    rw [not_le] at hy
    unfold pinball
    rw [if_pos hy.le]
    split_ifs with h
    · nlinarith
    · nlinarith [not_le.1 h]

theorem pinball_below {q : ℝ} {x z : ℝ} (hxz : x ≤ z) (y : ℝ) :
    (x - z) * ((Iio z).indicator 1 y - q) ≤ pinball q x y - pinball q z y := by
  by_cases hy : y < z
  · rw [indicator_of_mem (show y ∈ Iio z from hy), Pi.one_apply]
    unfold pinball
    rw [if_neg (not_le.2 hy)]
    split_ifs with h
    · nlinarith
    · nlinarith [not_le.1 h]
  · rw [indicator_of_notMem (show y ∉ Iio z from hy)]
    rw [not_lt] at hy
    unfold pinball
    rw [if_pos hy, if_pos (hxz.trans hy)]
    nlinarith

namespace Dist

/-- No forecast has a smaller expected pinball loss than the quantile returned by `ppf`. (The difference of the losses of two forecasts is
bounded, so its expectation exists for every class and all parameters.) -/
theorem C126_pinball (ulp : ℝ) (d : Dist) (θ : ℕ → ℝ) (h : d.Admissible θ) (q : ℝ) (hq0 : 0 < q) (hq1 : q < 1) (x : ℝ) :
    ∃ z, d.ppf ulp q θ = .fin z ∧ Integrable (fun y => pinball q x y - pinball q z y) (d.law θ) ∧
      0 ≤ ∫ y, (pinball q x y - pinball q z y) ∂d.law θ := by
  haveI := law_isProbability d θ h
  obtain ⟨z, hz, hzr, hk, hlt⟩ := ppf_quantile ulp d θ h hq0 hq1
  have hge := (hk z hzr).1 le_rfl
  have hint : Integrable (fun y => pinball q x y - pinball q z y) (d.law θ) := by
    refine (integrable_const |x - z|).mono' ((pinball_measurable q x).sub (pinball_measurable q z)).aestronglyMeasurable
      (Filter.Eventually.of_forall fun y => ?_)
    rw [Real.norm_eq_abs]
    exact pinball_lipschitz hq0 hq1 x z y
  have lower : ∀ s : Set ℝ, MeasurableSet s → Integrable (fun y => (x - z) * (s.indicator 1 y - q)) (d.law θ) ∧
      ∫ y, (x - z) * (s.indicator 1 y - q) ∂d.law θ = (x - z) * ((d.law θ s).toReal - q) := by
    intro s hs
    have i1 : Integrable (s.indicator (1 : ℝ → ℝ)) (d.law θ) := (integrable_const (1 : ℝ)).indicator hs
    refine ⟨(i1.sub (integrable_const q)).const_mul _, ?_⟩
    rw [integral_const_mul, integral_sub i1 (integrable_const q), integral_indicator_one hs]
    simp [measureReal_def]
  refine ⟨z, hz, hint, ?_⟩
  rcases le_total z x with hc | hc
  · obtain ⟨i, e⟩ := lower (Iic z) measurableSet_Iic
    have := integral_mono i hint (pinball_above (q := q) hc)
    rw [e] at this
    exact le_trans (mul_nonneg (by linarith) (by linarith)) this
  · obtain ⟨i, e⟩ := lower (Iio z) measurableSet_Iio
    have := integral_mono i hint (pinball_below (q := q) hc)
    rw [e] at this
    exact le_trans (mul_nonneg_of_nonpos_of_nonpos (by linarith) (by linarith)) this

/-- No forecast has a smaller expected squared error than the documented mean, and every other forecast has a larger one. -/
theorem C126_squared_error (d : Dist) (θ : ℕ → ℝ) (h : d.Admissible θ) (m v : ℝ) (hm : d.moments θ = some (m, v)) (x : ℝ) :
    ∫ y, (y - x) ^ 2 ∂d.law θ = ∫ y, (y - m) ^ 2 ∂d.law θ + (x - m) ^ 2 := by
  haveI := law_isProbability d θ h
  have H := C52_moments d θ h m v hm
  have i1 : Integrable (fun y => (y - m) ^ 2) (d.law θ) := by
    have : (fun y : ℝ => (y - m) ^ 2) = fun y => y ^ 2 - 2 * m * y + m ^ 2 := by funext y; ring
    rw [this]
    exact (H.integrable_sq.sub (H.integrable.const_mul _)).add (integrable_const _)
  have e : (fun y : ℝ => (y - x) ^ 2) = fun y => (y - m) ^ 2 + (2 * (m - x) * y + ((x - m) ^ 2 - 2 * (m - x) * m)) := by funext y; ring
  have i2 : Integrable (fun y => 2 * (m - x) * y + ((x - m) ^ 2 - 2 * (m - x) * m)) (d.law θ) :=
    (H.integrable.const_mul _).add (integrable_const _)
  rw [e, integral_add i1 i2, integral_add (H.integrable.const_mul _) (integrable_const _), integral_const_mul, H.mean]
  simp

/-- **C126.** No forecast has a smaller expected absolute error than the median `ppf(0.5)`.  The difference of the errors is integrable
even where the errors are not. -/
theorem C126_absolute_error (ulp : ℝ) (d : Dist) (θ : ℕ → ℝ) (h : d.Admissible θ) (x : ℝ) :
    ∃ z, d.ppf ulp (1 / 2) θ = .fin z ∧ Integrable (fun y => |y - x| - |y - z|) (d.law θ) ∧
      0 ≤ ∫ y, (|y - x| - |y - z|) ∂d.law θ := by
  obtain ⟨z, hz, hi, h0⟩ := C126_pinball ulp d θ h (1 / 2) (by norm_num) (by norm_num) x
  have abs_eq : ∀ c y : ℝ, |y - c| = 2 * pinball (1 / 2) c y := by
    intro c y
    unfold pinball
    split_ifs with hc
    · rw [abs_of_nonneg (sub_nonneg.2 hc)]; ring
    · rw [abs_of_neg (sub_neg.2 (not_le.1 hc))]; ring
  have e : (fun y => |y - x| - |y - z|) = fun y => 2 * (pinball (1 / 2) x y - pinball (1 / 2) z y) := by
    funext y
    rw [abs_eq, abs_eq]
    ring
  refine ⟨z, hz, ?_, ?_⟩
  · rw [e]; exact hi.const_mul 2
  · rw [e, integral_const_mul]
    exact mul_nonneg (by norm_num) h0

theorem intervalScore_eq_pinball {a : ℝ} (ha : 0 < a) (l u y : ℝ) :
    intervalScore a l u y = 2 / a * (pinball (a / 2) l y + pinball (1 - a / 2) u y) := by
  have h1 : pinball (a / 2) l y = a / 2 * (y - l) + max 0 (l - y) := by
    unfold pinball
    split_ifs with h
    · rw [max_eq_left (by linarith)]; ring
    · rw [max_eq_right (by linarith)]; ring
  have h2 : pinball (1 - a / 2) u y = a / 2 * (u - y) + max 0 (y - u) := by
    unfold pinball
    split_ifs with h
    · rw [max_eq_right (by linarith)]; ring
    · rw [max_eq_left (by linarith)]; ring
  rw [h1, h2]
  unfold intervalScore
  field_simp
  ring

/-- **C126.** No interval has a smaller expected interval score at level `1 - a` than the one from `ppf(a/2)` to `ppf(1 - a/2)`. -/
theorem C126_intervals (ulp : ℝ) (d : Dist) (θ : ℕ → ℝ) (h : d.Admissible θ) (a : ℝ) (ha0 : 0 < a) (ha1 : a < 1) (l u : ℝ) :
    ∃ zl zu, d.ppf ulp (a / 2) θ = .fin zl ∧ d.ppf ulp (1 - a / 2) θ = .fin zu ∧
      Integrable (fun y => intervalScore a l u y - intervalScore a zl zu y) (d.law θ) ∧
      0 ≤ ∫ y, (intervalScore a l u y - intervalScore a zl zu y) ∂d.law θ := by
  obtain ⟨zl, hl, il, l0⟩ := C126_pinball ulp d θ h (a / 2) (by linarith) (by linarith) l
  obtain ⟨zu, hu, iu, u0⟩ := C126_pinball ulp d θ h (1 - a / 2) (by linarith) (by linarith) u
  have e : (fun y => intervalScore a l u y - intervalScore a zl zu y) = fun y => 2 / a *
      ((pinball (a / 2) l y - pinball (a / 2) zl y) + (pinball (1 - a / 2) u y - pinball (1 - a / 2) zu y)) := by
    funext y
    rw [intervalScore_eq_pinball ha0, intervalScore_eq_pinball ha0]
    ring
  refine ⟨zl, zu, hl, hu, ?_, ?_⟩
  · rw [e]; exact (il.add iu).const_mul _
  · rw [e, integral_const_mul, integral_add il iu]
    exact mul_nonneg (div_nonneg zero_le_two ha0.le) (add_nonneg l0 u0)

/-- The cdf at the response itself is at most `u` with probability at most `u`, and exactly `u` for the classes without inflated points:
the probability integral transform is uniform. -/
theorem C126_uniform (d : Dist) (θ : ℕ → ℝ) (h : d.Admissible θ) (u : ℝ) (hu0 : 0 < u) (hu1 : u < 1) :
    d.law θ {y | y ∈ d.Responses ∧ ∃ F, d.cdf y θ = .fin F ∧ F ≤ u} ≤ ENNReal.ofReal u ∧
      (d.inflatedPoints = [] → d.law θ {y | y ∈ d.Responses ∧ ∃ F, d.cdf y θ = .fin F ∧ F ≤ u} = ENNReal.ofReal u) := by
  haveI := law_isProbability d θ h
  set S : Set ℝ := {y | y ∈ d.Responses ∧ ∃ F, d.cdf y θ = .fin F ∧ F ≤ u} with hS
  have hmem : ∀ y, y ∈ S ↔ y ∈ d.Responses ∧ (d.law θ (Iic y)).toReal ≤ u := by
    intro y
    rw [hS, mem_setOf_eq]
    refine and_congr_right fun hy => ?_
    rw [C50_cdf d θ h y hy]
    constructor
    · rintro ⟨F, hF, hle⟩
      cases hF
      exact hle
    · exact fun hle => ⟨_, rfl, hle⟩
  have hle : d.law θ S ≤ ENNReal.ofReal u := by
    refine le_of_forall_gt_imp_ge_of_dense ?_
    intro a ha
    by_cases hat : a = ⊤
    · rw [hat]; exact le_top
    have hau : u < a.toReal := (ENNReal.ofReal_lt_iff_lt_toReal hu0.le hat).1 ha
    set u' := min a.toReal ((u + 1) / 2) with hu'
    have h1 : u < u' := lt_min hau (by linarith)
    have h2 : u' < 1 := (min_le_right _ _).trans_lt (by linarith)
    obtain ⟨z, -, hzr, hk, hlt⟩ := ppf_quantile 1 d θ h (hu0.trans h1) h2
    have hsub : S ⊆ Iio z := by
      intro y hy
      rw [hmem] at hy
      by_contra hc
      have := (hk y hy.1).1 (not_lt.1 hc)
      linarith [hy.2]
    calc d.law θ S ≤ d.law θ (Iio z) := measure_mono hsub
      _ ≤ ENNReal.ofReal u' := by
        rw [← ENNReal.ofReal_toReal (measure_ne_top (d.law θ) (Iio z))]
        exact ENNReal.ofReal_le_ofReal hlt
      _ ≤ a := by
        rw [← ENNReal.ofReal_toReal hat]
        exact ENNReal.ofReal_le_ofReal (min_le_left _ _)
  refine ⟨hle, fun hinf => le_antisymm hle ?_⟩
  obtain ⟨z, -, hzr, hk, hlt⟩ := ppf_quantile 1 d θ h hu0 hu1
  have hat : d.law θ (Iic z) = ENNReal.ofReal u := by
    have e : d.law θ (Iic z) = d.law θ (Iio z) := by
      rw [← Iio_union_right, measure_union (by simp) (measurableSet_singleton z), law_no_atom d hinf, add_zero]
    have h1 := (hk z hzr).1 le_rfl
    have : (d.law θ (Iic z)).toReal = u := le_antisymm (by rw [e]; exact hlt) h1
    rw [← this, ENNReal.ofReal_toReal (measure_ne_top _ _)]
  have hsub : Iic z ∩ d.Responses ⊆ S := by
    intro y hy
    rw [hmem]
    refine ⟨hy.2, ?_⟩
    calc (d.law θ (Iic y)).toReal ≤ (d.law θ (Iic z)).toReal := ENNReal.toReal_mono (measure_ne_top _ _) (measure_mono (Iic_subset_Iic.2 hy.1))
      _ = u := by rw [hat, ENNReal.toReal_ofReal hu0.le]
  have hfull : d.law θ (d.Responsesᶜ) = 0 := by
    unfold law lawOf
    rw [hinf]
    simp only [List.map_nil, List.sum_nil, add_zero]
    refine withDensity_absolutelyContinuous _ _ ?_
    rw [Measure.restrict_apply d.measurableSet_responses.compl]
    simp
  calc ENNReal.ofReal u = d.law θ (Iic z) := hat.symm
    _ ≤ d.law θ (Iic z ∩ d.Responses) + d.law θ (d.Responsesᶜ) := by
      refine (measure_mono ?_).trans (measure_union_le _ _)
      intro y hy
      by_cases hr : y ∈ d.Responses
      · exact Or.inl ⟨hy, hr⟩
      · exact Or.inr hr
    _ ≤ d.law θ S := by
      rw [hfull, add_zero]
      exact measure_mono hsub

/-- **C126.** `cdf(x)` is the best probability forecast of the event that the response is at most `x`: every other forecast `f` has a
Brier score larger by the squared distance. -/
theorem C126_brier (d : Dist) (θ : ℕ → ℝ) (h : d.Admissible θ) (x : ℝ) (hx : x ∈ d.Responses) (f : ℝ) :
    ∃ F, d.cdf x θ = .fin F ∧
      ∫ y, (f - if y ≤ x then 1 else 0) ^ 2 ∂d.law θ = ∫ y, (F - if y ≤ x then 1 else 0) ^ 2 ∂d.law θ + (f - F) ^ 2 := by
  haveI := law_isProbability d θ h
  refine ⟨_, C50_cdf d θ h x hx, ?_⟩
  set F := (d.law θ (Iic x)).toReal with hF
  have key : ∀ c : ℝ, ∫ y, (c - if y ≤ x then 1 else 0) ^ 2 ∂d.law θ = c ^ 2 + (1 - 2 * c) * F := by
    intro c
    have e : (fun y : ℝ => (c - if y ≤ x then (1 : ℝ) else 0) ^ 2) = fun y => c ^ 2 + (Iic x).indicator (fun _ => 1 - 2 * c) y := by
      funext y
      by_cases hy : y ≤ x
      · rw [if_pos hy, indicator_of_mem (mem_Iic.2 hy)]; ring
      · rw [if_neg hy, indicator_of_notMem (by simpa using hy)]; ring
    rw [e, integral_add (integrable_const _) ((integrable_const _).indicator measurableSet_Iic), integral_indicator measurableSet_Iic]
    simp only [integral_const, smul_eq_mul, probReal_univ, one_mul, measureReal_restrict_apply_univ]
    rw [mul_comm, Measure.real, ← hF]
  rw [key, key]
  ring

/-- **C126.** The expected continuous ranked probability score of any forecast distribution function `G` is that of `cdf` plus the
integrated squared distance of the two, so no forecast does better. -/
theorem C126_crps (d : Dist) (θ : ℕ → ℝ) (h : d.Admissible θ) :
    ∃ F : ℝ → ℝ, (∀ x ∈ d.Responses, d.cdf x θ = .fin (F x)) ∧ ∀ G : ℝ → ℝ, Measurable G →
      ∫⁻ y, crps d.Responses G y ∂d.law θ = ∫⁻ y, crps d.Responses F y ∂d.law θ + ∫⁻ x in d.Responses, ENNReal.ofReal ((G x - F x) ^ 2) := by
  haveI := law_isProbability d θ h
  refine ⟨fun x => (d.law θ (Iic x)).toReal, fun x hx => C50_cdf d θ h x hx, fun G hG => ?_⟩
  have hFm : Measurable fun x => (d.law θ (Iic x)).toReal :=
    Monotone.measurable fun a b hab => ENNReal.toReal_mono (measure_ne_top _ _) (measure_mono (Iic_subset_Iic.2 hab))
  have joint : ∀ H : ℝ → ℝ, Measurable H →
      Measurable (Function.uncurry fun y x : ℝ => ENNReal.ofReal ((H x - if y ≤ x then (1 : ℝ) else 0) ^ 2)) := by
    intro H hH
    refine Measurable.ennreal_ofReal (Measurable.pow_const (Measurable.sub (hH.comp measurable_snd) ?_) 2)
    exact Measurable.ite (measurableSet_le measurable_fst measurable_snd) measurable_const measurable_const
  have swap : ∀ H : ℝ → ℝ, Measurable H → ∫⁻ y, crps d.Responses H y ∂d.law θ =
      ∫⁻ x in d.Responses, ∫⁻ y, ENNReal.ofReal ((H x - if y ≤ x then (1 : ℝ) else 0) ^ 2) ∂d.law θ := by
    intro H hH
    unfold crps
    exact lintegral_lintegral_swap (joint H hH).aemeasurable
  have int : ∀ c x : ℝ, Integrable (fun y => (c - if y ≤ x then (1 : ℝ) else 0) ^ 2) (d.law θ) := by
    intro c x
    refine (integrable_const ((|c| + 1) ^ 2)).mono' ?_ (Filter.Eventually.of_forall fun y => ?_)
    · exact ((measurable_const.sub (Measurable.ite (measurableSet_le measurable_id measurable_const) measurable_const
        measurable_const)).pow_const 2).aestronglyMeasurable
    · rw [Real.norm_eq_abs, abs_pow]
      refine pow_le_pow_left₀ (abs_nonneg _) ((abs_sub _ _).trans ?_) 2
      gcongr
      split_ifs <;> simp
  have hGF : Measurable fun x => ENNReal.ofReal ((G x - (d.law θ (Iic x)).toReal) ^ 2) := ((hG.sub hFm).pow_const 2).ennreal_ofReal
  rw [swap G hG, swap _ hFm]
  simp only
  rw [← lintegral_add_right _ hGF]
  refine setLIntegral_congr_fun d.measurableSet_responses fun x hx => ?_
  obtain ⟨F, hF, e⟩ := C126_brier d θ h x hx (G x)
  rw [C50_cdf d θ h x hx] at hF
  cases hF
  rw [← ofReal_integral_eq_lintegral_ofReal (int _ _) (Filter.Eventually.of_forall fun y => sq_nonneg _),
    ← ofReal_integral_eq_lintegral_ofReal (int _ _) (Filter.Eventually.of_forall fun y => sq_nonneg _), e,
    ENNReal.ofReal_add (integral_nonneg fun y => sq_nonneg _) (sq_nonneg _)]

/-- **C126.** The interval between two quantiles contains the response with at least the nominal probability, and with exactly this
probability for the classes without inflated points. -/
theorem C126_coverage (ulp : ℝ) (d : Dist) (θ : ℕ → ℝ) (h : d.Admissible θ) (q r : ℝ) (hq0 : 0 < q) (hqr : q < r) (hr1 : r < 1) :
    ∃ zl zu, d.ppf ulp q θ = .fin zl ∧ d.ppf ulp r θ = .fin zu ∧ r - q ≤ (d.law θ (Icc zl zu)).toReal ∧
      (d.inflatedPoints = [] → (d.law θ (Icc zl zu)).toReal = r - q) := by
  haveI := law_isProbability d θ h
  obtain ⟨zl, hl, lr, lk, ll⟩ := ppf_quantile ulp d θ h hq0 (hqr.trans hr1)
  obtain ⟨zu, hu, ur, uk, ul⟩ := ppf_quantile ulp d θ h (hq0.trans hqr) hr1
  have hru := (uk zu ur).1 le_rfl
  have hql := (lk zl lr).1 le_rfl
  have hle : zl ≤ zu := (lk zu ur).2 (hqr.le.trans hru)
  have hsub : Iio zl ⊆ Iic zu := fun y hy => (le_of_lt hy).trans hle
  have e : (d.law θ (Icc zl zu)).toReal = (d.law θ (Iic zu)).toReal - (d.law θ (Iio zl)).toReal := by
    have : Icc zl zu = Iic zu \ Iio zl := by
      ext y
      simp only [mem_Icc, mem_diff, mem_Iic, mem_Iio, not_lt]
      exact and_comm
    rw [this, measure_diff hsub measurableSet_Iio.nullMeasurableSet (measure_ne_top _ _),
      ENNReal.toReal_sub_of_le (measure_mono hsub) (measure_ne_top _ _)]
  refine ⟨zl, zu, hl, hu, by linarith, fun hinf => ?_⟩
  have atom : ∀ z, d.law θ (Iic z) = d.law θ (Iio z) := fun z => by
    rw [← Iio_union_right, measure_union (by simp) (measurableSet_singleton z), law_no_atom d hinf, add_zero]
  rw [atom] at hru hql e
  linarith

example : ∃ z, studentT.ppf 1 (9 / 10) half = .fin z ∧ Integrable (fun y => pinball (9 / 10) 3 y - pinball (9 / 10) z y) (studentT.law half) ∧
    0 ≤ ∫ y, (pinball (9 / 10) 3 y - pinball (9 / 10) z y) ∂studentT.law half :=
  C126_pinball 1 studentT half (half_admissible _) _ (by norm_num) (by norm_num) 3

example : gamma.law half {y | y ∈ gamma.Responses ∧ ∃ F, gamma.cdf y half = .fin F ∧ F ≤ 1 / 4} = ENNReal.ofReal (1 / 4) :=
  (C126_uniform gamma half (half_admissible _) _ (by norm_num) (by norm_num)).2 rfl

example : ∫ y, (y - 3) ^ 2 ∂Dist.beta.law half = ∫ y, (y - 1 / 2) ^ 2 ∂Dist.beta.law half + (3 - 1 / 2) ^ 2 :=
  C126_squared_error Dist.beta half (half_admissible _) (1 / 2) (1 / 16) (by simp only [moments, half]; norm_num) 3

example : ∃ zl zu, inverseGamma.ppf 1 (1 / 10 / 2) half = .fin zl ∧ inverseGamma.ppf 1 (1 - 1 / 10 / 2) half = .fin zu ∧
    Integrable (fun y => intervalScore (1 / 10) 1 4 y - intervalScore (1 / 10) zl zu y) (inverseGamma.law half) ∧
    0 ≤ ∫ y, (intervalScore (1 / 10) 1 4 y - intervalScore (1 / 10) zl zu y) ∂inverseGamma.law half :=
  C126_intervals 1 inverseGamma half (half_admissible _) _ (by norm_num) (by norm_num) 1 4

example : ∃ z, studentT.ppf 1 (1 / 2) half = .fin z ∧ Integrable (fun y => |y - 3| - |y - z|) (studentT.law half) ∧
    0 ≤ ∫ y, (|y - 3| - |y - z|) ∂studentT.law half :=
  C126_absolute_error 1 studentT half (half_admissible _) 3

example : ∃ zl zu, gamma.ppf 1 (1 / 10) half = .fin zl ∧ gamma.ppf 1 (9 / 10) half = .fin zu ∧
    (gamma.law half (Icc zl zu)).toReal = 9 / 10 - 1 / 10 := by
  obtain ⟨zl, zu, h1, h2, -, h3⟩ := C126_coverage 1 gamma half (half_admissible _) (1 / 10) (9 / 10) (by norm_num) (by norm_num) (by norm_num)
  exact ⟨zl, zu, h1, h2, h3 rfl⟩

example : ∃ F, zeroAdjustedGamma.cdf 0 half = .fin F ∧ ∫ y, ((1 / 3 : ℝ) - if y ≤ 0 then 1 else 0) ^ 2 ∂zeroAdjustedGamma.law half =
    ∫ y, (F - if y ≤ 0 then 1 else 0) ^ 2 ∂zeroAdjustedGamma.law half + (1 / 3 - F) ^ 2 :=
  C126_brier zeroAdjustedGamma half (half_admissible _) 0 (by simp [Responses]) (1 / 3)

example : ∃ F : ℝ → ℝ, (∀ x ∈ gumbel.Responses, gumbel.cdf x half = .fin (F x)) ∧
    ∫⁻ y, crps gumbel.Responses (fun x => if 0 ≤ x then 1 else 0) y ∂gumbel.law half = ∫⁻ y, crps gumbel.Responses F y ∂gumbel.law half +
      ∫⁻ x in gumbel.Responses, ENNReal.ofReal (((if 0 ≤ x then 1 else 0) - F x) ^ 2) := by
  obtain ⟨F, h1, h2⟩ := C126_crps gumbel half (half_admissible _)
  exact ⟨F, h1, h2 _ (Measurable.ite (measurableSet_le measurable_const measurable_id) measurable_const measurable_const)⟩

end Dist
end Ondil
