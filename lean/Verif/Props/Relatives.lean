import Verif.Spec.Relatives
import Verif.Props.Quantiles
import Verif.Props.Scores
import Verif.Lemmas.LogDensity

/-!
# Related classes agree with each other: C123
-/

namespace Ondil

open MeasureTheory ProbabilityTheory Set

namespace Dist

/-! ### The same distribution in two classes -/

theorem SameDistribution.responses {d d' : Dist} {θ θ' : ℕ → ℝ} (h : SameDistribution d θ d' θ') :
    d'.Responses = d.Responses ∧ d.inflatedPoints = [] ∧ d'.inflatedPoints = [] := by
  cases h <;> exact ⟨rfl, rfl, rfl⟩

theorem SameDistribution.admissible {d d' : Dist} {θ θ' : ℕ → ℝ} (h : SameDistribution d θ d' θ') (ha : d.Admissible θ) :
    d'.Admissible θ' := by
  cases h with
  | meanVariance => simpa [Admissible] using ha
  | median => simpa [Admissible] using ha.2
  | exponential => simpa [Admissible] using ha

theorem SameDistribution.logDensity {d d' : Dist} {θ θ' : ℕ → ℝ} (h : SameDistribution d θ d' θ') (y : ℝ) :
    d'.logDensity y θ' = d.logDensity y θ := by
  cases h with
  | meanVariance => simp [Dist.logDensity, Real.sqrt_eq_rpow]
  | median => simp [Dist.logDensity]
  | exponential => simp [Dist.logDensity, gammaL, exponentialL, logGamma]; ring

/-- Classes that describe the same distribution return the same densities and log densities for every response. -/
theorem C123_density {d d' : Dist} {θ θ' : ℕ → ℝ} (h : SameDistribution d θ d' θ') (ha : d.Admissible θ) (y : ℝ) (hy : y ∈ d.Responses) :
    d'.pdf y θ' = d.pdf y θ ∧ d'.logpdf y θ' = d.logpdf y θ := by
  obtain ⟨p, hp, h1, h2, h3⟩ := pdf_logpdf d y θ hy ha
  obtain ⟨p', hp', h1', h2', h3'⟩ := pdf_logpdf d' y θ' (h.responses.1 ▸ hy) (h.admissible ha)
  rw [h.logDensity] at h2' h3'
  rw [h1, h1', h3, h3', Real.log_injOn_pos hp' hp (h2'.trans h2.symm)]
  exact ⟨rfl, rfl⟩

theorem SameDistribution.law {d d' : Dist} {θ θ' : ℕ → ℝ} (h : SameDistribution d θ d' θ') (ha : d.Admissible θ) :
    d'.law θ' = d.law θ := by
  obtain ⟨h1, h2, h3⟩ := h.responses
  unfold Dist.law lawOf
  rw [h1, h2, h3]
  congr 1
  refine withDensity_congr_ae ?_
  filter_upwards [ae_restrict_mem d.measurableSet_responses] with y hy
  rw [(C123_density h ha y hy).1]

/-- Classes that describe the same distribution return the same probabilities and the same quantiles. -/
theorem C123_probabilities (ulp : ℝ) {d d' : Dist} {θ θ' : ℕ → ℝ} (h : SameDistribution d θ d' θ') (ha : d.Admissible θ) :
    (∀ y ∈ d.Responses, d'.cdf y θ' = d.cdf y θ) ∧ ∀ q, 0 < q → q < 1 → d'.ppf ulp q θ' = d.ppf ulp q θ := by
  have hr := h.responses.1
  refine ⟨fun y hy => ?_, fun q hq0 hq1 => ?_⟩
  · rw [C50_cdf d θ ha y hy, C50_cdf d' θ' (h.admissible ha) y (hr ▸ hy), h.law ha]
  · obtain ⟨x, hx, hxr, hk, -⟩ := ppf_quantile ulp d θ ha hq0 hq1
    obtain ⟨x', hx', hxr', hk', -⟩ := ppf_quantile ulp d' θ' (h.admissible ha) hq0 hq1
    rw [hr] at hxr' hk'
    rw [h.law ha] at hk'
    rw [hx, hx']
    refine congrArg Flt.fin (le_antisymm ?_ ?_)
    · exact (hk' x hxr).2 ((hk x hxr).1 le_rfl)
    · exact (hk x' hxr').2 ((hk' x' hxr').1 le_rfl)

/-! ### Mirror images -/

theorem mirror_admissible {d : Dist} (hd : d.OnLine) {θ : ℕ → ℝ} (h : d.Admissible θ) : d.mirrorClass.Admissible (d.mirror θ) := by
  cases d <;> simp only [OnLine] at hd <;> simpa [Admissible, mirrorClass, mirror] using h

theorem mirrorClass_onLine {d : Dist} (hd : d.OnLine) : d.mirrorClass.OnLine := by
  cases d <;> simp only [OnLine] at hd <;> trivial

theorem onLine_responses {d : Dist} (hd : d.OnLine) : d.Responses = univ := by
  cases d <;> simp only [OnLine] at hd <;> rfl

theorem onLine_inflated {d : Dist} (hd : d.OnLine) : d.inflatedPoints = [] := by
  cases d <;> simp only [OnLine] at hd <;> rfl

theorem logDensity_mirror {d : Dist} (hd : d.OnLine) (θ : ℕ → ℝ) (y : ℝ) :
    d.mirrorClass.logDensity (-y) (d.mirror θ) = d.logDensity y θ := by
  have hz : ∀ m s : ℝ, (-y - -m) / s = -((y - m) / s) := fun m s => by ring
  cases d <;> simp only [OnLine] at hd <;> simp only [mirrorClass]
  case logistic =>
    have e0 : logistic.mirror θ 0 = -θ 0 := by simp [mirror]
    have e1 : logistic.mirror θ 1 = θ 1 := by simp [mirror]
    simp only [logDensity, e0, e1, logisticL, hz, neg_neg]
    set z := (y - θ 0) / θ 1
    have e : Real.log (1 + Real.exp z) = z + Real.log (1 + Real.exp (-z)) := by
      rw [show 1 + Real.exp z = Real.exp z * (1 + Real.exp (-z)) by rw [mul_add, mul_one, ← Real.exp_add]; simp [add_comm],
        Real.log_mul (Real.exp_pos _).ne' (by positivity), Real.log_exp]
    rw [e]
    ring
  case jsu c =>
    have e0 : (jsu c).mirror θ 0 = -θ 0 := by simp [mirror]
    have e1 : (jsu c).mirror θ 1 = θ 1 := by simp [mirror]
    have e2 : (jsu c).mirror θ 2 = -θ 2 := by simp [mirror]
    have e3 : (jsu c).mirror θ 3 = θ 3 := by simp [mirror]
    simp only [logDensity, e0, e1, e2, e3, jsuL, hz, Real.arsinh_neg, neg_sq]
    ring
  case normal => simp [logDensity, mirror, normalL, hz, -neg_sub_neg, -sub_neg_eq_add]
  case normalMeanVariance => simp [logDensity, mirror, normalL, hz, -neg_sub_neg, -sub_neg_eq_add]
  case studentT => simp [logDensity, mirror, studentL, hz, -neg_sub_neg, -sub_neg_eq_add]
  case gumbel => simp [logDensity, mirror, gumbelL, reverseGumbelL, hz, -neg_sub_neg, -sub_neg_eq_add]
  case reverseGumbel => simp [logDensity, mirror, gumbelL, reverseGumbelL, hz, -neg_sub_neg, -sub_neg_eq_add]

/-- The density of the mirrored response at the mirrored point. -/
theorem C123_mirror_density {d : Dist} (hd : d.OnLine) (θ : ℕ → ℝ) (h : d.Admissible θ) (y : ℝ) :
    d.mirrorClass.pdf (-y) (d.mirror θ) = d.pdf y θ ∧ d.mirrorClass.logpdf (-y) (d.mirror θ) = d.logpdf y θ := by
  obtain ⟨p, hp, h1, h2, h3⟩ := pdf_logpdf d y θ (onLine_responses hd ▸ mem_univ y) h
  obtain ⟨p', hp', h1', h2', h3'⟩ := pdf_logpdf d.mirrorClass (-y) (d.mirror θ)
    (onLine_responses (mirrorClass_onLine hd) ▸ mem_univ _) (mirror_admissible hd h)
  rw [logDensity_mirror hd] at h2' h3'
  rw [h1, h1', h3, h3', Real.log_injOn_pos hp' hp (h2'.trans h2.symm)]
  exact ⟨rfl, rfl⟩

theorem onLine_law {d : Dist} (hd : d.OnLine) (θ : ℕ → ℝ) :
    d.law θ = volume.withDensity fun y => ENNReal.ofReal (d.pdf y θ).toReal := by
  unfold Dist.law lawOf
  rw [onLine_responses hd, onLine_inflated hd]
  simp

/-- The law of the mirrored response. -/
theorem C123_mirror_law {d : Dist} (hd : d.OnLine) (θ : ℕ → ℝ) (h : d.Admissible θ) :
    d.mirrorClass.law (d.mirror θ) = (d.law θ).map fun y => -y := by
  ext s hs
  have hm : Measurable fun y : ℝ => -y := measurable_neg
  rw [Measure.map_apply hm hs, onLine_law hd, onLine_law (mirrorClass_onLine hd), withDensity_apply _ hs,
    withDensity_apply _ (hm hs),
    ← (Measure.measurePreserving_neg (volume : Measure ℝ)).setLIntegral_comp_preimage_emb (MeasurableEquiv.neg ℝ).measurableEmbedding]
  refine lintegral_congr fun y => ?_
  rw [(C123_mirror_density hd θ h y).1]

theorem onLine_measurable {d : Dist} (hd : d.OnLine) (θ : ℕ → ℝ) : Measurable fun y => d.logDensity y θ := by
  cases d <;> simp only [OnLine] at hd <;>
    simp only [logDensity, normalL, studentL, jsuL, logisticL, gumbelL, reverseGumbelL] <;>
    first | fun_prop | exact (by have := Real.continuous_arsinh.measurable; fun_prop)

theorem onLine_law_pos {d : Dist} (hd : d.OnLine) (θ : ℕ → ℝ) (h : d.Admissible θ) {x z : ℝ} (hxz : x < z) : 0 < d.law θ (Ioc x z) := by
  have hf : (fun y => ENNReal.ofReal (d.pdf y θ).toReal) = fun y => ENNReal.ofReal (Real.exp (d.logDensity y θ)) := by
    funext y
    obtain ⟨p, hp, h1, h2, -⟩ := pdf_logpdf d y θ (onLine_responses hd ▸ mem_univ y) h
    rw [h1, ← h2, Real.exp_log hp]
    rfl
  rw [onLine_law hd, hf, pos_iff_ne_zero]
  intro h0
  have hm : Measurable fun y => ENNReal.ofReal (Real.exp (d.logDensity y θ)) :=
    (Real.measurable_exp.comp (onLine_measurable hd θ)).ennreal_ofReal
  rw [withDensity_apply_eq_zero hm] at h0
  have : {y | ENNReal.ofReal (Real.exp (d.logDensity y θ)) ≠ 0} ∩ Ioc x z = Ioc x z := by
    refine inter_eq_right.2 fun y _ => ?_
    simp [Real.exp_pos]
  rw [this] at h0
  simp at h0
  linarith

theorem onLine_law_singleton {d : Dist} (hd : d.OnLine) (θ : ℕ → ℝ) (x : ℝ) : d.law θ {x} = 0 := by
  rw [onLine_law hd]
  exact withDensity_absolutelyContinuous volume _ (by simp)

theorem mirror_Iic {d : Dist} (hd : d.OnLine) (θ : ℕ → ℝ) (h : d.Admissible θ) (y : ℝ) :
    (d.mirrorClass.law (d.mirror θ) (Iic (-y))).toReal = 1 - (d.law θ (Iic y)).toReal := by
  haveI := law_isProbability d θ h
  rw [C123_mirror_law hd θ h, Measure.map_apply measurable_neg measurableSet_Iic]
  have e : (fun y : ℝ => -y) ⁻¹' Iic (-y) = Ici y := by ext z; simp
  have e1 : d.law θ (Ici y) = d.law θ (Iic y)ᶜ := by
    rw [compl_Iic, ← Ioi_union_left]
    refine le_antisymm ((measure_union_le _ _).trans ?_) (measure_mono subset_union_left)
    rw [onLine_law_singleton hd, add_zero]
  rw [e, e1, prob_compl_eq_one_sub measurableSet_Iic, ENNReal.toReal_sub_of_le prob_le_one (by simp)]
  simp

/-- The distribution function of the mirrored response. -/
theorem C123_mirror_cdf {d : Dist} (hd : d.OnLine) (θ : ℕ → ℝ) (h : d.Admissible θ) (y : ℝ) :
    ∃ F, d.cdf y θ = .fin F ∧ d.mirrorClass.cdf (-y) (d.mirror θ) = .fin (1 - F) :=
  ⟨_, C50_cdf d θ h y (onLine_responses hd ▸ mem_univ y), by
    rw [C50_cdf _ _ (mirror_admissible hd h) _ (onLine_responses (mirrorClass_onLine hd) ▸ mem_univ _), mirror_Iic hd θ h]⟩

/-- Quantiles of the mirrored response. -/
theorem C123_mirror_ppf (ulp : ℝ) {d : Dist} (hd : d.OnLine) (θ : ℕ → ℝ) (h : d.Admissible θ) (q : ℝ) (hq0 : 0 < q) (hq1 : q < 1) :
    ∃ x, d.ppf ulp (1 - q) θ = .fin x ∧ d.mirrorClass.ppf ulp q (d.mirror θ) = .fin (-x) := by
  haveI := law_isProbability d θ h
  obtain ⟨x, hx, -, hk, hlt⟩ := ppf_quantile ulp d θ h (q := 1 - q) (by linarith) (by linarith)
  obtain ⟨x', hx', -, hk', -⟩ := ppf_quantile ulp _ _ (mirror_admissible hd h) hq0 hq1
  rw [onLine_responses hd] at hk
  rw [onLine_responses (mirrorClass_onLine hd)] at hk'
  have hle : (d.law θ (Iic x)).toReal ≤ 1 - q := by
    refine le_trans (ENNReal.toReal_mono (by simp) ?_) hlt
    rw [← Iio_union_right]
    refine (measure_union_le _ _).trans ?_
    rw [onLine_law_singleton hd, add_zero]
  refine ⟨x, hx, hx'.trans (congrArg Flt.fin (le_antisymm ?_ ?_))⟩
  · rw [hk' _ (mem_univ _), mirror_Iic hd θ h]
    linarith
  · by_contra hc
    push Not at hc
    have h1 := (hk' x' (mem_univ _)).1 le_rfl
    rw [← neg_neg x', mirror_Iic hd θ h] at h1
    have h2 := (hk x (mem_univ _)).1 le_rfl
    have h3 : d.law θ (Iic (-x')) = d.law θ (Iic x) + d.law θ (Ioc x (-x')) := by
      rw [← measure_union (Iic_disjoint_Ioc le_rfl) measurableSet_Ioc, Iic_union_Ioc_eq_Iic (by linarith)]
    have h4 := ENNReal.toReal_pos (onLine_law_pos hd θ h (x := x) (z := -x') (by linarith)).ne' (measure_ne_top _ _)
    rw [h3, ENNReal.toReal_add (measure_ne_top _ _) (measure_ne_top _ _)] at h1
    linarith

/-! ### Logarithms, and inflated classes -/

/-- The logarithm of a log-normal response is normal with the same parameters: distribution functions and densities. -/
theorem C123_log (θ : ℕ → ℝ) (h : normal.Admissible θ) (y : ℝ) :
    logNormal.cdf (Real.exp y) θ = normal.cdf y θ ∧
      ∃ p, 0 < p ∧ normal.pdf y θ = .fin p ∧ logNormal.pdf (Real.exp y) θ = .fin (p / Real.exp y) := by
  have hr : Real.exp y ∈ logNormal.Responses := Real.exp_pos y
  have h' : logNormal.Admissible θ := h
  constructor
  · rw [C50_cdf logNormal θ h' _ hr, C50_cdf normal θ h y (mem_univ y), law_logNormal θ h', law_normal θ h,
      Measure.map_apply (by fun_prop) measurableSet_Iic, Measure.map_apply (by fun_prop) measurableSet_Iic]
    congr 3
    ext z
    simp [← Real.exp_add]
  · obtain ⟨p, hp, h1, h2, -⟩ := pdf_logpdf normal y θ (mem_univ y) h
    obtain ⟨p', hp', h1', h2', -⟩ := pdf_logpdf logNormal _ θ hr h'
    refine ⟨p, hp, h1, h1'.trans (congrArg Flt.fin (Real.log_injOn_pos hp' (div_pos hp (Real.exp_pos y)) ?_))⟩
    have : θ 1 ≠ 0 := ne_of_gt h
    rw [Real.log_div hp.ne' (Real.exp_pos y).ne', h2, h2']
    simp only [logDensity, logNormalL, normalL, Real.log_exp]
    field_simp
    ring

/-- Away from the inflated points the density of an inflated class is that of its continuous part, times the probability of the
continuous part. -/
theorem C123_continuous_part {d d' : Dist} {θ : ℕ → ℝ} {w : ℝ} (hd : d.continuousPart θ = some (d', w)) (h : d.Admissible θ) (y : ℝ)
    (hy : y ∈ d'.Responses) : ∃ p, 0 < p ∧ 0 < w ∧ d'.pdf y θ = .fin p ∧ d.pdf y θ = .fin (w * p) := by
  have key : y ∈ d.Responses ∧ d'.Admissible θ ∧ 0 < w ∧ d.logDensity y θ = Real.log w + d'.logDensity y θ := by
    cases d <;> simp only [continuousPart, Option.some.injEq, Prod.mk.injEq, reduceCtorEq] at hd <;> obtain ⟨rfl, rfl⟩ := hd
    case zeroAdjustedGamma =>
      have hy' : 0 < y := hy
      exact ⟨hy'.le, h.1, by linarith [h.2.2], by simp only [logDensity, if_neg hy'.ne']⟩
    case betaInflated =>
      obtain ⟨h1, h2, h3, h4⟩ := h
      have hD : 0 < 1 + θ 2 + θ 3 := by linarith
      exact ⟨⟨hy.1.le, hy.2.le⟩, ⟨h1, h2⟩, by positivity, by
        simp only [logDensity, if_neg hy.1.ne', if_neg hy.2.ne, one_div, Real.log_inv]; ring⟩
    case betaInflatedZero =>
      obtain ⟨h1, h2, h3⟩ := h
      have hD : 0 < 1 + θ 2 := by linarith
      exact ⟨⟨hy.1.le, hy.2⟩, ⟨h1, h2⟩, by positivity, by
        simp only [logDensity, if_neg hy.1.ne', one_div, Real.log_inv]; ring⟩
  obtain ⟨hyr, ha, hw, hl⟩ := key
  obtain ⟨p, hp, h1, h2, -⟩ := pdf_logpdf d' y θ hy ha
  obtain ⟨p', hp', h1', h2', -⟩ := pdf_logpdf d y θ hyr h
  refine ⟨p, hp, hw, h1, h1'.trans (congrArg Flt.fin (Real.log_injOn_pos hp' (mul_pos hw hp) ?_))⟩
  rw [h2', hl, Real.log_mul hw.ne' hp.ne', h2]

/-! ### Cases -/

example : exponential.Admissible half ∧ SameDistribution exponential half gamma (Function.update half 1 1) :=
  ⟨half_admissible _, .exponential _⟩

example : ∃ x, gumbel.ppf 1 (1 - 1 / 4) half = .fin x ∧ reverseGumbel.ppf 1 (1 / 4) (gumbel.mirror half) = .fin (-x) :=
  C123_mirror_ppf 1 (d := gumbel) trivial half (half_admissible _) _ (by norm_num) (by norm_num)

example : ∃ p, 0 < p ∧ (0 : ℝ) < 1 / (1 + half 2 + half 3) ∧ Dist.beta.pdf (1 / 3) half = .fin p ∧
    betaInflated.pdf (1 / 3) half = .fin (1 / (1 + half 2 + half 3) * p) :=
  C123_continuous_part (d := betaInflated) rfl (half_admissible _) _ ⟨by norm_num, by norm_num⟩

end Dist
end Ondil
