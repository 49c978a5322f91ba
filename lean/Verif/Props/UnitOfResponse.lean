import Verif.Spec.UnitOfResponse
import Verif.Props.Quantiles
import Verif.Props.Scores
import Verif.Lemmas.LogDensity

/-!
# Location and scale parameters carry the origin and the unit of the response: C122
-/

namespace Ondil

open MeasureTheory ProbabilityTheory Set

namespace Dist

theorem changeUnit_admissible {a : ℝ} (ha : 0 < a) (b : ℝ) {d : Dist} (hd : d.HasUnit) {θ : ℕ → ℝ} (h : d.Admissible θ) :
    d.Admissible (d.changeUnit a b θ) := by
  cases d <;> simp only [HasUnit] at hd <;> simp only [Admissible, changeUnit] at h ⊢ <;> simp <;>
    first
    | positivity
    | exact h
    | exact ⟨mul_pos ha h.1, h.2⟩
    | exact mul_pos ha h
    | exact ⟨mul_pos ha h.1, div_pos h.2 (Real.sqrt_pos.2 ha)⟩
    | exact ⟨⟨mul_pos ha h.1.1, h.1.2⟩, h.2⟩
    | exact mul_pos (by positivity) h

/-- The unit and the origin of the responses: for every class the law of `b + a * Y` is a law of the same class with the location and
the scale in the new unit. -/
theorem C122_law {a : ℝ} (ha : 0 < a) (b : ℝ) (d : Dist) (hd : d.HasUnit) (hb : d.FixedOrigin → b = 0) (θ : ℕ → ℝ)
    (h : d.Admissible θ) : d.law (d.changeUnit a b θ) = (d.law θ).map fun y => b + a * y := by
  have h' := changeUnit_admissible ha b hd h
  cases d <;> simp only [HasUnit] at hd
  case normal =>
    rw [law_normal _ h', law_normal _ h, Measure.map_map (by fun_prop) (by fun_prop)]
    congr 1; funext z; simp [changeUnit]; ring
  case normalMeanVariance =>
    rw [law_normalMeanVariance _ h', law_normalMeanVariance _ h, Measure.map_map (by fun_prop) (by fun_prop)]
    congr 1; funext z; simp [changeUnit, Real.sqrt_mul (sq_nonneg a), Real.sqrt_sq ha.le]; ring
  case studentT =>
    rw [law_studentT _ h', law_studentT _ h, Measure.map_map (by fun_prop) (by fun_prop)]
    have : studentT.changeUnit a b θ 2 = θ 2 := by simp [changeUnit]
    rw [this]
    congr 1; funext z; simp [changeUnit]; ring
  case jsu c =>
    rw [law_jsu c _ h', law_jsu c _ h, Measure.map_map (by fun_prop) (by fun_prop)]
    congr 1; funext z; simp [changeUnit]; ring
  case logistic =>
    rw [law_logistic _ h', law_logistic _ h, Measure.map_map (by fun_prop) (by fun_prop)]
    congr 1; funext z; simp [changeUnit]; ring
  case gumbel =>
    rw [law_gumbel _ h', law_gumbel _ h, Measure.map_map (by fun_prop) (by fun_prop)]
    congr 1; funext z; simp [changeUnit]; ring
  case reverseGumbel =>
    rw [law_reverseGumbel _ h', law_reverseGumbel _ h, Measure.map_map (by fun_prop) (by fun_prop)]
    congr 1; funext z; simp [changeUnit]; ring
  all_goals obtain rfl := hb trivial
  case gamma =>
    rw [law_gamma _ h', law_gamma _ h, Measure.map_map (by fun_prop) (by fun_prop)]
    have : gamma.changeUnit a 0 θ 1 = θ 1 := by simp [changeUnit]
    rw [this]
    congr 1; funext z; simp [changeUnit]; ring
  case logNormal =>
    rw [law_logNormal _ h', law_logNormal _ h, Measure.map_map (by fun_prop) (by fun_prop)]
    congr 1; funext z; simp [changeUnit, Real.exp_add, Real.exp_log ha]; ring
  case logNormalMedian =>
    rw [law_logNormalMedian _ h', law_logNormalMedian _ h, Measure.map_map (by fun_prop) (by fun_prop)]
    congr 1; funext z; simp [changeUnit]; ring
  case exponential =>
    rw [law_exponential _ h', law_exponential _ h, Measure.map_map (by fun_prop) (by fun_prop)]
    congr 1; funext z; simp [changeUnit]; ring
  case inverseGamma =>
    rw [law_inverseGamma _ h', law_inverseGamma _ h, Measure.map_map (by fun_prop) (by fun_prop)]
    have : inverseGamma.changeUnit a 0 θ 1 = θ 1 := by simp [changeUnit]
    rw [this]
    congr 1; funext z; simp [changeUnit]; ring
  case inverseGaussian =>
    rw [law_inverseGaussian _ h', law_inverseGaussian _ h, Measure.map_map (by fun_prop) ((Frozen.igS_measurable.pow_const 2).const_mul _)]
    have h1 : inverseGaussian.changeUnit a 0 θ 1 ^ 2 = θ 1 ^ 2 / a := by simp [changeUnit, div_pow, Real.sq_sqrt ha.le]
    have h2 : inverseGaussian.changeUnit a 0 θ 0 = a * θ 0 := by simp [changeUnit]
    have h3 : a * θ 0 * (θ 1 ^ 2 / a) = θ 0 * θ 1 ^ 2 := by field_simp
    rw [h1, h2, h3]
    congr 1; funext z; simp only [Function.comp, zero_add]
    have := h.2
    field_simp
  case zeroAdjustedGamma =>
    have hm : Measurable fun y : ℝ => 0 + a * y := by fun_prop
    have hg : (innerGamma (a * θ 0) (θ 1)).law = ((innerGamma (θ 0) (θ 1)).law).map fun y => 0 + a * y := by
      obtain ⟨⟨h0, h1⟩, -⟩ := h
      rw [Frozen.law_eq_map (innerGamma (a * θ 0) (θ 1)) (by change 0 < a * θ 0 * θ 1 ^ 2; positivity),
        Frozen.law_eq_map (innerGamma (θ 0) (θ 1)) (by change 0 < θ 0 * θ 1 ^ 2; positivity), Measure.map_map hm (by fun_prop)]
      congr 1; funext z
      simp [innerGamma, Frozen.loc, Frozen.scale]; ring
    rw [law_zaga _ h', law_zaga _ h, Measure.map_add _ _ hm, Measure.map_smul, Measure.map_smul, Measure.map_dirac' hm, ← hg]
    simp [changeUnit]

/-- The responses of a class in another unit are responses of the class. -/
theorem responses_changeUnit {a : ℝ} (ha : 0 < a) {b : ℝ} {d : Dist} (hd : d.HasUnit) (hb : d.FixedOrigin → b = 0) (y : ℝ) :
    b + a * y ∈ d.Responses ↔ y ∈ d.Responses := by
  cases d <;> simp only [HasUnit] at hd <;> simp only [Responses, mem_univ] <;> obtain rfl := hb trivial <;>
    simp [mul_pos_iff_of_pos_left ha, mul_nonneg_iff_of_pos_left ha]

/-- The distribution function in another unit. -/
theorem C122_cdf {a : ℝ} (ha : 0 < a) (b : ℝ) (d : Dist) (hd : d.HasUnit) (hb : d.FixedOrigin → b = 0) (θ : ℕ → ℝ)
    (h : d.Admissible θ) (y : ℝ) (hy : y ∈ d.Responses) : d.cdf (b + a * y) (d.changeUnit a b θ) = d.cdf y θ := by
  rw [C50_cdf d _ (changeUnit_admissible ha b hd h) _ ((responses_changeUnit ha hd hb y).2 hy), C50_cdf d θ h y hy,
    C122_law ha b d hd hb θ h, Measure.map_apply (by fun_prop) measurableSet_Iic]
  congr 3
  ext z
  simp [ha]

/-- Quantiles are in the unit of the response. -/
theorem C122_ppf (ulp : ℝ) {a : ℝ} (ha : 0 < a) (b : ℝ) (d : Dist) (hd : d.HasUnit) (hb : d.FixedOrigin → b = 0) (θ : ℕ → ℝ)
    (h : d.Admissible θ) (q : ℝ) (hq0 : 0 < q) (hq1 : q < 1) :
    ∃ x, d.ppf ulp q θ = .fin x ∧ d.ppf ulp q (d.changeUnit a b θ) = .fin (b + a * x) := by
  obtain ⟨x, hx, hxr, hk, -⟩ := ppf_quantile ulp d θ h hq0 hq1
  obtain ⟨x', hx', hxr', hk', -⟩ := ppf_quantile ulp d _ (changeUnit_admissible ha b hd h) hq0 hq1
  have hI : ∀ y, d.law (d.changeUnit a b θ) (Iic (b + a * y)) = d.law θ (Iic y) := by
    intro y
    rw [C122_law ha b d hd hb θ h, Measure.map_apply (by fun_prop) measurableSet_Iic]
    congr 1
    ext z
    simp [ha]
  refine ⟨x, hx, hx'.trans (congrArg Flt.fin (le_antisymm ?_ ?_))⟩
  · rw [hk' _ ((responses_changeUnit ha hd hb x).2 hxr), hI, ← hk x hxr]
  · have hy : b + a * ((x' - b) / a) = x' := by field_simp; ring
    have hr : (x' - b) / a ∈ d.Responses := (responses_changeUnit ha hd hb _).1 (by rw [hy]; exact hxr')
    have := (hk' x' hxr').1 le_rfl
    rw [← hy, hI, ← hk _ hr] at this
    rw [← hy]
    have := mul_le_mul_of_nonneg_left this ha.le
    linarith

theorem logDensity_changeUnit {a : ℝ} (ha : 0 < a) (b : ℝ) (d : Dist) (hd : d.HasUnit) (hb : d.FixedOrigin → b = 0) (θ : ℕ → ℝ)
    (h : d.Admissible θ) (y : ℝ) (hy : y ∈ d.Responses) (h0 : d = zeroAdjustedGamma → y ≠ 0) :
    d.logDensity (b + a * y) (d.changeUnit a b θ) = d.logDensity y θ - Real.log a := by
  have hz : ∀ m s : ℝ, (b + a * y - (b + a * m)) / (a * s) = (y - m) / s := by
    intro m s
    rw [show b + a * y - (b + a * m) = a * (y - m) by ring, mul_div_mul_left _ _ ha.ne']
  have hlog : ∀ {x : ℝ}, 0 < x → Real.log (a * x) = Real.log a + Real.log x := fun hx => Real.log_mul ha.ne' hx.ne'
  cases d <;> simp only [HasUnit] at hd
  case normal =>
    have e0 : normal.changeUnit a b θ 0 = b + a * θ 0 := by simp [changeUnit]
    have e1 : normal.changeUnit a b θ 1 = a * θ 1 := by simp [changeUnit]
    simp only [logDensity, e0, e1, normalL, hz, hlog h]; ring
  case normalMeanVariance =>
    have hr : (a ^ 2 * θ 1) ^ ((1 : ℝ) / 2) = a * θ 1 ^ ((1 : ℝ) / 2) := by
      rw [← Real.sqrt_eq_rpow, ← Real.sqrt_eq_rpow, Real.sqrt_mul (sq_nonneg a), Real.sqrt_sq ha.le]
    have hp : 0 < θ 1 ^ ((1 : ℝ) / 2) := Real.rpow_pos_of_pos h _
    have e0 : normalMeanVariance.changeUnit a b θ 0 = b + a * θ 0 := by simp [changeUnit]
    have e1 : normalMeanVariance.changeUnit a b θ 1 = a ^ 2 * θ 1 := by simp [changeUnit]
    simp only [logDensity, e0, e1, hr, normalL, hz, hlog hp]; ring
  case studentT =>
    have e0 : studentT.changeUnit a b θ 0 = b + a * θ 0 := by simp [changeUnit]
    have e1 : studentT.changeUnit a b θ 1 = a * θ 1 := by simp [changeUnit]
    have e2 : studentT.changeUnit a b θ 2 = θ 2 := by simp [changeUnit]
    simp only [logDensity, e0, e1, e2, studentL, hz, hlog h.1]; ring
  case jsu c =>
    have e0 : (jsu c).changeUnit a b θ 0 = b + a * θ 0 := by simp [changeUnit]
    have e1 : (jsu c).changeUnit a b θ 1 = a * θ 1 := by simp [changeUnit]
    have e2 : (jsu c).changeUnit a b θ 2 = θ 2 := by simp [changeUnit]
    have e3 : (jsu c).changeUnit a b θ 3 = θ 3 := by simp [changeUnit]
    simp only [logDensity, e0, e1, e2, e3, jsuL, hz, hlog h.1]; ring
  case logistic =>
    have e0 : logistic.changeUnit a b θ 0 = b + a * θ 0 := by simp [changeUnit]
    have e1 : logistic.changeUnit a b θ 1 = a * θ 1 := by simp [changeUnit]
    simp only [logDensity, e0, e1, logisticL, hz, hlog h]; ring
  case gumbel =>
    have e0 : gumbel.changeUnit a b θ 0 = b + a * θ 0 := by simp [changeUnit]
    have e1 : gumbel.changeUnit a b θ 1 = a * θ 1 := by simp [changeUnit]
    simp only [logDensity, e0, e1, gumbelL, hz, hlog h]; ring
  case reverseGumbel =>
    have e0 : reverseGumbel.changeUnit a b θ 0 = b + a * θ 0 := by simp [changeUnit]
    have e1 : reverseGumbel.changeUnit a b θ 1 = a * θ 1 := by simp [changeUnit]
    simp only [logDensity, e0, e1, reverseGumbelL, hz, hlog h]; ring
  all_goals obtain rfl := hb trivial
  all_goals rw [zero_add]
  case gamma =>
    have e : a * y / (θ 1 ^ 2 * (a * θ 0)) = y / (θ 1 ^ 2 * θ 0) := by
      rw [show θ 1 ^ 2 * (a * θ 0) = a * (θ 1 ^ 2 * θ 0) by ring, mul_div_mul_left _ _ ha.ne']
    have e0 : gamma.changeUnit a 0 θ 0 = a * θ 0 := by simp [changeUnit]
    have e1 : gamma.changeUnit a 0 θ 1 = θ 1 := by simp [changeUnit]
    simp only [logDensity, e0, e1, gammaL, e, hlog h.1, hlog hy]; ring
  case logNormal =>
    have e0 : logNormal.changeUnit a 0 θ 0 = Real.log a + θ 0 := by simp [changeUnit]
    have e1 : logNormal.changeUnit a 0 θ 1 = θ 1 := by simp [changeUnit]
    simp only [logDensity, e0, e1, logNormalL, hlog hy, add_sub_add_left_eq_sub]; ring
  case logNormalMedian =>
    have e0 : logNormalMedian.changeUnit a 0 θ 0 = a * θ 0 := by simp [changeUnit]
    have e1 : logNormalMedian.changeUnit a 0 θ 1 = θ 1 := by simp [changeUnit]
    simp only [logDensity, e0, e1, logNormalL, hlog hy, hlog h.1, add_sub_add_left_eq_sub]; ring
  case exponential =>
    have e0 : exponential.changeUnit a 0 θ 0 = a * θ 0 := by simp [changeUnit]
    simp only [logDensity, e0, exponentialL, hlog h, mul_div_mul_left _ _ ha.ne']; ring
  case inverseGamma =>
    have e0 : inverseGamma.changeUnit a 0 θ 0 = a * θ 0 := by simp [changeUnit]
    have e1 : inverseGamma.changeUnit a 0 θ 1 = θ 1 := by simp [changeUnit]
    have e : a * θ 0 * (1 / θ 1 ^ 2 + 1) / (a * y) = θ 0 * (1 / θ 1 ^ 2 + 1) / y := by
      rw [mul_assoc, mul_div_mul_left _ _ ha.ne']
    simp only [logDensity, e0, e1, inverseGammaL, hlog h.1, hlog hy, e]; ring
  case inverseGaussian =>
    have hy' : 0 < y := hy
    have h1 := h.1
    have h2 := h.2
    have e0 : inverseGaussian.changeUnit a 0 θ 0 = a * θ 0 := by simp [changeUnit]
    have e1 : inverseGaussian.changeUnit a 0 θ 1 = θ 1 / Real.sqrt a := by simp [changeUnit]
    have e : (a * y - a * θ 0) ^ 2 / (2 * (a * y) * (a * θ 0) ^ 2 * (θ 1 / Real.sqrt a) ^ 2) =
        (y - θ 0) ^ 2 / (2 * y * θ 0 ^ 2 * θ 1 ^ 2) := by
      rw [div_pow, Real.sq_sqrt ha.le]
      field_simp
    have e2 : Real.log (θ 1 / Real.sqrt a) = Real.log (θ 1) - Real.log a / 2 := by
      rw [Real.log_div h2.ne' (Real.sqrt_pos.2 ha).ne', Real.log_sqrt ha.le]
    simp only [logDensity, e0, e1, inverseGaussianL, hlog hy', e, e2]; ring
  case zeroAdjustedGamma =>
    have hn : y ≠ 0 := h0 rfl
    have hy' : 0 < y := lt_of_le_of_ne hy (Ne.symm hn)
    have e : a * y / (θ 1 ^ 2 * (a * θ 0)) = y / (θ 1 ^ 2 * θ 0) := by
      rw [show θ 1 ^ 2 * (a * θ 0) = a * (θ 1 ^ 2 * θ 0) by ring, mul_div_mul_left _ _ ha.ne']
    have e0 : zeroAdjustedGamma.changeUnit a 0 θ 0 = a * θ 0 := by simp [changeUnit]
    have e1 : zeroAdjustedGamma.changeUnit a 0 θ 1 = θ 1 := by simp [changeUnit]
    have e2 : zeroAdjustedGamma.changeUnit a 0 θ 2 = θ 2 := by simp [changeUnit]
    simp only [logDensity, e0, e1, e2, if_neg hn, if_neg (mul_pos ha hy').ne', gammaL, e, hlog h.1.1, hlog hy']; ring

/-- Densities are per unit of the response: in a unit in which the responses are `a` times as large the density is divided by `a`,
and the log density falls by the logarithm of `a`.  The zero of the zero adjusted gamma distribution is in `C122_zero`. -/
theorem C122_density {a : ℝ} (ha : 0 < a) (b : ℝ) (d : Dist) (hd : d.HasUnit) (hb : d.FixedOrigin → b = 0) (θ : ℕ → ℝ)
    (h : d.Admissible θ) (y : ℝ) (hy : y ∈ d.Responses) (h0 : d = zeroAdjustedGamma → y ≠ 0) :
    ∃ p, 0 < p ∧ d.pdf y θ = .fin p ∧ d.pdf (b + a * y) (d.changeUnit a b θ) = .fin (p / a) ∧
      d.logpdf (b + a * y) (d.changeUnit a b θ) = .fin (Real.log p - Real.log a) := by
  obtain ⟨p, hp, h1, h2, -⟩ := pdf_logpdf d y θ hy h
  obtain ⟨p', hp', h1', h2', h3'⟩ :=
    pdf_logpdf d _ _ ((responses_changeUnit ha hd hb y).2 hy) (changeUnit_admissible ha b hd h)
  have hl := logDensity_changeUnit ha b d hd hb θ h y hy h0
  rw [← h2] at hl
  have e : p' = p / a := by
    apply Real.log_injOn_pos hp' (div_pos hp ha)
    rw [h2', hl, Real.log_div hp.ne' ha.ne']
  exact ⟨p, hp, h1, by rw [h1', e], by rw [h3', hl]⟩

/-- The probability of a zero has no unit. -/
theorem C122_zero {a : ℝ} (ha : 0 < a) (θ : ℕ → ℝ) (h : zeroAdjustedGamma.Admissible θ) :
    ∃ p, 0 < p ∧ zeroAdjustedGamma.pdf 0 θ = .fin p ∧ zeroAdjustedGamma.pdf 0 (zeroAdjustedGamma.changeUnit a 0 θ) = .fin p := by
  have hr : (0 : ℝ) ∈ zeroAdjustedGamma.Responses := by simp [Responses]
  obtain ⟨p, hp, h1, h2, -⟩ := pdf_logpdf zeroAdjustedGamma 0 θ hr h
  obtain ⟨p', hp', h1', h2', -⟩ := pdf_logpdf zeroAdjustedGamma 0 _ hr (changeUnit_admissible ha 0 (d := zeroAdjustedGamma) trivial h)
  refine ⟨p, hp, h1, h1'.trans (congrArg Flt.fin (Real.log_injOn_pos hp' hp ?_))⟩
  rw [h2', h2]
  simp [logDensity, changeUnit]

/-- Temperatures in Fahrenheit instead of Celsius, and an amount in cents. -/
example : (jsu false).HasUnit ∧ ((jsu false).FixedOrigin → (32 : ℝ) = 0) ∧ (jsu false).Admissible half ∧ inverseGaussian.HasUnit ∧
    inverseGaussian.Admissible half :=
  ⟨trivial, False.elim, half_admissible _, trivial, half_admissible _⟩

example : ∃ x, studentT.ppf 1 (1 / 4) half = .fin x ∧
    studentT.ppf 1 (1 / 4) (studentT.changeUnit (9 / 5) 32 half) = .fin (32 + 9 / 5 * x) :=
  C122_ppf 1 (by norm_num) 32 studentT trivial False.elim half (half_admissible _) _ (by norm_num) (by norm_num)

example : zeroAdjustedGamma.cdf (0 + 100 * 3) (zeroAdjustedGamma.changeUnit 100 0 half) = zeroAdjustedGamma.cdf 3 half :=
  C122_cdf (by norm_num) 0 zeroAdjustedGamma trivial (fun _ => rfl) half (half_admissible _) 3 (by simp [Responses])

end Dist
end Ondil
