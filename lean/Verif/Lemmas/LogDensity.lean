import Verif.Lemmas.LogPdf
import Verif.Spec.Distributions

/-! The modelled `logpdf` in closed form, for all classes together. -/

namespace Ondil
namespace Dist
open Filter Topology

open Classical in
/-- Closed form of the log density on admissible parameters and responses. -/
noncomputable def logDensity : Dist → ℝ → (ℕ → ℝ) → ℝ
  | normal, y, θ => normalL y (θ 0) (θ 1)
  | normalMeanVariance, y, θ => normalL y (θ 0) (θ 1 ^ ((1 : ℝ) / 2))
  | studentT, y, θ => studentL y (θ 0) (θ 1) (θ 2)
  | jsu _, y, θ => jsuL y (θ 0) (θ 1) (θ 2) (θ 3)
  | gamma, y, θ => gammaL y (θ 0) (θ 1)
  | beta, y, θ => betaL y (θ 0) (θ 1)
  | logNormal, y, θ => logNormalL y (θ 0) (θ 1)
  | logNormalMedian, y, θ => logNormalL y (Real.log (θ 0)) (θ 1)
  | logistic, y, θ => logisticL y (θ 0) (θ 1)
  | gumbel, y, θ => gumbelL y (θ 0) (θ 1)
  | reverseGumbel, y, θ => reverseGumbelL y (θ 0) (θ 1)
  | exponential, y, θ => exponentialL y (θ 0)
  | inverseGamma, y, θ => inverseGammaL y (θ 0) (θ 1)
  | inverseGaussian, y, θ => inverseGaussianL y (θ 0) (θ 1)
  | betaInflated, y, θ =>
    (if y = 0 then Real.log (θ 2) else if y = 1 then Real.log (θ 3) else betaL y (θ 0) (θ 1))
      - Real.log (1 + θ 2 + θ 3)
  | betaInflatedZero, y, θ =>
    (if y = 0 then Real.log (θ 2) else betaL y (θ 0) (θ 1)) - Real.log (1 + θ 2)
  | zeroAdjustedGamma, y, θ =>
    if y = 0 then Real.log (θ 2) else Real.log (1 - θ 2) + gammaL y (θ 0) (θ 1)

theorem Flt.sub_fin (a b : ℝ) : Flt.sub (.fin a) (.fin b) = .fin (a - b) := by
  simp [Flt.sub, Flt.neg, Flt.add, sub_eq_add_neg]

/-- Own-density classes and scipy classes alike: on admissible inputs the density is positive and finite and
`logpdf` is its logarithm, in closed form. -/
theorem pdf_logpdf (d : Dist) (y : ℝ) (θ : ℕ → ℝ) (hy : y ∈ d.Responses) (hθ : d.Admissible θ) :
    ∃ p, 0 < p ∧ d.pdf y θ = .fin p ∧ Real.log p = d.logDensity y θ ∧
      d.logpdf y θ = .fin (d.logDensity y θ) := by
  have scipy : ∀ f : Frozen, 0 < f.pdf y ∧ Real.log (f.pdf y) = d.logDensity y θ →
      d.pdf y θ = .fin (f.pdf y) → d.logpdf y θ = Flt.log (.fin (f.pdf y)) →
      ∃ p, 0 < p ∧ d.pdf y θ = .fin p ∧ Real.log p = d.logDensity y θ ∧
        d.logpdf y θ = .fin (d.logDensity y θ) :=
    fun f h e1 e2 => ⟨f.pdf y, h.1, e1, h.2, by rw [e2, Flt.log_pos h.1, h.2]⟩
  cases d with
  | normal => exact scipy _ (Frozen.norm_pdf hθ y) rfl rfl
  | normalMeanVariance => exact scipy _ (Frozen.norm_pdf (Real.rpow_pos_of_pos hθ _) y) rfl rfl
  | studentT => exact scipy _ (Frozen.t_pdf hθ.2 hθ.1 y) rfl rfl
  | jsu _ => exact scipy _ (Frozen.johnsonsu_pdf hθ.2 hθ.1 y) rfl rfl
  | gamma => exact scipy _ (gamma_logpdf y θ hy hθ.1 hθ.2) rfl rfl
  | beta => exact scipy _ (innerBeta_pdf y _ _ hy.1 hy.2 hθ.1.1 hθ.1.2 hθ.2.1 hθ.2.2) rfl rfl
  | logNormal =>
    obtain ⟨h1, p, hp, h2, h3⟩ := logNormal_logpdf y (θ 0) (θ 1) hy hθ
    exact ⟨p, hp, h2, h3, h1⟩
  | logNormalMedian => exact scipy _ (Frozen.lognorm_pdf hθ.2 hθ.1 hy) rfl rfl
  | logistic => exact scipy _ (Frozen.logistic_pdf hθ y) rfl rfl
  | gumbel => exact scipy _ (Frozen.gumbelL_pdf hθ y) rfl rfl
  | reverseGumbel => exact scipy _ (Frozen.gumbelR_pdf hθ y) rfl rfl
  | exponential => exact scipy _ (Frozen.expon_pdf hθ (le_of_lt hy)) rfl rfl
  | inverseGamma => exact scipy _ (inverseGamma_logpdf y θ hy hθ.1 hθ.2) rfl rfl
  | inverseGaussian => exact scipy _ (inverseGaussian_logpdf y θ hy hθ.1 hθ.2) rfl rfl
  | betaInflated =>
    obtain ⟨⟨hμ, hμ1⟩, ⟨hσ, hσ1⟩, hν, hτ⟩ := hθ
    have hD : 0 < 1 + θ 2 + θ 3 := by linarith
    have hb : ¬ (y < 0 ∨ y > 1) := by
      rintro (h | h)
      · exact absurd hy.1 (not_le.mpr h)
      · exact absurd hy.2 (not_le.mpr h)
    have e1 : betaInflated.pdf y θ = if y = 0 then .fin (θ 2 / (1 + θ 2 + θ 3))
        else if y = 1 then .fin (θ 3 / (1 + θ 2 + θ 3))
        else .fin ((innerBeta (θ 0) (θ 1)).pdf y / (1 + θ 2 + θ 3)) := if_neg hb
    have e2 : betaInflated.logpdf y θ =
        if y = 0 then Flt.sub (Flt.log (.fin (θ 2))) (Flt.log (.fin (1 + θ 2 + θ 3)))
        else if y = 1 then Flt.sub (Flt.log (.fin (θ 3))) (Flt.log (.fin (1 + θ 2 + θ 3)))
        else Flt.sub (Flt.log (.fin ((innerBeta (θ 0) (θ 1)).pdf y)))
          (Flt.log (.fin (1 + θ 2 + θ 3))) := if_neg hb
    by_cases h0 : y = 0
    · refine ⟨θ 2 / (1 + θ 2 + θ 3), by positivity, by rw [e1, if_pos h0], ?_, ?_⟩
      · simp only [logDensity, if_pos h0]
        rw [Real.log_div hν.ne' hD.ne']
      · simp only [logDensity, if_pos h0]
        rw [e2, if_pos h0, Flt.log_pos hν, Flt.log_pos hD, Flt.sub_fin]
    by_cases h1 : y = 1
    · refine ⟨θ 3 / (1 + θ 2 + θ 3), by positivity, by rw [e1, if_neg h0, if_pos h1], ?_, ?_⟩
      · simp only [logDensity, if_neg h0, if_pos h1]
        rw [Real.log_div hτ.ne' hD.ne']
      · simp only [logDensity, if_neg h0, if_pos h1]
        rw [e2, if_neg h0, if_pos h1, Flt.log_pos hτ, Flt.log_pos hD, Flt.sub_fin]
    have hb := innerBeta_pdf y (θ 0) (θ 1) (lt_of_le_of_ne hy.1 (Ne.symm h0)) (lt_of_le_of_ne hy.2 h1)
      hμ hμ1 hσ hσ1
    refine ⟨(innerBeta (θ 0) (θ 1)).pdf y / (1 + θ 2 + θ 3), div_pos hb.1 hD,
      by rw [e1, if_neg h0, if_neg h1], ?_, ?_⟩
    · simp only [logDensity, if_neg h0, if_neg h1]
      rw [Real.log_div hb.1.ne' hD.ne', hb.2]
    · simp only [logDensity, if_neg h0, if_neg h1]
      rw [e2, if_neg h0, if_neg h1, Flt.log_pos hb.1, Flt.log_pos hD, Flt.sub_fin, hb.2]
  | betaInflatedZero =>
    obtain ⟨⟨hμ, hμ1⟩, ⟨hσ, hσ1⟩, hν⟩ := hθ
    have hD : 0 < 1 + θ 2 := by linarith
    have hb : ¬ (y < 0 ∨ y ≥ 1) := by
      rintro (h | h)
      · exact absurd hy.1 (not_le.mpr h)
      · exact absurd hy.2 (not_lt.mpr h)
    have e1 : betaInflatedZero.pdf y θ = if y = 0 then .fin (θ 2 / (1 + θ 2))
        else .fin ((innerBeta (θ 0) (θ 1)).pdf y / (1 + θ 2)) := if_neg hb
    have e2 : betaInflatedZero.logpdf y θ =
        Flt.sub (if y = 0 then Flt.log (.fin (θ 2))
          else if y > 0 then Flt.log (.fin ((innerBeta (θ 0) (θ 1)).pdf y)) else .fin 0)
          (Flt.log (.fin (1 + θ 2))) := rfl
    by_cases h0 : y = 0
    · refine ⟨θ 2 / (1 + θ 2), by positivity, by rw [e1, if_pos h0], ?_, ?_⟩
      · simp only [logDensity, if_pos h0]
        rw [Real.log_div hν.ne' hD.ne']
      · simp only [logDensity, if_pos h0]
        rw [e2, if_pos h0, Flt.log_pos hν, Flt.log_pos hD, Flt.sub_fin]
    have hy0 : 0 < y := lt_of_le_of_ne hy.1 (Ne.symm h0)
    have hb := innerBeta_pdf y (θ 0) (θ 1) hy0 hy.2 hμ hμ1 hσ hσ1
    refine ⟨(innerBeta (θ 0) (θ 1)).pdf y / (1 + θ 2), div_pos hb.1 hD, by rw [e1, if_neg h0], ?_, ?_⟩
    · simp only [logDensity, if_neg h0]
      rw [Real.log_div hb.1.ne' hD.ne', hb.2]
    · simp only [logDensity, if_neg h0]
      rw [e2, if_neg h0, if_pos hy0, Flt.log_pos hb.1, Flt.log_pos hD, Flt.sub_fin, hb.2]
  | zeroAdjustedGamma =>
    obtain ⟨⟨hμ, hσ⟩, hν, hν1⟩ := hθ
    have h1ν : 0 < 1 - θ 2 := by linarith
    have e1 : zeroAdjustedGamma.pdf y θ = if y = 0 then .fin (θ 2) else
        Flt.div (Flt.mul (Flt.mul (.fin (1 - θ 2)) (fltPow (y / (θ 0 * θ 1 ^ 2)) (1 / θ 1 ^ 2)))
          (Flt.exp (.fin (-y / (θ 0 * θ 1 ^ 2))))) (.fin (y * Real.Gamma (1 / θ 1 ^ 2))) := rfl
    have e2 : zeroAdjustedGamma.logpdf y θ = if y = 0 then Flt.log (.fin (θ 2)) else
        Flt.sub (Flt.sub (Flt.sub (Flt.add (Flt.log (.fin (1 - θ 2)))
            (Flt.mul (.fin (1 / θ 1 ^ 2)) (Flt.log (.fin (y / (θ 0 * θ 1 ^ 2))))))
          (.fin (y / (θ 0 * θ 1 ^ 2)))) (Flt.log (.fin y))) (.fin (logGamma (1 / θ 1 ^ 2))) := rfl
    by_cases h0 : y = 0
    · refine ⟨θ 2, hν, by rw [e1, if_pos h0], ?_, ?_⟩
      · simp only [logDensity, if_pos h0]
      · simp only [logDensity, if_pos h0]
        rw [e2, if_pos h0, Flt.log_pos hν]
    have hy0 : 0 < y := lt_of_le_of_ne hy (Ne.symm h0)
    have hz : 0 < y / (θ 0 * θ 1 ^ 2) := by positivity
    have hG : 0 < Real.Gamma (1 / θ 1 ^ 2) := Real.Gamma_pos_of_pos (by positivity)
    have hp : 0 < (y / (θ 0 * θ 1 ^ 2)) ^ (1 / θ 1 ^ 2) := Real.rpow_pos_of_pos hz _
    have ep : fltPow (y / (θ 0 * θ 1 ^ 2)) (1 / θ 1 ^ 2) = .fin ((y / (θ 0 * θ 1 ^ 2)) ^ (1 / θ 1 ^ 2)) :=
      (if_neg (fun h => absurd h.1 (not_lt.mpr hz.le))).trans (if_neg (fun h => hz.ne' h.1))
    have el : Real.log (y / (θ 0 * θ 1 ^ 2)) = Real.log y - (Real.log (θ 0) + 2 * Real.log (θ 1)) := by
      rw [Real.log_div hy0.ne' (by positivity), Real.log_mul hμ.ne' (by positivity), Real.log_pow]
      push_cast
      ring
    refine ⟨(1 - θ 2) * (y / (θ 0 * θ 1 ^ 2)) ^ (1 / θ 1 ^ 2) * Real.exp (-y / (θ 0 * θ 1 ^ 2)) /
      (y * Real.Gamma (1 / θ 1 ^ 2)), by positivity, ?_, ?_, ?_⟩
    · rw [e1, if_neg h0, ep]
      exact if_neg (mul_pos hy0 hG).ne'
    · simp only [logDensity, if_neg h0]
      rw [Real.log_div (by positivity) (by positivity), Real.log_mul (by positivity) (Real.exp_pos _).ne',
        Real.log_mul h1ν.ne' hp.ne', Real.log_exp, Real.log_rpow hz, Real.log_mul hy0.ne' hG.ne', el]
      unfold gammaL logGamma
      ring
    · simp only [logDensity, if_neg h0]
      rw [e2, if_neg h0, Flt.log_pos h1ν, Flt.log_pos hz, Flt.log_pos hy0]
      simp only [Flt.mul, Flt.add, Flt.sub_fin]
      rw [el]
      unfold gammaL logGamma
      congr 1
      ring

/-- Admissibility is an open condition in every coordinate. -/
theorem admissible_eventually (d : Dist) (θ : ℕ → ℝ) (hθ : d.Admissible θ) (k : ℕ) :
    ∀ᶠ t in 𝓝 (θ k), d.Admissible (Function.update θ k t) := by
  have hu : Continuous fun t : ℝ => Function.update θ k t := continuous_const.update k continuous_id
  have hc : ∀ i, ContinuousAt (fun t => Function.update θ k t i) (θ k) := fun i =>
    ((continuous_apply i).comp hu).continuousAt
  have pos : ∀ i, 0 < θ i → ∀ᶠ t in 𝓝 (θ k), 0 < Function.update θ k t i := fun i hi =>
    (hc i).eventually (lt_mem_nhds (by simpa using hi))
  have lt1 : ∀ i, θ i < 1 → ∀ᶠ t in 𝓝 (θ k), Function.update θ k t i < 1 := fun i hi =>
    (hc i).eventually (gt_mem_nhds (by simpa using hi))
  cases d with
  | normal | normalMeanVariance | logNormal | logistic | gumbel | reverseGumbel | exponential =>
    exact pos _ hθ
  | studentT | jsu _ | gamma | logNormalMedian | inverseGamma | inverseGaussian =>
    exact (pos _ hθ.1).and (pos _ hθ.2)
  | beta => exact ((pos _ hθ.1.1).and (lt1 _ hθ.1.2)).and ((pos _ hθ.2.1).and (lt1 _ hθ.2.2))
  | betaInflated =>
    exact ((pos _ hθ.1.1).and (lt1 _ hθ.1.2)).and (((pos _ hθ.2.1.1).and (lt1 _ hθ.2.1.2)).and
      ((pos _ hθ.2.2.1).and (pos _ hθ.2.2.2)))
  | betaInflatedZero =>
    exact ((pos _ hθ.1.1).and (lt1 _ hθ.1.2)).and (((pos _ hθ.2.1.1).and (lt1 _ hθ.2.1.2)).and (pos _ hθ.2.2))
  | zeroAdjustedGamma =>
    exact ((pos _ hθ.1.1).and (pos _ hθ.1.2)).and ((pos _ hθ.2.1).and (lt1 _ hθ.2.2))

theorem checked_ok (n : ℕ) (l : List ℝ) (k : ℕ) (hk : k < n) {v : ℝ} (hv : l[k]? = some v) :
    checked n l k = .ok (some v) := by
  have h1 : validateIndex n k = .ok () := if_neg (by omega)
  have h2 : chain l k = some v := (if_neg (by omega)).trans (by simpa using hv)
  unfold checked
  rw [h1]
  simp only [Except.bind]
  rw [h2]

theorem orRaise_ok (l : List ℝ) (k : ℕ) {v : ℝ} (hv : l[k]? = some v) :
    orRaise l k = .ok (some v) := by
  have h2 : chain l k = some v := (if_neg (by omega)).trans (by simpa using hv)
  unfold orRaise
  rw [h2]

/-- The score returned by `dl1_dp1` is the derivative of the closed form. -/
theorem dl1_hasDerivAt (d : Dist) (y : ℝ) (θ : ℕ → ℝ) (hy : y ∈ d.Responses) (hθ : d.Admissible θ) (k : ℕ)
    (hk : k < d.nParams) :
    ∃ s, d.dl1 y θ k = .ok (some s) ∧
      HasDerivAt (fun t => d.logDensity y (Function.update θ k t)) s (θ k) := by
  have u01 : ∀ t, Function.update θ 0 t 1 = θ 1 := fun t => by simp
  have u02 : ∀ t, Function.update θ 0 t 2 = θ 2 := fun t => by simp
  have u03 : ∀ t, Function.update θ 0 t 3 = θ 3 := fun t => by simp
  have u10 : ∀ t, Function.update θ 1 t 0 = θ 0 := fun t => by simp
  have u12 : ∀ t, Function.update θ 1 t 2 = θ 2 := fun t => by simp
  have u13 : ∀ t, Function.update θ 1 t 3 = θ 3 := fun t => by simp
  have u20 : ∀ t, Function.update θ 2 t 0 = θ 0 := fun t => by simp
  have u21 : ∀ t, Function.update θ 2 t 1 = θ 1 := fun t => by simp
  have u23 : ∀ t, Function.update θ 2 t 3 = θ 3 := fun t => by simp
  have u30 : ∀ t, Function.update θ 3 t 0 = θ 0 := fun t => by simp
  have u31 : ∀ t, Function.update θ 3 t 1 = θ 1 := fun t => by simp
  have u32 : ∀ t, Function.update θ 3 t 2 = θ 2 := fun t => by simp
  cases d with
  | normal =>
    have hk' : k < 2 := hk
    interval_cases k <;> simp only [logDensity, Function.update_self, u01, u10]
    · exact ⟨_, checked_ok 2 _ 0 (by norm_num) rfl, normalL_loc _ _ _ (ne_of_gt hθ)⟩
    · exact ⟨_, checked_ok 2 _ 1 (by norm_num) rfl, normalL_scale _ _ _ (ne_of_gt hθ)⟩
  | normalMeanVariance =>
    have hk' : k < 2 := hk
    have hp : (θ 1 ^ ((1 : ℝ) / 2)) ^ 2 = θ 1 := by
      rw [← Real.rpow_natCast, ← Real.rpow_mul (le_of_lt hθ)]
      norm_num
    interval_cases k <;> simp only [logDensity, Function.update_self, u01, u10]
    · have h := normalL_loc y (θ 0) (θ 1 ^ ((1 : ℝ) / 2)) (Real.rpow_pos_of_pos hθ _).ne'
      rw [hp] at h
      exact ⟨_, checked_ok 2 _ 0 (by norm_num) rfl, h⟩
    · exact ⟨_, checked_ok 2 _ 1 (by norm_num) rfl, normalL_var _ _ _ hθ⟩
  | studentT =>
    have hk' : k < 3 := hk
    interval_cases k <;> simp only [logDensity, Function.update_self, u01, u10, u02, u20, u12, u21]
    · exact ⟨_, checked_ok 3 _ 0 (by norm_num) rfl, studentL_loc _ _ _ _ hθ.1 hθ.2⟩
    · exact ⟨_, checked_ok 3 _ 1 (by norm_num) rfl, studentL_scale _ _ _ _ hθ.1 hθ.2⟩
    · exact ⟨_, checked_ok 3 _ 2 (by norm_num) rfl, studentL_df _ _ _ _ hθ.1 hθ.2⟩
  | jsu _ =>
    have hk' : k < 4 := hk
    interval_cases k <;>
      simp only [logDensity, Function.update_self, u01, u10, u02, u20, u12, u21, u03, u30, u13, u31, u23, u32]
    · exact ⟨_, checked_ok 4 _ 0 (by norm_num) rfl, jsuL_loc _ _ _ _ _ hθ.1⟩
    · exact ⟨_, checked_ok 4 _ 1 (by norm_num) rfl, jsuL_scale _ _ _ _ _ hθ.1⟩
    · exact ⟨_, checked_ok 4 _ 2 (by norm_num) rfl, jsuL_skew _ _ _ _ _⟩
    · exact ⟨_, checked_ok 4 _ 3 (by norm_num) rfl, jsuL_tail _ _ _ _ _ hθ.2⟩
  | gamma =>
    have hk' : k < 2 := hk
    interval_cases k <;> simp only [logDensity, Function.update_self, u01, u10]
    · exact ⟨_, checked_ok 2 _ 0 (by norm_num) rfl, gammaL_loc _ _ _ hθ.1 hθ.2⟩
    · exact ⟨_, checked_ok 2 _ 1 (by norm_num) rfl, gammaL_scale _ _ _ hθ.1 hθ.2⟩
  | beta =>
    have hk' : k < 2 := hk
    interval_cases k <;> simp only [logDensity, Function.update_self, u01, u10]
    · exact ⟨_, checked_ok 2 _ 0 (by norm_num) rfl, betaL_loc _ _ _ hθ.1.1 hθ.1.2 hθ.2.1 hθ.2.2⟩
    · exact ⟨_, checked_ok 2 _ 1 (by norm_num) rfl, betaL_scale _ _ _ hθ.1.1 hθ.1.2 hθ.2.1 hθ.2.2⟩
  | logNormal =>
    have hk' : k < 2 := hk
    interval_cases k <;> simp only [logDensity, Function.update_self, u01, u10]
    · exact ⟨_, checked_ok 2 _ 0 (by norm_num) rfl, logNormalL_loc _ _ _ hθ⟩
    · exact ⟨_, checked_ok 2 _ 1 (by norm_num) rfl, logNormalL_scale _ _ _ hθ⟩
  | logNormalMedian =>
    have hk' : k < 2 := hk
    interval_cases k <;> simp only [logDensity, Function.update_self, u01, u10]
    · exact ⟨_, checked_ok 2 _ 0 (by norm_num) rfl, logNormalL_median _ _ _ hθ.1 hθ.2⟩
    · exact ⟨_, checked_ok 2 _ 1 (by norm_num) rfl, logNormalL_scale _ _ _ hθ.2⟩
  | logistic =>
    have hk' : k < 2 := hk
    interval_cases k <;> simp only [logDensity, Function.update_self, u01, u10]
    · exact ⟨_, checked_ok 2 _ 0 (by norm_num) rfl, logisticL_loc _ _ _ hθ⟩
    · exact ⟨_, checked_ok 2 _ 1 (by norm_num) rfl, logisticL_scale _ _ _ hθ⟩
  | gumbel =>
    have hk' : k < 2 := hk
    interval_cases k <;> simp only [logDensity, Function.update_self, u01, u10]
    · exact ⟨_, by unfold dl1; exact orRaise_ok _ 0 rfl, gumbelL_loc _ _ _⟩
    · exact ⟨_, by unfold dl1; exact orRaise_ok _ 1 rfl, gumbelL_scale _ _ _ hθ⟩
  | reverseGumbel =>
    have hk' : k < 2 := hk
    interval_cases k <;> simp only [logDensity, Function.update_self, u01, u10]
    · exact ⟨_, checked_ok 2 _ 0 (by norm_num) rfl, reverseGumbelL_loc _ _ _⟩
    · exact ⟨_, checked_ok 2 _ 1 (by norm_num) rfl, reverseGumbelL_scale _ _ _ hθ⟩
  | exponential =>
    have hk' : k < 1 := hk
    interval_cases k
    simp only [logDensity, Function.update_self]
    exact ⟨_, rfl, exponentialL_loc _ _ hθ⟩
  | inverseGamma =>
    have hk' : k < 2 := hk
    interval_cases k <;> simp only [logDensity, Function.update_self, u01, u10]
    · exact ⟨_, checked_ok 2 _ 0 (by norm_num) rfl, inverseGammaL_loc _ _ _ hθ.1 hθ.2⟩
    · exact ⟨_, checked_ok 2 _ 1 (by norm_num) rfl, inverseGammaL_scale _ _ _ hθ.1 hθ.2⟩
  | inverseGaussian =>
    have hk' : k < 2 := hk
    interval_cases k <;> simp only [logDensity, Function.update_self, u01, u10]
    · exact ⟨_, by unfold dl1; exact orRaise_ok _ 0 rfl, inverseGaussianL_loc _ _ _ hy hθ.1 hθ.2⟩
    · exact ⟨_, by unfold dl1; exact orRaise_ok _ 1 rfl, inverseGaussianL_scale _ _ _ hy hθ.1 hθ.2⟩
  | betaInflated =>
    have hk' : k < 4 := hk
    obtain ⟨⟨hμ, hμ1⟩, ⟨hσ, hσ1⟩, hν, hτ⟩ := hθ
    have hD : 0 < 1 + θ 2 + θ 3 := by linarith
    have hD2 : HasDerivAt (fun t => Real.log (1 + t + θ 3)) (1 / (1 + θ 2 + θ 3)) (θ 2) := by
      simpa using (((hasDerivAt_id (θ 2)).const_add 1).add_const (θ 3)).log hD.ne'
    have hD3 : HasDerivAt (fun t => Real.log (1 + θ 2 + t)) (1 / (1 + θ 2 + θ 3)) (θ 3) := by
      simpa using ((hasDerivAt_id (θ 3)).const_add (1 + θ 2)).log hD.ne'
    interval_cases k <;>
      simp only [logDensity, Function.update_self, u01, u10, u02, u20, u12, u21, u03, u30, u13, u31, u23, u32]
    · refine ⟨_, checked_ok 4 _ 0 (by norm_num) rfl, ?_⟩
      by_cases h0 : y = 0
      · simp only [h0, if_true, true_or]
        exact hasDerivAt_const _ _
      by_cases h1 : y = 1
      · simp only [h1, if_true, or_true, one_ne_zero, if_false]
        exact hasDerivAt_const _ _
      simp only [h0, h1, if_false, or_self]
      exact (betaL_loc _ _ _ hμ hμ1 hσ hσ1).sub_const _
    · refine ⟨_, checked_ok 4 _ 1 (by norm_num) rfl, ?_⟩
      by_cases h0 : y = 0
      · simp only [h0, if_true, true_or]
        exact hasDerivAt_const _ _
      by_cases h1 : y = 1
      · simp only [h1, if_true, or_true, one_ne_zero, if_false]
        exact hasDerivAt_const _ _
      simp only [h0, h1, if_false, or_self]
      exact (betaL_scale _ _ _ hμ hμ1 hσ hσ1).sub_const _
    · refine ⟨_, checked_ok 4 _ 2 (by norm_num) rfl, ?_⟩
      by_cases h0 : y = 0
      · simp only [h0, if_true]
        rw [one_div (θ 2)]
        exact (Real.hasDerivAt_log hν.ne').sub hD2
      · simp only [h0, if_false]
        exact (hasDerivAt_const _ _).sub hD2
    · refine ⟨_, checked_ok 4 _ 3 (by norm_num) rfl, ?_⟩
      by_cases h0 : y = 0
      · simp only [h0, if_true, zero_ne_one, if_false]
        exact (hasDerivAt_const _ _).sub hD3
      by_cases h1 : y = 1
      · simp only [h1, if_true, one_ne_zero, if_false]
        rw [one_div (θ 3)]
        exact (Real.hasDerivAt_log hτ.ne').sub hD3
      · simp only [h0, h1, if_false]
        exact (hasDerivAt_const _ _).sub hD3
  | betaInflatedZero =>
    have hk' : k < 3 := hk
    obtain ⟨⟨hμ, hμ1⟩, ⟨hσ, hσ1⟩, hν⟩ := hθ
    have hD : 0 < 1 + θ 2 := by linarith
    have hD2 : HasDerivAt (fun t => Real.log (1 + t)) (1 / (1 + θ 2)) (θ 2) := by
      simpa using ((hasDerivAt_id (θ 2)).const_add 1).log hD.ne'
    interval_cases k <;> simp only [logDensity, Function.update_self, u01, u10, u02, u20, u12, u21]
    · refine ⟨_, checked_ok 3 _ 0 (by norm_num) rfl, ?_⟩
      by_cases h0 : y = 0
      · simp only [h0, if_true]
        exact hasDerivAt_const _ _
      simp only [h0, if_false]
      exact (betaL_loc _ _ _ hμ hμ1 hσ hσ1).sub_const _
    · refine ⟨_, checked_ok 3 _ 1 (by norm_num) rfl, ?_⟩
      by_cases h0 : y = 0
      · simp only [h0, if_true]
        exact hasDerivAt_const _ _
      simp only [h0, if_false]
      exact (betaL_scale _ _ _ hμ hμ1 hσ hσ1).sub_const _
    · refine ⟨_, checked_ok 3 _ 2 (by norm_num) rfl, ?_⟩
      by_cases h0 : y = 0
      · simp only [h0, if_true]
        rw [one_div (θ 2)]
        exact (Real.hasDerivAt_log hν.ne').sub hD2
      · simp only [h0, if_false]
        exact (hasDerivAt_const _ _).sub hD2
  | zeroAdjustedGamma =>
    have hk' : k < 3 := hk
    obtain ⟨⟨hμ, hσ⟩, hν, hν1⟩ := hθ
    have h1ν : 0 < 1 - θ 2 := by linarith
    interval_cases k <;> simp only [logDensity, Function.update_self, u01, u10, u02, u20, u12, u21]
    · refine ⟨_, checked_ok 3 _ 0 (by norm_num) rfl, ?_⟩
      by_cases h0 : y = 0
      · simp only [h0, if_true]
        exact hasDerivAt_const _ _
      simp only [h0, if_false]
      exact (gammaL_loc _ _ _ hμ hσ).const_add _
    · refine ⟨_, checked_ok 3 _ 1 (by norm_num) rfl, ?_⟩
      by_cases h0 : y = 0
      · simp only [h0, if_true]
        exact hasDerivAt_const _ _
      simp only [h0, if_false]
      exact (gammaL_scale _ _ _ hμ hσ).const_add _
    · refine ⟨_, checked_ok 3 _ 2 (by norm_num) rfl, ?_⟩
      by_cases h0 : y = 0
      · simp only [h0, if_true]
        simpa using Real.hasDerivAt_log hν.ne'
      · simp only [h0, if_false]
        have h := (((hasDerivAt_id (θ 2)).const_sub 1).log h1ν.ne').add_const (gammaL y (θ 0) (θ 1))
        simpa using h

end Dist
end Ondil
