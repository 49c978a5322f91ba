import Verif.Props.Fisher

/-!
# Distribution and quantile functions of all classes (C50, C51)
-/

namespace Ondil

open MeasureTheory ProbabilityTheory Set Filter

namespace Dist

/-- The density method of the classes that use scipy describes the law of the frozen scipy distribution. -/
theorem law_eq_frozen (d : Dist) (hd : d ≠ logNormal) (θ : ℕ → ℝ) (h : d.Admissible θ) (f : Frozen)
    (hf : d.toScipy θ = some f) : d.law θ = f.law := by
  cases d <;> simp only [toScipy, Option.some.injEq, reduceCtorEq] at hf <;> subst hf
  case logNormal => exact absurd rfl hd
  case gamma =>
    obtain ⟨h0, h1⟩ := h
    have hs : 0 < 1 / (1 / (θ 1 ^ 2 * θ 0)) := by positivity
    exact law_of_frozen rfl (.of_forall fun _ _ => rfl) (off_Ioi rfl hs fun z hz => if_neg (not_lt.mpr hz.le))
  case beta =>
    refine law_of_frozen rfl (.of_forall fun _ _ => rfl) (.of_forall fun y hy => ?_)
    simp only [Frozen.pdf, Frozen.stdPdf, Frozen.loc, Frozen.scale, sub_zero, div_one]
    exact if_neg hy
  case logNormalMedian =>
    exact law_of_frozen rfl (.of_forall fun _ _ => rfl) (off_Ioi rfl h.1 fun z hz => if_neg (not_lt.mpr hz.le))
  case exponential =>
    exact law_of_frozen rfl (.of_forall fun _ _ => rfl) (off_Ioi rfl h fun z hz => if_neg (not_le.mpr hz))
  case inverseGamma =>
    obtain ⟨h0, h1⟩ := h
    have hs : 0 < θ 0 * (1 + θ 1 ^ 2) / θ 1 ^ 2 := by positivity
    exact law_of_frozen rfl (.of_forall fun _ _ => rfl) (off_Ioi rfl hs fun z hz => if_neg (not_lt.mpr hz.le))
  case inverseGaussian =>
    obtain ⟨h0, h1⟩ := h
    have hs : 0 < 1 / θ 1 ^ 2 := by positivity
    exact law_of_frozen rfl (.of_forall fun _ _ => rfl) (off_Ioi rfl hs fun z hz => if_neg (not_lt.mpr hz.le))
  all_goals exact law_of_frozen rfl (.of_forall fun _ _ => rfl) (by simp [Responses])

theorem norm_law : (Frozen.norm 0 1).law = gaussianReal 0 1 := by
  rw [Frozen.law_eq_map _ (by exact one_pos), Frozen.stdLaw_norm]
  simp [Frozen.loc, Frozen.scale]

theorem logNormal_Iic {θ : ℕ → ℝ} (h : logNormal.Admissible θ) {y : ℝ} (hy : 0 < y) :
    logNormal.law θ (Iic y) = gaussianReal 0 1 (Iic ((Real.log y - θ 0) / θ 1)) := by
  have hσ : 0 < θ 1 := h
  rw [law_logNormal θ h, Measure.map_apply (by fun_prop) measurableSet_Iic]
  congr 1
  ext z
  simp only [mem_preimage, mem_Iic, ← Real.exp_add]
  rw [le_div_iff₀ hσ, ← Real.le_log_iff_exp_le hy]
  constructor <;> intro h <;> linarith

/-- For every class `cdf(y)` is the probability of the responses up to `y` under the law described by the density method,
for every response `y`. -/
theorem C50_cdf (d : Dist) (θ : ℕ → ℝ) (h : d.Admissible θ) (y : ℝ) (hy : y ∈ d.Responses) :
    d.cdf y θ = .fin (d.law θ (Iic y)).toReal := by
  cases hd : d with
  | betaInflated => subst hd; exact C50_cdf_partial betaInflated trivial θ h y id
  | betaInflatedZero => subst hd; exact C50_cdf_partial betaInflatedZero trivial θ h y id
  | zeroAdjustedGamma => subst hd; exact C50_cdf_partial zeroAdjustedGamma trivial θ h y (not_lt.mpr hy)
  | logNormal =>
    subst hd
    rw [logNormal_Iic h hy, ← norm_law]
    rfl
  | _ =>
    subst hd
    rw [law_eq_frozen _ (by simp) θ h _ rfl]
    rfl

/-- For every class the quantile function is the generalised inverse of the distribution function. -/
theorem C51_generalised_inverse_all (ulp : ℝ) (d : Dist) (θ : ℕ → ℝ) (h : d.Admissible θ) (q : ℝ) (hq0 : 0 < q)
    (hq1 : q < 1) (y : ℝ) (hy : y ∈ d.Responses) :
    ∃ x F, d.ppf ulp q θ = .fin x ∧ d.cdf y θ = .fin F ∧ (x ≤ y ↔ q ≤ F) := by
  haveI := law_isProbability d θ h
  cases hd : d with
  | betaInflated => subst hd; exact C51_generalised_inverse ulp betaInflated trivial θ h q hq0 hq1 y hy
  | betaInflatedZero => subst hd; exact C51_generalised_inverse ulp betaInflatedZero trivial θ h q hq0 hq1 y hy
  | zeroAdjustedGamma => subst hd; exact C51_generalised_inverse ulp zeroAdjustedGamma trivial θ h q hq0 hq1 y hy
  | logNormal =>
    subst hd
    have hσ : 0 < θ 1 := h
    have hy' : 0 < y := hy
    refine ⟨Real.exp (θ 0 + θ 1 * sInf {x | q ≤ (Frozen.norm 0 1).cdf x}), _, ?_, C50_cdf _ θ h y hy, ?_⟩
    · change Flt.exp (Flt.add (.fin (θ 0)) (Flt.mul (.fin (θ 1)) ((Frozen.norm 0 1).ppf q))) = _
      rw [Frozen_ppf_mid _ hq0 hq1]
      rfl
    · rw [logNormal_Iic h hy, ← sInf_cdf_le_iff (gaussianReal 0 1) hq0 hq1, ← norm_law, le_div_iff₀ hσ,
        ← Real.le_log_iff_exp_le hy']
      change _ ↔ sInf {x | q ≤ (Frozen.norm 0 1).cdf x} * θ 1 ≤ _
      constructor <;> intro h <;> linarith
  | _ =>
    subst hd
    have e := law_eq_frozen _ (by simp) θ h _ rfl
    rw [e] at this
    refine ⟨_, _, Frozen_ppf_mid _ hq0 hq1, C50_cdf _ θ h y hy, ?_⟩
    rw [e]
    exact sInf_cdf_le_iff _ hq0 hq1 y

/-- The quantile at the probability of a response is at most that response. -/
theorem C51_quantile_of_cdf (ulp : ℝ) (d : Dist) (θ : ℕ → ℝ) (h : d.Admissible θ) (y F : ℝ) (hy : y ∈ d.Responses)
    (hF : d.cdf y θ = .fin F) (h0 : 0 < F) (h1 : F < 1) : ∃ x, d.ppf ulp F θ = .fin x ∧ x ≤ y := by
  obtain ⟨x, G, hx, hG, hiff⟩ := C51_generalised_inverse_all ulp d θ h F h0 h1 y hy
  exact ⟨x, hx, hiff.mpr (Flt.fin.inj (hF.symm.trans hG)).le⟩

/-- The median of the log-normal law, as an instance. -/
example : ∃ x F, logNormal.ppf 1 (1 / 2) half = .fin x ∧ logNormal.cdf 1 half = .fin F ∧ (x ≤ 1 ↔ 1 / 2 ≤ F) :=
  C51_generalised_inverse_all 1 logNormal half (half_admissible _) _ (by norm_num) (by norm_num) 1 (by simp [Responses])

end Dist
end Ondil
