import Verif.Lemmas.Fisher3
import Verif.Lemmas.Euler
import Verif.Props.Cdf
import Mathlib.Analysis.Real.Pi.Bounds

/-!
# Expected information: C48
-/

namespace Ondil
namespace Dist

open MeasureTheory ProbabilityTheory Set Filter Topology

/-- The law described by the density method is a probability law, for every class and all admissible parameters. -/
theorem law_isProbability (d : Dist) (θ : ℕ → ℝ) (h : d.Admissible θ) : IsProbabilityMeasure (d.law θ) := by
  cases d
  case normal => rw [law_normal θ h]; exact Measure.isProbabilityMeasure_map (by fun_prop)
  case normalMeanVariance => rw [law_normalMeanVariance θ h]; exact Measure.isProbabilityMeasure_map (by fun_prop)
  case studentT =>
    rw [law_studentT θ h]
    haveI := Frozen.t_std_prob h.2 0 1
    exact Measure.isProbabilityMeasure_map (by fun_prop)
  case jsu b => rw [law_jsu b θ h]; exact Measure.isProbabilityMeasure_map (by fun_prop)
  case gamma => exact gamma_law_prob h
  case beta => exact beta_law_prob h
  case logNormal => rw [law_logNormal θ h]; exact Measure.isProbabilityMeasure_map (by fun_prop)
  case logNormalMedian => rw [law_logNormalMedian θ h]; exact Measure.isProbabilityMeasure_map (by fun_prop)
  case logistic =>
    rw [law_logistic θ h]
    haveI := isProbabilityMeasureBeta (α := (1:ℝ)) (β := 1) one_pos one_pos
    exact Measure.isProbabilityMeasure_map (by fun_prop)
  case gumbel =>
    rw [law_gumbel θ h]
    haveI := isProbabilityMeasure_gammaMeasure (a := (1:ℝ)) (r := 1) one_pos one_pos
    exact Measure.isProbabilityMeasure_map (by fun_prop)
  case reverseGumbel =>
    rw [law_reverseGumbel θ h]
    haveI := isProbabilityMeasure_gammaMeasure (a := (1:ℝ)) (r := 1) one_pos one_pos
    exact Measure.isProbabilityMeasure_map (by fun_prop)
  case exponential =>
    rw [law_exponential θ h]
    haveI := isProbabilityMeasure_gammaMeasure (a := (1:ℝ)) (r := 1) one_pos one_pos
    exact Measure.isProbabilityMeasure_map (by fun_prop)
  case inverseGamma =>
    rw [law_inverseGamma θ h]
    obtain ⟨h0, h1⟩ := h
    haveI := isProbabilityMeasure_gammaMeasure (a := 1 / θ 1 ^ 2) (r := 1) (by positivity) one_pos
    exact Measure.isProbabilityMeasure_map (by fun_prop)
  case inverseGaussian =>
    rw [law_inverseGaussian θ h]
    obtain ⟨h0, h1⟩ := h
    haveI := igBase_prob (m := θ 0 * θ 1 ^ 2) (by positivity)
    exact Measure.isProbabilityMeasure_map ((Frozen.igS_measurable.pow_const 2).const_mul _).aemeasurable
  case betaInflated => exact ⟨C50_total_mass betaInflated trivial θ h⟩
  case betaInflatedZero => exact ⟨C50_total_mass betaInflatedZero trivial θ h⟩
  case zeroAdjustedGamma => exact ⟨C50_total_mass zeroAdjustedGamma trivial θ h⟩

/-! ### The scores have mean zero -/

/-- For every class and all admissible parameters the score functions `dl1_dp1(·, theta, k)` are square integrable with
mean zero under the law described by the density method, so that their second moments are variances and covariances. -/
theorem C48_scores (d : Dist) (θ : ℕ → ℝ) (h : d.Admissible θ) : IsScore (d.law θ) d.nParams (d.score θ) := by
  cases d
  case normal => exact (normal_fisher h).1
  case normalMeanVariance => exact (normalMeanVariance_fisher h).1
  case studentT => exact (studentT_fisher h).1
  case jsu b => exact jsu_fisher b h
  case gamma => exact (gamma_fisher h).1
  case beta => exact (beta_fisher h).1
  case logNormal => exact (logNormal_fisher h).1
  case logNormalMedian => exact (logNormalMedian_fisher h).1
  case logistic => exact (logistic_fisher h).1
  case gumbel => exact (gumbel_fisher h).1
  case reverseGumbel => exact (reverseGumbel_fisher h).1
  case exponential => exact (exponential_fisher h).1
  case inverseGamma => exact (inverseGamma_fisher h).1
  case inverseGaussian => exact (inverseGaussian_fisher h).1
  case betaInflated => exact (betaInflated_fisher h).1
  case betaInflatedZero => exact (betaInflatedZero_fisher h).1
  case zeroAdjustedGamma => exact (zaga_fisher h).1

/-! ### The information -/

/-- The classes whose second derivatives are expectations that do not depend on the response. -/
def Expected : Dist → Prop
  | jsu _ | betaInflated | betaInflatedZero | zeroAdjustedGamma => False
  | _ => True

/-- Where `dl2_dp2` is not exact: the scale of the two Gumbel classes, which uses a decimal constant, and the degrees of
freedom of Student t where they exceed `1e15` or their information is below `1e-15`. -/
def Rounded (d : Dist) (θ : ℕ → ℝ) (k : ℕ) : Prop :=
  match d with
  | gumbel | reverseGumbel => k = 1
  | studentT => k = 2 ∧ ¬ (θ 2 ≤ 10 ^ 15 ∧ 1 / 10 ^ 15 ≤ fisher (studentT.law θ) (studentT.score θ) 2 2)
  | _ => False

/-- `dl2_dp2(y, theta, k)` is minus the Fisher information, i.e. minus the variance of the score under the law of the
response, whatever `y` is.  Missing from the full claim: `Rounded`, see `C48_gumbel_digits` and
`C48_student_clipped_fails`. -/
theorem C48_expected_information_partial (d : Dist) (hd : d.Expected) (θ : ℕ → ℝ) (h : d.Admissible θ) (k : ℕ)
    (hk : k < d.nParams) (hr : ¬ d.Rounded θ k) (y : ℝ) :
    d.dl2 y θ k = .ok (some (-fisher (d.law θ) (d.score θ) k k)) := by
  have ok : ∀ {u v : ℝ}, u = v → (Except.ok (some u) : Except PyErr (Option ℝ)) = .ok (some v) := fun e => by rw [e]
  cases d <;> simp only [Expected] at hd
  case normal =>
    have hσ : 0 < θ 1 := h
    revert k
    refine lt_two (fun _ => ?_) (fun _ => ?_) <;> rw [(normal_fisher h).2 _ (by norm_num) _ (by norm_num)] <;>
      refine ok ?_ <;> simp only [co, List.getD_cons_zero, List.getD_cons_succ]
    · field_simp; ring
    · field_simp; ring
  case normalMeanVariance =>
    have hσ : 0 < θ 1 := h
    have hs : 0 < √(θ 1) := Real.sqrt_pos.mpr hσ
    have hq : √(θ 1) ^ 2 = θ 1 := Real.sq_sqrt hσ.le
    revert k
    refine lt_two (fun _ => ?_) (fun _ => ?_) <;> rw [(normalMeanVariance_fisher h).2 _ (by norm_num) _ (by norm_num)] <;>
      refine ok ?_ <;> simp only [co, List.getD_cons_zero, List.getD_cons_succ]
    · have e : 1 / √(θ 1) * (1 / √(θ 1)) = 1 / θ 1 := by
        conv_rhs => rw [← hq]
        field_simp
      rw [e]; ring
    · field_simp; ring
  case studentT =>
    obtain ⟨hσ, hν⟩ := id h
    obtain ⟨-, f0, f1, f2, -⟩ := studentT_fisher h
    revert k
    refine lt_three (fun _ => ?_) (fun _ => ?_) (fun hr => ?_)
    · rw [f0]; exact ok (by rw [neg_div])
    · rw [f1]; exact ok (by rw [neg_div])
    · simp only [Rounded, true_and, not_not] at hr
      obtain ⟨h1, h2⟩ := hr
      rw [f2] at h2 ⊢
      refine ok ?_
      rw [neg_neg, min_eq_left h1, min_eq_left (by linarith)]
  case gamma =>
    obtain ⟨hμ, hσ⟩ := id h
    revert k
    refine lt_two (fun _ => ?_) (fun _ => ?_) <;> rw [(gamma_fisher h).2 _ (by norm_num) _ (by norm_num)] <;>
      refine ok ?_ <;> simp only [co, List.getD_cons_zero, List.getD_cons_succ]
    · field_simp; ring
    · field_simp; ring
  case beta =>
    obtain ⟨⟨hμ, hμ1⟩, hσ, hσ1⟩ := id h
    revert k
    refine lt_two (fun _ => ?_) (fun _ => ?_) <;> rw [(beta_fisher h).2 _ (by norm_num) _ (by norm_num)] <;>
      refine ok ?_ <;> simp only [co, List.getD_cons_zero, List.getD_cons_succ]
    · field_simp; ring
    · field_simp; ring
  case logNormal =>
    have hσ : 0 < θ 1 := h
    revert k
    refine lt_two (fun _ => ?_) (fun _ => ?_) <;> rw [(logNormal_fisher h).2 _ (by norm_num) _ (by norm_num)] <;>
      refine ok ?_ <;> simp only [co, List.getD_cons_zero, List.getD_cons_succ]
    · field_simp; ring
    · field_simp; ring
  case logNormalMedian =>
    obtain ⟨hμ, hσ⟩ := id h
    revert k
    refine lt_two (fun _ => ?_) (fun _ => ?_) <;> rw [(logNormalMedian_fisher h).2 _ (by norm_num) _ (by norm_num)] <;>
      refine ok ?_ <;> simp only [co, List.getD_cons_zero, List.getD_cons_succ]
    · field_simp; ring
    · field_simp; ring
  case logistic =>
    have hσ : 0 < θ 1 := h
    revert k
    refine lt_two (fun _ => ?_) (fun _ => ?_) <;> rw [(logistic_fisher h).2 _ (by norm_num) _ (by norm_num)] <;>
      refine ok ?_ <;> simp only [co, List.getD_cons_zero, List.getD_cons_succ]
    · field_simp; ring
    · rw [trigamma_one]; field_simp; ring
  case gumbel =>
    have hσ : 0 < θ 1 := h
    revert k
    refine lt_two (fun _ => ?_) (fun hr => absurd rfl hr)
    rw [(gumbel_fisher h).2 _ (by norm_num) _ (by norm_num)]
    refine ok ?_
    simp only [co, List.getD_cons_zero, List.getD_cons_succ]
    field_simp; ring
  case reverseGumbel =>
    have hσ : 0 < θ 1 := h
    revert k
    refine lt_two (fun _ => ?_) (fun hr => absurd rfl hr)
    rw [(reverseGumbel_fisher h).2 _ (by norm_num) _ (by norm_num)]
    refine ok ?_
    simp only [co, List.getD_cons_zero, List.getD_cons_succ]
    field_simp; ring
  case exponential =>
    have hσ : 0 < θ 0 := h
    obtain rfl : k = 0 := by simp only [nParams] at hk; omega
    rw [(exponential_fisher h).2 _ (by norm_num) _ (by norm_num)]
    refine ok ?_
    simp only [co, List.getD_cons_zero]
    field_simp; ring
  case inverseGamma =>
    obtain ⟨hμ, hσ⟩ := id h
    revert k
    refine lt_two (fun _ => ?_) (fun _ => ?_) <;> rw [(inverseGamma_fisher h).2 _ (by norm_num) _ (by norm_num)] <;>
      refine ok ?_ <;> simp only [co, List.getD_cons_zero, List.getD_cons_succ]
    · field_simp; ring
    · field_simp; ring
  case inverseGaussian =>
    obtain ⟨hμ, hσ⟩ := id h
    revert k
    refine lt_two (fun _ => ?_) (fun _ => ?_) <;> rw [(inverseGaussian_fisher h).2 _ (by norm_num) _ (by norm_num)] <;>
      refine ok ?_ <;> simp only [co, List.getD_cons_zero, List.getD_cons_succ]
    · field_simp; ring
    · field_simp; ring

/-- The example of the t distribution meets the hypotheses: two degrees of freedom, standard scale. -/
example (y : ℝ) : studentT.dl2 y (fun k => if k = 0 then 0 else k) 1
    = .ok (some (-fisher (studentT.law fun k => if k = 0 then 0 else k)
        (studentT.score fun k => if k = 0 then 0 else k) 1 1)) :=
  C48_expected_information_partial studentT trivial _ (by simp [Admissible]) 1 (by decide) (by simp [Rounded]) y

theorem integral_returned_const {P : Measure ℝ} [IsProbabilityMeasure P] {f : ℝ → Except PyErr (Option ℝ)} {v : ℝ}
    (h : ∀ y, f y = .ok (some v)) : ∫ y, returned (f y) ∂P = v := by
  simp only [h, returned, integral_const, probReal_univ, smul_eq_mul, one_mul]

/-- The expectation of a derivative that vanishes at the inflated points and is constant elsewhere. -/
theorem mixture_const {Q : Measure ℝ} [IsProbabilityMeasure Q] {w p q r : ℝ} (hw : 0 ≤ w) (hp : 0 ≤ p) (hq : 0 ≤ q)
    {f : ℝ → ℝ} (hf : Measurable f) (hfg : ∀ᵐ y ∂Q, f y = r) (h0 : f 0 = 0) (h1 : f 1 = 0 ∨ q = 0) :
    ∫ y, f y ∂mixture Q w p q = w * r := by
  rw [(mixture_integral hw hp hq hf hfg (integrable_const r)).2, h0]
  rcases h1 with h1 | h1 <;> simp [h1]

theorem betaInflated_mixture (θ : ℕ → ℝ) (h : betaInflated.Admissible θ) : betaInflated.law θ
      = mixture (Dist.beta.law θ) (1 / (1 + θ 2 + θ 3)) (θ 2 / (1 + θ 2 + θ 3)) (θ 3 / (1 + θ 2 + θ 3)) := by
  rw [law_betaInflated θ h, innerBeta_law_eq h.1 h.2.1]; rfl

theorem betaInflatedZero_mixture (θ : ℕ → ℝ) (h : betaInflatedZero.Admissible θ) :
    betaInflatedZero.law θ = mixture (Dist.beta.law θ) (1 / (1 + θ 2)) (θ 2 / (1 + θ 2)) 0 := by
  rw [law_betaInflatedZero θ h, innerBeta_law_eq h.1 h.2.1]
  unfold mixture
  simp

theorem zaga_mixture (θ : ℕ → ℝ) (h : zeroAdjustedGamma.Admissible θ) :
    zeroAdjustedGamma.law θ = mixture (gamma.law θ) (1 - θ 2) (θ 2) 0 := by
  rw [law_zaga θ h, innerGamma_law_eq h.1.1 h.1.2]
  unfold mixture
  simp

open Classical in
theorem betaInflated_const {θ : ℕ → ℝ} (h : betaInflated.Admissible θ) (r : ℝ) :
    ∫ y, (if y = 0 ∨ y = 1 then 0 else r) ∂betaInflated.law θ = 1 / (1 + θ 2 + θ 3) * r := by
  obtain ⟨hμ, hσ, hν, hτ⟩ := id h
  haveI := beta_law_prob (θ := θ) ⟨hμ, hσ⟩
  rw [betaInflated_mixture θ h]
  refine mixture_const (by positivity) (by positivity) (by positivity)
    (Measurable.ite (measurableSet_eq.union measurableSet_eq) measurable_const measurable_const) ?_
    (if_pos (Or.inl rfl)) (Or.inl (if_pos (Or.inr rfl)))
  filter_upwards [beta_ae_mem (θ := θ) ⟨hμ, hσ⟩] with y hy
  refine if_neg ?_
  rintro (rfl | rfl)
  · exact lt_irrefl _ hy.1
  · exact lt_irrefl _ hy.2

open Classical in
theorem betaInflatedZero_const {θ : ℕ → ℝ} (h : betaInflatedZero.Admissible θ) (r : ℝ) :
    ∫ y, (if y = 0 then 0 else r) ∂betaInflatedZero.law θ = 1 / (1 + θ 2) * r := by
  obtain ⟨hμ, hσ, hν⟩ := id h
  haveI := beta_law_prob (θ := θ) ⟨hμ, hσ⟩
  rw [betaInflatedZero_mixture θ h]
  refine mixture_const (by positivity) (by positivity) le_rfl
    (Measurable.ite measurableSet_eq measurable_const measurable_const) ?_ (if_pos rfl) (Or.inr rfl)
  filter_upwards [beta_ae_mem (θ := θ) ⟨hμ, hσ⟩] with y hy
  exact if_neg hy.1.ne'

open Classical in
theorem zaga_const {θ : ℕ → ℝ} (h : zeroAdjustedGamma.Admissible θ) (r : ℝ) :
    ∫ y, (if y = 0 then 0 else r) ∂zeroAdjustedGamma.law θ = (1 - θ 2) * r := by
  obtain ⟨hγ, hν, hν1⟩ := id h
  haveI := gamma_law_prob hγ
  rw [zaga_mixture θ h]
  refine mixture_const (by linarith) hν.le le_rfl
    (Measurable.ite measurableSet_eq measurable_const measurable_const) ?_ (if_pos rfl) (Or.inr rfl)
  filter_upwards [gamma_ae_pos hγ] with y hy
  exact if_neg hy.ne'

/-- For every class: the expectation of `dl2_dp2(Y, theta, k)` is minus the variance of the score `dl1_dp1(Y, theta, k)`,
where `Y` has the law described by the density method.  For the classes of `Expected` the value does not depend on `Y` at
all.  Missing from the full claim: `Rounded`. -/
theorem C48_information_partial (d : Dist) (θ : ℕ → ℝ) (h : d.Admissible θ) (k : ℕ) (hk : k < d.nParams)
    (hr : ¬ d.Rounded θ k) :
    ∫ y, returned (d.dl2 y θ k) ∂d.law θ = -fisher (d.law θ) (d.score θ) k k := by
  haveI := law_isProbability d θ h
  by_cases hd : d.Expected
  · exact integral_returned_const fun y => C48_expected_information_partial d hd θ h k hk hr y
  cases d <;> simp only [Expected, not_true_eq_false] at hd
  case jsu b =>
    rw [fisher, ← integral_neg]
    revert k
    exact lt_four (fun _ => rfl) (fun _ => rfl) (fun _ => rfl) (fun _ => rfl)
  case betaInflated =>
    obtain ⟨hμ, hσ, hν, hτ⟩ := id h
    have hβ : Dist.beta.Admissible θ := ⟨hμ, hσ⟩
    have hD : 0 < 1 + θ 2 + θ 3 := by linarith
    have hbi := fun k hk => C48_expected_information_partial Dist.beta trivial θ hβ k hk (by simp [Rounded]) 0
    revert k
    refine lt_four (fun _ => ?_) (fun _ => ?_) (fun _ => ?_) (fun _ => ?_) <;>
      rw [(betaInflated_fisher h).2 _ (by norm_num) _ (by norm_num)]
    · refine (betaInflated_const h _).trans ?_
      have e := Option.some.inj (Except.ok.inj (hbi 0 (by decide)))
      simp only [co, List.getD_cons_zero, List.getD_cons_succ]
      rw [e]
      norm_num
    · refine (betaInflated_const h _).trans ?_
      have e := Option.some.inj (Except.ok.inj (hbi 1 (by decide)))
      simp only [co, List.getD_cons_zero, List.getD_cons_succ]
      rw [e]
      norm_num
    · refine (integral_returned_const (v := -(1 + θ 3) / (θ 2 * (1 + θ 2 + θ 3) ^ 2)) fun y => rfl).trans ?_
      simp only [co, List.getD_cons_zero, List.getD_cons_succ]
      norm_num
      field_simp
      ring
    · refine (integral_returned_const (v := -(1 + θ 2) / (θ 3 * (1 + θ 2 + θ 3) ^ 2)) fun y => rfl).trans ?_
      simp only [co, List.getD_cons_zero, List.getD_cons_succ]
      norm_num
      field_simp
      ring
  case betaInflatedZero =>
    obtain ⟨hμ, hσ, hν⟩ := id h
    have hβ : Dist.beta.Admissible θ := ⟨hμ, hσ⟩
    have hD : 0 < 1 + θ 2 := by linarith
    have hbi := fun k hk => C48_expected_information_partial Dist.beta trivial θ hβ k hk (by simp [Rounded]) 0
    revert k
    refine lt_three (fun _ => ?_) (fun _ => ?_) (fun _ => ?_) <;>
      rw [(betaInflatedZero_fisher h).2 _ (by norm_num) _ (by norm_num)]
    · refine (betaInflatedZero_const h _).trans ?_
      have e := Option.some.inj (Except.ok.inj (hbi 0 (by decide)))
      simp only [co, List.getD_cons_zero, List.getD_cons_succ]
      rw [e]
      norm_num
    · refine (betaInflatedZero_const h _).trans ?_
      have e := Option.some.inj (Except.ok.inj (hbi 1 (by decide)))
      simp only [co, List.getD_cons_zero, List.getD_cons_succ]
      rw [e]
      norm_num
    · refine (integral_returned_const (v := -1 / (θ 2 * (1 + θ 2) ^ 2)) fun y => rfl).trans ?_
      simp only [co, List.getD_cons_zero, List.getD_cons_succ]
      norm_num
      field_simp
      ring
  case zeroAdjustedGamma =>
    obtain ⟨hγ, hν, hν1⟩ := id h
    have hD : 0 < 1 - θ 2 := by linarith
    have hbi := fun k hk => C48_expected_information_partial gamma trivial θ hγ k hk (by simp [Rounded]) 0
    revert k
    refine lt_three (fun _ => ?_) (fun _ => ?_) (fun _ => ?_) <;>
      rw [(zaga_fisher h).2 _ (by norm_num) _ (by norm_num)]
    · refine (zaga_const h _).trans ?_
      have e := Option.some.inj (Except.ok.inj (hbi 0 (by decide)))
      simp only [co, List.getD_cons_zero, List.getD_cons_succ]
      rw [e]
      norm_num
    · refine (zaga_const h _).trans ?_
      have e := Option.some.inj (Except.ok.inj (hbi 1 (by decide)))
      simp only [co, List.getD_cons_zero, List.getD_cons_succ]
      rw [e]
      norm_num
    · refine (integral_returned_const (v := -1 / (θ 2 * (1 - θ 2))) fun y => rfl).trans ?_
      simp only [co, List.getD_cons_zero, List.getD_cons_succ]
      norm_num
      field_simp
      ring

/-- The hypotheses are met by ZeroAdjustedGamma with all parameters one half. -/
example : ∫ y, returned (zeroAdjustedGamma.dl2 y half 1) ∂zeroAdjustedGamma.law half
    = -fisher (zeroAdjustedGamma.law half) (zeroAdjustedGamma.score half) 1 1 :=
  C48_information_partial zeroAdjustedGamma half (half_admissible _) 1 (by decide) (by simp [Rounded])

/-! ### Mixed derivatives -/

theorem fisher_comm (P : Measure ℝ) (s : ℕ → ℝ → ℝ) (i j : ℕ) : fisher P s i j = fisher P s j i := by
  unfold fisher
  simp only [mul_comm]

theorem dl2pp_swap (d : Dist) (y : ℝ) (θ : ℕ → ℝ) (i j : ℤ) : d.dl2pp y θ (i, j) = d.dl2pp y θ (j, i) := by
  cases d <;>
    simp only [dl2pp, checkedPair, validatePair_swap _ i j, pairChain_swap _ i j, eq_comm (a := i)]

/-- Where `dl2_dpp` is not exact: the two Gumbel classes use decimal constants, one of them with the wrong sign. -/
def RoundedPair : Dist → Prop
  | gumbel | reverseGumbel => True
  | _ => False

/-- `dl2_dpp(y, theta, (i, j))` is minus the covariance of the two scores, whatever `y` is.  Missing from the full claim:
the Gumbel classes, see `C48_gumbel_cross_digits` and `C48_reverseGumbel_cross_fails`. -/
theorem C48_expected_cross_partial (d : Dist) (hd : d.Expected) (hr : ¬ d.RoundedPair) (θ : ℕ → ℝ) (h : d.Admissible θ)
    (i j : ℕ) (hi : i < d.nParams) (hj : j < d.nParams) (hij : i ≠ j) (y : ℝ) :
    d.dl2pp y θ (i, j) = .ok (some (-fisher (d.law θ) (d.score θ) i j)) := by
  wlog hlt : i < j generalizing i j
  · rw [dl2pp_swap, fisher_comm]
    exact this j i hj hi hij.symm (by omega)
  have ok : ∀ {u v : ℝ}, u = v → (Except.ok (some u) : Except PyErr (Option ℝ)) = .ok (some v) := fun e => by rw [e]
  have two : d.nParams = 2 → i = 0 ∧ j = 1 := fun e => by omega
  cases d <;> simp only [Expected] at hd <;> simp only [RoundedPair, not_true_eq_false] at hr
  case normal =>
    obtain ⟨rfl, rfl⟩ := two rfl
    rw [(normal_fisher h).2 _ (by norm_num) _ (by norm_num)]
    exact ok (by simp [co])
  case normalMeanVariance =>
    obtain ⟨rfl, rfl⟩ := two rfl
    rw [(normalMeanVariance_fisher h).2 _ (by norm_num) _ (by norm_num)]
    exact ok (by simp [co])
  case studentT =>
    obtain ⟨-, -, -, -, f01, f02, f12⟩ := studentT_fisher h
    have : (i = 0 ∧ j = 1) ∨ (i = 0 ∧ j = 2) ∨ (i = 1 ∧ j = 2) := by simp only [nParams] at hj; omega
    rcases this with ⟨rfl, rfl⟩ | ⟨rfl, rfl⟩ | ⟨rfl, rfl⟩
    · rw [f01]; exact ok neg_zero.symm
    · rw [f02]; exact ok neg_zero.symm
    · rw [f12]; exact ok (neg_neg _).symm
  case gamma =>
    obtain ⟨rfl, rfl⟩ := two rfl
    obtain ⟨hμ, hσ⟩ := id h
    rw [(gamma_fisher h).2 _ (by norm_num) _ (by norm_num)]
    refine ok ?_
    simp only [co, List.getD_cons_zero, List.getD_cons_succ]
    field_simp; ring
  case beta =>
    obtain ⟨rfl, rfl⟩ := two rfl
    obtain ⟨⟨hμ, hμ1⟩, hσ, hσ1⟩ := id h
    rw [(beta_fisher h).2 _ (by norm_num) _ (by norm_num)]
    refine ok ?_
    simp only [co, List.getD_cons_zero, List.getD_cons_succ, betaCross]
    field_simp; ring
  case logNormal =>
    obtain ⟨rfl, rfl⟩ := two rfl
    rw [(logNormal_fisher h).2 _ (by norm_num) _ (by norm_num)]
    exact ok (by simp [co])
  case logNormalMedian =>
    obtain ⟨rfl, rfl⟩ := two rfl
    rw [(logNormalMedian_fisher h).2 _ (by norm_num) _ (by norm_num)]
    exact ok (by simp [co])
  case logistic =>
    obtain ⟨rfl, rfl⟩ := two rfl
    rw [(logistic_fisher h).2 _ (by norm_num) _ (by norm_num)]
    exact ok (by simp [co])
  case exponential => simp only [nParams] at hj; omega
  case inverseGamma =>
    obtain ⟨rfl, rfl⟩ := two rfl
    obtain ⟨hμ, hσ⟩ := id h
    rw [(inverseGamma_fisher h).2 _ (by norm_num) _ (by norm_num)]
    refine ok ?_
    simp only [co, List.getD_cons_zero, List.getD_cons_succ]
    field_simp; ring
  case inverseGaussian =>
    obtain ⟨rfl, rfl⟩ := two rfl
    rw [(inverseGaussian_fisher h).2 _ (by norm_num) _ (by norm_num)]
    exact ok (by simp [co])

/-- For every class: the expectation of `dl2_dpp(Y, theta, (i, j))` is minus the covariance of the scores.  Missing from
the full claim: the Gumbel classes. -/
theorem C48_cross_partial (d : Dist) (hr : ¬ d.RoundedPair) (θ : ℕ → ℝ) (h : d.Admissible θ) (i j : ℕ)
    (hi : i < d.nParams) (hj : j < d.nParams) (hij : i ≠ j) :
    ∫ y, returned (d.dl2pp y θ (i, j)) ∂d.law θ = -fisher (d.law θ) (d.score θ) i j := by
  haveI := law_isProbability d θ h
  by_cases hd : d.Expected
  · exact integral_returned_const fun y => C48_expected_cross_partial d hd hr θ h i j hi hj hij y
  wlog hlt : i < j generalizing i j
  · rw [fisher_comm, ← this j i hj hi hij.symm (by omega)]
    simp only [dl2pp_swap]
  cases d <;> simp only [Expected, not_true_eq_false] at hd
  case jsu b =>
    rw [fisher, ← integral_neg]
    have : (i = 0 ∧ j = 1) ∨ (i = 0 ∧ j = 2) ∨ (i = 0 ∧ j = 3) ∨ (i = 1 ∧ j = 2) ∨ (i = 1 ∧ j = 3) ∨ (i = 2 ∧ j = 3) := by
      simp only [nParams] at hj; omega
    rcases this with ⟨rfl, rfl⟩ | ⟨rfl, rfl⟩ | ⟨rfl, rfl⟩ | ⟨rfl, rfl⟩ | ⟨rfl, rfl⟩ | ⟨rfl, rfl⟩ <;> rfl
  case betaInflated =>
    obtain ⟨hμ, hσ, hν, hτ⟩ := id h
    have hβ : Dist.beta.Admissible θ := ⟨hμ, hσ⟩
    have hD : 0 < 1 + θ 2 + θ 3 := by linarith
    have : (i = 0 ∧ j = 1) ∨ (i = 0 ∧ j = 2) ∨ (i = 0 ∧ j = 3) ∨ (i = 1 ∧ j = 2) ∨ (i = 1 ∧ j = 3) ∨ (i = 2 ∧ j = 3) := by
      simp only [nParams] at hj; omega
    rw [(betaInflated_fisher h).2 _ hi _ hj]
    rcases this with ⟨rfl, rfl⟩ | ⟨rfl, rfl⟩ | ⟨rfl, rfl⟩ | ⟨rfl, rfl⟩ | ⟨rfl, rfl⟩ | ⟨rfl, rfl⟩
    · refine (betaInflated_const h _).trans ?_
      have e := Option.some.inj (Except.ok.inj
        (C48_expected_cross_partial Dist.beta trivial (by simp [RoundedPair]) θ hβ 0 1 (by decide) (by decide) (by decide) 0))
      simp only [co, List.getD_cons_zero, List.getD_cons_succ]
      rw [e]
      norm_num
    · exact (integral_returned_const (v := 0) fun y => rfl).trans (by simp [co])
    · exact (integral_returned_const (v := 0) fun y => rfl).trans (by simp [co])
    · exact (integral_returned_const (v := 0) fun y => rfl).trans (by simp [co])
    · exact (integral_returned_const (v := 0) fun y => rfl).trans (by simp [co])
    · refine (integral_returned_const (v := 1 / (1 + θ 2 + θ 3) ^ 2) fun y => rfl).trans ?_
      simp only [co, List.getD_cons_zero, List.getD_cons_succ]
      norm_num
      field_simp
      ring
  case betaInflatedZero =>
    obtain ⟨hμ, hσ, hν⟩ := id h
    have hβ : Dist.beta.Admissible θ := ⟨hμ, hσ⟩
    have : (i = 0 ∧ j = 1) ∨ (i = 0 ∧ j = 2) ∨ (i = 1 ∧ j = 2) := by simp only [nParams] at hj; omega
    rw [(betaInflatedZero_fisher h).2 _ hi _ hj]
    rcases this with ⟨rfl, rfl⟩ | ⟨rfl, rfl⟩ | ⟨rfl, rfl⟩
    · refine (betaInflatedZero_const h _).trans ?_
      have e := Option.some.inj (Except.ok.inj
        (C48_expected_cross_partial Dist.beta trivial (by simp [RoundedPair]) θ hβ 0 1 (by decide) (by decide) (by decide) 0))
      simp only [co, List.getD_cons_zero, List.getD_cons_succ]
      rw [e]
      norm_num
    · exact (integral_returned_const (v := 0) fun y => rfl).trans (by simp [co])
    · exact (integral_returned_const (v := 0) fun y => rfl).trans (by simp [co])
  case zeroAdjustedGamma =>
    obtain ⟨hγ, hν, hν1⟩ := id h
    have : (i = 0 ∧ j = 1) ∨ (i = 0 ∧ j = 2) ∨ (i = 1 ∧ j = 2) := by simp only [nParams] at hj; omega
    rw [(zaga_fisher h).2 _ hi _ hj]
    rcases this with ⟨rfl, rfl⟩ | ⟨rfl, rfl⟩ | ⟨rfl, rfl⟩
    · refine (integral_returned_const (v := 0) fun y => rfl).trans ?_
      have e := Option.some.inj (Except.ok.inj
        (C48_expected_cross_partial gamma trivial (by simp [RoundedPair]) θ hγ 0 1 (by decide) (by decide) (by decide) 0))
      simp only [co, List.getD_cons_zero, List.getD_cons_succ]
      rw [show fisher (gamma.law θ) (gamma.score θ) 0 1 = 0 by linarith]
      norm_num
    · exact (integral_returned_const (v := 0) fun y => rfl).trans (by simp [co])
    · exact (integral_returned_const (v := 0) fun y => rfl).trans (by simp [co])

/-- The hypotheses are met by Beta with all parameters one half. -/
example (y : ℝ) : Dist.beta.dl2pp y half (1, 0)
    = .ok (some (-fisher (Dist.beta.law half) (Dist.beta.score half) 1 0)) :=
  C48_expected_cross_partial Dist.beta trivial (by simp [RoundedPair]) half (half_admissible _) 1 0 (by decide)
    (by decide) (by decide) y

/-! ### The decimal constants of the Gumbel classes -/

/-- The two Gumbel classes. -/
def IsGumbel : Dist → Prop
  | gumbel | reverseGumbel => True
  | _ => False

theorem gumbel_scale_info {d : Dist} (hd : d.IsGumbel) {θ : ℕ → ℝ} (h : d.Admissible θ) :
    fisher (d.law θ) (d.score θ) 1 1
      = (Real.pi ^ 2 / 6 + (1 - Real.eulerMascheroniConstant) ^ 2) / θ 1 ^ 2 := by
  cases d <;> simp only [IsGumbel] at hd
  · have hσ : 0 < θ 1 := h
    rw [(gumbel_fisher h).2 _ (by norm_num) _ (by norm_num), trigamma_one, digamma_one]
    simp only [co, List.getD_cons_zero, List.getD_cons_succ]
    field_simp; ring
  · have hσ : 0 < θ 1 := h
    rw [(reverseGumbel_fisher h).2 _ (by norm_num) _ (by norm_num), trigamma_one, digamma_one]
    simp only [co, List.getD_cons_zero, List.getD_cons_succ]
    field_simp; ring

theorem gumbel_constant : 1.8236805 < Real.pi ^ 2 / 6 + (1 - Real.eulerMascheroniConstant) ^ 2 ∧
    Real.pi ^ 2 / 6 + (1 - Real.eulerMascheroniConstant) ^ 2 < 1.8236809 := by
  obtain ⟨g1, g2⟩ := euler_bounds
  have p1 := Real.pi_gt_d20
  have p2 := Real.pi_lt_d20
  have a1 : (0.4227842 : ℝ) < 1 - Real.eulerMascheroniConstant := by norm_num at g2 ⊢; linarith
  have a2 : 1 - Real.eulerMascheroniConstant < (0.4227845 : ℝ) := by norm_num at g1 ⊢; linarith
  have s1 : (0.4227842 : ℝ) ^ 2 < (1 - Real.eulerMascheroniConstant) ^ 2 := by gcongr
  have s2 : (1 - Real.eulerMascheroniConstant) ^ 2 < (0.4227845 : ℝ) ^ 2 := by gcongr
  have q1 : (3.14159265 : ℝ) ^ 2 < Real.pi ^ 2 := by
    have : (3.14159265 : ℝ) < Real.pi := by norm_num at p1 ⊢; linarith
    gcongr
  have q2 : Real.pi ^ 2 < (3.1415927 : ℝ) ^ 2 := by
    have : Real.pi < (3.1415927 : ℝ) := by norm_num at p2 ⊢; linarith
    gcongr
  norm_num at s1 s2 q1 q2 ⊢
  constructor <;> linarith

/-- The information of the scale of the Gumbel classes is `(pi^2/6 + (1 - gamma)^2) / sigma^2`; `dl2_dp2` returns
`-1.82368 / sigma^2`, which agrees with it in all printed digits: the error is less than half a unit of the last one. -/
theorem C48_gumbel_digits (d : Dist) (hd : d.IsGumbel) (θ : ℕ → ℝ) (h : d.Admissible θ) (y : ℝ) :
    ∃ v, d.dl2 y θ 1 = .ok (some v) ∧ v ≠ -fisher (d.law θ) (d.score θ) 1 1 ∧
      |v - -fisher (d.law θ) (d.score θ) 1 1| ≤ 0.000005 / θ 1 ^ 2 := by
  have hσ : 0 < θ 1 := by cases d <;> simp only [IsGumbel] at hd <;> exact h
  refine ⟨-1.82368 / θ 1 ^ 2, ?_, ?_⟩
  · cases d <;> simp only [IsGumbel] at hd <;> rfl
  rw [gumbel_scale_info hd h]
  obtain ⟨c1, c2⟩ := gumbel_constant
  set c := Real.pi ^ 2 / 6 + (1 - Real.eulerMascheroniConstant) ^ 2
  have e : -1.82368 / θ 1 ^ 2 - -(c / θ 1 ^ 2) = (c - 1.82368) / θ 1 ^ 2 := by ring
  have hpos : 0 < (c - 1.82368) / θ 1 ^ 2 := by
    have : 0 < c - 1.82368 := by norm_num at c1 ⊢; linarith
    positivity
  refine ⟨fun h => ?_, ?_⟩
  · rw [h, sub_self] at e; linarith
  · rw [e, abs_of_pos hpos]
    gcongr
    norm_num at c2 ⊢
    linarith

/-- The same for the mixed derivative of Gumbel, `-0.422784 / sigma^2` for `-(1 - gamma) / sigma^2`. -/
theorem C48_gumbel_cross_digits (θ : ℕ → ℝ) (h : gumbel.Admissible θ) (y : ℝ) :
    ∃ v, gumbel.dl2pp y θ (0, 1) = .ok (some v) ∧ v ≠ -fisher (gumbel.law θ) (gumbel.score θ) 0 1 ∧
      |v - -fisher (gumbel.law θ) (gumbel.score θ) 0 1| ≤ 0.0000005 / θ 1 ^ 2 := by
  have hσ : 0 < θ 1 := h
  refine ⟨-0.422784 / θ 1 ^ 2, rfl, ?_⟩
  have ef : fisher (gumbel.law θ) (gumbel.score θ) 0 1 = (1 - Real.eulerMascheroniConstant) / θ 1 ^ 2 := by
    rw [(gumbel_fisher h).2 _ (by norm_num) _ (by norm_num), digamma_one]
    simp only [co, List.getD_cons_zero, List.getD_cons_succ]
    field_simp; ring
  rw [ef]
  obtain ⟨g1, g2⟩ := euler_bounds
  have e : -0.422784 / θ 1 ^ 2 - -((1 - Real.eulerMascheroniConstant) / θ 1 ^ 2)
      = (1 - Real.eulerMascheroniConstant - 0.422784) / θ 1 ^ 2 := by ring
  have hpos : 0 < (1 - Real.eulerMascheroniConstant - 0.422784) / θ 1 ^ 2 := by
    have : 0 < 1 - Real.eulerMascheroniConstant - 0.422784 := by norm_num at g2 ⊢; linarith
    positivity
  refine ⟨fun h => ?_, ?_⟩
  · rw [h, sub_self] at e; linarith
  · rw [e, abs_of_pos hpos]
    gcongr
    norm_num at g1 ⊢
    linarith

/-- For ReverseGumbel the mixed derivative has the wrong sign: the covariance of the two scores is negative, so the
expected derivative is positive, but `dl2_dpp` returns a negative number, for all parameters. -/
theorem C48_reverseGumbel_cross_fails (θ : ℕ → ℝ) (h : reverseGumbel.Admissible θ) (y : ℝ) :
    0 < -fisher (reverseGumbel.law θ) (reverseGumbel.score θ) 0 1 ∧
      ∃ v, reverseGumbel.dl2pp y θ (0, 1) = .ok (some v) ∧ v < 0 := by
  have hσ : 0 < θ 1 := h
  constructor
  · have ef : fisher (reverseGumbel.law θ) (reverseGumbel.score θ) 0 1
        = -((1 - Real.eulerMascheroniConstant) / θ 1 ^ 2) := by
      rw [(reverseGumbel_fisher h).2 _ (by norm_num) _ (by norm_num), digamma_one]
      simp only [co, List.getD_cons_zero, List.getD_cons_succ]
      field_simp; ring
    rw [ef, neg_neg]
    have : 0 < 1 - Real.eulerMascheroniConstant := by linarith [Real.eulerMascheroniConstant_lt_two_thirds]
    positivity
  · refine ⟨-0.422784 / θ 1 ^ 2, rfl, ?_⟩
    exact div_neg_of_neg_of_pos (by norm_num) (by positivity)

/-! ### The clipped information of Student t -/

theorem t_info_small {n : ℝ} (hn : 10 ^ 8 ≤ n) :
    -(1 / 10 ^ 15) < (trigamma ((n + 1) / 2) - trigamma (n / 2) + 2 * (n + 5) / (n * (n + 1) * (n + 3))) / 4 := by
  have hn0 : 0 < n := lt_of_lt_of_le (by norm_num) hn
  have h1 := trigamma_add_one (x := n / 2) (by positivity)
  have h2 := trigamma_strictAnti (x := (n + 1) / 2) (y := n / 2 + 1) (by positivity) (by linarith)
  have h3 : 0 < 2 * (n + 5) / (n * (n + 1) * (n + 3)) := by positivity
  have h4 : 1 / (n / 2) ^ 2 ≤ 4 / 10 ^ 16 := by
    have : (10:ℝ) ^ 16 ≤ n ^ 2 := by nlinarith
    rw [div_pow, one_div_div]
    norm_num at this ⊢
    rw [div_le_div_iff₀ (by positivity) (by norm_num)]
    linarith
  rw [h1]
  have h5 : (4:ℝ) / 10 ^ 16 < 4 * (1 / 10 ^ 15) := by norm_num
  generalize 1 / (n / 2) ^ 2 = u at *
  generalize (1:ℝ) / 10 ^ 15 = w at *
  linarith

/-- From `1e8` degrees of freedom on the information of the degrees of freedom is below `1e-15`, but `dl2_dp2` returns
`-1e-15`. -/
theorem C48_student_clipped_fails (θ : ℕ → ℝ) (h : studentT.Admissible θ) (hν : 10 ^ 8 ≤ θ 2) (y : ℝ) :
    studentT.dl2 y θ 2 = .ok (some (-(1 / 10 ^ 15))) ∧
      fisher (studentT.law θ) (studentT.score θ) 2 2 < 1 / 10 ^ 15 := by
  constructor
  · have hn : (10:ℝ) ^ 8 ≤ min (θ 2) (10 ^ 15) := le_min hν (by norm_num)
    have := t_info_small hn
    change Except.ok (some (min ((trigamma ((min (θ 2) (10 ^ 15) + 1) / 2) - trigamma (min (θ 2) (10 ^ 15) / 2)
      + 2 * (min (θ 2) (10 ^ 15) + 5)
        / (min (θ 2) (10 ^ 15) * (min (θ 2) (10 ^ 15) + 1) * (min (θ 2) (10 ^ 15) + 3))) / 4)
      (-(1 / 10 ^ 15)))) = _
    rw [min_eq_right this.le]
  · obtain ⟨-, -, -, f2, -⟩ := studentT_fisher h
    rw [f2]
    have := t_info_small hν
    linarith

/-- The clipped region is not empty. -/
example : studentT.Admissible (fun k => if k = 2 then 10 ^ 8 else 1) := by simp [Admissible]


end Dist
end Ondil
