import Verif.Lemmas.Info

/-!
# Properties of the derivatives of the log densities: C46, C47, C54, C70
-/

namespace Ondil
namespace Dist
open Filter Topology

/-! ### From the declared supports to the strict inequalities of the specification -/

/-- Parameters in the declared `parameter_support` are admissible. -/
theorem admissible_of_inParameterSupport (tiny ulp : ℝ) (ht : 0 < tiny) (hu : 0 < ulp) (d : Dist) (θ : ℕ → ℝ)
    (h : d.InParameterSupport tiny ulp θ) : d.Admissible θ := by
  have pos : ∀ i, d.parameterSupport tiny ulp i = some (positives tiny) → 0 < θ i := fun i hi => by
    have h1 := (h i _ hi).1
    have h2 : tiny ≤ θ i := EReal.coe_le_coe_iff.mp h1
    linarith
  have unit : ∀ i, d.parameterSupport tiny ulp i = some (unitOpen tiny ulp) → 0 < θ i ∧ θ i < 1 := fun i hi => by
    have h1 : tiny ≤ θ i := EReal.coe_le_coe_iff.mp (h i _ hi).1
    have h2 : θ i ≤ 1 - ulp := EReal.coe_le_coe_iff.mp (h i _ hi).2
    exact ⟨by linarith, by linarith⟩
  cases d with
  | normal | normalMeanVariance | logNormal | logistic | gumbel | reverseGumbel => exact pos 1 rfl
  | studentT => exact ⟨pos 1 rfl, pos 2 rfl⟩
  | jsu _ => exact ⟨pos 1 rfl, pos 3 rfl⟩
  | gamma | logNormalMedian | inverseGamma | inverseGaussian => exact ⟨pos 0 rfl, pos 1 rfl⟩
  | beta => exact ⟨unit 0 rfl, unit 1 rfl⟩
  | exponential => exact pos 0 rfl
  | betaInflated => exact ⟨unit 0 rfl, unit 1 rfl, pos 2 rfl, pos 3 rfl⟩
  | betaInflatedZero => exact ⟨unit 0 rfl, unit 1 rfl, pos 2 rfl⟩
  | zeroAdjustedGamma => exact ⟨⟨pos 0 rfl, pos 1 rfl⟩, unit 2 rfl⟩

/-- The classes whose declared support contains the point 0 although their density lives on `(0, ∞)`. -/
def ZeroDeclared : Dist → Prop
  | logNormal | logNormalMedian | inverseGamma => True
  | _ => False

/-- Responses in the declared `distribution_support` have a positive density, except 0 for three classes. -/
theorem responses_of_inSupport (tiny ulp : ℝ) (ht : 0 < tiny) (hu : 0 < ulp) (d : Dist) (y : ℝ)
    (h : d.InSupport tiny ulp y) (hz : ¬ (d.ZeroDeclared ∧ y = 0)) : y ∈ d.Responses := by
  have pos : ∀ hi, d.support tiny ulp = (((tiny : ℝ) : EReal), hi) → 0 < y := fun hi e => by
    have h1 : ((tiny : ℝ) : EReal) ≤ y := by have := h.1; rw [e] at this; exact this
    have h2 := EReal.coe_le_coe_iff.mp h1
    linarith
  have nonneg : ∀ hi, d.support tiny ulp = (0, hi) → 0 ≤ y := fun hi e => by
    have h1 : (0 : EReal) ≤ y := by have := h.1; rw [e] at this; exact this
    exact_mod_cast h1
  have lt1 : ∀ lo, d.support tiny ulp = (lo, ((1 - ulp : ℝ) : EReal)) → y < 1 := fun lo e => by
    have h1 : (y : EReal) ≤ ((1 - ulp : ℝ) : EReal) := by have := h.2; rw [e] at this; exact this
    have h2 := EReal.coe_le_coe_iff.mp h1
    linarith
  cases d with
  | normal | normalMeanVariance | studentT | jsu _ | logistic | gumbel | reverseGumbel => exact Set.mem_univ _
  | gamma | exponential | inverseGaussian => exact pos _ rfl
  | logNormal | logNormalMedian | inverseGamma =>
    exact lt_of_le_of_ne (nonneg _ rfl) fun h0 => hz ⟨trivial, h0.symm⟩
  | beta => exact ⟨pos _ rfl, lt1 _ rfl⟩
  | betaInflated =>
    refine ⟨nonneg _ rfl, ?_⟩
    have h1 : (y : EReal) ≤ 1 := h.2
    exact_mod_cast h1
  | betaInflatedZero => exact ⟨nonneg _ rfl, lt1 _ rfl⟩
  | zeroAdjustedGamma => exact nonneg _ rfl

/-! ### C46: score functions are the derivatives of the log density -/

/-- For every class, every parameter index `k`, every admissible parameter vector and every response of the
distribution: `dl1_dp1(y, theta, k)` returns a number, `logpdf` is finite when `theta[k]` is varied around its value,
and the number is the derivative of `logpdf` with respect to `theta[k]`. -/
theorem C46_score_is_derivative (d : Dist) (y : ℝ) (θ : ℕ → ℝ) (hy : y ∈ d.Responses) (hθ : d.Admissible θ)
    (k : ℕ) (hk : k < d.nParams) :
    ∃ (s : ℝ) (ℓ : ℝ → ℝ), d.dl1 y θ k = .ok (some s) ∧
      (∀ᶠ t in 𝓝 (θ k), d.logpdf y (Function.update θ k t) = .fin (ℓ t)) ∧ HasDerivAt ℓ s (θ k) := by
  obtain ⟨s, h1, h2⟩ := dl1_hasDerivAt d y θ hy hθ k hk
  refine ⟨s, fun t => d.logDensity y (Function.update θ k t), h1, ?_, h2⟩
  filter_upwards [admissible_eventually d θ hθ k] with t ht
  obtain ⟨p, _, _, _, h⟩ := pdf_logpdf d y _ hy ht
  exact h

/-- The same in terms of the supports declared by the classes (`tiny` is the smallest positive float, `1 - ulp` the
largest float below one); the point 0 is excluded for the three classes of `ZeroDeclared` (see C70). -/
theorem C46_declared_supports (tiny ulp : ℝ) (ht : 0 < tiny) (hu : 0 < ulp) (d : Dist) (y : ℝ) (θ : ℕ → ℝ)
    (hy : d.InSupport tiny ulp y) (hz : ¬ (d.ZeroDeclared ∧ y = 0)) (hθ : d.InParameterSupport tiny ulp θ)
    (k : ℕ) (hk : k < d.nParams) :
    ∃ (s : ℝ) (ℓ : ℝ → ℝ), d.dl1 y θ k = .ok (some s) ∧
      (∀ᶠ t in 𝓝 (θ k), d.logpdf y (Function.update θ k t) = .fin (ℓ t)) ∧ HasDerivAt ℓ s (θ k) :=
  C46_score_is_derivative d y θ (responses_of_inSupport tiny ulp ht hu d y hy hz)
    (admissible_of_inParameterSupport tiny ulp ht hu d θ hθ) k hk

/-- Parameters used in the examples: all equal to one half. -/
noncomputable def half : ℕ → ℝ := fun _ => 1 / 2

theorem half_admissible (d : Dist) : d.Admissible half := by
  cases d <;> simp only [Admissible, half] <;> norm_num

theorem half_response (d : Dist) : (1 / 2 : ℝ) ∈ d.Responses := by
  cases d <;> simp only [Responses] <;> norm_num

/-- Every class has admissible parameters and responses: here the score of the degrees of freedom of Student t. -/
example : ∃ (s : ℝ) (ℓ : ℝ → ℝ), studentT.dl1 (1 / 2) half 2 = .ok (some s) ∧
    (∀ᶠ t in 𝓝 (half 2), studentT.logpdf (1 / 2) (Function.update half 2 t) = .fin (ℓ t)) ∧
    HasDerivAt ℓ s (half 2) :=
  C46_score_is_derivative studentT _ _ (half_response _) (half_admissible _) 2 (by decide)

/-- The declared supports are met too, e.g. by the Beta distribution with `tiny = ulp = 1/4`. -/
example : beta.InSupport (1 / 4) (1 / 4) (1 / 2) ∧ beta.InParameterSupport (1 / 4) (1 / 4) half := by
  have key : ((1 / 4 : ℝ) : EReal) ≤ ((1 / 2 : ℝ) : EReal) ∧
      ((1 / 2 : ℝ) : EReal) ≤ ((1 - 1 / 4 : ℝ) : EReal) :=
    ⟨EReal.coe_le_coe_iff.mpr (by norm_num), EReal.coe_le_coe_iff.mpr (by norm_num)⟩
  refine ⟨key, fun i sup h => ?_⟩
  have h' : [unitOpen (1 / 4) (1 / 4), unitOpen (1 / 4) (1 / 4)][i]? = some sup := h
  have hs : sup = unitOpen (1 / 4) (1 / 4) := by
    rcases i with _ | _ | i
    · exact (Option.some.inj h').symm
    · exact (Option.some.inj h').symm
    · simp at h'
  rw [hs]
  exact key

/-! ### C70: responses accepted by the declared support have a finite log density -/

/-- Every response in the declared support has a finite log density under admissible parameters, except possibly the
point 0 for LogNormal, LogNormalMedian and InverseGamma. -/
theorem C70_finite_logpdf_partial (tiny ulp : ℝ) (ht : 0 < tiny) (hu : 0 < ulp) (d : Dist) (y : ℝ) (θ : ℕ → ℝ)
    (hy : d.InSupport tiny ulp y) (hz : ¬ (d.ZeroDeclared ∧ y = 0)) (hθ : d.InParameterSupport tiny ulp θ) :
    ∃ l, d.logpdf y θ = .fin l := by
  obtain ⟨_, _, _, _, h⟩ := pdf_logpdf d y θ (responses_of_inSupport tiny ulp ht hu d y hy hz)
    (admissible_of_inParameterSupport tiny ulp ht hu d θ hθ)
  exact ⟨_, h⟩

/-- The exceptions are real: the response 0 is in the declared support of these classes, and its log density is not
finite for any parameters. -/
theorem C70_zero_response_fails (tiny ulp : ℝ) (d : Dist) (hd : d.ZeroDeclared) (θ : ℕ → ℝ) (hθ : d.Admissible θ) :
    d.InSupport tiny ulp 0 ∧ ∀ l, d.logpdf 0 θ ≠ .fin l := by
  have hlog0 : Flt.log (.fin 0) = .ninf := by
    simp [Flt.log]
  cases d with
  | logNormal =>
    refine ⟨⟨le_refl _, le_top⟩, fun l => ?_⟩
    have h1 : 0 < θ 1 := hθ
    have e : logNormal.logpdf 0 θ = Flt.add (Flt.log (Flt.div (.fin 1) (.fin (0 * θ 1 * Real.sqrt (2 * Real.pi)))))
      (Flt.div (Flt.neg (Flt.mul (Flt.sub (Flt.log (.fin 0)) (.fin (θ 0))) (Flt.sub (Flt.log (.fin 0)) (.fin (θ 0)))))
        (.fin (2 * θ 1 ^ 2))) := rfl
    have h2 : (0 : ℝ) < 2 * θ 1 ^ 2 := by positivity
    rw [e, hlog0, zero_mul, zero_mul]
    simp [Flt.div, Flt.sub, Flt.neg, Flt.mul, Flt.add, Flt.log, Flt.infSigned, h1.ne', sq_nonneg]
  | logNormalMedian =>
    refine ⟨⟨le_refl _, le_top⟩, fun l => ?_⟩
    have e : (Frozen.lognorm (θ 1) 0 (θ 0)).pdf 0 = 0 := by
      change (if 0 < (0 - 0) / θ 0 then _ else (0 : ℝ)) / θ 0 = 0
      rw [if_neg (by simp)]
      simp
    have h : logNormalMedian.logpdf 0 θ = Flt.log (.fin ((Frozen.lognorm (θ 1) 0 (θ 0)).pdf 0)) := rfl
    rw [h, e, hlog0]
    simp
  | inverseGamma =>
    refine ⟨⟨le_refl _, le_top⟩, fun l => ?_⟩
    have e : (Frozen.invgamma (1 / θ 1 ^ 2) 0 (θ 0 * (1 + θ 1 ^ 2) / θ 1 ^ 2)).pdf 0 = 0 := by
      change (if 0 < (0 - 0) / (θ 0 * (1 + θ 1 ^ 2) / θ 1 ^ 2) then _ else (0 : ℝ)) / _ = 0
      rw [if_neg (by simp)]
      simp
    have h : inverseGamma.logpdf 0 θ =
        Flt.log (.fin ((Frozen.invgamma (1 / θ 1 ^ 2) 0 (θ 0 * (1 + θ 1 ^ 2) / θ 1 ^ 2)).pdf 0)) := rfl
    rw [h, e, hlog0]
    simp
  | _ => exact absurd hd (by simp [ZeroDeclared])

example : logNormal.ZeroDeclared ∧ logNormal.Admissible half := ⟨trivial, half_admissible _⟩

/-! ### C47: working weights are positive -/

/-- `dl2_dp2` returns a negative number for every class, parameter and admissible parameter vector, for the rows that
are not degenerate (Johnson SU, and `mu`, `sigma` at the inflated points).  The full claim has no exceptions; see the
two theorems below. -/
theorem C47_negative_partial (d : Dist) (y : ℝ) (θ : ℕ → ℝ) (hθ : d.Admissible θ) (k : ℕ) (hk : k < d.nParams)
    (hdeg : ¬ d.Degenerate y k) : ∃ v, d.dl2 y θ k = .ok (some v) ∧ v < 0 :=
  dl2_neg d y θ hθ k hk hdeg

example : ∃ v, gamma.dl2 (1 / 2) half 1 = .ok (some v) ∧ v < 0 :=
  C47_negative_partial gamma _ _ (half_admissible _) 1 (by decide) id

/-- `dl2_dp2` is never positive, also in the degenerate rows. -/
theorem C47_nonpositive (d : Dist) (y : ℝ) (θ : ℕ → ℝ) (hθ : d.Admissible θ) (k : ℕ) (hk : k < d.nParams) :
    ∃ v, d.dl2 y θ k = .ok (some v) ∧ v ≤ 0 := by
  by_cases hdeg : d.Degenerate y k
  · cases d with
    | jsu b =>
      have hk' : k < 4 := hk
      have hs : ∀ s : ℝ, -(s * s) ≤ 0 := fun s => by nlinarith [mul_self_nonneg s]
      interval_cases k
      · exact ⟨_, checked_ok 4 _ 0 (by norm_num) rfl, hs _⟩
      · exact ⟨_, checked_ok 4 _ 1 (by norm_num) rfl, hs _⟩
      · exact ⟨_, checked_ok 4 _ 2 (by norm_num) rfl, hs _⟩
      · exact ⟨_, checked_ok 4 _ 3 (by norm_num) rfl, hs _⟩
    | betaInflated =>
      obtain ⟨hy, hk2⟩ := hdeg
      interval_cases k
      · exact ⟨_, checked_ok 4 _ 0 (by norm_num) rfl, (if_pos hy).le⟩
      · exact ⟨_, checked_ok 4 _ 1 (by norm_num) rfl, (if_pos hy).le⟩
    | betaInflatedZero =>
      obtain ⟨hy, hk2⟩ := hdeg
      interval_cases k
      · exact ⟨_, checked_ok 3 _ 0 (by norm_num) rfl, (if_pos hy).le⟩
      · exact ⟨_, checked_ok 3 _ 1 (by norm_num) rfl, (if_pos hy).le⟩
    | zeroAdjustedGamma =>
      obtain ⟨hy, hk2⟩ := hdeg
      interval_cases k
      · exact ⟨_, checked_ok 3 _ 0 (by norm_num) rfl, (if_pos hy).le⟩
      · exact ⟨_, checked_ok 3 _ 1 (by norm_num) rfl, (if_pos hy).le⟩
    | _ => exact absurd hdeg (by simp [Degenerate])
  · obtain ⟨v, h1, h2⟩ := dl2_neg d y θ hθ k hk hdeg
    exact ⟨v, h1, h2.le⟩

/-- At the inflated points the weight of `mu` and of `sigma` is exactly zero. -/
theorem C47_inflated_points_fails (θ : ℕ → ℝ) (k : ℕ) (hk : k < 2) :
    betaInflated.dl2 0 θ k = .ok (some 0) ∧ betaInflated.dl2 1 θ k = .ok (some 0) ∧
      betaInflatedZero.dl2 0 θ k = .ok (some 0) ∧ zeroAdjustedGamma.dl2 0 θ k = .ok (some 0) := by
  interval_cases k
  · exact ⟨checked_ok 4 _ 0 (by norm_num) (congrArg some (if_pos (Or.inl rfl))),
      checked_ok 4 _ 0 (by norm_num) (congrArg some (if_pos (Or.inr rfl))),
      checked_ok 3 _ 0 (by norm_num) (congrArg some (if_pos rfl)),
      checked_ok 3 _ 0 (by norm_num) (congrArg some (if_pos rfl))⟩
  · exact ⟨checked_ok 4 _ 1 (by norm_num) (congrArg some (if_pos (Or.inl rfl))),
      checked_ok 4 _ 1 (by norm_num) (congrArg some (if_pos (Or.inr rfl))),
      checked_ok 3 _ 1 (by norm_num) (congrArg some (if_pos rfl)),
      checked_ok 3 _ 1 (by norm_num) (congrArg some (if_pos rfl))⟩

/-- For Johnson SU the weight of the skewness parameter vanishes for the response
`mu + sigma * sinh(-nu / tau)`, for every admissible parameter vector. -/
theorem C47_jsu_fails (b : Bool) (θ : ℕ → ℝ) (hθ : (jsu b).Admissible θ) :
    (jsu b).dl2 (θ 0 + θ 1 * Real.sinh (-θ 2 / θ 3)) θ 2 = .ok (some 0) := by
  obtain ⟨hσ, hτ⟩ := hθ
  refine checked_ok 4 _ 2 (by norm_num) ?_
  have hz : (θ 0 + θ 1 * Real.sinh (-θ 2 / θ 3) - θ 0) / θ 1 = Real.sinh (-θ 2 / θ 3) := by
    field_simp
    ring
  have hr : θ 2 + θ 3 * Real.arsinh ((θ 0 + θ 1 * Real.sinh (-θ 2 / θ 3) - θ 0) / θ 1) = 0 := by
    rw [hz, Real.arsinh_sinh]
    field_simp
    ring
  change some (-(-(θ 2 + θ 3 * Real.arsinh ((θ 0 + θ 1 * Real.sinh (-θ 2 / θ 3) - θ 0) / θ 1)) *
    -(θ 2 + θ 3 * Real.arsinh ((θ 0 + θ 1 * Real.sinh (-θ 2 / θ 3) - θ 0) / θ 1)))) = some 0
  rw [hr]
  simp

/-! ### C54: derivative requests for non-existing parameters are rejected -/

theorem checked_error (n : ℕ) (l : List ℝ) (i : ℤ) (h : (n : ℤ) ≤ i) : checked n l i = .error .valueError := by
  have h1 : validateIndex n i = .error .valueError := if_pos h
  unfold checked
  rw [h1]
  rfl

theorem orRaise_error (l : List ℝ) (i : ℤ) (h : (l.length : ℤ) ≤ i) : orRaise l i = .error .valueError := by
  have h2 : chain l i = none :=
    (if_neg (by omega)).trans (List.getElem?_eq_none (by omega))
  unfold orRaise
  rw [h2]

/-- `dl1_dp1` and `dl2_dp2` raise `ValueError` for every index that is not below the number of parameters. -/
theorem C54_index_rejected (d : Dist) (y : ℝ) (θ : ℕ → ℝ) (i : ℤ) (h : (d.nParams : ℤ) ≤ i) :
    d.dl1 y θ i = .error .valueError ∧ d.dl2 y θ i = .error .valueError := by
  cases d with
  | normal | normalMeanVariance | studentT | jsu _ | gamma | beta | logNormal | logNormalMedian | logistic
    | reverseGumbel | betaInflated | betaInflatedZero | zeroAdjustedGamma =>
    exact ⟨checked_error _ _ i h, checked_error _ _ i h⟩
  | gumbel | inverseGaussian =>
    exact ⟨by unfold dl1; exact orRaise_error _ i h, by unfold dl2; exact orRaise_error _ i h⟩
  | exponential =>
    have h1 : validateIndex 1 i = .error .valueError := if_pos h
    unfold dl1 dl2
    simp only [h1]
    exact ⟨rfl, rfl⟩
  | inverseGamma =>
    have h1 : validateIndex 2 i = .error .valueError := if_pos h
    refine ⟨checked_error _ _ i h, ?_⟩
    unfold dl2
    simp only [h1]
    rfl

example : gumbel.dl1 0 half 2 = .error .valueError := (C54_index_rejected gumbel 0 half 2 (by decide)).1

/-- `dl2_dpp` raises `ValueError` for equal indices, for every class. -/
theorem C54_equal_indices_rejected (d : Dist) (y : ℝ) (θ : ℕ → ℝ) (i : ℤ) :
    d.dl2pp y θ (i, i) = .error .valueError := by
  have hv : ∀ n : ℕ, validatePair n (i, i) = .error .valueError := fun n => by
    unfold validatePair
    split
    · rfl
    · simp
  cases d <;> unfold dl2pp <;> simp only [checkedPair, hv, if_true] <;> rfl

/-- `dl2_dpp` raises `ValueError` for every index pair with an entry not below the number of parameters, for every
class but InverseGaussian. -/
theorem C54_pair_rejected_partial (d : Dist) (hd : d ≠ inverseGaussian) (y : ℝ) (θ : ℕ → ℝ) (i j : ℤ)
    (h : (d.nParams : ℤ) ≤ i ∨ (d.nParams : ℤ) ≤ j) : d.dl2pp y θ (i, j) = .error .valueError := by
  have hv : validatePair d.nParams (i, j) = .error .valueError :=
    if_pos (by rcases h with h | h
               · exact le_trans h (le_max_left _ _)
               · exact le_trans h (le_max_right _ _))
  cases d <;> first
    | exact absurd rfl hd
    | (unfold dl2pp; simp only [nParams] at hv; simp only [checkedPair, hv]; rfl)

example : beta.dl2pp (1 / 2) half (0, 5) = .error .valueError :=
  C54_pair_rejected_partial beta (by simp) _ _ 0 5 (Or.inr (by decide))

/-- `InverseGaussian.dl2_dpp` accepts indices of parameters that do not exist. -/
theorem C54_inverse_gaussian_fails (y : ℝ) (θ : ℕ → ℝ) (i j : ℤ) (h : i ≠ j) :
    inverseGaussian.dl2pp y θ (i, j) = .ok (some 0) := if_neg h

/-- A negative index, for which no parameter exists either, is not rejected: e.g. `Normal.dl1_dp1(y, theta, -1)`
returns `None`, and `Exponential.dl1_dp1(y, theta, -1)` the score of parameter 0. -/
theorem C54_negative_index_fails (y : ℝ) (θ : ℕ → ℝ) :
    normal.dl1 y θ (-1) = .ok none ∧ exponential.dl1 y θ (-1) = exponential.dl1 y θ 0 := ⟨rfl, rfl⟩

theorem validatePair_swap (n : ℕ) (i j : ℤ) : validatePair n (i, j) = validatePair n (j, i) := by
  unfold validatePair
  simp only [max_comm i j, eq_comm (a := i) (b := j)]

theorem pairChain_swap (l : List ((ℤ × ℤ) × ℝ)) (i j : ℤ) : pairChain l (i, j) = pairChain l (j, i) := by
  induction l with
  | nil => rfl
  | cons a l ih =>
    unfold pairChain
    simp only [ih, min_comm i j, max_comm i j]

/-- Mixed derivatives are symmetric in the two indices, errors included, for every class. -/
theorem C54_symmetric (d : Dist) (y : ℝ) (θ : ℕ → ℝ) (i j : ℤ) : d.dl2pp y θ (i, j) = d.dl2pp y θ (j, i) := by
  cases d <;> unfold dl2pp <;>
    simp only [checkedPair, validatePair_swap _ i j, pairChain_swap _ i j, eq_comm (a := i) (b := j)]

end Dist
end Ondil
