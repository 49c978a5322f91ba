import Verif.Props.Scores
import Verif.Props.Links

/-!
# Properties of the densities and of the default links: C49, C66, C71
-/

namespace Ondil
namespace Dist

/-! ### C49: log density is the logarithm of the density -/

/-- The classes with their own density code. -/
def OwnDensity : Dist → Prop
  | logNormal | betaInflated | betaInflatedZero | zeroAdjustedGamma => True
  | _ => False

/-- On the responses of the distribution `pdf` returns a positive number and `logpdf` its logarithm, for every class
and every admissible parameter vector.  The full claim also covers responses outside the support: see
`C49_outside_partial` and the theorems with suffix `_fails`. -/
theorem C49_log_of_density_partial (d : Dist) (y : ℝ) (θ : ℕ → ℝ) (hy : y ∈ d.Responses) (hθ : d.Admissible θ) :
    ∃ p, 0 < p ∧ d.pdf y θ = .fin p ∧ d.logpdf y θ = .fin (Real.log p) := by
  obtain ⟨p, h1, h2, h3, h4⟩ := pdf_logpdf d y θ hy hθ
  exact ⟨p, h1, h2, by rw [h4, h3]⟩

example : ∃ p, 0 < p ∧ zeroAdjustedGamma.pdf 0 half = .fin p ∧ zeroAdjustedGamma.logpdf 0 half = .fin (Real.log p) :=
  C49_log_of_density_partial zeroAdjustedGamma 0 half (Set.mem_Ici.mpr le_rfl) (half_admissible _)

/-- The parts of the claim about responses outside the support that hold: the density of the two inflated beta
classes vanishes there, and for BetaInflatedZero the log density above the support is minus infinity. -/
theorem C49_outside_partial (y : ℝ) (θ : ℕ → ℝ) :
    (y ∉ betaInflated.Responses → betaInflated.pdf y θ = .fin 0) ∧
    (y ∉ betaInflatedZero.Responses → betaInflatedZero.pdf y θ = .fin 0) ∧
    (1 ≤ y → betaInflatedZero.Admissible θ → betaInflatedZero.logpdf y θ = .ninf) := by
  refine ⟨fun h => ?_, fun h => ?_, fun h hθ => ?_⟩
  · have : y < 0 ∨ y > 1 := by
      by_contra hn
      push Not at hn
      exact h hn
    exact if_pos this
  · have : y < 0 ∨ y ≥ 1 := by
      by_contra hn
      push Not at hn
      exact h hn
    exact if_pos this
  · have hb : (innerBeta (θ 0) (θ 1)).pdf y = 0 := by
      change (if 0 < (y - 0) / 1 ∧ (y - 0) / 1 < 1 then _ else (0 : ℝ)) / 1 = 0
      rw [if_neg (fun hh => by rw [sub_zero, div_one] at hh; linarith [hh.2])]
      simp
    have hD : 0 < 1 + θ 2 := by linarith [hθ.2.2]
    have e2 : betaInflatedZero.logpdf y θ =
        Flt.sub (if y = 0 then Flt.log (.fin (θ 2))
          else if y > 0 then Flt.log (.fin ((innerBeta (θ 0) (θ 1)).pdf y)) else .fin 0)
          (Flt.log (.fin (1 + θ 2))) := rfl
    rw [e2, if_neg (by linarith), if_pos (by linarith), hb, Flt.log_pos hD]
    simp [Flt.log, Flt.sub, Flt.neg, Flt.add]

/-- Responses outside `[0, 1]` get density 0 but log density 0 from BetaInflated, for all parameters. -/
theorem C49_beta_inflated_outside_fails (y : ℝ) (θ : ℕ → ℝ) (hy : y ∉ betaInflated.Responses) :
    betaInflated.pdf y θ = .fin 0 ∧ betaInflated.logpdf y θ = .fin 0 := by
  have : y < 0 ∨ y > 1 := by
    by_contra hn
    push Not at hn
    exact hy hn
  exact ⟨if_pos this, if_pos this⟩

example : (2 : ℝ) ∉ betaInflated.Responses := fun h => by
  have := h.2
  norm_num at this

/-- Negative responses get density 0 but a finite log density from BetaInflatedZero. -/
theorem C49_beta_inflated_zero_outside_fails (y : ℝ) (θ : ℕ → ℝ) (hy : y < 0)
    (hθ : betaInflatedZero.Admissible θ) :
    betaInflatedZero.pdf y θ = .fin 0 ∧ betaInflatedZero.logpdf y θ = .fin (-Real.log (1 + θ 2)) := by
  refine ⟨if_pos (Or.inl hy), ?_⟩
  have hD : 0 < 1 + θ 2 := by linarith [hθ.2.2]
  have e2 : betaInflatedZero.logpdf y θ =
      Flt.sub (if y = 0 then Flt.log (.fin (θ 2))
        else if y > 0 then Flt.log (.fin ((innerBeta (θ 0) (θ 1)).pdf y)) else .fin 0)
        (Flt.log (.fin (1 + θ 2))) := rfl
  rw [e2, if_neg (by linarith), if_neg (by linarith), Flt.log_pos hD, Flt.sub_fin, zero_sub]

/-- With `sigma = 1` every negative response has a positive density under ZeroAdjustedGamma: the code evaluates the
gamma formula there. -/
theorem C49_zaga_negative_fails (y μ ν : ℝ) (hy : y < 0) (hμ : 0 < μ) (hν : ν < 1) :
    ∃ p, 0 < p ∧ zeroAdjustedGamma.pdf y (fun i => if i = 0 then μ else if i = 1 then 1 else ν) = .fin p := by
  refine ⟨(1 - ν) * (y / μ) * Real.exp (-y / μ) / y, ?_, ?_⟩
  · have h1 : 0 < 1 - ν := by linarith
    have e : (1 - ν) * (y / μ) * Real.exp (-y / μ) / y = (1 - ν) / μ * Real.exp (-y / μ) := by
      have := hy.ne
      field_simp
    rw [e]
    positivity
  · have e1 : zeroAdjustedGamma.pdf y (fun i => if i = 0 then μ else if i = 1 then 1 else ν) =
        if y = 0 then .fin ν else
        Flt.div (Flt.mul (Flt.mul (.fin (1 - ν)) (fltPow (y / (μ * 1 ^ 2)) (1 / 1 ^ 2)))
          (Flt.exp (.fin (-y / (μ * 1 ^ 2))))) (.fin (y * Real.Gamma (1 / 1 ^ 2))) := rfl
    have ep : fltPow (y / (μ * 1 ^ 2)) (1 / 1 ^ 2) = .fin (y / μ) := by
      have h1 : ¬ (y / (μ * 1 ^ 2) < 0 ∧ ¬ ∃ n : ℤ, (1 / 1 ^ 2 : ℝ) = n) := fun h => h.2 ⟨1, by norm_num⟩
      have h2 : ¬ (y / (μ * 1 ^ 2) = 0 ∧ (1 / 1 ^ 2 : ℝ) < 0) := fun h => by
        have := h.2
        norm_num at this
      refine (if_neg h1).trans ((if_neg h2).trans ?_)
      norm_num
    have hg : y * Real.Gamma (1 / 1 ^ 2) = y := by norm_num [Real.Gamma_one]
    rw [e1, if_neg hy.ne, ep, hg]
    refine (if_neg hy.ne).trans ?_
    norm_num

/-- The density of LogNormal at a negative response is NaN, not 0. -/
theorem C49_log_normal_negative_fails (y : ℝ) (θ : ℕ → ℝ) (hy : y < 0) : logNormal.pdf y θ = .nan := by
  have hl : Flt.log (.fin y) = .nan := by
    simp [Flt.log, hy.ne, not_lt.mpr hy.le]
  have e : logNormal.pdf y θ = Flt.mul (Flt.div (.fin 1) (.fin (y * θ 1 * Real.sqrt (2 * Real.pi))))
    (Flt.exp (Flt.div (Flt.neg (Flt.mul (Flt.sub (Flt.log (.fin y)) (.fin (θ 0)))
      (Flt.sub (Flt.log (.fin y)) (.fin (θ 0))))) (.fin (2 * θ 1 ^ 2)))) := rfl
  rw [e, hl]
  simp only [Flt.sub, Flt.neg, Flt.add, Flt.mul]
  have hx : Flt.div .nan (.fin (2 * θ 1 ^ 2)) = .nan := rfl
  rw [hx]
  cases Flt.div (.fin 1) (.fin (y * θ 1 * Real.sqrt (2 * Real.pi))) <;> rfl

/-! ### C66: default links match the parameter support -/

theorem linkWarnings_nil_iff (tiny ulp : ℝ) (sup : EReal × EReal) (l : LinkClass) :
    linkWarnings tiny ulp sup l = [] ↔
      sup.1 ≤ (l.linkSupport tiny ulp).1 ∧ (l.linkSupport tiny ulp).2 ≤ sup.2 := by
  unfold linkWarnings
  rw [List.append_eq_nil_iff]
  constructor
  · rintro ⟨h1, h2⟩
    constructor
    · by_contra h
      rw [if_pos (not_le.mp h)] at h1
      exact absurd h1 (by simp)
    · by_contra h
      rw [if_pos (not_le.mp h)] at h2
      exact absurd h2 (by simp)
  · rintro ⟨h1, h2⟩
    exact ⟨if_neg (not_lt.mpr h1), if_neg (not_lt.mpr h2)⟩

/-- Every class has one default link per parameter, and constructing it with the defaults issues no warning. -/
theorem C66_defaults_silent (tiny ulp : ℝ) (d : Dist) :
    d.defaultLinks.length = d.nParams ∧ validateLinks tiny ulp d d.defaultLinks = [] := by
  have shift : ((tiny : ℝ) : EReal) ≤ ((2 + tiny : ℝ) : EReal) := EReal.coe_le_coe_iff.mpr (by linarith)
  have hid : linkWarnings tiny ulp allReals .identity = [] := (linkWarnings_nil_iff _ _ _ _).mpr ⟨le_rfl, le_rfl⟩
  have hlog : linkWarnings tiny ulp (positives tiny) .log = [] :=
    (linkWarnings_nil_iff _ _ _ _).mpr ⟨le_rfl, le_rfl⟩
  have hsh : linkWarnings tiny ulp (positives tiny) .logShiftTwo = [] :=
    (linkWarnings_nil_iff _ _ _ _).mpr ⟨shift, le_rfl⟩
  have hlogit : linkWarnings tiny ulp (unitOpen tiny ulp) .logit = [] :=
    (linkWarnings_nil_iff _ _ _ _).mpr ⟨le_rfl, le_rfl⟩
  refine ⟨by cases d <;> rfl, ?_⟩
  cases d <;> simp [validateLinks, defaultLinks, parameterSupport, hid, hlog, hsh, hlogit]

/-- With the default links every linear predictor is mapped to admissible parameters (real arithmetic). -/
theorem C66_defaults_admissible (d : Dist) (η : ℕ → ℝ) (links : ℕ → LinkClass)
    (hl : ∀ i, i < d.nParams → d.defaultLinks[i]? = some (links i)) :
    d.Admissible (fun i => (links i).inverse (η i)) := by
  have pos : ∀ i, links i = .log → 0 < (links i).inverse (η i) := fun i h => by
    rw [h]
    exact C42_inverse_in_range_partial .log (by simp [LinkClass.IsSqrt]) (η i)
  have pos2 : ∀ i, links i = .logShiftTwo → 0 < (links i).inverse (η i) := fun i h => by
    rw [h]
    have := C42_inverse_in_range_partial .logShiftTwo (by simp [LinkClass.IsSqrt, LinkClass.logShiftTwo]) (η i)
    have h2 : (2 : ℝ) < LinkClass.logShiftTwo.inverse (η i) := this
    linarith
  have unit : ∀ i, links i = .logit → 0 < (links i).inverse (η i) ∧ (links i).inverse (η i) < 1 := fun i h => by
    rw [h]
    exact C42_inverse_in_range_partial .logit (by simp [LinkClass.IsSqrt]) (η i)
  have e : ∀ i l, d.defaultLinks[i]? = some l → i < d.nParams → links i = l := fun i l h hi =>
    Option.some.inj ((hl i hi).symm.trans h)
  cases d with
  | normal | normalMeanVariance | logNormal | logistic | gumbel | reverseGumbel =>
    exact pos 1 (e 1 _ rfl (by decide))
  | studentT => exact ⟨pos 1 (e 1 _ rfl (by decide)), pos2 2 (e 2 _ rfl (by decide))⟩
  | jsu b => exact ⟨pos 1 (e 1 _ rfl (by simp [nParams])), pos 3 (e 3 _ rfl (by simp [nParams]))⟩
  | gamma | logNormalMedian | inverseGamma | inverseGaussian =>
    exact ⟨pos 0 (e 0 _ rfl (by decide)), pos 1 (e 1 _ rfl (by decide))⟩
  | beta => exact ⟨unit 0 (e 0 _ rfl (by decide)), unit 1 (e 1 _ rfl (by decide))⟩
  | exponential => exact pos 0 (e 0 _ rfl (by decide))
  | betaInflated =>
    exact ⟨unit 0 (e 0 _ rfl (by decide)), unit 1 (e 1 _ rfl (by decide)), pos 2 (e 2 _ rfl (by decide)),
      pos 3 (e 3 _ rfl (by decide))⟩
  | betaInflatedZero =>
    exact ⟨unit 0 (e 0 _ rfl (by decide)), unit 1 (e 1 _ rfl (by decide)), pos 2 (e 2 _ rfl (by decide))⟩
  | zeroAdjustedGamma =>
    exact ⟨⟨pos 0 (e 0 _ rfl (by decide)), pos 1 (e 1 _ rfl (by decide))⟩, unit 2 (e 2 _ rfl (by decide))⟩

example : beta.Admissible (fun i => LinkClass.logit.inverse (if i = 0 then 3 else -1)) :=
  C66_defaults_admissible beta (fun i => if i = 0 then 3 else -1) (fun _ => .logit) fun i hi => by
    have hi' : i < 2 := hi
    interval_cases i <;> rfl

/-- A warning is issued for parameter `i` exactly when the interval declared by the supplied link is not contained in
the declared support of that parameter. -/
theorem C66_warning_iff_partial (tiny ulp : ℝ) (htu : tiny ≤ 1 - ulp) (d : Dist) (links : List LinkClass) (i : ℕ)
    (l : LinkClass) (sup : EReal × EReal) (hl : links[i]? = some l) (hs : d.parameterSupport tiny ulp i = some sup) :
    (∃ w, (i, w) ∈ validateLinks tiny ulp d links) ↔
      ¬ Set.Icc (l.linkSupport tiny ulp).1 (l.linkSupport tiny ulp).2 ⊆ Set.Icc sup.1 sup.2 := by
  have hne : (l.linkSupport tiny ulp).1 ≤ (l.linkSupport tiny ulp).2 := by
    cases l <;> first
      | exact le_top
      | exact EReal.coe_le_coe_iff.mpr htu
  rw [Set.Icc_subset_Icc_iff hne, ← linkWarnings_nil_iff]
  have key : ∀ w, (i, w) ∈ validateLinks tiny ulp d links ↔ w ∈ linkWarnings tiny ulp sup l := fun w => by
    unfold validateLinks
    rw [List.mem_flatMap]
    constructor
    · rintro ⟨⟨l', j⟩, hm, hw⟩
      rw [List.mk_mem_zipIdx_iff_getElem?] at hm
      dsimp only at hw
      cases hp : d.parameterSupport tiny ulp j with
      | none => rw [hp] at hw; simp at hw
      | some sup' =>
        rw [hp] at hw
        simp only [List.mem_map, Prod.mk.injEq] at hw
        obtain ⟨w', hw', hj, rfl⟩ := hw
        subst hj
        have : l' = l := Option.some.inj (hm.symm.trans hl)
        subst this
        have : sup' = sup := Option.some.inj (hp.symm.trans hs)
        subst this
        exact hw'
    · intro hw
      refine ⟨(l, i), List.mk_mem_zipIdx_iff_getElem?.mpr hl, ?_⟩
      dsimp only
      rw [hs]
      exact List.mem_map.mpr ⟨w, hw, rfl⟩
  constructor
  · rintro ⟨w, hw⟩ hnil
    rw [key, hnil] at hw
    simp at hw
  · intro hnil
    obtain ⟨w, hw⟩ := List.exists_mem_of_ne_nil _ hnil
    exact ⟨w, (key w).mpr hw⟩

/-- A link given by the user that triggers a warning: the identity link for a scale parameter. -/
example : ∃ w, (1, w) ∈ validateLinks (1 / 4) (1 / 4) normal [.identity, .identity] := by
  refine (C66_warning_iff_partial (1 / 4) (1 / 4) (by norm_num) normal _ 1 .identity (positives (1 / 4)) rfl rfl).mpr
    fun h => ?_
  have h1 := (h (Set.mem_Icc.mpr ⟨le_rfl, le_top⟩ : (⊥ : EReal) ∈ Set.Icc ⊥ ⊤)).1
  exact absurd h1 (not_le.mpr (EReal.bot_lt_coe _))

/-- The declared interval of the square root link is not what it can return: with it for both parameters of Gamma no
warning is issued, yet the linear predictor 0 gives the inadmissible parameter 0. -/
theorem C66_sqrt_link_fails (tiny ulp : ℝ) :
    validateLinks tiny ulp gamma [.sqrt, .sqrt] = [] ∧
      ¬ gamma.Admissible (fun _ => LinkClass.sqrt.inverse 0) := by
  constructor
  · have h : linkWarnings tiny ulp (positives tiny) .sqrt = [] :=
      (linkWarnings_nil_iff _ _ _ _).mpr ⟨le_rfl, le_rfl⟩
    simp [validateLinks, parameterSupport, h]
  · intro h
    have := h.1
    simp [LinkClass.inverse] at this

/-! ### C71: documented density formulas -/

theorem log_docGamma {y μ σ : ℝ} (hy : 0 < y) (hμ : 0 < μ) (hσ : 0 < σ) :
    0 < docGamma y μ σ ∧ Real.log (docGamma y μ σ) = gammaL y μ σ := by
  have hG : 0 < Real.Gamma (1 / σ ^ 2) := Real.Gamma_pos_of_pos (by positivity)
  have hs : 0 < σ ^ 2 * μ := by positivity
  have h1 : 0 < y ^ (1 / σ ^ 2 - 1) := Real.rpow_pos_of_pos hy _
  have h2 : 0 < (σ ^ 2 * μ) ^ (1 / σ ^ 2) := Real.rpow_pos_of_pos hs _
  have hp : 0 < docGamma y μ σ := by unfold docGamma; positivity
  refine ⟨hp, ?_⟩
  unfold docGamma gammaL logGamma
  rw [Real.log_div (by positivity) (by positivity), Real.log_mul h1.ne' (Real.exp_pos _).ne', Real.log_exp,
    Real.log_mul h2.ne' hG.ne', Real.log_rpow hy, Real.log_rpow hs, Real.log_mul (by positivity) hμ.ne',
    Real.log_pow]
  push_cast
  ring

theorem log_docBeta {y μ σ : ℝ} (hy : 0 < y) (hy1 : y < 1) (hμ : 0 < μ) (hμ1 : μ < 1) (hσ : 0 < σ) (hσ1 : σ < 1) :
    0 < docBeta y μ σ ∧ Real.log (docBeta y μ σ) = betaL y μ σ := by
  have ha : 0 < betaA μ σ := betaA_pos hμ hσ hσ1
  have hb : 0 < betaB μ σ := betaB_pos hμ1 hσ hσ1
  have ga := Real.Gamma_pos_of_pos ha
  have gb := Real.Gamma_pos_of_pos hb
  have gab := Real.Gamma_pos_of_pos (add_pos ha hb)
  have h1y : 0 < 1 - y := by linarith
  have h1 : 0 < y ^ (betaA μ σ - 1) := Real.rpow_pos_of_pos hy _
  have h2 : 0 < (1 - y) ^ (betaB μ σ - 1) := Real.rpow_pos_of_pos h1y _
  have e : docBeta y μ σ = Real.Gamma (betaA μ σ + betaB μ σ) /
      (Real.Gamma (betaA μ σ) * Real.Gamma (betaB μ σ)) * y ^ (betaA μ σ - 1) * (1 - y) ^ (betaB μ σ - 1) := by
    rw [betaA_add_betaB]
    rfl
  refine ⟨by rw [e]; positivity, ?_⟩
  rw [e, Real.log_mul (by positivity) h2.ne', Real.log_mul (by positivity) h1.ne',
    Real.log_div gab.ne' (by positivity), Real.log_mul ga.ne' gb.ne', Real.log_rpow hy, Real.log_rpow h1y]
  unfold betaL logGamma
  ring

/-- For every class that documents a formula, except Gumbel, ReverseGumbel and InverseGaussian, `pdf` returns the value
of the documented formula at every admissible parameter vector and every response of the distribution. -/
theorem C71_documented_density_partial (d : Dist) (f : ℝ → (ℕ → ℝ) → ℝ) (hf : d.documentedDensity = some f)
    (hd : ¬ d.WronglyDocumented) (y : ℝ) (θ : ℕ → ℝ) (hy : y ∈ d.Responses) (hθ : d.Admissible θ) :
    d.pdf y θ = .fin (f y θ) := by
  obtain ⟨p, hp, h1, h2, _⟩ := pdf_logpdf d y θ hy hθ
  suffices h : 0 < f y θ ∧ Real.log (f y θ) = d.logDensity y θ by
    rw [h1, Real.log_injOn_pos (Set.mem_Ioi.mpr hp) (Set.mem_Ioi.mpr h.1) (h2.trans h.2.symm)]
  have hpi := Real.pi_pos
  have hq : 0 < Real.sqrt (2 * Real.pi) := Real.sqrt_pos.mpr (by positivity)
  have lognormal : ∀ m σ : ℝ, 0 < y → 0 < σ →
      0 < 1 / (y * σ * Real.sqrt (2 * Real.pi)) * Real.exp (-(Real.log y - m) ^ 2 / (2 * σ ^ 2)) ∧
      Real.log (1 / (y * σ * Real.sqrt (2 * Real.pi)) * Real.exp (-(Real.log y - m) ^ 2 / (2 * σ ^ 2))) =
        logNormalL y m σ := fun m σ hy hσ => by
    refine ⟨by positivity, ?_⟩
    rw [Real.log_mul (by positivity) (Real.exp_pos _).ne', Real.log_exp, Real.log_div one_ne_zero (by positivity),
      Real.log_one, Real.log_mul (by positivity) hq.ne', Real.log_mul hy.ne' hσ.ne']
    unfold logNormalL
    ring
  cases d with
  | gumbel | reverseGumbel | inverseGaussian => exact absurd trivial hd
  | studentT | jsu _ | inverseGamma => exact absurd hf (by simp [documentedDensity])
  | normal =>
    obtain rfl := Option.some.inj hf
    have hσ : 0 < θ 1 := hθ
    refine ⟨by positivity, ?_⟩
    beta_reduce
    rw [Real.log_mul (by positivity) (Real.exp_pos _).ne', Real.log_exp, Real.log_div one_ne_zero (by positivity),
      Real.log_one, Real.sqrt_mul (by positivity), Real.sqrt_sq hσ.le, Real.log_mul hq.ne' hσ.ne']
    simp only [logDensity, normalL]
    field_simp
    ring
  | normalMeanVariance =>
    obtain rfl := Option.some.inj hf
    have hv : 0 < θ 1 := hθ
    have hsq : (θ 1 ^ ((1 : ℝ) / 2)) ^ 2 = θ 1 := by
      rw [← Real.rpow_natCast, ← Real.rpow_mul hv.le]
      norm_num
    refine ⟨by positivity, ?_⟩
    beta_reduce
    rw [Real.log_mul (by positivity) (Real.exp_pos _).ne', Real.log_exp, Real.log_div one_ne_zero (by positivity),
      Real.log_one, Real.sqrt_mul (by positivity), Real.log_mul hq.ne' (Real.sqrt_pos.mpr hv).ne',
      Real.sqrt_eq_rpow (θ 1)]
    simp only [logDensity, normalL]
    rw [div_pow, hsq]
    field_simp
    ring
  | gamma =>
    obtain rfl := Option.some.inj hf
    exact log_docGamma hy hθ.1 hθ.2
  | beta =>
    obtain rfl := Option.some.inj hf
    exact log_docBeta hy.1 hy.2 hθ.1.1 hθ.1.2 hθ.2.1 hθ.2.2
  | logNormal =>
    obtain rfl := Option.some.inj hf
    exact lognormal (θ 0) (θ 1) hy hθ
  | logNormalMedian =>
    obtain rfl := Option.some.inj hf
    exact lognormal (Real.log (θ 0)) (θ 1) hy hθ.2
  | logistic =>
    obtain rfl := Option.some.inj hf
    have hσ : 0 < θ 1 := hθ
    refine ⟨by positivity, ?_⟩
    beta_reduce
    rw [Real.log_div (Real.exp_pos _).ne' (by positivity), Real.log_mul hσ.ne' (by positivity), Real.log_exp,
      Real.log_pow]
    simp only [logDensity, logisticL]
    push_cast
    ring
  | exponential =>
    obtain rfl := Option.some.inj hf
    have hμ : 0 < θ 0 := hθ
    refine ⟨by positivity, ?_⟩
    beta_reduce
    rw [Real.log_mul (by positivity) (Real.exp_pos _).ne', Real.log_exp, Real.log_div one_ne_zero hμ.ne',
      Real.log_one]
    simp only [logDensity, exponentialL]
    ring
  | betaInflated =>
    obtain rfl := Option.some.inj hf
    obtain ⟨⟨hμ, hμ1⟩, ⟨hσ, hσ1⟩, hν, hτ⟩ := hθ
    have hD : 0 < 1 + θ 2 + θ 3 := by linarith
    by_cases h0 : y = 0
    · simp only [logDensity, if_pos h0]
      exact ⟨by positivity, Real.log_div hν.ne' hD.ne'⟩
    by_cases h1 : y = 1
    · simp only [logDensity, if_neg h0, if_pos h1]
      exact ⟨by positivity, Real.log_div hτ.ne' hD.ne'⟩
    have hb := log_docBeta (lt_of_le_of_ne hy.1 (Ne.symm h0)) (lt_of_le_of_ne hy.2 h1) hμ hμ1 hσ hσ1
    have e : 1 - θ 2 / (1 + θ 2 + θ 3) - θ 3 / (1 + θ 2 + θ 3) = 1 / (1 + θ 2 + θ 3) := by
      field_simp
      ring
    simp only [logDensity, if_neg h0, if_neg h1]
    rw [e, Real.log_mul (by positivity) hb.1.ne', hb.2, Real.log_div one_ne_zero hD.ne', Real.log_one]
    exact ⟨mul_pos (by positivity) hb.1, by ring⟩
  | betaInflatedZero =>
    obtain rfl := Option.some.inj hf
    obtain ⟨⟨hμ, hμ1⟩, ⟨hσ, hσ1⟩, hν⟩ := hθ
    have hD : 0 < 1 + θ 2 := by linarith
    by_cases h0 : y = 0
    · simp only [logDensity, if_pos h0]
      exact ⟨by positivity, Real.log_div hν.ne' hD.ne'⟩
    have hb := log_docBeta (lt_of_le_of_ne hy.1 (Ne.symm h0)) hy.2 hμ hμ1 hσ hσ1
    have e : 1 - θ 2 / (1 + θ 2) = 1 / (1 + θ 2) := by
      field_simp
      ring
    simp only [logDensity, if_neg h0]
    rw [e, Real.log_mul (by positivity) hb.1.ne', hb.2, Real.log_div one_ne_zero hD.ne', Real.log_one]
    exact ⟨mul_pos (by positivity) hb.1, by ring⟩
  | zeroAdjustedGamma =>
    obtain rfl := Option.some.inj hf
    obtain ⟨⟨hμ, hσ⟩, hν, hν1⟩ := hθ
    have h1 : 0 < 1 - θ 2 := by linarith
    by_cases h0 : y = 0
    · simp only [logDensity, if_pos h0]
      exact ⟨hν, trivial⟩
    have hg := log_docGamma (lt_of_le_of_ne hy (Ne.symm h0)) hμ hσ
    simp only [logDensity, if_neg h0]
    rw [Real.log_mul h1.ne' hg.1.ne', hg.2]
    exact ⟨mul_pos h1 hg.1, rfl⟩

example : ∃ f, betaInflated.documentedDensity = some f ∧ ¬ betaInflated.WronglyDocumented ∧
    (0 : ℝ) ∈ betaInflated.Responses ∧ betaInflated.Admissible half :=
  ⟨_, rfl, id, ⟨le_rfl, zero_le_one⟩, half_admissible _⟩

/-- The formulas documented for Gumbel and ReverseGumbel are exchanged: each class returns the formula documented for
the other, for all parameters and responses, and the two formulas differ. -/
theorem C71_gumbel_exchanged_fails :
    (∀ f g, gumbel.documentedDensity = some f → reverseGumbel.documentedDensity = some g →
      (∀ y θ, gumbel.pdf y θ = .fin (g y θ) ∧ reverseGumbel.pdf y θ = .fin (f y θ)) ∧
      f 1 (fun i => i) ≠ g 1 (fun i => i)) := by
  intro f g hf hg
  obtain rfl := Option.some.inj hf
  obtain rfl := Option.some.inj hg
  refine ⟨fun y θ => ⟨?_, ?_⟩, ?_⟩
  · change Flt.fin (Real.exp ((y - θ 0) / θ 1 - Real.exp ((y - θ 0) / θ 1)) / θ 1) = _
    congr 1
    ring
  · change Flt.fin (Real.exp (-((y - θ 0) / θ 1 + Real.exp (-((y - θ 0) / θ 1)))) / θ 1) = _
    congr 1
    ring
  · simp only [CharP.cast_eq_zero, Nat.cast_one, sub_zero, div_one, one_mul]
    intro h
    have h1 := Real.exp_injective h
    have h2 := Real.exp_one_gt_d9
    have h3 : Real.exp (-1) ≤ 1 := Real.exp_le_one_iff.mpr (by norm_num)
    have h4 : Real.exp (-1) = (Real.exp 1)⁻¹ := Real.exp_neg 1
    have h5 : (Real.exp 1)⁻¹ < 1 / 2 := by
      rw [inv_lt_comm₀ (by linarith) (by norm_num)]
      linarith
    rw [h4] at h1
    linarith

/-- For InverseGaussian with any `sigma` other than one the documented formula is not the density at the response
`mu`. -/
theorem C71_inverse_gaussian_fails (θ : ℕ → ℝ) (hθ : inverseGaussian.Admissible θ) (h1 : θ 1 ≠ 1)
    (f : ℝ → (ℕ → ℝ) → ℝ) (hf : inverseGaussian.documentedDensity = some f) :
    inverseGaussian.pdf (θ 0) θ ≠ .fin (f (θ 0) θ) := by
  obtain rfl := Option.some.inj hf
  obtain ⟨hμ, hσ⟩ := hθ
  have hpi := Real.pi_pos
  obtain ⟨p, hp, e1, e2, _⟩ := pdf_logpdf inverseGaussian (θ 0) θ hμ ⟨hμ, hσ⟩
  rw [e1]
  intro h
  have h := Flt.fin.inj h
  rw [h] at e2
  simp only [logDensity, inverseGaussianL, sub_self] at e2
  rw [show (-(0 : ℝ) ^ 2 / (2 * θ 1 ^ 2 * θ 0)) = 0 by simp, Real.exp_zero, mul_one,
    Real.log_sqrt (by positivity), Real.log_div hσ.ne' (by positivity), Real.log_mul (by positivity) (by positivity),
    Real.log_pow] at e2
  simp only [ne_eq, OfNat.ofNat_ne_zero, not_false_eq_true, zero_pow, zero_div, sub_zero] at e2
  push_cast at e2
  have h0 : Real.log (θ 1) = 0 := by linarith
  exact h1 (Real.eq_one_of_pos_of_log_eq_zero hσ h0)

example : inverseGaussian.Admissible half ∧ half 1 ≠ 1 := ⟨half_admissible _, by norm_num [half]⟩

end Dist
end Ondil
