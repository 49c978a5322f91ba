import Verif.Spec.MaximumLikelihood
import Verif.Lemmas.LogDensity
import Verif.Lemmas.Links
import Verif.Lemmas.GammaShape
import Mathlib.Analysis.Convex.Deriv

/-!
# Log likelihoods that are concave in the linear predictor
-/

namespace Ondil

open Real

theorem strictConcave_of {g g' : ℝ → ℝ} (h : ∀ x, HasDerivAt g (g' x) x) (ha : StrictAnti g') : StrictConcaveOn ℝ Set.univ g := by
  refine StrictAnti.strictConcaveOn_univ_of_deriv (continuous_iff_continuousAt.2 fun x => (h x).continuousAt) ?_
  rw [show deriv g = g' from funext fun x => (h x).deriv]
  exact ha

theorem concave_of {g g' : ℝ → ℝ} (h : ∀ x, HasDerivAt g (g' x) x) (ha : Antitone g') : ConcaveOn ℝ Set.univ g := by
  refine Antitone.concaveOn_univ_of_deriv (fun x => (h x).differentiableAt) ?_
  rw [show deriv g = g' from funext fun x => (h x).deriv]
  exact ha

/-- Minus the log density of a standard distribution with its mode at zero. -/
structure Kernel (ψ ψ' : ℝ → ℝ) : Prop where
  deriv : ∀ x, HasDerivAt ψ (ψ' x) x
  mono : StrictMono ψ'
  zero : ψ' 0 = 0

theorem kernel_normal : Kernel (fun z => z ^ 2 / 2) (fun z => z) where
  deriv x := by
    have := ((hasDerivAt_id x).pow 2).div_const 2
    refine this.congr_deriv ?_
    simp
  mono := strictMono_id
  zero := rfl

theorem kernel_gumbel : Kernel (fun z => exp z - z) (fun z => exp z - 1) where
  deriv x := (Real.hasDerivAt_exp x).sub (hasDerivAt_id x)
  mono := fun a b h => by simpa using h
  zero := by simp

theorem kernel_reverseGumbel : Kernel (fun z => z + exp (-z)) (fun z => 1 - exp (-z)) where
  deriv x := by
    have := (hasDerivAt_id x).add ((Real.hasDerivAt_exp (-x)).comp x (hasDerivAt_neg x))
    refine this.congr_deriv ?_
    ring
  mono := fun a b h => by simpa using h
  zero := by simp

theorem kernel_logistic : Kernel (fun z => z + 2 * log (1 + exp (-z))) (fun z => 2 / (1 + exp (-z)) - 1) where
  deriv x := by
    have h1 : HasDerivAt (fun z => 1 + exp (-z)) (-exp (-x)) x := by
      have := ((Real.hasDerivAt_exp (-x)).comp x (hasDerivAt_neg x)).const_add 1
      refine this.congr_deriv ?_
      ring
    have hp : 0 < 1 + exp (-x) := by positivity
    have := (hasDerivAt_id x).add ((h1.log hp.ne').const_mul 2)
    refine this.congr_deriv ?_
    field_simp
    ring
  mono := by
    intro a b h
    have : exp (-b) < exp (-a) := by simpa using h
    simp only
    have h1 : 0 < 1 + exp (-b) := by positivity
    have : 2 / (1 + exp (-a)) < 2 / (1 + exp (-b)) := div_lt_div_of_pos_left two_pos h1 (by linarith)
    linarith
  zero := by norm_num

variable {ψ ψ' : ℝ → ℝ}

theorem Kernel.location (h : Kernel ψ ψ') (c y : ℝ) {s : ℝ} (hs : 0 < s) :
    StrictConcaveOn ℝ Set.univ fun η => c - ψ ((y - η) / s) := by
  refine strictConcave_of (g' := fun η => ψ' ((y - η) / s) / s) (fun x => ?_) fun a b hab => ?_
  · have h1 : HasDerivAt (fun η => (y - η) / s) (-1 / s) x := ((hasDerivAt_id x).const_sub y).div_const s
    have := ((h.deriv ((y - x) / s)).comp x h1).const_sub c
    refine this.congr_deriv ?_
    ring
  · exact div_lt_div_of_pos_right (h.mono (div_lt_div_of_pos_right (by linarith) hs)) hs

theorem Kernel.scale (h : Kernel ψ ψ') (c r : ℝ) : ConcaveOn ℝ Set.univ fun η => c - η - ψ (r * exp (-η)) := by
  refine concave_of (g' := fun η => ψ' (r * exp (-η)) * (r * exp (-η)) - 1) (fun x => ?_) fun a b hab => ?_
  · have h1 : HasDerivAt (fun η => r * exp (-η)) (r * -exp (-x)) x := by
      have := ((Real.hasDerivAt_exp (-x)).comp x (hasDerivAt_neg x)).const_mul r
      refine this.congr_deriv ?_
      ring
    have := ((hasDerivAt_id x).const_sub c).sub ((h.deriv (r * exp (-x))).comp x h1)
    refine this.congr_deriv ?_
    ring
  · simp only
    have he : exp (-b) ≤ exp (-a) := exp_le_exp.2 (by linarith)
    have hb : 0 < exp (-b) := exp_pos _
    have key : ψ' (r * exp (-b)) * (r * exp (-b)) ≤ ψ' (r * exp (-a)) * (r * exp (-a)) := by
      rcases le_total 0 r with hr | hr
      · have h1 : r * exp (-b) ≤ r * exp (-a) := mul_le_mul_of_nonneg_left he hr
        have h0 : 0 ≤ r * exp (-b) := mul_nonneg hr hb.le
        have h2 : 0 ≤ ψ' (r * exp (-b)) := by rw [← h.zero]; exact h.mono.monotone h0
        exact mul_le_mul (h.mono.monotone h1) h1 h0 (h2.trans (h.mono.monotone h1))
      · have h1 : r * exp (-a) ≤ r * exp (-b) := mul_le_mul_of_nonpos_left he hr
        have h0 : r * exp (-b) ≤ 0 := mul_nonpos_of_nonpos_of_nonneg hr hb.le
        have h2 : ψ' (r * exp (-b)) ≤ 0 := by rw [← h.zero]; exact h.mono.monotone h0
        exact mul_le_mul_of_nonpos_of_nonpos (h.mono.monotone h1) h1 ((h.mono.monotone h1).trans h2) h0
    linarith

theorem exp_linear_deriv (c a b s x : ℝ) :
    HasDerivAt (fun η => c + a * η - b * exp (s * η)) (a - b * (s * exp (s * x))) x := by
  have h1 : HasDerivAt (fun η => exp (s * η)) (s * exp (s * x)) x := by
    have := (Real.hasDerivAt_exp (s * x)).comp x ((hasDerivAt_id x).const_mul s)
    refine this.congr_deriv ?_
    simp [mul_comm]
  have := (((hasDerivAt_id x).const_mul a).const_add c).sub (h1.const_mul b)
  refine this.congr_deriv ?_
  simp

theorem mul_exp_strictMono {s : ℝ} (hs : s ≠ 0) : StrictMono fun x => s * exp (s * x) := by
  intro a b hab
  simp only
  rcases hs.lt_or_gt with h | h
  · exact mul_lt_mul_of_neg_left (exp_lt_exp.2 (mul_lt_mul_of_neg_left hab h)) h
  · exact mul_lt_mul_of_pos_left (exp_lt_exp.2 (mul_lt_mul_of_pos_left hab h)) h

theorem exp_linear_strict (c a : ℝ) {b s : ℝ} (hb : 0 < b) (hs : s ≠ 0) :
    StrictConcaveOn ℝ Set.univ fun η => c + a * η - b * exp (s * η) :=
  strictConcave_of (exp_linear_deriv c a b s) fun _ _ h => sub_lt_sub_left (mul_lt_mul_of_pos_left (mul_exp_strictMono hs h) hb) a

theorem exp_linear_concave (c a : ℝ) {b s : ℝ} (hb : 0 ≤ b) (hs : s ≠ 0) :
    ConcaveOn ℝ Set.univ fun η => c + a * η - b * exp (s * η) :=
  concave_of (exp_linear_deriv c a b s) fun _ _ h => sub_le_sub_left (mul_le_mul_of_nonneg_left ((mul_exp_strictMono hs).monotone h) hb) a

theorem log_sum_deriv (c a b : ℝ) {m n : ℝ} (hm : 0 < m) (hn : 0 ≤ n) (s x : ℝ) :
    HasDerivAt (fun η => c + a * η - b * log (m + n * exp (s * η))) (a - b * (n * (s * exp (s * x)) / (m + n * exp (s * x)))) x := by
  have h1 : HasDerivAt (fun η => exp (s * η)) (s * exp (s * x)) x := by
    have := (Real.hasDerivAt_exp (s * x)).comp x ((hasDerivAt_id x).const_mul s)
    refine this.congr_deriv ?_
    simp [mul_comm]
  have hp : 0 < m + n * exp (s * x) := by positivity
  have := (((hasDerivAt_id x).const_mul a).const_add c).sub ((((h1.const_mul n).const_add m).log hp.ne').const_mul b)
  refine this.congr_deriv ?_
  simp

theorem log_sum_mono {m n : ℝ} (hm : 0 < m) (hn : 0 ≤ n) (s : ℝ) :
    Monotone fun x => n * (s * exp (s * x)) / (m + n * exp (s * x)) := by
  intro a b hab
  simp only
  have h1 : 0 < m + n * exp (s * a) := by positivity
  have h2 : 0 < m + n * exp (s * b) := by positivity
  rw [div_le_div_iff₀ h1 h2]
  have : s * exp (s * a) ≤ s * exp (s * b) := by
    rcases eq_or_ne s 0 with rfl | hs
    · simp
    · exact (mul_exp_strictMono hs).monotone hab
  nlinarith [mul_le_mul_of_nonneg_left this (mul_nonneg hn hm.le)]

theorem log_sum_concave (c a : ℝ) {b m n : ℝ} (hb : 0 ≤ b) (hm : 0 < m) (hn : 0 ≤ n) (s : ℝ) :
    ConcaveOn ℝ Set.univ fun η => c + a * η - b * log (m + n * exp (s * η)) :=
  concave_of (log_sum_deriv c a b hm hn s) fun _ _ h => sub_le_sub_left (mul_le_mul_of_nonneg_left (log_sum_mono hm hn s h) hb) a

theorem log_sum_strict (c a : ℝ) {m : ℝ} (hm : 0 < m) : StrictConcaveOn ℝ Set.univ fun η => c + a * η - log (m + exp η) := by
  refine strictConcave_of (g' := fun x => a - exp x / (m + exp x)) (fun x => ?_) fun x y h => ?_
  · have := log_sum_deriv c a 1 hm zero_le_one 1 x
    simpa using this
  · simp only
    have h1 : 0 < m + exp x := by positivity
    have h2 : 0 < m + exp y := by positivity
    have : exp x / (m + exp x) < exp y / (m + exp y) := by
      rw [div_lt_div_iff₀ h1 h2]
      nlinarith [exp_lt_exp.2 h]
    linarith

theorem exp_shape_deriv (x : ℝ) : HasDerivAt (fun η => exp (-2 * η)) (-2 * exp (-2 * x)) x := by
  have := (Real.hasDerivAt_exp (-2 * x)).comp x ((hasDerivAt_id x).const_mul (-2))
  refine this.congr_deriv ?_
  simp [mul_comm]

theorem exp_shape_antitone {a b : ℝ} (h : a ≤ b) : exp (-2 * b) ≤ exp (-2 * a) := exp_le_exp.2 (by linarith)

/-- The gamma likelihood of one observation, as a function of the logarithm of the coefficient of variation. -/
theorem gamma_shape_concave (c0 : ℝ) {c : ℝ} (hc : 1 ≤ c) :
    ConcaveOn ℝ Set.univ fun η => c0 + (exp (-2 * η) * (-2 * η) - c * exp (-2 * η) - logGamma (exp (-2 * η))) := by
  refine concave_of (g' := fun η => -2 * (exp (-2 * η) * (log (exp (-2 * η)) - digamma (exp (-2 * η))) - (c - 1) * exp (-2 * η)))
    (fun x => ?_) fun a b hab => ?_
  · have hl := (hasDerivAt_logGamma (exp_pos (-2 * x))).comp x (exp_shape_deriv x)
    have := ((((exp_shape_deriv x).mul ((hasDerivAt_id x).const_mul (-2))).sub ((exp_shape_deriv x).const_mul c)).sub hl).const_add c0
    refine this.congr_deriv ?_
    simp only [id, log_exp]
    ring
  · simp only
    have h1 := exp_shape_antitone hab
    have h2 := gammaShape_antitone (exp_pos (-2 * b)) (exp_pos (-2 * a)) h1
    have h3 := mul_le_mul_of_nonneg_left h1 (sub_nonneg.2 hc)
    simp only at h2
    linarith

/-- The same for the inverse gamma likelihood. -/
theorem inverse_shape_concave (c0 : ℝ) {c : ℝ} (hc : 1 ≤ c) :
    ConcaveOn ℝ Set.univ fun η => c0 + (exp (-2 * η) * log (exp (-2 * η) + 1) - c * exp (-2 * η) - logGamma (exp (-2 * η))) := by
  refine concave_of (g' := fun η => -2 * (exp (-2 * η) * (log (exp (-2 * η) + 1) - digamma (exp (-2 * η))) -
    exp (-2 * η) / (exp (-2 * η) + 1) - (c - 1) * exp (-2 * η)))
    (fun x => ?_) fun a b hab => ?_
  · have hl := (hasDerivAt_logGamma (exp_pos (-2 * x))).comp x (exp_shape_deriv x)
    have hp : exp (-2 * x) + 1 ≠ 0 := by positivity
    have hlog := ((exp_shape_deriv x).add_const 1).log hp
    have := ((((exp_shape_deriv x).mul hlog).sub ((exp_shape_deriv x).const_mul c)).sub hl).const_add c0
    refine this.congr_deriv ?_
    field_simp
    ring
  · simp only
    have h1 := exp_shape_antitone hab
    have h2 := inverseShape_antitone (exp_pos (-2 * b)) (exp_pos (-2 * a)) h1
    have h3 := mul_le_mul_of_nonneg_left h1 (sub_nonneg.2 hc)
    simp only at h2
    linarith

/-! ### The classes of the package -/

namespace Dist

theorem logLikEta_eq {d : Dist} {L : LinkClass} {θ : ℕ → ℝ} {k : ℕ} {y η : ℝ} (hy : y ∈ d.Responses)
    (ha : d.Admissible (Function.update θ k (L.inverse η - L.offset))) :
    d.logLikEta L θ k y η = d.logDensity y (Function.update θ k (L.inverse η - L.offset)) := by
  obtain ⟨_, _, _, _, h⟩ := pdf_logpdf d y _ hy ha
  unfold logLikEta
  rw [h]
  rfl

theorem inverse_log_smooth {η : ℝ} (h : η ∈ LinkClass.log.smoothPred) : LinkClass.log.inverse η - LinkClass.log.offset = exp η := by
  change robustExp η - 0 = _
  rw [sub_zero, robustExp_of_le (le_of_lt h)]

theorem inverse_logit_smooth {η : ℝ} (h : η ∈ LinkClass.logit.smoothPred) :
    LinkClass.logit.inverse η - LinkClass.logit.offset = exp η / (exp η + 1) := by
  change robustExp η / (robustExp η + 1) - 0 = _
  rw [sub_zero, robustExp_of_le (le_of_lt h)]

theorem inverse_identity_smooth (η : ℝ) : LinkClass.identity.inverse η - LinkClass.identity.offset = η := sub_zero η

theorem convex_smoothPred_log : Convex ℝ LinkClass.log.smoothPred := convex_Iio _

theorem convex_smoothPred_logit : Convex ℝ LinkClass.logit.smoothPred := convex_Iio _

/-- Strictly concave in the linear predictor. -/
theorem LocationLike.strictConcave {d : Dist} {L : LinkClass} {k : ℕ} (h : d.LocationLike L k) {θ : ℕ → ℝ} (hθ : d.Admissible θ)
    {y : ℝ} (hy : y ∈ d.Responses) : StrictConcaveOn ℝ L.smoothPred (d.logLikEta L θ k y) := by
  have base : ∀ {g : ℝ → ℝ}, StrictConcaveOn ℝ Set.univ g → Convex ℝ L.smoothPred →
      (∀ η ∈ L.smoothPred, d.Admissible (Function.update θ k (L.inverse η - L.offset)) ∧
        d.logDensity y (Function.update θ k (L.inverse η - L.offset)) = g η) →
      StrictConcaveOn ℝ L.smoothPred (d.logLikEta L θ k y) := fun hg hc he =>
    (hg.subset (Set.subset_univ _) hc).congr fun η hη => by rw [logLikEta_eq hy (he η hη).1, (he η hη).2]
  cases h with
  | normal =>
    refine base (kernel_normal.location (-log (θ 1) - log (sqrt (2 * π))) y hθ) convex_univ fun η _ => ?_
    rw [inverse_identity_smooth]
    exact ⟨by simpa [Admissible] using hθ, by simp [logDensity, normalL]⟩
  | normalMeanVariance =>
    have hp : 0 < θ 1 ^ ((1 : ℝ) / 2) := rpow_pos_of_pos hθ _
    refine base (kernel_normal.location (-log (θ 1 ^ ((1 : ℝ) / 2)) - log (sqrt (2 * π))) y hp) convex_univ fun η _ => ?_
    rw [inverse_identity_smooth]
    exact ⟨by simpa [Admissible] using hθ, by simp [logDensity, normalL]⟩
  | logNormal =>
    refine base (kernel_normal.location (-log y - log (θ 1) - log (sqrt (2 * π))) (log y) hθ) convex_univ fun η _ => ?_
    rw [inverse_identity_smooth]
    refine ⟨by simpa [Admissible] using hθ, ?_⟩
    have : θ 1 ≠ 0 := ne_of_gt hθ
    simp [logDensity, logNormalL]
    field_simp
  | logNormalMedian =>
    refine base (kernel_normal.location (-log y - log (θ 1) - log (sqrt (2 * π))) (log y) hθ.2) convex_smoothPred_log fun η hη => ?_
    rw [inverse_log_smooth hη]
    refine ⟨⟨by simp [exp_pos], by simpa using hθ.2⟩, ?_⟩
    have : θ 1 ≠ 0 := ne_of_gt hθ.2
    simp [logDensity, logNormalL]
    field_simp
  | logistic =>
    refine base (kernel_logistic.location (-log (θ 1)) y hθ) convex_univ fun η _ => ?_
    rw [inverse_identity_smooth]
    refine ⟨by simpa [Admissible] using hθ, ?_⟩
    simp [logDensity, logisticL]
    ring
  | gumbel =>
    refine base (kernel_gumbel.location (-log (θ 1)) y hθ) convex_univ fun η _ => ?_
    rw [inverse_identity_smooth]
    refine ⟨by simpa [Admissible] using hθ, ?_⟩
    simp [logDensity, gumbelL]
    ring
  | reverseGumbel =>
    refine base (kernel_reverseGumbel.location (-log (θ 1)) y hθ) convex_univ fun η _ => ?_
    rw [inverse_identity_smooth]
    refine ⟨by simpa [Admissible] using hθ, ?_⟩
    simp [logDensity, reverseGumbelL]
    ring
  | exponential =>
    refine base (exp_linear_strict 0 (-1) (b := y) (s := -1) hy (by norm_num)) convex_smoothPred_log fun η hη => ?_
    rw [inverse_log_smooth hη]
    refine ⟨by simp [Admissible, exp_pos], ?_⟩
    simp [logDensity, exponentialL, exp_neg]
    ring
  | gamma =>
    have h1 : 0 < θ 1 := hθ.2
    have hy' : 0 < y := hy
    refine base (exp_linear_strict ((1 / θ 1 ^ 2 - 1) * log y - 1 / θ 1 ^ 2 * (2 * log (θ 1)) - logGamma (1 / θ 1 ^ 2))
      (-(1 / θ 1 ^ 2)) (b := y / θ 1 ^ 2) (s := -1) (by positivity) (by norm_num)) convex_smoothPred_log fun η hη => ?_
    rw [inverse_log_smooth hη]
    refine ⟨⟨by simp [exp_pos], by simpa using hθ.2⟩, ?_⟩
    simp [logDensity, gammaL, exp_neg]
    field_simp
    ring
  | inverseGamma =>
    have h1 : 0 < θ 1 := hθ.2
    have hy' : 0 < y := hy
    refine base (exp_linear_strict (1 / θ 1 ^ 2 * log (1 / θ 1 ^ 2 + 1) - (1 / θ 1 ^ 2 + 1) * log y - logGamma (1 / θ 1 ^ 2))
      (1 / θ 1 ^ 2) (b := (1 / θ 1 ^ 2 + 1) / y) (s := 1) (by positivity) (by norm_num)) convex_smoothPred_log fun η hη => ?_
    rw [inverse_log_smooth hη]
    refine ⟨⟨by simp [exp_pos], by simpa using hθ.2⟩, ?_⟩
    simp [logDensity, inverseGammaL]
    ring
  | jsu b =>
    refine base (kernel_normal.location (log (θ 3) - log (((y - θ 0) / θ 1) ^ 2 + 1) / 2 - log (sqrt (2 * π)) - log (θ 1))
      (-(θ 3 * arsinh ((y - θ 0) / θ 1))) one_pos) convex_univ fun η _ => ?_
    rw [inverse_identity_smooth]
    refine ⟨by simpa [Admissible] using hθ, ?_⟩
    simp [logDensity, jsuL]
    ring
  | betaInflatedNu =>
    obtain ⟨h0, h1, h2, h3⟩ := hθ
    have hadm : ∀ η, Admissible .betaInflated (Function.update θ 2 (exp η)) := fun η => by
      simp [Admissible, h0, h1, h3, exp_pos]
    have hm : 0 < 1 + θ 3 := by positivity
    by_cases hy0 : y = 0
    · refine base (log_sum_strict 0 1 hm) convex_smoothPred_log fun η hη => ?_
      rw [inverse_log_smooth hη]
      refine ⟨hadm η, ?_⟩
      simp [logDensity, hy0]
      ring_nf
    · refine base (log_sum_strict (if y = 1 then log (θ 3) else betaL y (θ 0) (θ 1)) 0 hm) convex_smoothPred_log fun η hη => ?_
      rw [inverse_log_smooth hη]
      refine ⟨hadm η, ?_⟩
      simp [logDensity, hy0]
      ring_nf
  | betaInflatedTau =>
    obtain ⟨h0, h1, h2, h3⟩ := hθ
    have hadm : ∀ η, Admissible .betaInflated (Function.update θ 3 (exp η)) := fun η => by
      simp [Admissible, h0, h1, h2, exp_pos]
    have hm : 0 < 1 + θ 2 := by positivity
    by_cases hy0 : y = 0
    · refine base (log_sum_strict (log (θ 2)) 0 hm) convex_smoothPred_log fun η hη => ?_
      rw [inverse_log_smooth hη]
      refine ⟨hadm η, ?_⟩
      simp [logDensity, hy0]
    · by_cases hy1 : y = 1
      · refine base (log_sum_strict 0 1 hm) convex_smoothPred_log fun η hη => ?_
        rw [inverse_log_smooth hη]
        refine ⟨hadm η, ?_⟩
        simp [logDensity, hy1]
      · refine base (log_sum_strict (betaL y (θ 0) (θ 1)) 0 hm) convex_smoothPred_log fun η hη => ?_
        rw [inverse_log_smooth hη]
        refine ⟨hadm η, ?_⟩
        simp [logDensity, hy0, hy1]
  | betaInflatedZero =>
    obtain ⟨h0, h1, h2⟩ := hθ
    have hadm : ∀ η, Admissible .betaInflatedZero (Function.update θ 2 (exp η)) := fun η => by
      simp [Admissible, h0, h1, exp_pos]
    by_cases hy0 : y = 0
    · refine base (log_sum_strict 0 1 one_pos) convex_smoothPred_log fun η hη => ?_
      rw [inverse_log_smooth hη]
      refine ⟨hadm η, ?_⟩
      simp [logDensity, hy0]
    · refine base (log_sum_strict (betaL y (θ 0) (θ 1)) 0 one_pos) convex_smoothPred_log fun η hη => ?_
      rw [inverse_log_smooth hη]
      refine ⟨hadm η, ?_⟩
      simp [logDensity, hy0]
  | zeroAdjustedGamma =>
    obtain ⟨h0, h1, h2⟩ := hθ
    have hpos : ∀ η, 0 < exp η / (exp η + 1) ∧ exp η / (exp η + 1) < 1 := fun η =>
      ⟨by positivity, by rw [div_lt_one (by positivity)]; linarith⟩
    have hadm : ∀ η, Admissible .zeroAdjustedGamma (Function.update θ 2 (exp η / (exp η + 1))) := fun η => by
      refine ⟨?_, ?_⟩
      · simpa using h0
      · rw [Function.update_self]
        exact hpos η
    by_cases hy0 : y = 0
    · refine base (log_sum_strict 0 1 one_pos) convex_smoothPred_logit fun η hη => ?_
      rw [inverse_logit_smooth hη]
      refine ⟨hadm η, ?_⟩
      simp only [logDensity, hy0, if_true, Function.update_self]
      rw [log_div (exp_pos η).ne' (by positivity), log_exp, add_comm (exp η)]
      ring
    · refine base (log_sum_strict (gammaL y (θ 0) (θ 1)) 0 one_pos) convex_smoothPred_logit fun η hη => ?_
      rw [inverse_logit_smooth hη]
      refine ⟨hadm η, ?_⟩
      have : 1 - exp η / (exp η + 1) = (1 + exp η)⁻¹ := by field_simp; ring
      simp [logDensity, hy0, this]
      ring

theorem one_div_exp_sq (η : ℝ) : 1 / exp η ^ 2 = exp (-2 * η) := by
  rw [show -2 * η = -(η + η) by ring, exp_neg, exp_add]
  ring

theorem gammaL_scale_concave {y μ : ℝ} (hy : 0 < y) (hμ : 0 < μ) : ConcaveOn ℝ Set.univ fun η => gammaL y μ (exp η) := by
  have hc : 1 ≤ y / μ - log (y / μ) := by linarith [log_le_sub_one_of_pos (div_pos hy hμ)]
  refine (gamma_shape_concave (-log y) hc).congr fun η _ => ?_
  have h3 : y / (exp η ^ 2 * μ) = exp (-2 * η) * (y / μ) := by
    rw [← one_div_exp_sq]
    field_simp
  simp only [gammaL]
  rw [h3, one_div_exp_sq, log_exp, log_div hy.ne' hμ.ne']
  ring

/-- Concave in the linear predictor. -/
theorem ScaleLike.concave {d : Dist} {L : LinkClass} {k : ℕ} (h : d.ScaleLike L k) {θ : ℕ → ℝ} (hθ : d.Admissible θ)
    {y : ℝ} (hy : y ∈ d.Responses) : ConcaveOn ℝ L.smoothPred (d.logLikEta L θ k y) := by
  have base : ∀ {g : ℝ → ℝ}, ConcaveOn ℝ Set.univ g → Convex ℝ L.smoothPred →
      (∀ η ∈ L.smoothPred, d.Admissible (Function.update θ k (L.inverse η - L.offset)) ∧
        d.logDensity y (Function.update θ k (L.inverse η - L.offset)) = g η) →
      ConcaveOn ℝ L.smoothPred (d.logLikEta L θ k y) := fun hg hc he =>
    (hg.subset (Set.subset_univ _) hc).congr fun η hη => by rw [logLikEta_eq hy (he η hη).1, (he η hη).2]
  cases h with
  | normal =>
    refine base (kernel_normal.scale (-log (sqrt (2 * π))) (y - θ 0)) convex_smoothPred_log fun η hη => ?_
    rw [inverse_log_smooth hη]
    refine ⟨by simp [Admissible, exp_pos], ?_⟩
    simp [logDensity, normalL, exp_neg, div_eq_mul_inv]
    ring
  | normalMeanVariance =>
    refine base (exp_linear_concave (-log (sqrt (2 * π))) (-1 / 2) (b := (y - θ 0) ^ 2 / 2) (s := -1) (by positivity) (by norm_num))
      convex_smoothPred_log fun η hη => ?_
    rw [inverse_log_smooth hη]
    refine ⟨by simp [Admissible, exp_pos], ?_⟩
    have h1 : exp η ^ ((1 : ℝ) / 2) = exp (η / 2) := by rw [← exp_mul]; ring_nf
    have h2 : exp (η / 2) ^ 2 = exp η := by rw [← exp_nat_mul]; ring_nf
    simp only [logDensity, normalL, Function.update_self, ne_eq, zero_ne_one, not_false_eq_true, Function.update_of_ne]
    rw [h1, log_exp, div_pow, h2, neg_one_mul, exp_neg]
    ring
  | studentT =>
    have h2 : 0 < θ 2 := hθ.2
    refine base (log_sum_concave (logGamma ((θ 2 + 1) / 2) - logGamma (θ 2 / 2) - (log π + log (θ 2)) / 2) (-1) (b := (θ 2 + 1) / 2)
      (m := 1) (n := (y - θ 0) ^ 2 / θ 2) (by positivity) one_pos (by positivity) (-2)) convex_smoothPred_log fun η hη => ?_
    rw [inverse_log_smooth hη]
    refine ⟨by simp [Admissible, exp_pos, h2], ?_⟩
    have h3 : ((y - θ 0) / exp η) ^ 2 / θ 2 = (y - θ 0) ^ 2 / θ 2 * exp (-2 * η) := by
      rw [show -2 * η = -(η + η) by ring, exp_neg, exp_add]
      field_simp
    simp [logDensity, studentL]
    rw [h3]
    simp
    ring
  | logNormal =>
    refine base (kernel_normal.scale (-log y - log (sqrt (2 * π))) (log y - θ 0)) convex_smoothPred_log fun η hη => ?_
    rw [inverse_log_smooth hη]
    refine ⟨by simp [Admissible, exp_pos], ?_⟩
    simp [logDensity, logNormalL, exp_neg]
    field_simp
    ring
  | logNormalMedian =>
    refine base (kernel_normal.scale (-log y - log (sqrt (2 * π))) (log y - log (θ 0))) convex_smoothPred_log fun η hη => ?_
    rw [inverse_log_smooth hη]
    refine ⟨by simpa [Admissible, exp_pos] using hθ.1, ?_⟩
    simp [logDensity, logNormalL, exp_neg]
    field_simp
    ring
  | logistic =>
    refine base (kernel_logistic.scale 0 (y - θ 0)) convex_smoothPred_log fun η hη => ?_
    rw [inverse_log_smooth hη]
    refine ⟨by simp [Admissible, exp_pos], ?_⟩
    simp [logDensity, logisticL, exp_neg η, div_eq_mul_inv]
    ring
  | gumbel =>
    refine base (kernel_gumbel.scale 0 (y - θ 0)) convex_smoothPred_log fun η hη => ?_
    rw [inverse_log_smooth hη]
    refine ⟨by simp [Admissible, exp_pos], ?_⟩
    simp [logDensity, gumbelL, exp_neg η, div_eq_mul_inv]
    ring
  | reverseGumbel =>
    refine base (kernel_reverseGumbel.scale 0 (y - θ 0)) convex_smoothPred_log fun η hη => ?_
    rw [inverse_log_smooth hη]
    refine ⟨by simp [Admissible, exp_pos], ?_⟩
    simp [logDensity, reverseGumbelL, exp_neg η, div_eq_mul_inv]
    ring
  | inverseGaussian =>
    have hy' : 0 < y := hy
    have h0 : 0 < θ 0 := hθ.1
    refine base (exp_linear_concave (-(log (2 * π) + 3 * log y) / 2) (-1) (b := (y - θ 0) ^ 2 / (2 * y * θ 0 ^ 2)) (s := -2)
      (by positivity) (by norm_num)) convex_smoothPred_log fun η hη => ?_
    rw [inverse_log_smooth hη]
    refine ⟨by simpa [Admissible, exp_pos] using hθ.1, ?_⟩
    have : exp (-2 * η) = 1 / exp η ^ 2 := by rw [show -2 * η = -(η + η) by ring, exp_neg, exp_add]; ring
    simp only [logDensity, inverseGaussianL, Function.update_self, ne_eq, zero_ne_one, not_false_eq_true, Function.update_of_ne, this,
      log_exp]
    field_simp
    ring
  | gamma =>
    have hy' : 0 < y := hy
    have h0 : 0 < θ 0 := hθ.1
    refine base (gammaL_scale_concave hy' h0) convex_smoothPred_log fun η hη => ?_
    rw [inverse_log_smooth hη]
    exact ⟨⟨by simpa using hθ.1, by simp [exp_pos]⟩, by simp [logDensity]⟩
  | inverseGamma =>
    have hy' : 0 < y := hy
    have h0 : 0 < θ 0 := hθ.1
    have hc : 1 ≤ θ 0 / y - log (θ 0 / y) := by linarith [log_le_sub_one_of_pos (div_pos h0 hy')]
    refine base (inverse_shape_concave (-log y - θ 0 / y) hc) convex_smoothPred_log fun η hη => ?_
    rw [inverse_log_smooth hη]
    refine ⟨⟨by simpa using hθ.1, by simp [exp_pos]⟩, ?_⟩
    simp only [logDensity, inverseGammaL, Function.update_self, ne_eq, zero_ne_one, not_false_eq_true, Function.update_of_ne,
      one_div_exp_sq, log_div h0.ne' hy'.ne']
    ring
  | zeroAdjustedGamma =>
    obtain ⟨⟨h0, h1⟩, h2⟩ := hθ
    have hadm : ∀ η, Admissible .zeroAdjustedGamma (Function.update θ 0 (exp η)) := fun η => by
      simp [Admissible, exp_pos, h1, h2]
    by_cases hy0 : y = 0
    · refine base (exp_linear_concave (log (θ 2)) 0 (b := 0) (s := 1) le_rfl one_ne_zero) convex_smoothPred_log fun η hη => ?_
      rw [inverse_log_smooth hη]
      refine ⟨hadm η, ?_⟩
      simp [logDensity, hy0]
    · have hy' : 0 ≤ y := hy
      refine base (exp_linear_concave (log (1 - θ 2) + ((1 / θ 1 ^ 2 - 1) * log y - 1 / θ 1 ^ 2 * (2 * log (θ 1)) -
        logGamma (1 / θ 1 ^ 2))) (-(1 / θ 1 ^ 2)) (b := y / θ 1 ^ 2) (s := -1) (by positivity) (by norm_num))
        convex_smoothPred_log fun η hη => ?_
      rw [inverse_log_smooth hη]
      refine ⟨hadm η, ?_⟩
      simp [logDensity, hy0, gammaL, exp_neg]
      field_simp
      ring
  | zeroAdjustedGammaScale =>
    obtain ⟨⟨h0, h1⟩, h2⟩ := hθ
    have hadm : ∀ η, Admissible .zeroAdjustedGamma (Function.update θ 1 (exp η)) := fun η => by
      simp [Admissible, exp_pos, h0, h2]
    by_cases hy0 : y = 0
    · refine base (exp_linear_concave (log (θ 2)) 0 (b := 0) (s := 1) le_rfl one_ne_zero) convex_smoothPred_log fun η hη => ?_
      rw [inverse_log_smooth hη]
      refine ⟨hadm η, ?_⟩
      simp [logDensity, hy0]
    · have hy' : 0 < y := lt_of_le_of_ne hy (Ne.symm hy0)
      refine base ((concaveOn_const (log (1 - θ 2)) convex_univ).add (gammaL_scale_concave hy' h0)) convex_smoothPred_log
        fun η hη => ?_
      rw [inverse_log_smooth hη]
      refine ⟨hadm η, ?_⟩
      simp [logDensity, hy0]

end Dist
end Ondil
