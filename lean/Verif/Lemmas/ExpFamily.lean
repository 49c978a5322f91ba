import Verif.Lemmas.LawChange
import Verif.Lemmas.Polygamma
import Mathlib.Probability.Moments.MGFAnalytic

/-!
# First and second moments from cumulant generating functions
-/

namespace Ondil

open MeasureTheory ProbabilityTheory Set Filter Topology

/-- Mean and variance are the derivatives of the logarithm of the moment generating function. -/
theorem cumulants {Ω : Type*} [MeasurableSpace Ω] {P : Measure Ω} [IsProbabilityMeasure P] {X : Ω → ℝ} {K k : ℝ → ℝ}
    {k2 : ℝ} (hK : ∀ᶠ t in 𝓝 (0 : ℝ), ∫ ω, Real.exp (t * X ω) ∂P = Real.exp (K t))
    (h1 : ∀ᶠ t in 𝓝 (0 : ℝ), HasDerivAt K (k t) t) (h2 : HasDerivAt k k2 0) :
    MemLp X 2 P ∧ ∫ ω, X ω ∂P = k 0 ∧ ∫ ω, (X ω - k 0) ^ 2 ∂P = k2 := by
  have hint : integrableExpSet X P ∈ 𝓝 (0 : ℝ) := by
    filter_upwards [hK] with t ht
    by_contra hni
    have h0 := integral_undef hni
    rw [ht] at h0
    exact (Real.exp_pos _).ne' h0
  have h0 : (0 : ℝ) ∈ interior (integrableExpSet X P) := mem_interior_iff_mem_nhds.mpr hint
  have hc : cgf X P =ᶠ[𝓝 0] K := by
    filter_upwards [hK] with t ht
    rw [cgf, mgf, ht, Real.log_exp]
  have hd : deriv (cgf X P) =ᶠ[𝓝 0] k := by
    filter_upwards [hc.eventually_nhds, h1] with t ht ht'
    exact (ht'.congr_of_eventuallyEq ht).deriv
  have e0 : deriv (cgf X P) 0 = k 0 := hd.self_of_nhds
  have e1 : ∫ ω, X ω ∂P = k 0 := by
    rw [← e0, deriv_cgf_zero h0]
    simp
  have e2 : iteratedDeriv 2 (cgf X P) 0 = k2 := by
    rw [iteratedDeriv_succ, iteratedDeriv_one, hd.deriv_eq, h2.deriv]
  refine ⟨?_, e1, ?_⟩
  · exact_mod_cast memLp_of_mem_interior_integrableExpSet h0 2
  · rw [← e2, iteratedDeriv_two_cgf_eq_integral h0, e0]
    simp

/-- Means, variances and the covariance of two statistics. -/
structure Moments2 {Ω : Type*} [MeasurableSpace Ω] (P : Measure Ω) (X Y : Ω → ℝ) (mX mY vX vY c : ℝ) : Prop where
  memX : MemLp X 2 P
  memY : MemLp Y 2 P
  meanX : ∫ ω, X ω ∂P = mX
  meanY : ∫ ω, Y ω ∂P = mY
  varX : ∫ ω, (X ω - mX) ^ 2 ∂P = vX
  varY : ∫ ω, (Y ω - mY) ^ 2 ∂P = vY
  cov : ∫ ω, (X ω - mX) * (Y ω - mY) ∂P = c

namespace Moments2

variable {Ω : Type*} [MeasurableSpace Ω] {P : Measure Ω} [IsProbabilityMeasure P] {X Y : Ω → ℝ} {mX mY vX vY c : ℝ}

/-- From the laws of all linear combinations. -/
theorem of_linear {C : ℝ}
    (h : ∀ u v : ℝ, MemLp (fun ω => u * X ω + v * Y ω) 2 P ∧ ∫ ω, (u * X ω + v * Y ω) ∂P = u * mX + v * mY ∧
      ∫ ω, (u * X ω + v * Y ω - (u * mX + v * mY)) ^ 2 ∂P = u ^ 2 * vX + 2 * u * v * C + v ^ 2 * vY) :
    Moments2 P X Y mX mY vX vY C := by
  have hx := h 1 0
  have hy := h 0 1
  have hxy := h 1 1
  simp only [one_mul, zero_mul, add_zero, zero_add, one_pow, mul_zero, mul_one, ne_eq, OfNat.ofNat_ne_zero,
    not_false_eq_true, zero_pow] at hx hy hxy
  refine ⟨hx.1, hy.1, hx.2.1, hy.2.1, hx.2.2, hy.2.2, ?_⟩
  have ix := (hx.1.sub (memLp_const mX)).integrable_sq
  have iy := (hy.1.sub (memLp_const mY)).integrable_sq
  have ixy := (hxy.1.sub (memLp_const (mX + mY))).integrable_sq
  have e : ∀ ω, (X ω - mX) * (Y ω - mY)
      = ((X ω + Y ω - (mX + mY)) ^ 2 - (X ω - mX) ^ 2 - (Y ω - mY) ^ 2) / 2 := fun ω => by ring
  simp only [Pi.sub_apply] at ix iy ixy
  simp only [e]
  have ixyx : Integrable (fun ω => (X ω + Y ω - (mX + mY)) ^ 2 - (X ω - mX) ^ 2) P := ixy.sub ix
  rw [integral_div, integral_sub ixyx iy, integral_sub ixy ix, hx.2.2, hy.2.2, hxy.2.2]
  ring

/-- A centred linear combination of the statistics. -/
def lin (u v mX mY : ℝ) (X Y : Ω → ℝ) (ω : Ω) : ℝ := u * (X ω - mX) + v * (Y ω - mY)

theorem memLp_lin (h : Moments2 P X Y mX mY vX vY c) (u v : ℝ) : MemLp (lin u v mX mY X Y) 2 P :=
  ((h.memX.sub (memLp_const mX)).const_mul u).add ((h.memY.sub (memLp_const mY)).const_mul v)

theorem integral_lin (h : Moments2 P X Y mX mY vX vY c) (u v : ℝ) : ∫ ω, lin u v mX mY X Y ω ∂P = 0 := by
  have ix := h.memX.integrable (by norm_num)
  have iy := h.memY.integrable (by norm_num)
  have ix' : Integrable (fun ω => X ω - mX) P := ix.sub (integrable_const mX)
  have iy' : Integrable (fun ω => Y ω - mY) P := iy.sub (integrable_const mY)
  unfold lin
  rw [integral_add (ix'.const_mul u) (iy'.const_mul v),
    integral_const_mul, integral_const_mul, integral_sub ix (integrable_const _), integral_sub iy (integrable_const _),
    h.meanX, h.meanY]
  simp

theorem integrable_lin_mul (h : Moments2 P X Y mX mY vX vY c) (u v u' v' : ℝ) :
    Integrable (fun ω => lin u v mX mY X Y ω * lin u' v' mX mY X Y ω) P :=
  (h.memLp_lin u v).integrable_mul (h.memLp_lin u' v')

theorem integral_lin_mul (h : Moments2 P X Y mX mY vX vY c) (u v u' v' : ℝ) :
    ∫ ω, lin u v mX mY X Y ω * lin u' v' mX mY X Y ω ∂P = u * u' * vX + (u * v' + u' * v) * c + v * v' * vY := by
  have mx := h.memX.sub (memLp_const mX)
  have my := h.memY.sub (memLp_const mY)
  have ix := mx.integrable_sq
  have iy := my.integrable_sq
  have ixy : Integrable (fun ω => (X ω - mX) * (Y ω - mY)) P := mx.integrable_mul my
  have e : ∀ ω, lin u v mX mY X Y ω * lin u' v' mX mY X Y ω
      = u * u' * (X ω - mX) ^ 2 + (u * v' + u' * v) * ((X ω - mX) * (Y ω - mY)) + v * v' * (Y ω - mY) ^ 2 :=
    fun ω => by unfold lin; ring
  simp only [Pi.sub_apply] at ix iy
  have i2 : Integrable (fun ω => u * u' * (X ω - mX) ^ 2 + (u * v' + u' * v) * ((X ω - mX) * (Y ω - mY))) P :=
    (ix.const_mul _).add (ixy.const_mul _)
  simp only [e]
  rw [integral_add i2 (iy.const_mul _), integral_add (ix.const_mul _) (ixy.const_mul _),
    integral_const_mul, integral_const_mul, integral_const_mul, h.varX, h.varY, h.cov]

end Moments2

/-! ### The gamma law -/

theorem integral_withDensity_real {P : Measure ℝ} {p : ℝ → ℝ} (hp : Measurable p) (h0 : ∀ x, 0 ≤ p x) (g : ℝ → ℝ) :
    ∫ x, g x ∂P.withDensity (fun x => ENNReal.ofReal (p x)) = ∫ x, p x * g x ∂P := by
  rw [integral_withDensity_eq_integral_toReal_smul hp.ennreal_ofReal (by simp)]
  refine integral_congr_ae (Eventually.of_forall fun x => ?_)
  simp [ENNReal.toReal_ofReal (h0 x)]

theorem integrable_withDensity_real {P : Measure ℝ} {p : ℝ → ℝ} (hp : Measurable p) (h0 : ∀ x, 0 ≤ p x) (g : ℝ → ℝ) :
    Integrable g (P.withDensity fun x => ENNReal.ofReal (p x)) ↔ Integrable (fun x => p x * g x) P := by
  rw [integrable_withDensity_iff_integrable_smul' hp.ennreal_ofReal (by simp)]
  refine integrable_congr (Eventually.of_forall fun x => ?_)
  simp [ENNReal.toReal_ofReal (h0 x)]

theorem integral_gammaMeasure {a r : ℝ} (ha : 0 < a) (hr : 0 < r) (g : ℝ → ℝ) :
    ∫ x, g x ∂gammaMeasure a r = ∫ x, gammaPDFReal a r x * g x :=
  integral_withDensity_real (measurable_gammaPDFReal a r) (fun x => gammaPDFReal_nonneg ha hr x) g

theorem integral_betaMeasure {a b : ℝ} (ha : 0 < a) (hb : 0 < b) (g : ℝ → ℝ) :
    ∫ x, g x ∂betaMeasure a b = ∫ x, betaPDFReal a b x * g x := by
  refine integral_withDensity_real (measurable_betaPDFReal a b) (fun x => ?_) g
  unfold betaPDFReal
  split_ifs with h
  · have := betaPDFReal_pos h.1 h.2 ha hb
    rw [betaPDFReal, if_pos h] at this
    exact this.le
  · exact le_rfl

/-- Multiplying by `x^c exp(-e x)` turns one gamma law into another. -/
theorem gamma_tilt {a r c e : ℝ} (ha : 0 < a) (hr : 0 < r) (hac : 0 < a + c) (hre : 0 < r + e) {g h : ℝ → ℝ}
    (hg : ∀ x, 0 < x → g x = x ^ c * Real.exp (-(e * x)) * h x) :
    ∫ x, g x ∂gammaMeasure a r
      = r ^ a / Real.Gamma a * (Real.Gamma (a + c) / (r + e) ^ (a + c)) * ∫ x, h x ∂gammaMeasure (a + c) (r + e) := by
  rw [integral_gammaMeasure ha hr, integral_gammaMeasure hac hre, ← integral_const_mul]
  refine integral_congr_ae ?_
  have h0 : ∀ᵐ y : ℝ, y ≠ 0 := by simp [ae_iff]
  filter_upwards [h0] with x hx
  unfold gammaPDFReal
  rcases lt_or_gt_of_ne hx with h' | h'
  · rw [if_neg (not_le.mpr h'), if_neg (not_le.mpr h')]; ring
  · rw [if_pos h'.le, if_pos h'.le, hg x h']
    have e1 : x ^ (a + c - 1) = x ^ (a - 1) * x ^ c := by
      rw [← Real.rpow_add h']; congr 1; ring
    have e2 : Real.exp (-((r + e) * x)) = Real.exp (-(r * x)) * Real.exp (-(e * x)) := by
      rw [← Real.exp_add]; congr 1; ring
    rw [e1, e2]
    have h1 := (Real.Gamma_pos_of_pos hac).ne'
    have h2 := (Real.rpow_pos_of_pos hre (a + c)).ne'
    have h3 := (Real.Gamma_pos_of_pos ha).ne'
    field_simp

/-- Multiplying by `x^c (1-x)^d` turns one beta law into another. -/
theorem beta_tilt {a b c d : ℝ} (ha : 0 < a) (hb : 0 < b) (hac : 0 < a + c) (hbd : 0 < b + d) {g h : ℝ → ℝ}
    (hg : ∀ x, 0 < x → x < 1 → g x = x ^ c * (1 - x) ^ d * h x) :
    ∫ x, g x ∂betaMeasure a b
      = ProbabilityTheory.beta (a + c) (b + d) / ProbabilityTheory.beta a b
        * ∫ x, h x ∂betaMeasure (a + c) (b + d) := by
  rw [integral_betaMeasure ha hb, integral_betaMeasure hac hbd, ← integral_const_mul]
  refine integral_congr_ae (Eventually.of_forall fun x => ?_)
  simp only [betaPDFReal]
  by_cases hx : 0 < x ∧ x < 1
  · rw [if_pos hx, if_pos hx, hg x hx.1 hx.2]
    have h1 : 0 < 1 - x := by linarith [hx.2]
    have e1 : x ^ (a + c - 1) = x ^ (a - 1) * x ^ c := by
      rw [← Real.rpow_add hx.1]; congr 1; ring
    have e2 : (1 - x) ^ (b + d - 1) = (1 - x) ^ (b - 1) * (1 - x) ^ d := by
      rw [← Real.rpow_add h1]; congr 1; ring
    rw [e1, e2]
    have h2 := (beta_pos ha hb).ne'
    have h3 := (beta_pos hac hbd).ne'
    field_simp
  · rw [if_neg hx, if_neg hx]; ring

theorem gammaMeasure_pos_ae {a r : ℝ} : ∀ᵐ x ∂gammaMeasure a r, 0 < x := by
  unfold gammaMeasure
  rw [ae_withDensity_iff (f := gammaPDF a r) (measurable_gammaPDFReal a r).ennreal_ofReal]
  have h0 : ∀ᵐ y : ℝ, y ≠ 0 := by simp [ae_iff]
  filter_upwards [h0] with x hx hpos
  by_contra hneg
  exact hpos (gammaPDF_of_neg (lt_of_le_of_ne (not_lt.mp hneg) hx))

theorem betaMeasure_mem_ae {a b : ℝ} : ∀ᵐ x ∂betaMeasure a b, 0 < x ∧ x < 1 := by
  unfold betaMeasure
  rw [ae_withDensity_iff (f := betaPDF a b) (measurable_betaPDFReal a b).ennreal_ofReal]
  refine Eventually.of_forall fun x hpos => ?_
  by_contra h
  refine hpos ?_
  simp [betaPDF, betaPDFReal, h]

/-- The sufficient statistics `x` and `log x` of the standard gamma law. -/
theorem gamma_moments {a : ℝ} (ha : 0 < a) :
    Moments2 (gammaMeasure a 1) (fun x => x) Real.log a (digamma a) a (trigamma a) 1 := by
  haveI := isProbabilityMeasure_gammaMeasure ha one_pos
  refine Moments2.of_linear fun u v => ?_
  have hlin : ∀ᶠ t in 𝓝 (0 : ℝ), 0 < a + t * v ∧ 0 < 1 - t * u := by
    have c1 : Tendsto (fun t : ℝ => a + t * v) (𝓝 0) (𝓝 (a + 0 * v)) := by
      exact (continuous_const.add (continuous_id.mul continuous_const)).tendsto 0
    have c2 : Tendsto (fun t : ℝ => 1 - t * u) (𝓝 0) (𝓝 (1 - 0 * u)) := by
      exact (continuous_const.sub (continuous_id.mul continuous_const)).tendsto 0
    exact (c1.eventually (lt_mem_nhds (by simpa using ha))).and (c2.eventually (lt_mem_nhds (by simp)))
  have hmain := cumulants (P := gammaMeasure a 1) (X := fun x => u * x + v * Real.log x)
    (K := fun t => logGamma (a + t * v) - logGamma a - (a + t * v) * Real.log (1 - t * u))
    (k := fun t => v * digamma (a + t * v) - v * Real.log (1 - t * u) + (a + t * v) * (u / (1 - t * u)))
    (k2 := u ^ 2 * a + 2 * u * v * 1 + v ^ 2 * trigamma a) ?_ ?_ ?_
  · obtain ⟨h1, h2, h3⟩ := hmain
    have e : v * digamma (a + 0 * v) - v * Real.log (1 - 0 * u) + (a + 0 * v) * (u / (1 - 0 * u))
        = u * a + v * digamma a := by simp; ring
    rw [e] at h2 h3
    exact ⟨h1, h2, h3⟩
  · filter_upwards [hlin] with t ⟨ht1, ht2⟩
    rw [gamma_tilt (c := t * v) (e := -(t * u)) (h := fun _ => 1) ha one_pos ht1 (by linarith) (fun x hx => ?_)]
    · haveI := isProbabilityMeasure_gammaMeasure ht1 (show 0 < 1 + -(t * u) by linarith)
      have h3 := Real.Gamma_pos_of_pos ha
      have h4 := Real.Gamma_pos_of_pos ht1
      simp only [integral_const, probReal_univ, smul_eq_mul, mul_one, Real.one_rpow]
      unfold logGamma
      rw [Real.exp_sub, Real.exp_sub, Real.exp_log h3, Real.exp_log h4, mul_comm (a + t * v), ← Real.rpow_def_of_pos ht2,
        ← sub_eq_add_neg]
      field_simp
    · rw [mul_one, Real.rpow_def_of_pos hx, ← Real.exp_add]
      congr 1
      ring
  · filter_upwards [hlin] with t ⟨ht1, ht2⟩
    have d1 : HasDerivAt (fun t : ℝ => a + t * v) v t := by simpa using ((hasDerivAt_id t).mul_const v).const_add a
    have d2 : HasDerivAt (fun t : ℝ => 1 - t * u) (-u) t := by simpa using ((hasDerivAt_id t).mul_const u).const_sub 1
    have d3 := (hasDerivAt_logGamma ht1).comp t d1
    have d4 := d1.mul (d2.log ht2.ne')
    refine ((d3.sub_const (logGamma a)).sub d4).congr_deriv ?_
    ring
  · have d1 : HasDerivAt (fun t : ℝ => a + t * v) v 0 := by simpa using ((hasDerivAt_id (0 : ℝ)).mul_const v).const_add a
    have d2 : HasDerivAt (fun t : ℝ => 1 - t * u) (-u) 0 := by
      simpa using ((hasDerivAt_id (0 : ℝ)).mul_const u).const_sub 1
    have hd : HasDerivAt digamma (trigamma a) (a + 0 * v) := by
      have := hasDerivAt_digamma ha
      simpa using this
    have d3 := (hd.comp (0 : ℝ) d1).const_mul v
    have d4 := (d2.log (by simp)).const_mul v
    have d5 := d1.mul ((hasDerivAt_const (0 : ℝ) u).div d2 (by simp))
    refine ((d3.sub d4).add d5).congr_deriv ?_
    simp
    ring

/-- The sufficient statistics `log x` and `log (1 - x)` of the beta law. -/
theorem beta_moments {a b : ℝ} (ha : 0 < a) (hb : 0 < b) :
    Moments2 (betaMeasure a b) Real.log (fun x => Real.log (1 - x)) (digamma a - digamma (a + b))
      (digamma b - digamma (a + b)) (trigamma a - trigamma (a + b)) (trigamma b - trigamma (a + b))
      (-trigamma (a + b)) := by
  haveI := isProbabilityMeasureBeta ha hb
  refine Moments2.of_linear fun u v => ?_
  have hlin : ∀ᶠ t in 𝓝 (0 : ℝ), 0 < a + t * u ∧ 0 < b + t * v := by
    have c1 : Tendsto (fun t : ℝ => a + t * u) (𝓝 0) (𝓝 (a + 0 * u)) := by
      exact (continuous_const.add (continuous_id.mul continuous_const)).tendsto 0
    have c2 : Tendsto (fun t : ℝ => b + t * v) (𝓝 0) (𝓝 (b + 0 * v)) := by
      exact (continuous_const.add (continuous_id.mul continuous_const)).tendsto 0
    exact (c1.eventually (lt_mem_nhds (by simpa using ha))).and (c2.eventually (lt_mem_nhds (by simpa using hb)))
  have hmain := cumulants (P := betaMeasure a b) (X := fun x => u * Real.log x + v * Real.log (1 - x))
    (K := fun t => logGamma (a + t * u) + logGamma (b + t * v) - logGamma (a + b + t * (u + v))
      - (logGamma a + logGamma b - logGamma (a + b)))
    (k := fun t => digamma (a + t * u) * u + digamma (b + t * v) * v - digamma (a + b + t * (u + v)) * (u + v))
    (k2 := u ^ 2 * (trigamma a - trigamma (a + b)) + 2 * u * v * (-trigamma (a + b))
      + v ^ 2 * (trigamma b - trigamma (a + b))) ?_ ?_ ?_
  · obtain ⟨h1, h2, h3⟩ := hmain
    have e : digamma (a + 0 * u) * u + digamma (b + 0 * v) * v - digamma (a + b + 0 * (u + v)) * (u + v)
        = u * (digamma a - digamma (a + b)) + v * (digamma b - digamma (a + b)) := by simp; ring
    rw [e] at h2 h3
    exact ⟨h1, h2, h3⟩
  · filter_upwards [hlin] with t ⟨ht1, ht2⟩
    rw [beta_tilt (c := t * u) (d := t * v) (h := fun _ => 1) ha hb ht1 ht2 (fun x hx hx1 => ?_)]
    · haveI := isProbabilityMeasureBeta ht1 ht2
      have h1 := Real.Gamma_pos_of_pos ha
      have h2 := Real.Gamma_pos_of_pos hb
      have h3 := Real.Gamma_pos_of_pos (add_pos ha hb)
      have h4 := Real.Gamma_pos_of_pos ht1
      have h5 := Real.Gamma_pos_of_pos ht2
      have e : a + b + t * (u + v) = a + t * u + (b + t * v) := by ring
      have h6 := Real.Gamma_pos_of_pos (add_pos ht1 ht2)
      simp only [integral_const, probReal_univ, smul_eq_mul, mul_one]
      unfold logGamma ProbabilityTheory.beta
      rw [e, Real.exp_sub, Real.exp_sub, Real.exp_add, Real.exp_sub, Real.exp_add, Real.exp_log h1, Real.exp_log h2,
        Real.exp_log h3, Real.exp_log h4, Real.exp_log h5, Real.exp_log h6]
    · have h1 : 0 < 1 - x := by linarith
      rw [mul_one, Real.rpow_def_of_pos hx, Real.rpow_def_of_pos h1, ← Real.exp_add]
      congr 1
      ring
  · filter_upwards [hlin] with t ⟨ht1, ht2⟩
    have d1 : HasDerivAt (fun t : ℝ => a + t * u) u t := by simpa using ((hasDerivAt_id t).mul_const u).const_add a
    have d2 : HasDerivAt (fun t : ℝ => b + t * v) v t := by simpa using ((hasDerivAt_id t).mul_const v).const_add b
    have d3 : HasDerivAt (fun t : ℝ => a + b + t * (u + v)) (u + v) t := by
      simpa using ((hasDerivAt_id t).mul_const (u + v)).const_add (a + b)
    have h3 : 0 < a + b + t * (u + v) := by linarith [mul_add t u v]
    exact ((((hasDerivAt_logGamma ht1).comp t d1).add ((hasDerivAt_logGamma ht2).comp t d2)).sub
      ((hasDerivAt_logGamma h3).comp t d3)).sub_const _
  · have d1 : HasDerivAt (fun t : ℝ => a + t * u) u 0 := by
      simpa using ((hasDerivAt_id (0 : ℝ)).mul_const u).const_add a
    have d2 : HasDerivAt (fun t : ℝ => b + t * v) v 0 := by
      simpa using ((hasDerivAt_id (0 : ℝ)).mul_const v).const_add b
    have d3 : HasDerivAt (fun t : ℝ => a + b + t * (u + v)) (u + v) 0 := by
      simpa using ((hasDerivAt_id (0 : ℝ)).mul_const (u + v)).const_add (a + b)
    have k1 : HasDerivAt digamma (trigamma a) (a + 0 * u) := by simpa using hasDerivAt_digamma ha
    have k2 : HasDerivAt digamma (trigamma b) (b + 0 * v) := by simpa using hasDerivAt_digamma hb
    have k3 : HasDerivAt digamma (trigamma (a + b)) (a + b + 0 * (u + v)) := by
      simpa using hasDerivAt_digamma (add_pos ha hb)
    refine ((((k1.comp (0 : ℝ) d1).mul_const u).add ((k2.comp (0 : ℝ) d2).mul_const v)).sub
      ((k3.comp (0 : ℝ) d3).mul_const (u + v))).congr_deriv ?_
    ring

end Ondil
