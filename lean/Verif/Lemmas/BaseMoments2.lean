import Verif.Lemmas.ExpFamily
import Verif.Lemmas.LawOf

/-!
# Moments of the statistics of Student's t, the logistic and the Gumbel laws
-/

namespace Ondil

open MeasureTheory ProbabilityTheory Set Filter Topology

/-! ### Integrability under a change of the shape -/

theorem gamma_tilt_integrable {a : ℝ} (n : ℕ) (ha : 0 < a) {h : ℝ → ℝ}
    (hh : Integrable h (gammaMeasure (a + n) 1)) : Integrable (fun x => x ^ n * h x) (gammaMeasure a 1) := by
  have han : (0:ℝ) < a + n := by positivity
  have e1 := integrable_withDensity_real (P := volume) (measurable_gammaPDFReal (a + n) 1)
    (fun x => gammaPDFReal_nonneg han one_pos x) h
  have e2 := integrable_withDensity_real (P := volume) (measurable_gammaPDFReal a 1)
    (fun x => gammaPDFReal_nonneg ha one_pos x) (fun x => x ^ n * h x)
  refine e2.mpr ?_
  have := (e1.mp hh).const_mul (Real.Gamma (a + n) / Real.Gamma a)
  refine this.congr ?_
  have h0 : ∀ᵐ y : ℝ, y ≠ 0 := by simp [ae_iff]
  filter_upwards [h0] with x hx
  simp only [gammaPDFReal]
  rcases lt_or_gt_of_ne hx with hneg | hpos
  · simp [not_le.mpr hneg]
  · rw [if_pos hpos.le, if_pos hpos.le]
    have g1 := Real.Gamma_pos_of_pos ha
    have g2 := Real.Gamma_pos_of_pos han
    have : x ^ (a + n - 1) = x ^ (a - 1) * x ^ n := by
      rw [← Real.rpow_natCast x n, ← Real.rpow_add hpos]; congr 1; ring
    rw [this]
    field_simp
    simp

theorem gamma_tilt_integral {a : ℝ} (n : ℕ) (ha : 0 < a) (h : ℝ → ℝ) :
    ∫ x, x ^ n * h x ∂gammaMeasure a 1 = Real.Gamma (a + n) / Real.Gamma a * ∫ x, h x ∂gammaMeasure (a + n) 1 := by
  have han : (0:ℝ) < a + n := by positivity
  have := gamma_tilt (c := n) (e := 0) (g := fun x => x ^ n * h x) (h := h) ha one_pos han (by norm_num)
    (fun x _ => by simp [Real.rpow_natCast])
  rw [this]
  simp
  left
  ring

theorem beta_tilt_integrable {a b : ℝ} (n k : ℕ) (ha : 0 < a) (hb : 0 < b) {h : ℝ → ℝ}
    (hh : Integrable h (betaMeasure (a + n) (b + k))) :
    Integrable (fun x => x ^ n * (1 - x) ^ k * h x) (betaMeasure a b) := by
  have han : (0:ℝ) < a + n := by positivity
  have hbk : (0:ℝ) < b + k := by positivity
  have nn : ∀ {a b : ℝ}, 0 < a → 0 < b → ∀ x, 0 ≤ betaPDFReal a b x := by
    intro a b ha hb x
    by_cases hx : 0 < x ∧ x < 1
    · exact (betaPDFReal_pos hx.1 hx.2 ha hb).le
    · simp [betaPDFReal, hx]
  have e1 := integrable_withDensity_real (P := volume) (measurable_betaPDFReal (a + n) (b + k)) (nn han hbk) h
  have e2 := integrable_withDensity_real (P := volume) (measurable_betaPDFReal a b) (nn ha hb)
    (fun x => x ^ n * (1 - x) ^ k * h x)
  refine e2.mpr ?_
  have := (e1.mp hh).const_mul (ProbabilityTheory.beta (a + n) (b + k) / ProbabilityTheory.beta a b)
  refine this.congr (Eventually.of_forall fun x => ?_)
  simp only [betaPDFReal]
  by_cases hx : 0 < x ∧ x < 1
  · rw [if_pos hx, if_pos hx]
    have g1 := beta_pos ha hb
    have g2 := beta_pos han hbk
    have h1 : 0 < 1 - x := by linarith [hx.2]
    have e1 : x ^ (a + n - 1) = x ^ (a - 1) * x ^ n := by
      rw [← Real.rpow_natCast x n, ← Real.rpow_add hx.1]; congr 1; ring
    have e2 : (1 - x) ^ (b + k - 1) = (1 - x) ^ (b - 1) * (1 - x) ^ k := by
      rw [← Real.rpow_natCast (1 - x) k, ← Real.rpow_add h1]; congr 1; ring
    rw [e1, e2]
    field_simp
  · simp [hx]

theorem beta_tilt_integral {a b : ℝ} (n k : ℕ) (ha : 0 < a) (hb : 0 < b) (h : ℝ → ℝ) :
    ∫ x, x ^ n * (1 - x) ^ k * h x ∂betaMeasure a b
      = ProbabilityTheory.beta (a + n) (b + k) / ProbabilityTheory.beta a b
        * ∫ x, h x ∂betaMeasure (a + n) (b + k) := by
  refine beta_tilt (c := n) (d := k) ha hb (by positivity) (by positivity) fun x _ _ => ?_
  simp [Real.rpow_natCast]

/-! ### The ratio of Student's t -/

theorem beta_ratio_one {a b : ℝ} (ha : 0 < a) (hb : 0 < b) :
    ProbabilityTheory.beta (a + 1) b / ProbabilityTheory.beta a b = a / (a + b) := by
  have h1 := Real.Gamma_pos_of_pos ha
  have h2 := Real.Gamma_pos_of_pos hb
  have h3 := Real.Gamma_pos_of_pos (add_pos ha hb)
  unfold ProbabilityTheory.beta
  rw [Real.Gamma_add_one ha.ne', show a + 1 + b = a + b + 1 by ring, Real.Gamma_add_one (add_pos ha hb).ne']
  field_simp

theorem beta_ratio_two {a b : ℝ} (ha : 0 < a) (hb : 0 < b) :
    ProbabilityTheory.beta (a + 2) b / ProbabilityTheory.beta a b = a * (a + 1) / ((a + b) * (a + b + 1)) := by
  have h1 := beta_ratio_one (a := a + 1) (by linarith) hb
  have h0 := beta_ratio_one ha hb
  have p1 := beta_pos ha hb
  have p2 := beta_pos (show 0 < a + 1 by linarith) hb
  rw [show a + 1 + 1 = a + 2 by ring] at h1
  rw [show ProbabilityTheory.beta (a + 2) b / ProbabilityTheory.beta a b
    = (ProbabilityTheory.beta (a + 2) b / ProbabilityTheory.beta (a + 1) b)
      * (ProbabilityTheory.beta (a + 1) b / ProbabilityTheory.beta a b) by field_simp, h1, h0,
      show a + 1 + b = a + b + 1 by ring]
  have : 0 < a + b := add_pos ha hb
  field_simp

theorem beta_memLp_id {a b : ℝ} (ha : 0 < a) (hb : 0 < b) : MemLp (fun x : ℝ => x) 2 (betaMeasure a b) := by
  haveI := isProbabilityMeasureBeta ha hb
  refine MemLp.of_bound (by fun_prop) 1 ?_
  filter_upwards [betaMeasure_mem_ae (a := a) (b := b)] with x hx
  rw [Real.norm_of_nonneg hx.1.le]
  exact hx.2.le

theorem beta_mean {a b : ℝ} (ha : 0 < a) (hb : 0 < b) : ∫ x : ℝ, x ∂betaMeasure a b = a / (a + b) := by
  have := isProbabilityMeasureBeta (α := a + (1:ℕ)) (β := b + (0:ℕ)) (by positivity) (by simpa using hb)
  have h := beta_tilt_integral 1 0 ha hb fun _ => 1
  simp only [pow_one, pow_zero, mul_one, integral_const, probReal_univ, smul_eq_mul] at h
  rw [h]
  simpa using beta_ratio_one ha hb

theorem beta_mean_sq {a b : ℝ} (ha : 0 < a) (hb : 0 < b) :
    ∫ x : ℝ, x ^ 2 ∂betaMeasure a b = a * (a + 1) / ((a + b) * (a + b + 1)) := by
  have := isProbabilityMeasureBeta (α := a + (2:ℕ)) (β := b + (0:ℕ)) (by positivity) (by simpa using hb)
  have h := beta_tilt_integral 2 0 ha hb fun _ => 1
  simp only [pow_zero, mul_one, integral_const, probReal_univ, smul_eq_mul] at h
  rw [h]
  simpa using beta_ratio_two ha hb

theorem beta_ratio_moments {a b : ℝ} (ha : 0 < a) (hb : 0 < b) :
    Moments2 (betaMeasure a b) (fun x => x) (fun x => Real.log (1 - x)) (a / (a + b)) (digamma b - digamma (a + b))
      (a * b / ((a + b) ^ 2 * (a + b + 1))) (trigamma b - trigamma (a + b)) (-(a / (a + b) ^ 2)) := by
  haveI := isProbabilityMeasureBeta ha hb
  have hm := beta_moments ha hb
  have hab := add_pos ha hb
  have mX := beta_memLp_id ha hb
  have iX := mX.integrable (by norm_num)
  have iY := hm.memY.integrable (by norm_num)
  have iXX : Integrable (fun x : ℝ => x ^ 2) (betaMeasure a b) := mX.integrable_sq
  have iXY : Integrable (fun x : ℝ => x * Real.log (1 - x)) (betaMeasure a b) := mX.integrable_mul hm.memY
  refine ⟨mX, hm.memY, beta_mean ha hb, hm.meanY, ?_, hm.varY, ?_⟩
  · have e : ∀ x : ℝ, (x - a / (a + b)) ^ 2 = x ^ 2 - 2 * (a / (a + b)) * x + (a / (a + b)) ^ 2 := fun x => by ring
    simp only [e]
    have i1 : Integrable (fun x : ℝ => x ^ 2 - 2 * (a / (a + b)) * x) (betaMeasure a b) := iXX.sub (iX.const_mul _)
    rw [integral_add i1 (integrable_const _), integral_sub iXX (iX.const_mul _), integral_const_mul,
      beta_mean ha hb, beta_mean_sq ha hb]
    simp only [integral_const, probReal_univ, smul_eq_mul]
    field_simp
    ring
  · have hxy : ∫ x : ℝ, x * Real.log (1 - x) ∂betaMeasure a b = a / (a + b) * (digamma b - digamma (a + b + 1)) := by
      have h := beta_tilt_integral 1 0 ha hb fun x => Real.log (1 - x)
      simp only [pow_one, pow_zero, mul_one, Nat.cast_one, Nat.cast_zero, add_zero] at h
      rw [h, (beta_moments (a := a + 1) (by linarith) hb).meanY, beta_ratio_one ha hb,
        show a + 1 + b = a + b + 1 by ring]
    have e : ∀ x : ℝ, (x - a / (a + b)) * (Real.log (1 - x) - (digamma b - digamma (a + b)))
        = x * Real.log (1 - x) - a / (a + b) * Real.log (1 - x)
          - (digamma b - digamma (a + b)) * (x - a / (a + b)) := fun x => by ring
    simp only [e]
    have i1 : Integrable (fun x : ℝ => x * Real.log (1 - x) - a / (a + b) * Real.log (1 - x)) (betaMeasure a b) :=
      iXY.sub (iY.const_mul _)
    have i2 : Integrable (fun x : ℝ => x - a / (a + b)) (betaMeasure a b) := iX.sub (integrable_const _)
    rw [integral_sub i1 (i2.const_mul _), integral_sub iXY (iY.const_mul _), integral_const_mul, integral_const_mul,
      integral_sub iX (integrable_const _), beta_mean ha hb, hm.meanY, hxy, digamma_add_one hab]
    simp only [integral_const, probReal_univ, smul_eq_mul]
    field_simp
    ring

/-! ### The logistic law -/

/-- The standardised response of the logistic law as a function of a uniform variable. -/
noncomputable def logitZ (u : ℝ) : ℝ := Real.log u - Real.log (1 - u)

theorem logitZ_measurable : Measurable logitZ := by unfold logitZ; fun_prop

theorem logitZ_moments {a b : ℝ} (ha : 0 < a) (hb : 0 < b) :
    MemLp logitZ 2 (betaMeasure a b) ∧ ∫ u, logitZ u ∂betaMeasure a b = digamma a - digamma b ∧
      ∫ u, logitZ u ^ 2 ∂betaMeasure a b = trigamma a + trigamma b + (digamma a - digamma b) ^ 2 := by
  haveI := isProbabilityMeasureBeta ha hb
  have hm := beta_moments ha hb
  have mZ : MemLp logitZ 2 (betaMeasure a b) := hm.memX.sub hm.memY
  have iZ := mZ.integrable (by norm_num)
  have mean : ∫ u, logitZ u ∂betaMeasure a b = digamma a - digamma b := by
    unfold logitZ
    rw [integral_sub (hm.memX.integrable (by norm_num)) (hm.memY.integrable (by norm_num)), hm.meanX, hm.meanY]
    ring
  refine ⟨mZ, mean, ?_⟩
  have h := hm.integral_lin_mul 1 (-1) 1 (-1)
  have e : ∀ u, Moments2.lin 1 (-1) (digamma a - digamma (a + b)) (digamma b - digamma (a + b)) Real.log
      (fun x => Real.log (1 - x)) u = logitZ u - (digamma a - digamma b) := by
    intro u; simp only [Moments2.lin, logitZ]; ring
  simp only [e] at h
  have e2 : ∀ u, (logitZ u - (digamma a - digamma b)) * (logitZ u - (digamma a - digamma b))
      = logitZ u ^ 2 - 2 * (digamma a - digamma b) * logitZ u + (digamma a - digamma b) ^ 2 := fun u => by ring
  simp only [e2] at h
  have i1 : Integrable (fun u => logitZ u ^ 2 - 2 * (digamma a - digamma b) * logitZ u) (betaMeasure a b) :=
    mZ.integrable_sq.sub (iZ.const_mul _)
  rw [integral_add i1 (integrable_const _), integral_sub mZ.integrable_sq (iZ.const_mul _), integral_const_mul,
    mean] at h
  simp only [integral_const, probReal_univ, smul_eq_mul] at h
  linarith

theorem logistic_moments : Moments2 (betaMeasure 1 1) (fun u => 2 * u - 1) (fun u => logitZ u * (2 * u - 1)) 0 1
    (1 / 3) (1 / 3 + 2 / 3 * trigamma 1) 0 := by
  have one : (0:ℝ) < 1 := one_pos
  haveI := isProbabilityMeasureBeta one one
  obtain ⟨mZ, zmean, zsq⟩ := logitZ_moments one one
  obtain ⟨mZ2, zmean2, zsq2⟩ := logitZ_moments (a := 2) (b := 2) two_pos two_pos
  obtain ⟨mZ3, zmean3, -⟩ := logitZ_moments (a := 2) (b := 1) two_pos one
  have mU := beta_memLp_id one one
  have iU := mU.integrable (by norm_num)
  have iZ := mZ.integrable (by norm_num)
  have mT : MemLp (fun u : ℝ => 2 * u - 1) 2 (betaMeasure 1 1) := (mU.const_mul 2).sub (memLp_const 1)
  have eU : ∫ u : ℝ, u ∂betaMeasure 1 1 = 1 / 2 := by rw [beta_mean one one]; norm_num
  have eU2 : ∫ u : ℝ, u ^ 2 ∂betaMeasure 1 1 = 1 / 3 := by rw [beta_mean_sq one one]; norm_num
  have b21 : ProbabilityTheory.beta 2 1 / ProbabilityTheory.beta 1 1 = 1 / 2 := by
    have := beta_ratio_one one one; norm_num at this ⊢; exact this
  have b22 : ProbabilityTheory.beta 2 2 / ProbabilityTheory.beta 1 1 = 1 / 6 := by
    unfold ProbabilityTheory.beta
    have g1 : Real.Gamma 1 = 1 := Real.Gamma_one
    have g2 : Real.Gamma 2 = 1 := Real.Gamma_two
    have g4 : Real.Gamma (2 + 2) = 6 := by
      rw [show (2:ℝ) + 2 = 2 + 1 + 1 by norm_num, Real.Gamma_add_one (by norm_num), Real.Gamma_add_one (by norm_num), g2]
      norm_num
    rw [g4, show (1:ℝ) + 1 = 2 by norm_num, g1, g2]
    norm_num
  -- expectations of products with the response
  have zu : ∫ u : ℝ, u * logitZ u ∂betaMeasure 1 1 = 1 / 2 := by
    have h := beta_tilt_integral 1 0 one one logitZ
    simp only [pow_one, pow_zero, mul_one, Nat.cast_one, Nat.cast_zero, add_zero,
      show (1:ℝ) + 1 = 2 by norm_num] at h
    rw [h, zmean3, b21, show (2:ℝ) = 1 + 1 by norm_num, digamma_add_one one]
    norm_num
  have tilt : ∀ g : ℝ → ℝ, ∫ u : ℝ, u * (1 - u) * g u ∂betaMeasure 1 1 = 1 / 6 * ∫ u, g u ∂betaMeasure 2 2 := by
    intro g
    have h := beta_tilt_integral 1 1 one one g
    simp only [pow_one, Nat.cast_one, show (1:ℝ) + 1 = 2 by norm_num] at h
    rw [h, b22]
  have tiltI : ∀ g : ℝ → ℝ, Integrable g (betaMeasure 2 2) →
      Integrable (fun u : ℝ => u * (1 - u) * g u) (betaMeasure 1 1) := by
    intro g hg
    have h := beta_tilt_integrable (a := 1) (b := 1) 1 1 one one (h := g)
      (by norm_num; exact hg)
    simpa using h
  haveI := isProbabilityMeasureBeta (α := (2:ℝ)) (β := 2) two_pos two_pos
  have iZ2 := mZ2.integrable (by norm_num)
  have esq : ∀ u : ℝ, (logitZ u * (2 * u - 1)) ^ 2 = logitZ u ^ 2 - 4 * (u * (1 - u) * logitZ u ^ 2) := fun u => by ring
  have iY2 : Integrable (fun u : ℝ => (logitZ u * (2 * u - 1)) ^ 2) (betaMeasure 1 1) := by
    simp only [esq]
    exact mZ.integrable_sq.sub ((tiltI _ mZ2.integrable_sq).const_mul 4)
  have mY : MemLp (fun u : ℝ => logitZ u * (2 * u - 1)) 2 (betaMeasure 1 1) :=
    (memLp_two_iff_integrable_sq
      (logitZ_measurable.mul (by fun_prop : Measurable fun u : ℝ => 2 * u - 1)).aestronglyMeasurable).mpr iY2
  have iY := mY.integrable (by norm_num)
  have iuZ : Integrable (fun u : ℝ => u * logitZ u) (betaMeasure 1 1) := mU.integrable_mul mZ
  have meanY : ∫ u : ℝ, logitZ u * (2 * u - 1) ∂betaMeasure 1 1 = 1 := by
    have e : ∀ u : ℝ, logitZ u * (2 * u - 1) = 2 * (u * logitZ u) - logitZ u := fun u => by ring
    simp only [e]
    rw [integral_sub (iuZ.const_mul 2) iZ, integral_const_mul, zu, zmean]
    norm_num
  refine ⟨mT, mY, ?_, meanY, ?_, ?_, ?_⟩
  · rw [integral_sub (iU.const_mul 2) (integrable_const _), integral_const_mul, eU]
    simp
  · have e : ∀ u : ℝ, (2 * u - 1 - 0) ^ 2 = 4 * u ^ 2 - 4 * u + 1 := fun u => by ring
    simp only [e]
    have i1 : Integrable (fun u : ℝ => 4 * u ^ 2 - 4 * u) (betaMeasure 1 1) :=
      (mU.integrable_sq.const_mul 4).sub (iU.const_mul 4)
    rw [integral_add i1 (integrable_const _), integral_sub (mU.integrable_sq.const_mul 4) (iU.const_mul 4),
      integral_const_mul, integral_const_mul, eU, eU2]
    simp
    norm_num
  · have e : ∀ u : ℝ, (logitZ u * (2 * u - 1) - 1) ^ 2
        = (logitZ u ^ 2 - 4 * (u * (1 - u) * logitZ u ^ 2)) - 2 * (logitZ u * (2 * u - 1)) + 1 := fun u => by ring
    simp only [e]
    have i0 : Integrable (fun u : ℝ => logitZ u ^ 2 - 4 * (u * (1 - u) * logitZ u ^ 2)) (betaMeasure 1 1) := by
      simp only [← esq]; exact iY2
    have i1 : Integrable (fun u : ℝ => (logitZ u ^ 2 - 4 * (u * (1 - u) * logitZ u ^ 2)) - 2 * (logitZ u * (2 * u - 1)))
        (betaMeasure 1 1) := i0.sub (iY.const_mul 2)
    rw [integral_add i1 (integrable_const _), integral_sub i0 (iY.const_mul 2), integral_sub mZ.integrable_sq
      ((tiltI _ mZ2.integrable_sq).const_mul 4), integral_const_mul, integral_const_mul, tilt, meanY, zsq, zsq2]
    simp only [integral_const, probReal_univ, smul_eq_mul]
    rw [show (2:ℝ) = 1 + 1 by norm_num, trigamma_add_one one]
    ring
  · have e : ∀ u : ℝ, (2 * u - 1 - 0) * (logitZ u * (2 * u - 1) - 1)
        = logitZ u - 4 * (u * (1 - u) * logitZ u) - (2 * u - 1) := fun u => by ring
    simp only [e]
    have i0 : Integrable (fun u : ℝ => logitZ u - 4 * (u * (1 - u) * logitZ u)) (betaMeasure 1 1) :=
      iZ.sub ((tiltI _ iZ2).const_mul 4)
    rw [integral_sub i0 (mT.integrable (by norm_num)), integral_sub iZ ((tiltI _ iZ2).const_mul 4), integral_const_mul,
      tilt, zmean, zmean2, integral_sub (iU.const_mul 2) (integrable_const _), integral_const_mul, eU]
    simp

/-! ### The Gumbel laws -/

theorem gamma_log_sq {a : ℝ} (ha : 0 < a) :
    ∫ w, Real.log w ^ 2 ∂gammaMeasure a 1 = trigamma a + digamma a ^ 2 := by
  haveI := isProbabilityMeasure_gammaMeasure ha one_pos
  have hm := gamma_moments ha
  have i := hm.memY.integrable (by norm_num)
  have h := hm.varY
  have e : ∀ w : ℝ, (Real.log w - digamma a) ^ 2 = Real.log w ^ 2 - 2 * digamma a * Real.log w + digamma a ^ 2 :=
    fun w => by ring
  simp only [e] at h
  have i1 : Integrable (fun w : ℝ => Real.log w ^ 2 - 2 * digamma a * Real.log w) (gammaMeasure a 1) :=
    hm.memY.integrable_sq.sub (i.const_mul _)
  rw [integral_add i1 (integrable_const _), integral_sub hm.memY.integrable_sq (i.const_mul _), integral_const_mul,
    hm.meanY] at h
  simp only [integral_const, probReal_univ, smul_eq_mul] at h
  linarith

theorem gumbel_moments : Moments2 (gammaMeasure 1 1) (fun w => w) (fun w => Real.log w * (w - 1)) 1 1 1
    (trigamma 1 + (digamma 1 + 1) ^ 2) (digamma 1 + 1) := by
  have one : (0:ℝ) < 1 := one_pos
  haveI := isProbabilityMeasure_gammaMeasure one one
  have hm := gamma_moments one
  have d2 : digamma 2 = digamma 1 + 1 := by
    rw [show (2:ℝ) = 1 + 1 by norm_num, digamma_add_one one]; norm_num
  have d3 : digamma 3 = digamma 1 + 3 / 2 := by
    rw [show (3:ℝ) = 2 + 1 by norm_num, digamma_add_one two_pos, d2]; ring
  have t2 : trigamma 2 = trigamma 1 - 1 := by
    rw [show (2:ℝ) = 1 + 1 by norm_num, trigamma_add_one one]; norm_num
  have t3 : trigamma 3 = trigamma 1 - 5 / 4 := by
    have h := trigamma_add_one (two_pos (α := ℝ))
    rw [t2] at h
    rw [show (3:ℝ) = 2 + 1 by norm_num]; linarith
  have g3 : Real.Gamma 3 = 2 := by
    rw [show (3:ℝ) = 2 + 1 by norm_num, Real.Gamma_add_one (by norm_num), Real.Gamma_two]; norm_num
  have tilt1 : ∀ g : ℝ → ℝ, ∫ w : ℝ, w * g w ∂gammaMeasure 1 1 = ∫ w, g w ∂gammaMeasure 2 1 := by
    intro g
    have h := gamma_tilt_integral (a := 1) 1 one g
    simp only [pow_one, Nat.cast_one, show (1:ℝ) + 1 = 2 by norm_num, Real.Gamma_one, Real.Gamma_two] at h
    rw [h]; norm_num
  have tilt2 : ∀ g : ℝ → ℝ, ∫ w : ℝ, w ^ 2 * g w ∂gammaMeasure 1 1 = 2 * ∫ w, g w ∂gammaMeasure 3 1 := by
    intro g
    have h := gamma_tilt_integral (a := 1) 2 one g
    simp only [Nat.cast_ofNat, show (1:ℝ) + 2 = 3 by norm_num, Real.Gamma_one, g3] at h
    rw [h]; norm_num
  have tiltI1 : ∀ g : ℝ → ℝ, Integrable g (gammaMeasure 2 1) → Integrable (fun w : ℝ => w * g w) (gammaMeasure 1 1) := by
    intro g hg
    have h := gamma_tilt_integrable (a := 1) 1 one (h := g) (by norm_num; exact hg)
    simpa using h
  have tiltI2 : ∀ g : ℝ → ℝ, Integrable g (gammaMeasure 3 1) → Integrable (fun w : ℝ => w ^ 2 * g w) (gammaMeasure 1 1) := by
    intro g hg
    exact gamma_tilt_integrable (a := 1) 2 one (h := g) (by norm_num; exact hg)
  haveI := isProbabilityMeasure_gammaMeasure (a := (2:ℝ)) (r := 1) two_pos one
  haveI := isProbabilityMeasure_gammaMeasure (a := (3:ℝ)) (r := 1) three_pos one
  have hm2 := gamma_moments (a := 2) two_pos
  have hm3 := gamma_moments (a := 3) three_pos
  have iW := hm.memX.integrable (by norm_num)
  have iL := hm.memY.integrable (by norm_num)
  have iL2 := hm2.memY.integrable (by norm_num)
  have iL3 := hm3.memY.integrable (by norm_num)
  have iQ := hm.memY.integrable_sq
  have iQ2 := hm2.memY.integrable_sq
  have iQ3 := hm3.memY.integrable_sq
  have esq : ∀ w : ℝ, (Real.log w * (w - 1)) ^ 2
      = w ^ 2 * Real.log w ^ 2 - 2 * (w * Real.log w ^ 2) + Real.log w ^ 2 := fun w => by ring
  have iS1 : Integrable (fun w : ℝ => w ^ 2 * Real.log w ^ 2 - 2 * (w * Real.log w ^ 2)) (gammaMeasure 1 1) :=
    (tiltI2 _ iQ3).sub ((tiltI1 _ iQ2).const_mul 2)
  have iY2 : Integrable (fun w : ℝ => (Real.log w * (w - 1)) ^ 2) (gammaMeasure 1 1) := by
    simp only [esq]
    exact iS1.add iQ
  have mY : MemLp (fun w : ℝ => Real.log w * (w - 1)) 2 (gammaMeasure 1 1) :=
    (memLp_two_iff_integrable_sq
      (Real.measurable_log.mul (by fun_prop : Measurable fun w : ℝ => w - 1)).aestronglyMeasurable).mpr iY2
  have iY := mY.integrable (by norm_num)
  have sqY : ∫ w : ℝ, (Real.log w * (w - 1)) ^ 2 ∂gammaMeasure 1 1 = trigamma 1 + (digamma 1 + 1) ^ 2 + 1 := by
    simp only [esq]
    rw [integral_add iS1 iQ, integral_sub (tiltI2 _ iQ3) ((tiltI1 _ iQ2).const_mul 2), integral_const_mul, tilt1, tilt2,
      gamma_log_sq one, gamma_log_sq two_pos, gamma_log_sq three_pos, d2, d3, t2, t3]
    ring
  have meanY : ∫ w : ℝ, Real.log w * (w - 1) ∂gammaMeasure 1 1 = 1 := by
    have e : ∀ w : ℝ, Real.log w * (w - 1) = w * Real.log w - Real.log w := fun w => by ring
    simp only [e]
    rw [integral_sub (tiltI1 _ iL2) iL, tilt1, hm2.meanY, hm.meanY, d2]
    ring
  refine ⟨hm.memX, mY, hm.meanX, meanY, hm.varX, ?_, ?_⟩
  · have e : ∀ w : ℝ, (Real.log w * (w - 1) - 1) ^ 2
        = (Real.log w * (w - 1)) ^ 2 - 2 * (Real.log w * (w - 1)) + 1 := fun w => by ring
    simp only [e]
    have i1 : Integrable (fun w : ℝ => (Real.log w * (w - 1)) ^ 2 - 2 * (Real.log w * (w - 1))) (gammaMeasure 1 1) :=
      iY2.sub (iY.const_mul 2)
    rw [integral_add i1 (integrable_const _), integral_sub iY2 (iY.const_mul 2), integral_const_mul, sqY, meanY]
    simp only [integral_const, probReal_univ, smul_eq_mul]
    ring
  · have e : ∀ w : ℝ, (w - 1) * (Real.log w * (w - 1) - 1)
        = w ^ 2 * Real.log w - 2 * (w * Real.log w) + Real.log w - (w - 1) := fun w => by ring
    simp only [e]
    have i0 : Integrable (fun w : ℝ => w ^ 2 * Real.log w - 2 * (w * Real.log w)) (gammaMeasure 1 1) :=
      (tiltI2 _ iL3).sub ((tiltI1 _ iL2).const_mul 2)
    have i1 : Integrable (fun w : ℝ => w ^ 2 * Real.log w - 2 * (w * Real.log w) + Real.log w) (gammaMeasure 1 1) :=
      i0.add iL
    have i2 : Integrable (fun w : ℝ => w - 1) (gammaMeasure 1 1) := iW.sub (integrable_const _)
    rw [integral_sub i1 i2, integral_add i0 iL, integral_sub (tiltI2 _ iL3) ((tiltI1 _ iL2).const_mul 2),
      integral_const_mul, tilt1, tilt2, hm.meanY, hm2.meanY, hm3.meanY, d2, d3, integral_sub iW (integrable_const _),
      hm.meanX]
    simp only [integral_const, probReal_univ, smul_eq_mul]
    ring

end Ondil
