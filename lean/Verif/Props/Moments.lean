import Verif.Props.Fisher
import Verif.Spec.LawMoments
import Verif.Lemmas.Links

/-!
# Means and variances (C52)
-/

namespace Ondil

open MeasureTheory ProbabilityTheory Set Filter

/-- Moments of a variable that is linear in a statistic of a base law. -/
theorem HasMoments.of_map {Ω : Type*} [MeasurableSpace Ω] {P : Measure Ω} [IsProbabilityMeasure P] {T X : Ω → ℝ}
    {l s m v : ℝ} (hT : Measurable T) (hTX : ∀ x, T x = l + s * X x) (hX : MemLp X 2 P) (hm : ∫ x, X x ∂P = m)
    (hv : ∫ x, (X x - m) ^ 2 ∂P = v) : HasMoments (P.map T) (l + s * m) (s ^ 2 * v) := by
  have mT : MemLp T 2 P := by
    have : MemLp (fun x => l + s * X x) 2 P := (memLp_const l).add (hX.const_mul s)
    rwa [← funext hTX] at this
  have iX := hX.integrable (by norm_num)
  refine ⟨?_, ?_, ?_, ?_⟩
  · rw [integrable_map_measure (by fun_prop) hT.aemeasurable]
    exact mT.integrable (by norm_num)
  · rw [integrable_map_measure (by fun_prop) hT.aemeasurable]
    exact mT.integrable_sq
  · rw [integral_map hT.aemeasurable (by fun_prop)]
    simp only [hTX]
    rw [integral_add (integrable_const l) (iX.const_mul s), integral_const_mul, hm]
    simp
  · rw [integral_map hT.aemeasurable (by fun_prop)]
    have : ∀ x, (T x - (l + s * m)) ^ 2 = s ^ 2 * (X x - m) ^ 2 := fun x => by rw [hTX]; ring
    simp only [this]
    rw [integral_const_mul, hv]

/-- From the second moment about zero. -/
theorem HasMoments.of_sq {P : Measure ℝ} [IsProbabilityMeasure P] {m q : ℝ} (h1 : Integrable (fun y => y) P)
    (h2 : Integrable (fun y => y ^ 2) P) (hm : ∫ y, y ∂P = m) (hq : ∫ y, y ^ 2 ∂P = q) : HasMoments P m (q - m ^ 2) := by
  refine ⟨h1, h2, hm, ?_⟩
  have e : ∀ y : ℝ, (y - m) ^ 2 = y ^ 2 - (2 * m * y - m ^ 2) := fun y => by ring
  simp only [e]
  have i : Integrable (fun y => 2 * m * y - m ^ 2) P := (h1.const_mul _).sub (integrable_const _)
  rw [integral_sub h2 i, integral_sub (h1.const_mul _) (integrable_const _), integral_const_mul, hm, hq]
  simp
  ring

theorem HasMoments.sq {P : Measure ℝ} [IsProbabilityMeasure P] {m v : ℝ} (h : HasMoments P m v) :
    ∫ y, y ^ 2 ∂P = v + m ^ 2 := by
  have := (HasMoments.of_sq h.integrable h.integrable_sq h.mean rfl).variance
  rw [h.variance] at this
  linarith

namespace Dist

/-- Moments of a mixture with point masses at 0 and 1. -/
theorem mixture_moments {Q : Measure ℝ} [IsProbabilityMeasure Q] {w p q m v : ℝ} (hw : 0 ≤ w) (hp : 0 ≤ p) (hq : 0 ≤ q)
    [IsProbabilityMeasure (mixture Q w p q)] (h : HasMoments Q m v) :
    HasMoments (mixture Q w p q) (w * m + q) (w * (v + m ^ 2) + q - (w * m + q) ^ 2) := by
  have h1 := mixture_integral hw hp hq (f := fun y => y) (by fun_prop) (Filter.EventuallyEq.refl _ _) h.integrable
  have h2 := mixture_integral hw hp hq (f := fun y => y ^ 2) (by fun_prop) (Filter.EventuallyEq.refl _ _) h.integrable_sq
  refine HasMoments.of_sq h1.1 h2.1 ?_ ?_
  · rw [h1.2, h.mean]; ring
  · rw [h2.2, h.sq]; ring

theorem gamma_hasMoments {θ : ℕ → ℝ} (h : gamma.Admissible θ) : HasMoments (gamma.law θ) (θ 0) (θ 1 ^ 2 * θ 0 ^ 2) := by
  obtain ⟨h0, h1⟩ := id h
  have ha : 0 < 1 / θ 1 ^ 2 := by positivity
  haveI := isProbabilityMeasure_gammaMeasure ha one_pos
  have hm := gamma_moments ha
  have := HasMoments.of_map (T := fun x => θ 1 ^ 2 * θ 0 * x) (X := fun x => x) (l := 0) (s := θ 1 ^ 2 * θ 0)
    (by fun_prop) (fun x => by ring) hm.memX hm.meanX hm.varX
  rw [← law_gamma θ h] at this
  convert this using 1 <;> field_simp <;> ring

theorem beta_hasMoments {θ : ℕ → ℝ} (h : Dist.beta.Admissible θ) :
    HasMoments (Dist.beta.law θ) (θ 0) (θ 1 ^ 2 * (θ 0 * (1 - θ 0))) := by
  obtain ⟨⟨h0, h01⟩, h1, h11⟩ := id h
  have ha := shapeA_pos h.1 h.2
  have hb := shapeB_pos h.1 h.2
  haveI := isProbabilityMeasureBeta ha hb
  have hm := beta_ratio_moments ha hb
  have := HasMoments.of_map (T := fun x => x) (X := fun x => x) (l := 0) (s := 1)
    (by fun_prop) (fun x => by ring) hm.memX hm.meanX hm.varX
  rw [Measure.map_id', ← law_beta θ h] at this
  have h2 : 0 < 1 - θ 1 ^ 2 := by nlinarith
  have eab : betaA (θ 0) (θ 1) + betaB (θ 0) (θ 1) = (1 - θ 1 ^ 2) / θ 1 ^ 2 := by unfold betaA betaB; field_simp; ring
  have eab1 : (1 - θ 1 ^ 2) / θ 1 ^ 2 + 1 = 1 / θ 1 ^ 2 := by field_simp; ring
  rw [eab, eab1] at this
  have hne := h2.ne'
  convert this using 1 <;> simp only [betaA, betaB] <;> field_simp <;> ring

/-- The square of a Student t variable. -/
theorem t_hasMoments {ν : ℝ} (hν : 2 < ν) : MemLp (fun z => z) 2 (Frozen.t ν 0 1).stdLaw ∧
    ∫ z, z ∂(Frozen.t ν 0 1).stdLaw = 0 ∧ ∫ z, z ^ 2 ∂(Frozen.t ν 0 1).stdLaw = ν / (ν - 2) := by
  have hν0 : 0 < ν := by linarith
  have hb : 0 < ν / 2 - 1 := by linarith
  have hsq : ∀ z, z ^ 2 = ν * (Frozen.tRatio ν z / (1 - Frozen.tRatio ν z)) := fun z => by
    unfold Frozen.tRatio
    have : 0 < ν + z ^ 2 := by positivity
    rw [show 1 - z ^ 2 / (ν + z ^ 2) = ν / (ν + z ^ 2) by field_simp; ring]
    field_simp
  have hmeas : Measurable fun b : ℝ => ν * (b / (1 - b)) := by fun_prop
  have hint : ∫ b, ν * (b / (1 - b)) ∂betaMeasure (1 / 2) (ν / 2) = ν / (ν - 2) := by
    have e := beta_tilt (a := 1 / 2) (b := ν / 2) (c := 1) (d := -1) (by norm_num) (by positivity) (by norm_num)
      (by linarith) (g := fun b => ν * (b / (1 - b))) (h := fun _ => ν) fun x hx hx1 => by
        have : 0 < 1 - x := by linarith
        rw [Real.rpow_one, Real.rpow_neg_one]
        field_simp
    haveI := isProbabilityMeasureBeta (α := 1 / 2 + 1) (β := ν / 2 + -1) (by norm_num) (by linarith)
    rw [e]
    simp only [integral_const, probReal_univ, smul_eq_mul, one_mul]
    have g1 := Real.Gamma_add_one (s := 1 / 2) (by norm_num)
    have g2 := Real.Gamma_add_one (s := ν / 2 - 1) hb.ne'
    have p1 := Real.Gamma_pos_of_pos (show (0:ℝ) < 1 / 2 by norm_num)
    have p2 := Real.Gamma_pos_of_pos hb
    have p3 := Real.Gamma_pos_of_pos (show 0 < 1 / 2 + ν / 2 by positivity)
    unfold ProbabilityTheory.beta
    rw [show ν / 2 + -1 = ν / 2 - 1 by ring, show (1:ℝ) / 2 + 1 + (ν / 2 - 1) = 1 / 2 + ν / 2 by ring, g1]
    rw [show Real.Gamma (ν / 2) = (ν / 2 - 1) * Real.Gamma (ν / 2 - 1) by rw [← g2]; congr 1; ring]
    have : ν - 2 ≠ 0 := by linarith
    generalize Real.Gamma (ν / 2 - 1) = G2 at *
    generalize Real.Gamma (1 / 2) = G1 at *
    generalize Real.Gamma (1 / 2 + ν / 2) = G3 at *
    field_simp
  have hmap : ∫ z, z ^ 2 ∂(Frozen.t ν 0 1).stdLaw = ν / (ν - 2) := by
    rw [← hint, ← Frozen.stdLaw_t hν0 0 1, integral_map (Frozen.tRatio_measurable ν).aemeasurable
      hmeas.aestronglyMeasurable]
    simp only [hsq]
  have hi : Integrable (fun z : ℝ => z ^ 2) (Frozen.t ν 0 1).stdLaw := by
    by_contra hn
    rw [integral_undef hn] at hmap
    have : 0 < ν / (ν - 2) := div_pos hν0 (by linarith)
    linarith
  refine ⟨(memLp_two_iff_integrable_sq (by fun_prop)).mpr hi, ?_, hmap⟩
  exact integral_odd (Frozen.stdLaw_t_neg 0 1) measurable_id fun _ => rfl

theorem gaussian_exp (t : ℝ) : Integrable (fun z => Real.exp (t * z)) (gaussianReal 0 1) ∧
    ∫ z, Real.exp (t * z) ∂gaussianReal 0 1 = Real.exp (t ^ 2 / 2) := by
  refine ⟨integrable_exp_mul_gaussianReal t, ?_⟩
  have := congrFun (mgf_id_gaussianReal (μ := 0) (v := 1)) t
  simp only [mgf, id, zero_mul, zero_add, NNReal.coe_one, one_mul] at this
  exact this

/-- Moments of a multiple of a log-normal variable. -/
theorem exp_hasMoments (c s : ℝ) : HasMoments ((gaussianReal 0 1).map fun z => c * Real.exp (s * z))
    (c * Real.exp (s ^ 2 / 2)) ((Real.exp (s ^ 2) - 1) * (c ^ 2 * Real.exp (s ^ 2))) := by
  have h1 := gaussian_exp s
  have h2 := gaussian_exp (2 * s)
  have e : ∀ z, (c * Real.exp (s * z)) ^ 2 = c ^ 2 * Real.exp (2 * s * z) := fun z => by
    rw [mul_pow, ← Real.exp_nat_mul]; congr 2; push_cast; ring
  have hT : Measurable fun z => c * Real.exp (s * z) := by fun_prop
  haveI : IsProbabilityMeasure ((gaussianReal 0 1).map fun z => c * Real.exp (s * z)) :=
    Measure.isProbabilityMeasure_map hT.aemeasurable
  have i2 : Integrable (fun z => (c * Real.exp (s * z)) ^ 2) (gaussianReal 0 1) := by
    simp only [e]; exact h2.1.const_mul _
  have := HasMoments.of_sq (P := (gaussianReal 0 1).map fun z => c * Real.exp (s * z)) (m := c * Real.exp (s ^ 2 / 2))
    (q := c ^ 2 * Real.exp ((2 * s) ^ 2 / 2))
    ((integrable_map_measure (by fun_prop) hT.aemeasurable).mpr (h1.1.const_mul c))
    ((integrable_map_measure (by fun_prop) hT.aemeasurable).mpr i2)
    (by rw [integral_map hT.aemeasurable (by fun_prop), integral_const_mul, h1.2])
    (by
      rw [integral_map hT.aemeasurable (by fun_prop)]
      simp only [e]
      rw [integral_const_mul, h2.2])
  convert this using 1
  rw [mul_pow c, ← Real.exp_nat_mul, show ((2:ℕ):ℝ) * (s ^ 2 / 2) = s ^ 2 by push_cast; ring,
    show (2 * s) ^ 2 / 2 = s ^ 2 + s ^ 2 by ring, Real.exp_add]
  ring

/-- Moments of a hyperbolic sine of a normal variable. -/
theorem sinh_moments {a b : ℝ} (hb : 0 < b) : MemLp (fun z => Real.sinh ((z - a) / b)) 2 (gaussianReal 0 1) ∧
    ∫ z, Real.sinh ((z - a) / b) ∂gaussianReal 0 1 = -(Real.exp (1 / (2 * b ^ 2)) * Real.sinh (a / b)) ∧
    ∫ z, Real.sinh ((z - a) / b) ^ 2 ∂gaussianReal 0 1
      = (Real.exp (1 / b ^ 2) ^ 2 * Real.cosh (2 * (a / b)) - 1) / 2 := by
  have ex : ∀ c z : ℝ, Real.exp (c * ((z - a) / b)) = Real.exp (-(c * (a / b))) * Real.exp (c / b * z) := fun c z => by
    rw [← Real.exp_add]; congr 1; field_simp; ring
  have i : ∀ c : ℝ, Integrable (fun z => Real.exp (c * ((z - a) / b))) (gaussianReal 0 1) := fun c => by
    simp only [ex]; exact (gaussian_exp _).1.const_mul _
  have v : ∀ c : ℝ, ∫ z, Real.exp (c * ((z - a) / b)) ∂gaussianReal 0 1
      = Real.exp (-(c * (a / b))) * Real.exp (c ^ 2 / (2 * b ^ 2)) := fun c => by
    simp only [ex]
    rw [integral_const_mul, (gaussian_exp _).2]
    congr 2
    field_simp
  have es : ∀ z : ℝ, Real.sinh ((z - a) / b) = (Real.exp (1 * ((z - a) / b)) - Real.exp (-1 * ((z - a) / b))) / 2 := fun z => by
    rw [Real.sinh_eq, one_mul, neg_one_mul]
  have es2 : ∀ z : ℝ, Real.sinh ((z - a) / b) ^ 2
      = (Real.exp (2 * ((z - a) / b)) + Real.exp (-2 * ((z - a) / b)) - 2) / 4 := fun z => by
    rw [Real.sinh_eq]
    have h1 : Real.exp (2 * ((z - a) / b)) = Real.exp ((z - a) / b) ^ 2 := by rw [← Real.exp_nat_mul]; norm_num
    have h2 : Real.exp (-2 * ((z - a) / b)) = Real.exp (-((z - a) / b)) ^ 2 := by
      rw [← Real.exp_nat_mul]; congr 1; push_cast; ring
    have h3 : Real.exp ((z - a) / b) * Real.exp (-((z - a) / b)) = 1 := by rw [← Real.exp_add]; simp
    rw [h1, h2]
    nlinarith
  have i12 : Integrable (fun z => Real.exp (2 * ((z - a) / b)) + Real.exp (-2 * ((z - a) / b))) (gaussianReal 0 1) :=
    (i 2).add (i (-2))
  refine ⟨(memLp_two_iff_integrable_sq (by fun_prop)).mpr ?_, ?_, ?_⟩
  · simp only [es2]
    exact (i12.sub (integrable_const 2)).div_const 4
  · simp only [es]
    rw [integral_div, integral_sub (i 1) (i (-1)), v, v, Real.sinh_eq]
    norm_num
    ring
  · simp only [es2]
    rw [integral_div, integral_sub i12 (integrable_const 2), integral_add (i 2) (i (-2)), v, v, Real.cosh_eq]
    have : Real.exp (1 / b ^ 2) ^ 2 = Real.exp (4 / (2 * b ^ 2)) := by
      rw [← Real.exp_nat_mul]; congr 1; push_cast; field_simp; norm_num
    rw [this]
    norm_num
    ring

theorem invgamma_moments {a : ℝ} (ha : 2 < a) : MemLp (fun x : ℝ => x⁻¹) 2 (gammaMeasure a 1) ∧
    ∫ x, x⁻¹ ∂gammaMeasure a 1 = 1 / (a - 1) ∧
    ∫ x, (x⁻¹ - 1 / (a - 1)) ^ 2 ∂gammaMeasure a 1 = 1 / ((a - 1) ^ 2 * (a - 2)) := by
  have ha1 : 0 < a - 1 := by linarith
  have ha2 : 0 < a - 2 := by linarith
  have g1 := Real.Gamma_add_one ha1.ne'
  rw [sub_add_cancel] at g1
  have g2 := Real.Gamma_add_one ha2.ne'
  rw [show a - 2 + 1 = a - 1 by ring] at g2
  have p := Real.Gamma_pos_of_pos ha2
  haveI := isProbabilityMeasure_gammaMeasure (a := a) (r := 1) (by linarith) one_pos
  have m1 : ∫ x, x⁻¹ ∂gammaMeasure a 1 = 1 / (a - 1) := by
    have e := gamma_tilt (a := a) (r := 1) (c := -1) (e := 0) (g := fun x => x⁻¹) (h := fun _ => 1) (by linarith) one_pos
      (by linarith) (by norm_num) fun x hx => by rw [Real.rpow_neg_one]; simp
    haveI := isProbabilityMeasure_gammaMeasure (a := a + -1) (r := 1 + 0) (by linarith) (by norm_num)
    rw [e, integral_const, probReal_univ]
    simp only [smul_eq_mul, mul_one, add_zero, Real.one_rpow, div_one]
    rw [← sub_eq_add_neg, g1, g2]
    field_simp
  have m2 : ∫ x, (x⁻¹) ^ 2 ∂gammaMeasure a 1 = 1 / ((a - 1) * (a - 2)) := by
    have e := gamma_tilt (a := a) (r := 1) (c := -2) (e := 0) (g := fun x => (x⁻¹) ^ 2) (h := fun _ => 1) (by linarith) one_pos
      (by linarith) (by norm_num) fun x hx => by
        rw [show (-2:ℝ) = ((-2:ℤ):ℝ) by norm_num, Real.rpow_intCast]
        simp [zpow_neg]
    haveI := isProbabilityMeasure_gammaMeasure (a := a + -2) (r := 1 + 0) (by linarith) (by norm_num)
    rw [e, integral_const, probReal_univ]
    simp only [smul_eq_mul, mul_one, add_zero, Real.one_rpow, div_one]
    rw [← sub_eq_add_neg, g1, g2]
    field_simp
  have i2 : Integrable (fun x : ℝ => (x⁻¹) ^ 2) (gammaMeasure a 1) := by
    by_contra hn
    rw [integral_undef hn] at m2
    have : 0 < 1 / ((a - 1) * (a - 2)) := by positivity
    linarith
  have mem : MemLp (fun x : ℝ => x⁻¹) 2 (gammaMeasure a 1) := (memLp_two_iff_integrable_sq (by fun_prop)).mpr i2
  have i1 : Integrable (fun x : ℝ => x⁻¹) (gammaMeasure a 1) := mem.integrable (by norm_num)
  refine ⟨mem, m1, ?_⟩
  have e : ∀ x : ℝ, (x⁻¹ - 1 / (a - 1)) ^ 2 = (x⁻¹) ^ 2 - (2 / (a - 1) * x⁻¹ - 1 / (a - 1) ^ 2) := fun x => by
    field_simp; ring
  simp only [e]
  have i3 : Integrable (fun x : ℝ => 2 / (a - 1) * x⁻¹ - 1 / (a - 1) ^ 2) (gammaMeasure a 1) :=
    (i1.const_mul _).sub (integrable_const _)
  rw [integral_sub i2 i3, integral_sub (i1.const_mul _) (integrable_const _), integral_const_mul, m1, m2]
  simp only [integral_const, probReal_univ, smul_eq_mul, one_mul]
  field_simp
  ring

/-- The parameters passed to scipy are admissible there. -/
theorem C52_scipy_arguments (d : Dist) (θ : ℕ → ℝ) (h : d.Admissible θ) (f : Frozen) (hf : d.toScipy θ = some f) :
    f.ArgOk := by
  cases d <;> simp only [toScipy, Option.some.injEq, reduceCtorEq] at hf <;> subst hf <;>
    simp only [Admissible] at h <;> simp only [Frozen.ArgOk]
  case normalMeanVariance => exact Real.rpow_pos_of_pos h _
  case studentT => exact ⟨h.2, h.1⟩
  case jsu => exact ⟨h.2, h.1⟩
  case gamma => obtain ⟨h0, h1⟩ := h; constructor <;> positivity
  case beta => exact ⟨shapeA_pos h.1 h.2, shapeB_pos h.1 h.2, one_pos⟩
  case logNormal => exact ⟨h, robustExp_pos _⟩
  case logNormalMedian => exact ⟨h.2, h.1⟩
  case inverseGamma => obtain ⟨h0, h1⟩ := h; constructor <;> positivity
  case inverseGaussian => obtain ⟨h0, h1⟩ := h; constructor <;> positivity
  all_goals exact h

/-- The law of each class has the mean and the variance of the table `moments`. -/
theorem C52_moments (d : Dist) (θ : ℕ → ℝ) (h : d.Admissible θ) (m v : ℝ) (hm : d.moments θ = some (m, v)) :
    HasMoments (d.law θ) m v := by
  haveI := law_isProbability d θ h
  cases d <;> simp only [moments, Option.some.injEq, Prod.mk.injEq, reduceCtorEq] at hm
  case normal =>
    obtain ⟨rfl, rfl⟩ := hm
    have g := gaussian_moments
    have := HasMoments.of_map (T := fun z => θ 0 + θ 1 * z) (by fun_prop) (fun _ => rfl) g.memX g.meanX g.varX
    rw [← law_normal θ h] at this
    simpa using this
  case normalMeanVariance =>
    obtain ⟨rfl, rfl⟩ := hm
    have g := gaussian_moments
    have := HasMoments.of_map (T := fun z => θ 0 + Real.sqrt (θ 1) * z) (by fun_prop) (fun _ => rfl) g.memX g.meanX g.varX
    rw [← law_normalMeanVariance θ h, Real.sq_sqrt (le_of_lt h)] at this
    simpa using this
  case studentT =>
    split_ifs at hm with hν
    simp only [Option.some.injEq, Prod.mk.injEq] at hm
    obtain ⟨rfl, rfl⟩ := hm
    obtain ⟨g1, g2, g3⟩ := t_hasMoments hν
    haveI := Frozen.t_std_prob h.2 0 1
    have := HasMoments.of_map (T := fun z => θ 0 + θ 1 * z) (by fun_prop) (fun _ => rfl) g1 g2 (by simpa using g3)
    rw [← law_studentT θ h] at this
    simpa using this
  case jsu b =>
    obtain ⟨rfl, rfl⟩ := hm
    obtain ⟨g1, g2, g3⟩ := sinh_moments (a := θ 2) h.2
    have hvar : ∫ z, (Real.sinh ((z - θ 2) / θ 3) - -(Real.exp (1 / (2 * θ 3 ^ 2)) * Real.sinh (θ 2 / θ 3))) ^ 2
        ∂gaussianReal 0 1
        = (Real.exp (1 / θ 3 ^ 2) - 1) * (Real.exp (1 / θ 3 ^ 2) * Real.cosh (2 * (θ 2 / θ 3)) + 1) / 2 := by
      generalize hm : -(Real.exp (1 / (2 * θ 3 ^ 2)) * Real.sinh (θ 2 / θ 3)) = m at *
      have e : ∀ z : ℝ, (Real.sinh ((z - θ 2) / θ 3) - m) ^ 2
          = Real.sinh ((z - θ 2) / θ 3) ^ 2 - (2 * m * Real.sinh ((z - θ 2) / θ 3) - m ^ 2) := fun z => by ring
      simp only [e]
      have i1 : Integrable (fun z => Real.sinh ((z - θ 2) / θ 3)) (gaussianReal 0 1) := g1.integrable (by norm_num)
      have i3 : Integrable (fun z => 2 * m * Real.sinh ((z - θ 2) / θ 3) - m ^ 2) (gaussianReal 0 1) :=
        (i1.const_mul _).sub (integrable_const _)
      rw [integral_sub g1.integrable_sq i3, integral_sub (i1.const_mul _) (integrable_const _), integral_const_mul, g2, g3]
      simp only [integral_const, probReal_univ, smul_eq_mul, one_mul]
      have hw : Real.exp (1 / (2 * θ 3 ^ 2)) ^ 2 = Real.exp (1 / θ 3 ^ 2) := by
        rw [← Real.exp_nat_mul]; congr 1; push_cast; field_simp
      have hm2 : m ^ 2 = Real.exp (1 / θ 3 ^ 2) * Real.sinh (θ 2 / θ 3) ^ 2 := by rw [← hm, neg_sq, mul_pow, hw]
      have hc : Real.cosh (2 * (θ 2 / θ 3)) = 1 + 2 * Real.sinh (θ 2 / θ 3) ^ 2 := by
        rw [Real.cosh_two_mul, Real.cosh_sq]; ring
      rw [hc]
      linear_combination -hm2
    have := HasMoments.of_map (T := fun z => θ 0 + θ 1 * Real.sinh ((z - θ 2) / θ 3)) (by fun_prop) (fun _ => rfl) g1 g2 hvar
    rw [← law_jsu b θ h] at this
    convert this using 1
    ring
  case inverseGamma =>
    split_ifs at hm with hσ
    simp only [Option.some.injEq, Prod.mk.injEq] at hm
    obtain ⟨rfl, rfl⟩ := hm
    obtain ⟨h0, h1⟩ := id h
    have hs1 : 0 < 1 - θ 1 ^ 2 := by nlinarith [sq_nonneg (θ 1)]
    have hs2 : 0 < 1 - 2 * θ 1 ^ 2 := by linarith
    have ha : 2 < 1 / θ 1 ^ 2 := by rw [lt_div_iff₀ (by positivity)]; exact hσ
    obtain ⟨g1, g2, g3⟩ := invgamma_moments ha
    haveI := isProbabilityMeasure_gammaMeasure (a := 1 / θ 1 ^ 2) (r := 1) (by linarith) one_pos
    have := HasMoments.of_map (T := fun x => θ 0 * (1 + θ 1 ^ 2) / θ 1 ^ 2 * x⁻¹) (l := 0)
      (s := θ 0 * (1 + θ 1 ^ 2) / θ 1 ^ 2) (by fun_prop) (fun _ => by ring) g1 g2 g3
    rw [← law_inverseGamma θ h, show 1 / θ 1 ^ 2 - 1 = (1 - θ 1 ^ 2) / θ 1 ^ 2 by field_simp,
      show 1 / θ 1 ^ 2 - 2 = (1 - 2 * θ 1 ^ 2) / θ 1 ^ 2 by field_simp] at this
    have n1 := hs1.ne'
    have n2 := hs2.ne'
    convert this using 1 <;> field_simp <;> ring
  case gamma => obtain ⟨rfl, rfl⟩ := hm; exact gamma_hasMoments h
  case beta => obtain ⟨rfl, rfl⟩ := hm; exact beta_hasMoments h
  case logNormal =>
    obtain ⟨rfl, rfl⟩ := hm
    rw [law_logNormal θ h]
    convert exp_hasMoments (Real.exp (θ 0)) (θ 1) using 1
    · rw [Real.exp_add]
    · rw [Real.exp_add, two_mul, Real.exp_add, sq (Real.exp (θ 0))]
  case logNormalMedian =>
    obtain ⟨rfl, rfl⟩ := hm
    rw [law_logNormalMedian θ h]
    exact exp_hasMoments _ _
  case logistic =>
    obtain ⟨rfl, rfl⟩ := hm
    haveI := isProbabilityMeasureBeta (one_pos (α := ℝ)) (one_pos (α := ℝ))
    obtain ⟨g1, g2, g3⟩ := logitZ_moments (one_pos (α := ℝ)) (one_pos (α := ℝ))
    have := HasMoments.of_map (T := fun u => θ 0 + θ 1 * (Real.log u - Real.log (1 - u))) (X := logitZ)
      (v := trigamma 1 + trigamma 1) (by fun_prop) (fun _ => rfl) g1 (g2.trans (sub_self _)) (by simpa using g3)
    rw [← law_logistic θ h, trigamma_one] at this
    convert this using 1 <;> ring
  case gumbel =>
    obtain ⟨rfl, rfl⟩ := hm
    haveI := isProbabilityMeasure_gammaMeasure (one_pos (α := ℝ)) one_pos
    have g := gamma_moments (one_pos (α := ℝ))
    have := HasMoments.of_map (T := fun x => θ 0 + θ 1 * Real.log x) (by fun_prop) (fun _ => rfl) g.memY g.meanY g.varY
    rw [← law_gumbel θ h, trigamma_one, digamma_one] at this
    convert this using 1 <;> ring
  case reverseGumbel =>
    obtain ⟨rfl, rfl⟩ := hm
    haveI := isProbabilityMeasure_gammaMeasure (one_pos (α := ℝ)) one_pos
    have g := gamma_moments (one_pos (α := ℝ))
    have := HasMoments.of_map (T := fun x => θ 0 + θ 1 * -Real.log x) (l := θ 0) (s := -θ 1) (by fun_prop)
      (fun _ => by ring) g.memY g.meanY g.varY
    rw [← law_reverseGumbel θ h, trigamma_one, digamma_one] at this
    convert this using 1 <;> ring
  case exponential =>
    obtain ⟨rfl, rfl⟩ := hm
    haveI := isProbabilityMeasure_gammaMeasure (one_pos (α := ℝ)) one_pos
    have g := gamma_moments (one_pos (α := ℝ))
    have := HasMoments.of_map (T := fun x => θ 0 * x) (l := 0) (s := θ 0) (by fun_prop)
      (fun _ => by ring) g.memX g.meanX g.varX
    rw [← law_exponential θ h] at this
    convert this using 1 <;> ring
  case inverseGaussian =>
    obtain ⟨rfl, rfl⟩ := hm
    obtain ⟨h0, h1⟩ := id h
    have hm0 : 0 < θ 0 * θ 1 ^ 2 := by positivity
    haveI := igBase_prob hm0
    have g := ig_moments hm0
    have hS := Frozen.igS_measurable (m := θ 0 * θ 1 ^ 2)
    have := HasMoments.of_map (T := fun x => 1 / θ 1 ^ 2 * Frozen.igS (θ 0 * θ 1 ^ 2) x ^ 2) (l := 0) (s := 1 / θ 1 ^ 2)
      ((hS.pow_const 2).const_mul _) (fun _ => by ring) g.memX g.meanX g.varX
    rw [← law_inverseGaussian θ h] at this
    convert this using 1 <;> field_simp <;> ring
  case betaInflated =>
    obtain ⟨rfl, rfl⟩ := hm
    obtain ⟨hμ, hσ, hν, hτ⟩ := id h
    haveI := beta_law_prob (θ := θ) ⟨hμ, hσ⟩
    have hl := betaInflated_mixture θ h
    haveI : IsProbabilityMeasure (mixture (Dist.beta.law θ) (1 / (1 + θ 2 + θ 3)) (θ 2 / (1 + θ 2 + θ 3))
      (θ 3 / (1 + θ 2 + θ 3))) := hl ▸ law_isProbability _ θ h
    have := mixture_moments (w := 1 / (1 + θ 2 + θ 3)) (p := θ 2 / (1 + θ 2 + θ 3)) (q := θ 3 / (1 + θ 2 + θ 3))
      (by positivity) (by positivity) (by positivity) (beta_hasMoments (θ := θ) ⟨hμ, hσ⟩)
    rw [← hl] at this
    have e : 1 - θ 2 / (1 + θ 2 + θ 3) - θ 3 / (1 + θ 2 + θ 3) = 1 / (1 + θ 2 + θ 3) := by field_simp; ring
    rw [e]
    exact this
  case betaInflatedZero =>
    obtain ⟨rfl, rfl⟩ := hm
    obtain ⟨hμ, hσ, hν⟩ := id h
    haveI := beta_law_prob (θ := θ) ⟨hμ, hσ⟩
    have hl := betaInflatedZero_mixture θ h
    haveI : IsProbabilityMeasure (mixture (Dist.beta.law θ) (1 / (1 + θ 2)) (θ 2 / (1 + θ 2)) 0) :=
      hl ▸ law_isProbability _ θ h
    have := mixture_moments (w := 1 / (1 + θ 2)) (p := θ 2 / (1 + θ 2)) (q := 0)
      (by positivity) (by positivity) le_rfl (beta_hasMoments (θ := θ) ⟨hμ, hσ⟩)
    rw [← hl] at this
    have e : 1 - θ 2 / (1 + θ 2) = 1 / (1 + θ 2) := by field_simp; ring
    rw [e]
    simpa using this
  case zeroAdjustedGamma =>
    obtain ⟨rfl, rfl⟩ := hm
    obtain ⟨hγ, hν, hν1⟩ := id h
    haveI := gamma_law_prob hγ
    have hl := zaga_mixture θ h
    haveI : IsProbabilityMeasure (mixture (gamma.law θ) (1 - θ 2) (θ 2) 0) := hl ▸ law_isProbability _ θ h
    have := mixture_moments (w := 1 - θ 2) (p := θ 2) (q := 0) (by linarith) hν.le le_rfl (gamma_hasMoments hγ)
    rw [← hl] at this
    convert this using 1 <;> ring

/-- The hypotheses are met, e.g. by Beta with all parameters one half: mean 1/2, variance 1/16. -/
example : HasMoments (Dist.beta.law half) (1 / 2) (1 / 16) :=
  C52_moments Dist.beta half (half_admissible _) _ _ (by simp only [moments, half]; norm_num)

/-- Mean and standard deviation of the logarithm for the two log-normal classes. -/
theorem C52_log_moments (d : Dist) (θ : ℕ → ℝ) (h : d.Admissible θ) (m v : ℝ) (hm : d.logMoments θ = some (m, v)) :
    HasMoments ((d.law θ).map Real.log) m v := by
  have g := gaussian_moments
  cases d <;> simp only [logMoments, Option.some.injEq, Prod.mk.injEq, reduceCtorEq] at hm
  case logNormal =>
    obtain ⟨rfl, rfl⟩ := hm
    rw [law_logNormal θ h, Measure.map_map (by fun_prop) (by fun_prop)]
    have := HasMoments.of_map (P := gaussianReal 0 1) (T := Real.log ∘ fun z => Real.exp (θ 0) * Real.exp (θ 1 * z))
      (l := θ 0) (s := θ 1) (by fun_prop)
      (fun z => by simp only [Function.comp_apply, ← Real.exp_add, Real.log_exp]) g.memX g.meanX g.varX
    simpa using this
  case logNormalMedian =>
    obtain ⟨rfl, rfl⟩ := hm
    rw [law_logNormalMedian θ h, Measure.map_map (by fun_prop) (by fun_prop)]
    have := HasMoments.of_map (P := gaussianReal 0 1) (T := Real.log ∘ fun z => θ 0 * Real.exp (θ 1 * z))
      (l := Real.log (θ 0)) (s := θ 1) (by fun_prop)
      (fun z => by
        simp only [Function.comp_apply]
        rw [Real.log_mul h.1.ne' (Real.exp_pos _).ne', Real.log_exp]) g.memX g.meanX g.varX
    simpa using this

theorem gaussian_Iic : gaussianReal 0 1 (Iic 0) = 1 / 2 := by
  have hneg : gaussianReal 0 1 (Iic 0) = gaussianReal 0 1 (Ioi 0) := by
    have h := gaussianReal_map_neg (μ := 0) (v := 1)
    rw [neg_zero] at h
    conv_lhs => rw [← h]
    rw [Measure.map_apply (by fun_prop) measurableSet_Iic]
    have hpre : (fun y : ℝ => -y) ⁻¹' Iic 0 = Ici 0 := by ext; simp
    haveI := noAtoms_gaussianReal (μ := 0) (v := 1) one_ne_zero
    rw [hpre, ← Ioi_insert, insert_eq]
    refine le_antisymm ((measure_union_le _ _).trans ?_) (measure_mono subset_union_right)
    rw [measure_singleton, zero_add]
  have h1 := measure_add_measure_compl (μ := gaussianReal 0 1) (measurableSet_Iic (a := (0:ℝ)))
  rw [compl_Iic, ← hneg, measure_univ, ← two_mul] at h1
  rw [ENNReal.eq_div_iff (by norm_num) (by norm_num), h1]

/-- `mu` of LogNormalMedian is the median. -/
theorem C52_median (θ : ℕ → ℝ) (h : logNormalMedian.Admissible θ) : logNormalMedian.law θ (Iic (θ 0)) = 1 / 2 := by
  obtain ⟨h0, h1⟩ := id h
  rw [law_logNormalMedian θ h, Measure.map_apply (by fun_prop) measurableSet_Iic, ← gaussian_Iic]
  congr 1
  ext z
  simp only [mem_preimage, mem_Iic]
  constructor
  · intro hz
    have : Real.exp (θ 1 * z) ≤ 1 := by nlinarith
    rw [Real.exp_le_one_iff] at this
    by_contra hc
    have := mul_pos h1 (not_le.mp hc)
    linarith
  · intro hz
    have : Real.exp (θ 1 * z) ≤ 1 := Real.exp_le_one_iff.mpr (mul_nonpos_of_nonneg_of_nonpos h1.le hz)
    nlinarith

/-- `mu` of InverseGamma is not the mean: where the mean exists it is `mu (1 + sigma^2) / (1 - sigma^2)`, which is larger
than `mu`. -/
theorem C52_inverseGamma_mean_fails (θ : ℕ → ℝ) (h : inverseGamma.Admissible θ) (hσ : θ 1 < 1) :
    Integrable (fun y => y) (inverseGamma.law θ) ∧
      ∫ y, y ∂inverseGamma.law θ = θ 0 * ((1 + θ 1 ^ 2) / (1 - θ 1 ^ 2)) ∧ θ 0 < ∫ y, y ∂inverseGamma.law θ := by
  obtain ⟨h0, h1⟩ := id h
  have hs : 0 < 1 - θ 1 ^ 2 := by nlinarith
  have ha : 0 < 1 / θ 1 ^ 2 := by positivity
  have ha1 : 0 < 1 / θ 1 ^ 2 - 1 := by
    rw [show 1 / θ 1 ^ 2 - 1 = (1 - θ 1 ^ 2) / θ 1 ^ 2 by field_simp]; positivity
  have hT : Measurable fun x : ℝ => θ 0 * (1 + θ 1 ^ 2) / θ 1 ^ 2 * x⁻¹ := by fun_prop
  have hi : ∫ x, x⁻¹ ∂gammaMeasure (1 / θ 1 ^ 2) 1 = 1 / (1 / θ 1 ^ 2 - 1) := by
    have e := gamma_tilt (a := 1 / θ 1 ^ 2) (r := 1) (c := -1) (e := 0) (g := fun x => x⁻¹) (h := fun _ => 1) ha one_pos
      (by linarith) (by norm_num) fun x hx => by rw [Real.rpow_neg_one]; simp
    haveI := isProbabilityMeasure_gammaMeasure (a := 1 / θ 1 ^ 2 + -1) (r := 1 + 0) (by linarith) (by norm_num)
    rw [e]
    rw [integral_const, probReal_univ]
    simp only [smul_eq_mul, mul_one, add_zero, Real.one_rpow, div_one]
    have g := Real.Gamma_add_one ha1.ne'
    rw [sub_add_cancel] at g
    have p := Real.Gamma_pos_of_pos ha1
    rw [g, ← sub_eq_add_neg]
    field_simp
  have hmean : ∫ y, y ∂inverseGamma.law θ = θ 0 * ((1 + θ 1 ^ 2) / (1 - θ 1 ^ 2)) := by
    rw [law_inverseGamma θ h, integral_map hT.aemeasurable (by fun_prop), integral_const_mul, hi]
    have := hs.ne'
    rw [show 1 / θ 1 ^ 2 - 1 = (1 - θ 1 ^ 2) / θ 1 ^ 2 by field_simp]
    field_simp
  have hgt : θ 0 < θ 0 * ((1 + θ 1 ^ 2) / (1 - θ 1 ^ 2)) := by
    have : 1 < (1 + θ 1 ^ 2) / (1 - θ 1 ^ 2) := by rw [one_lt_div hs]; nlinarith [sq_pos_of_pos h1]
    nlinarith
  refine ⟨?_, hmean, hmean ▸ hgt⟩
  by_contra hn
  rw [integral_undef hn] at hmean
  linarith

/-- It is the mode: the density is largest at `mu`. -/
theorem C52_inverseGamma_mode (θ : ℕ → ℝ) (h : inverseGamma.Admissible θ) (y : ℝ) (hy : 0 < y) :
    (inverseGamma.pdf y θ).toReal ≤ (inverseGamma.pdf (θ 0) θ).toReal := by
  obtain ⟨h0, h1⟩ := id h
  have hs : 0 < θ 0 * (1 + θ 1 ^ 2) / θ 1 ^ 2 := by positivity
  change (Frozen.invgamma (1 / θ 1 ^ 2) 0 (θ 0 * (1 + θ 1 ^ 2) / θ 1 ^ 2)).pdf y
    ≤ (Frozen.invgamma (1 / θ 1 ^ 2) 0 (θ 0 * (1 + θ 1 ^ 2) / θ 1 ^ 2)).pdf (θ 0)
  have ha : 0 < 1 / θ 1 ^ 2 := by positivity
  have es : θ 0 * (1 + θ 1 ^ 2) / θ 1 ^ 2 = θ 0 * (1 / θ 1 ^ 2 + 1) := by field_simp
  rw [es] at hs ⊢
  generalize 1 / θ 1 ^ 2 = a at *
  simp only [Frozen.pdf, Frozen.stdPdf, Frozen.loc, Frozen.scale, sub_zero]
  rw [if_pos (div_pos hy hs), if_pos (div_pos h0 hs)]
  have hG := Real.Gamma_pos_of_pos ha
  refine div_le_div_of_nonneg_right ?_ hs.le
  rw [div_mul_eq_mul_div, div_mul_eq_mul_div]
  refine div_le_div_of_nonneg_right ?_ hG.le
  rw [Real.rpow_def_of_pos (div_pos hy hs), Real.rpow_def_of_pos (div_pos h0 hs), ← Real.exp_add, ← Real.exp_add,
    Real.exp_le_exp, Real.log_div hy.ne' hs.ne', Real.log_div h0.ne' hs.ne']
  have hlog := Real.one_sub_inv_le_log_of_pos (div_pos hy h0)
  rw [Real.log_div hy.ne' h0.ne', inv_div] at hlog
  have e1 : -1 / (y / (θ 0 * (a + 1))) = -(a + 1) * (θ 0 / y) := by field_simp
  have e2 : -1 / (θ 0 / (θ 0 * (a + 1))) = -(a + 1) := by field_simp
  rw [e1, e2]
  have := mul_le_mul_of_nonneg_left hlog (show 0 ≤ a + 1 by linarith)
  nlinarith

example : inverseGamma.Admissible half ∧ half 1 < 1 := ⟨half_admissible _, by norm_num [half]⟩

end Dist
end Ondil
