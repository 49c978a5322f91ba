import Verif.Lemmas.Fisher
import Verif.Lemmas.InflatedLaw

/-!
# Second moments of the score functions: Student's t, Johnson SU and the inflated classes
-/

namespace Ondil
namespace Dist

open MeasureTheory ProbabilityTheory Set Filter Topology

theorem lt_three {P : ℕ → Prop} (h0 : P 0) (h1 : P 1) (h2 : P 2) : ∀ k < 3, P k := by
  intro k hk
  rcases k with _ | _ | _ | k
  · exact h0
  · exact h1
  · exact h2
  · omega

theorem lt_four {P : ℕ → Prop} (h0 : P 0) (h1 : P 1) (h2 : P 2) (h3 : P 3) : ∀ k < 4, P k := by
  intro k hk
  rcases k with _ | _ | _ | _ | k
  · exact h0
  · exact h1
  · exact h2
  · exact h3
  · omega

/-! ### Student's t -/

section student
variable {θ : ℕ → ℝ}

/-- An odd function has mean zero under a symmetric law. -/
theorem integral_odd {P : Measure ℝ} (hP : P.map (fun z => -z) = P) {g : ℝ → ℝ} (hg : Measurable g)
    (ho : ∀ z, g (-z) = -g z) : ∫ z, g z ∂P = 0 := by
  have h : ∫ z, g z ∂P = ∫ z, g (-z) ∂P := by
    conv_lhs => rw [← hP]
    rw [integral_map (by fun_prop) hg.aestronglyMeasurable]
  simp only [ho, integral_neg] at h
  linarith

/-- The score of the location of t in terms of the standardised response. -/
noncomputable def tLoc (ν z : ℝ) : ℝ := z / (ν + z ^ 2)

theorem tLoc_measurable (ν : ℝ) : Measurable (tLoc ν) := by unfold tLoc; fun_prop

theorem tLoc_neg (ν z : ℝ) : tLoc ν (-z) = -tLoc ν z := by unfold tLoc; rw [neg_sq, neg_div]

theorem tLoc_sq {ν : ℝ} (hν : 0 < ν) (z : ℝ) :
    tLoc ν z * tLoc ν z = 1 / ν * (Frozen.tRatio ν z - Frozen.tRatio ν z ^ 2) := by
  have : 0 < ν + z ^ 2 := by positivity
  unfold tLoc Frozen.tRatio
  field_simp
  ring

theorem tRatio_mem {ν : ℝ} (hν : 0 < ν) (z : ℝ) : 0 ≤ Frozen.tRatio ν z ∧ Frozen.tRatio ν z < 1 := by
  have : 0 < ν + z ^ 2 := by positivity
  unfold Frozen.tRatio
  refine ⟨by positivity, ?_⟩
  rw [div_lt_one this]
  linarith

theorem tLoc_bound {ν : ℝ} (hν : 0 < ν) (z : ℝ) : |tLoc ν z| ≤ 1 / ν + 1 := by
  have h := tLoc_sq hν z
  obtain ⟨h0, h1⟩ := tRatio_mem hν z
  have h2 : tLoc ν z * tLoc ν z ≤ 1 / ν := by
    rw [h]
    have : Frozen.tRatio ν z - Frozen.tRatio ν z ^ 2 ≤ 1 := by nlinarith
    calc 1 / ν * (Frozen.tRatio ν z - Frozen.tRatio ν z ^ 2) ≤ 1 / ν * 1 := by gcongr
      _ = 1 / ν := mul_one _
  have h3 : 0 < 1 / ν := by positivity
  rw [abs_le]
  constructor <;> nlinarith

theorem tY (ν z : ℝ) (hν : 0 < ν) : Real.log (1 - Frozen.tRatio ν z) = -Real.log (1 + z ^ 2 / ν) := by
  have : 0 < ν + z ^ 2 := by positivity
  rw [← Real.log_inv]
  congr 1
  unfold Frozen.tRatio
  field_simp
  ring

theorem t_moments {ν : ℝ} (hν : 0 < ν) :
    Moments2 (Frozen.t ν 0 1).stdLaw (fun z => Frozen.tRatio ν z) (fun z => Real.log (1 - Frozen.tRatio ν z))
      (1 / 2 / (1 / 2 + ν / 2)) (digamma (ν / 2) - digamma (1 / 2 + ν / 2))
      (1 / 2 * (ν / 2) / ((1 / 2 + ν / 2) ^ 2 * (1 / 2 + ν / 2 + 1))) (trigamma (ν / 2) - trigamma (1 / 2 + ν / 2))
      (-(1 / 2 / (1 / 2 + ν / 2) ^ 2)) := by
  refine Moments2.of_map (T := Frozen.tRatio ν) (X := fun b => b) (Y := fun b => Real.log (1 - b))
    (Frozen.tRatio_measurable ν) measurable_id (by fun_prop) ?_
  rw [Frozen.stdLaw_t hν]
  exact beta_ratio_moments (by norm_num) (by positivity)

/-- The scores of t in terms of the standardised response. -/
noncomputable def tScore (σ ν : ℝ) (k : ℕ) (z : ℝ) : ℝ :=
  if k = 0 then (ν + 1) / σ * tLoc ν z
  else Moments2.lin (co [0, (ν + 1) / σ, (ν + 1) / (2 * ν)] k) (co [0, 0, 1 / 2] k) (1 / 2 / (1 / 2 + ν / 2))
    (digamma (ν / 2) - digamma (1 / 2 + ν / 2)) (fun z => Frozen.tRatio ν z)
    (fun z => Real.log (1 - Frozen.tRatio ν z)) z

theorem studentT_fisher (h : studentT.Admissible θ) :
    IsScore (studentT.law θ) 3 (studentT.score θ) ∧
      fisher (studentT.law θ) (studentT.score θ) 0 0 = (θ 2 + 1) / ((θ 2 + 3) * θ 1 ^ 2) ∧
      fisher (studentT.law θ) (studentT.score θ) 1 1 = 2 * θ 2 / ((θ 2 + 3) * θ 1 ^ 2) ∧
      fisher (studentT.law θ) (studentT.score θ) 2 2
        = -((trigamma ((θ 2 + 1) / 2) - trigamma (θ 2 / 2)
          + 2 * (θ 2 + 5) / (θ 2 * (θ 2 + 1) * (θ 2 + 3))) / 4) ∧
      fisher (studentT.law θ) (studentT.score θ) 0 1 = 0 ∧
      fisher (studentT.law θ) (studentT.score θ) 0 2 = 0 ∧
      fisher (studentT.law θ) (studentT.score θ) 1 2 = -(2 / (θ 1 * (θ 2 + 3) * (θ 2 + 1))) := by
  obtain ⟨hσ, hν⟩ := id h
  set ν := θ 2 with hνdef
  set P := (Frozen.t ν 0 1).stdLaw with hP
  haveI : IsProbabilityMeasure P := Frozen.t_std_prob hν 0 1
  have hm := t_moments hν
  have hsym : P.map (fun z => -z) = P := Frozen.stdLaw_t_neg 0 1
  have hlocmem : MemLp (tLoc ν) 2 P := by
    refine MemLp.of_bound (tLoc_measurable ν).aestronglyMeasurable (1 / ν + 1) (.of_forall fun z => ?_)
    exact tLoc_bound hν z
  have hmem : ∀ k < 3, MemLp (tScore (θ 1) ν k) 2 P := by
    refine lt_three ?_ ?_ ?_
    · exact hlocmem.const_mul _
    · exact hm.memLp_lin _ _
    · exact hm.memLp_lin _ _
  have h0 : ∀ k < 3, ∫ z, tScore (θ 1) ν k z ∂P = 0 := by
    refine lt_three ?_ ?_ ?_
    · change ∫ z, (ν + 1) / θ 1 * tLoc ν z ∂P = 0
      rw [integral_const_mul, integral_odd hsym (tLoc_measurable ν) (tLoc_neg ν), mul_zero]
    · exact hm.integral_lin _ _
    · exact hm.integral_lin _ _
  have hmeas : ∀ k < 3, Measurable (studentT.score θ k) := by
    refine lt_three ?_ ?_ ?_
    · change Measurable fun y => (θ 2 + 1) / (θ 2 + (y - θ 0) ^ 2 / θ 1 ^ 2) * (y - θ 0) / θ 1 ^ 2
      fun_prop
    · change Measurable fun y => ((θ 2 + 1) / (θ 2 + (y - θ 0) ^ 2 / θ 1 ^ 2) * ((y - θ 0) ^ 2 / θ 1 ^ 2) - 1) / θ 1
      fun_prop
    · change Measurable fun y => (-Real.log (1 + (y - θ 0) ^ 2 / θ 1 ^ 2 / θ 2)
        + ((θ 2 + 1) / (θ 2 + (y - θ 0) ^ 2 / θ 1 ^ 2) * ((y - θ 0) ^ 2 / θ 1 ^ 2) - 1) / θ 2
        + digamma ((θ 2 + 1) / 2) - digamma (θ 2 / 2)) / 2
      fun_prop
  have ed : ∀ z, (θ 0 + θ 1 * z - θ 0) ^ 2 / θ 1 ^ 2 = z ^ 2 := fun z => by
    rw [add_sub_cancel_left, mul_pow]; field_simp
  have hscore : ∀ k < 3, ∀ᵐ z ∂P, studentT.score θ k (θ 0 + θ 1 * z) = tScore (θ 1) ν k z := by
    refine lt_three (.of_forall fun z => ?_) (.of_forall fun z => ?_) (.of_forall fun z => ?_)
    · change (ν + 1) / (ν + (θ 0 + θ 1 * z - θ 0) ^ 2 / θ 1 ^ 2) * (θ 0 + θ 1 * z - θ 0) / θ 1 ^ 2
        = (ν + 1) / θ 1 * tLoc ν z
      rw [ed, add_sub_cancel_left]
      have : 0 < ν + z ^ 2 := by positivity
      unfold tLoc
      field_simp
    · change ((ν + 1) / (ν + (θ 0 + θ 1 * z - θ 0) ^ 2 / θ 1 ^ 2) * ((θ 0 + θ 1 * z - θ 0) ^ 2 / θ 1 ^ 2) - 1) / θ 1
        = (ν + 1) / θ 1 * (Frozen.tRatio ν z - 1 / 2 / (1 / 2 + ν / 2))
          + 0 * (Real.log (1 - Frozen.tRatio ν z) - (digamma (ν / 2) - digamma (1 / 2 + ν / 2)))
      rw [ed]
      have : 0 < ν + z ^ 2 := by positivity
      unfold Frozen.tRatio
      field_simp
      ring
    · change (-Real.log (1 + (θ 0 + θ 1 * z - θ 0) ^ 2 / θ 1 ^ 2 / ν)
        + ((ν + 1) / (ν + (θ 0 + θ 1 * z - θ 0) ^ 2 / θ 1 ^ 2) * ((θ 0 + θ 1 * z - θ 0) ^ 2 / θ 1 ^ 2) - 1) / ν
        + digamma ((ν + 1) / 2) - digamma (ν / 2)) / 2
        = (ν + 1) / (2 * ν) * (Frozen.tRatio ν z - 1 / 2 / (1 / 2 + ν / 2))
          + 1 / 2 * (Real.log (1 - Frozen.tRatio ν z) - (digamma (ν / 2) - digamma (1 / 2 + ν / 2)))
      rw [ed, ← tY ν z hν, show 1 / 2 + ν / 2 = (ν + 1) / 2 by ring]
      have : 0 < ν + z ^ 2 := by positivity
      generalize Real.log (1 - Frozen.tRatio ν z) = ℓ
      generalize digamma ((ν + 1) / 2) = d1
      generalize digamma (ν / 2) = d2
      unfold Frozen.tRatio
      field_simp
      ring
  obtain ⟨hI, hF⟩ := fisher_of_fun (law_studentT θ h) (by fun_prop) (tScore (θ 1) ν) hmem h0 hmeas hscore
  have odd : ∀ u v : ℝ, ∫ z, (ν + 1) / θ 1 * tLoc ν z * Moments2.lin u v (1 / 2 / (1 / 2 + ν / 2))
      (digamma (ν / 2) - digamma (1 / 2 + ν / 2)) (fun z => Frozen.tRatio ν z)
      (fun z => Real.log (1 - Frozen.tRatio ν z)) z ∂P = 0 := by
    intro u v
    refine integral_odd hsym ?_ fun z => ?_
    · have h1 := tLoc_measurable ν
      have h2 := Frozen.tRatio_measurable ν
      unfold Moments2.lin
      fun_prop
    · simp only [Moments2.lin, tLoc_neg, Frozen.tRatio_neg]
      ring
  refine ⟨hI, ?_, ?_, ?_, ?_, ?_, ?_⟩
  · rw [hF 0 (by norm_num) 0 (by norm_num)]
    change ∫ z, (ν + 1) / θ 1 * tLoc ν z * ((ν + 1) / θ 1 * tLoc ν z) ∂P = _
    have e : ∀ z, (ν + 1) / θ 1 * tLoc ν z * ((ν + 1) / θ 1 * tLoc ν z)
        = ((ν + 1) / θ 1) ^ 2 * (1 / ν) * (Frozen.tRatio ν z - Frozen.tRatio ν z ^ 2) := fun z => by
      rw [show (ν + 1) / θ 1 * tLoc ν z * ((ν + 1) / θ 1 * tLoc ν z)
        = ((ν + 1) / θ 1) ^ 2 * (tLoc ν z * tLoc ν z) by ring, tLoc_sq hν]
      ring
    simp only [e]
    have hsq : ∫ z, Frozen.tRatio ν z ^ 2 ∂P = 1 / 2 * (1 / 2 + 1) / ((1 / 2 + ν / 2) * (1 / 2 + ν / 2 + 1)) := by
      rw [← beta_mean_sq (a := 1 / 2) (b := ν / 2) (by norm_num) (by positivity), ← Frozen.stdLaw_t hν 0 1,
        integral_map (Frozen.tRatio_measurable ν).aemeasurable (by fun_prop)]
    rw [integral_const_mul, integral_sub (hm.memX.integrable (by norm_num)) hm.memX.integrable_sq, hm.meanX, hsq]
    field_simp
    ring
  · rw [hF 1 (by norm_num) 1 (by norm_num)]
    refine (hm.integral_lin_mul _ _ _ _).trans ?_
    simp only [co, List.getD_cons_zero, List.getD_cons_succ]
    field_simp
    ring
  · rw [hF 2 (by norm_num) 2 (by norm_num)]
    refine (hm.integral_lin_mul _ _ _ _).trans ?_
    simp only [co, List.getD_cons_zero, List.getD_cons_succ]
    rw [show 1 / 2 + ν / 2 = (ν + 1) / 2 by ring]
    generalize trigamma ((ν + 1) / 2) = t1
    generalize trigamma (ν / 2) = t2
    field_simp
    ring
  · rw [hF 0 (by norm_num) 1 (by norm_num)]
    exact odd _ _
  · rw [hF 0 (by norm_num) 2 (by norm_num)]
    exact odd _ _
  · rw [hF 1 (by norm_num) 2 (by norm_num)]
    refine (hm.integral_lin_mul _ _ _ _).trans ?_
    simp only [co, List.getD_cons_zero, List.getD_cons_succ]
    field_simp
    ring

end student

/-! ### Johnson SU -/

section jsu
variable {θ : ℕ → ℝ}

/-- The scores of Johnson SU in terms of the normal variable. -/
noncomputable def jsuBase (σ ν τ : ℝ) (k : ℕ) (x : ℝ) : ℝ :=
  match k with
  | 0 => (Real.sinh ((x - ν) / τ) / Real.cosh ((x - ν) / τ) ^ 2 + τ * (x * (1 / Real.cosh ((x - ν) / τ)))) / σ
  | 1 => (-(1 / Real.cosh ((x - ν) / τ) ^ 2) + τ * (x * (Real.sinh ((x - ν) / τ) / Real.cosh ((x - ν) / τ)))) / σ
  | 2 => -x
  | _ => (1 + ν * x - x ^ 2) / τ

theorem abs_sinh_lt_cosh (x : ℝ) : |Real.sinh x| ≤ Real.cosh x := by
  refine abs_le_of_sq_le_sq ?_ (Real.cosh_pos x).le
  rw [Real.cosh_sq]; linarith

theorem jsu_fisher (b : Bool) (h : (jsu b).Admissible θ) : IsScore ((jsu b).law θ) 4 ((jsu b).score θ) := by
  obtain ⟨hσ, hτ⟩ := id h
  set ν := θ 2
  set τ := θ 3
  have hv : ∀ x, HasDerivAt (fun x : ℝ => (x - ν) / τ) (1 / τ) x := fun x =>
    ((hasDerivAt_id x).sub_const ν).div_const τ
  have hc : ∀ x, 0 < Real.cosh ((x - ν) / τ) := fun x => Real.cosh_pos _
  have hc1 : ∀ x, 1 ≤ Real.cosh ((x - ν) / τ) := fun x => Real.one_le_cosh _
  have iz := gaussian_integrable_pow 1
  simp only [pow_one] at iz
  have mz : MemLp (fun x : ℝ => x) 2 (gaussianReal 0 1) := gaussian_moments.memX
  -- bounded factors
  have bA : MemLp (fun x => Real.sinh ((x - ν) / τ) / Real.cosh ((x - ν) / τ) ^ 2) 2 (gaussianReal 0 1) := by
    refine MemLp.of_bound (Measurable.aestronglyMeasurable (by fun_prop)) 1 (.of_forall fun x => ?_)
    rw [Real.norm_eq_abs, abs_div, abs_of_pos (by have := hc x; positivity : (0:ℝ) < Real.cosh ((x - ν) / τ) ^ 2),
      div_le_one (by have := hc x; positivity)]
    have h1 := abs_sinh_lt_cosh ((x - ν) / τ)
    nlinarith [hc1 x]
  have bB : ∀ x, ‖1 / Real.cosh ((x - ν) / τ)‖ ≤ 1 := fun x => by
    rw [Real.norm_of_nonneg (by have := hc x; positivity), div_le_one (hc x)]; exact hc1 x
  have bC : ∀ x, ‖Real.sinh ((x - ν) / τ) / Real.cosh ((x - ν) / τ)‖ ≤ 1 := fun x => by
    rw [Real.norm_eq_abs, abs_div, abs_of_pos (hc x), div_le_one (hc x)]; exact abs_sinh_lt_cosh _
  have bD : MemLp (fun x => 1 / Real.cosh ((x - ν) / τ) ^ 2) 2 (gaussianReal 0 1) := by
    refine MemLp.of_bound (Measurable.aestronglyMeasurable (by fun_prop)) 1 (.of_forall fun x => ?_)
    rw [Real.norm_of_nonneg (by have := hc x; positivity), div_le_one (by have := hc x; positivity)]
    nlinarith [hc1 x]
  have mB : MemLp (fun x => x * (1 / Real.cosh ((x - ν) / τ))) 2 (gaussianReal 0 1) := by
    refine mz.mono (by fun_prop) (.of_forall fun x => ?_)
    rw [norm_mul]
    exact mul_le_of_le_one_right (norm_nonneg _) (bB x)
  have mC : MemLp (fun x => x * (Real.sinh ((x - ν) / τ) / Real.cosh ((x - ν) / τ))) 2 (gaussianReal 0 1) := by
    refine mz.mono (by fun_prop) (.of_forall fun x => ?_)
    rw [norm_mul]
    exact mul_le_of_le_one_right (norm_nonneg _) (bC x)
  have iB : Integrable (fun x => 1 / Real.cosh ((x - ν) / τ)) (gaussianReal 0 1) :=
    (MemLp.of_bound (p := 1) (Measurable.aestronglyMeasurable (by fun_prop)) 1 (.of_forall bB)).integrable le_rfl
  have iC : Integrable (fun x => Real.sinh ((x - ν) / τ) / Real.cosh ((x - ν) / τ)) (gaussianReal 0 1) :=
    (MemLp.of_bound (p := 1) (Measurable.aestronglyMeasurable (by fun_prop)) 1 (.of_forall bC)).integrable le_rfl
  have s1 := stein (g := fun x => 1 / Real.cosh ((x - ν) / τ))
    (g' := fun x => -(1 / τ) * (Real.sinh ((x - ν) / τ) / Real.cosh ((x - ν) / τ) ^ 2))
    (fun x => by
      have h1 := (Real.hasDerivAt_cosh ((x - ν) / τ)).comp x (hv x)
      have := (hasDerivAt_const x (1:ℝ)).div h1 (hc x).ne'
      refine this.congr_deriv ?_
      simp only [Function.comp]
      have := hc x
      field_simp
      ring)
    iB ((bA.integrable (by norm_num)).const_mul _) (mB.integrable (by norm_num))
  have s2 := stein (g := fun x => Real.sinh ((x - ν) / τ) / Real.cosh ((x - ν) / τ))
    (g' := fun x => 1 / τ * (1 / Real.cosh ((x - ν) / τ) ^ 2))
    (fun x => by
      have h1 := (Real.hasDerivAt_cosh ((x - ν) / τ)).comp x (hv x)
      have h2 := (Real.hasDerivAt_sinh ((x - ν) / τ)).comp x (hv x)
      have := h2.div h1 (hc x).ne'
      refine this.congr_deriv ?_
      simp only [Function.comp]
      have hcx := hc x
      have hsq := Real.cosh_sq ((x - ν) / τ)
      field_simp
      rw [hsq]
      ring)
    iC ((bD.integrable (by norm_num)).const_mul _) (mC.integrable (by norm_num))
  rw [integral_const_mul] at s1 s2
  have hmem : ∀ k < 4, MemLp (jsuBase (θ 1) ν τ k) 2 (gaussianReal 0 1) := by
    refine lt_four ?_ ?_ ?_ ?_
    · have := (bA.add (mB.const_mul τ)).const_mul (1 / θ 1)
      refine this.congr_norm (by unfold jsuBase; fun_prop) (.of_forall fun x => ?_)
      simp only [jsuBase, Pi.add_apply]
      congr 1
      ring
    · have := (bD.neg.add (mC.const_mul τ)).const_mul (1 / θ 1)
      refine this.congr_norm (by unfold jsuBase; fun_prop) (.of_forall fun x => ?_)
      simp only [jsuBase, Pi.add_apply, Pi.neg_apply]
      congr 1
      ring
    · exact mz.neg
    · have := (((memLp_const (1:ℝ)).add (mz.const_mul ν)).sub gaussian_moments.memY).const_mul (1 / τ)
      refine this.congr_norm (by unfold jsuBase; fun_prop) (.of_forall fun x => ?_)
      simp only [jsuBase, Pi.add_apply, Pi.sub_apply]
      congr 1
      ring
  have h0 : ∀ k < 4, ∫ x, jsuBase (θ 1) ν τ k x ∂gaussianReal 0 1 = 0 := by
    refine lt_four ?_ ?_ ?_ ?_
    · simp only [jsuBase]
      rw [integral_div, integral_add (bA.integrable (by norm_num)) ((mB.integrable (by norm_num)).const_mul τ),
        integral_const_mul, s1]
      field_simp
      ring
    · simp only [jsuBase]
      have i1 : Integrable (fun x => -(1 / Real.cosh ((x - ν) / τ) ^ 2)) (gaussianReal 0 1) :=
        (bD.integrable (by norm_num)).neg
      rw [integral_div, integral_add i1 ((mC.integrable (by norm_num)).const_mul τ),
        integral_const_mul, s2, integral_neg]
      field_simp
      ring
    · simp only [jsuBase]
      rw [integral_neg, gaussian_moments.meanX, neg_zero]
    · simp only [jsuBase]
      have i1 : Integrable (fun x : ℝ => 1 + ν * x) (gaussianReal 0 1) := (integrable_const _).add (iz.const_mul ν)
      rw [integral_div, integral_sub i1 (gaussian_integrable_pow 2), integral_add (integrable_const _) (iz.const_mul ν),
        integral_const_mul, gaussian_moments.meanX, gaussian_pow_two]
      simp
  refine (fisher_of_fun (law_jsu b θ h) (by fun_prop) (jsuBase (θ 1) ν τ) hmem h0 ?_ ?_).1
  · have har : Measurable Real.arsinh := Real.continuous_arsinh.measurable
    refine lt_four ?_ ?_ ?_ ?_
    · change Measurable fun y => (y - θ 0) / θ 1 / (θ 1 * ((y - θ 0) / θ 1 * ((y - θ 0) / θ 1) + 1))
        + (θ 2 + θ 3 * Real.arsinh ((y - θ 0) / θ 1)) * θ 3
          / (θ 1 * Real.sqrt ((y - θ 0) / θ 1 * ((y - θ 0) / θ 1) + 1))
      fun_prop
    · change Measurable fun y => -1 / (θ 1 * ((y - θ 0) / θ 1 * ((y - θ 0) / θ 1) + 1))
        + (θ 2 + θ 3 * Real.arsinh ((y - θ 0) / θ 1)) * θ 3 * ((y - θ 0) / θ 1)
          / (θ 1 * Real.sqrt ((y - θ 0) / θ 1 * ((y - θ 0) / θ 1) + 1))
      fun_prop
    · change Measurable fun y => -(θ 2 + θ 3 * Real.arsinh ((y - θ 0) / θ 1))
      fun_prop
    · change Measurable fun y => (1 + (θ 2 + θ 3 * Real.arsinh ((y - θ 0) / θ 1)) * θ 2
        - (θ 2 + θ 3 * Real.arsinh ((y - θ 0) / θ 1)) * (θ 2 + θ 3 * Real.arsinh ((y - θ 0) / θ 1))) / θ 3
      fun_prop
  · have ez : ∀ x, (θ 0 + θ 1 * Real.sinh ((x - ν) / τ) - θ 0) / θ 1 = Real.sinh ((x - ν) / τ) := fun x => by
      rw [add_sub_cancel_left, mul_div_cancel_left₀ _ hσ.ne']
    have er : ∀ x, ν + τ * Real.arsinh (Real.sinh ((x - ν) / τ)) = x := fun x => by
      rw [Real.arsinh_sinh]; field_simp; ring
    have ec : ∀ x, Real.sinh ((x - ν) / τ) * Real.sinh ((x - ν) / τ) + 1 = Real.cosh ((x - ν) / τ) ^ 2 := fun x => by
      rw [Real.cosh_sq]; ring
    have es : ∀ x, Real.sqrt (Real.cosh ((x - ν) / τ) ^ 2) = Real.cosh ((x - ν) / τ) := fun x =>
      Real.sqrt_sq (hc x).le
    refine lt_four (.of_forall fun x => ?_) (.of_forall fun x => ?_) (.of_forall fun x => ?_) (.of_forall fun x => ?_)
    · set y := θ 0 + θ 1 * Real.sinh ((x - ν) / τ) with hy
      change (y - θ 0) / θ 1 / (θ 1 * ((y - θ 0) / θ 1 * ((y - θ 0) / θ 1) + 1))
        + (ν + τ * Real.arsinh ((y - θ 0) / θ 1)) * τ
          / (θ 1 * Real.sqrt ((y - θ 0) / θ 1 * ((y - θ 0) / θ 1) + 1)) = jsuBase (θ 1) ν τ 0 x
      simp only [hy, ez, er, ec, es, jsuBase]
      have := hc x
      field_simp
    · set y := θ 0 + θ 1 * Real.sinh ((x - ν) / τ) with hy
      change -1 / (θ 1 * ((y - θ 0) / θ 1 * ((y - θ 0) / θ 1) + 1))
        + (ν + τ * Real.arsinh ((y - θ 0) / θ 1)) * τ * ((y - θ 0) / θ 1)
          / (θ 1 * Real.sqrt ((y - θ 0) / θ 1 * ((y - θ 0) / θ 1) + 1)) = jsuBase (θ 1) ν τ 1 x
      simp only [hy, ez, er, ec, es, jsuBase]
      have := hc x
      field_simp
    · set y := θ 0 + θ 1 * Real.sinh ((x - ν) / τ) with hy
      change -(ν + τ * Real.arsinh ((y - θ 0) / θ 1)) = jsuBase (θ 1) ν τ 2 x
      simp only [hy, ez, er, jsuBase]
    · set y := θ 0 + θ 1 * Real.sinh ((x - ν) / τ) with hy
      change (1 + (ν + τ * Real.arsinh ((y - θ 0) / θ 1)) * ν
        - (ν + τ * Real.arsinh ((y - θ 0) / θ 1)) * (ν + τ * Real.arsinh ((y - θ 0) / θ 1))) / τ
        = jsuBase (θ 1) ν τ 3 x
      simp only [hy, ez, er, jsuBase]
      ring

end jsu

end Dist
end Ondil
