import Verif.Lemmas.LawChange

/-!
# The inverse Gaussian law as image of a weighted normal law

`x = (z - m) / (m √z)` is an increasing bijection from the positive half line to the line.  With `s = √z` its inverse
solves `s² - m x s - m = 0`.
-/

namespace Ondil

open MeasureTheory ProbabilityTheory Set

namespace Frozen

/-- The discriminant root `√(m² x² + 4 m)`. -/
noncomputable def igRoot (m x : ℝ) : ℝ := Real.sqrt (m ^ 2 * x ^ 2 + 4 * m)

/-- The root `s` of `s² - m x s - m = 0`. -/
noncomputable def igS (m x : ℝ) : ℝ := (m * x + igRoot m x) / 2

/-- The weight of the normal law. -/
noncomputable def igW (m x : ℝ) : ℝ := 2 * m / (igS m x * igRoot m x)

section
variable {m : ℝ} (hm : 0 < m) (x : ℝ)
include hm

theorem igRoot_pos : 0 < igRoot m x := Real.sqrt_pos.mpr (by positivity)

theorem igRoot_sq : igRoot m x ^ 2 = m ^ 2 * x ^ 2 + 4 * m := Real.sq_sqrt (by positivity)

theorem igRoot_gt : |m * x| < igRoot m x := by
  rw [← Real.sqrt_sq_eq_abs]
  exact Real.sqrt_lt_sqrt (by positivity) (by nlinarith)

theorem igS_pos : 0 < igS m x := by
  unfold igS
  linarith [igRoot_gt hm x, neg_abs_le (m * x)]

theorem igS_eq : igS m x ^ 2 = m * x * igS m x + m := by
  unfold igS
  linear_combination (1 / 4) * igRoot_sq hm x

theorem igS_mul_neg : igS m x * igS m (-x) = m := by
  have h : igRoot m (-x) = igRoot m x := by unfold igRoot; rw [neg_sq]
  unfold igS
  rw [h]
  linear_combination (1 / 4) * igRoot_sq hm x

theorem igRoot_eq : igS m x * igRoot m x = igS m x ^ 2 + m := by
  have := igS_eq hm x
  have e : igRoot m x = 2 * igS m x - m * x := by unfold igS; ring
  rw [e]
  linear_combination this

theorem igW_eq : igW m x = 2 * m / (igS m x ^ 2 + m) := by unfold igW; rw [igRoot_eq hm]

theorem igW_pos : 0 < igW m x := by
  have := igS_pos hm x
  rw [igW_eq hm]; positivity

/-- The weights at `x` and `-x` add up to two. -/
theorem igW_add : igW m x + igW m (-x) = 2 := by
  have h1 := igS_pos hm x
  have h2 := igS_pos hm (-x)
  have h3 := igS_mul_neg hm x
  rw [igW_eq hm, igW_eq hm]
  have e : igS m (-x) = m / igS m x := by field_simp; linarith
  rw [e]
  field_simp
  ring

theorem igRoot_hasDerivAt : HasDerivAt (igRoot m) (m ^ 2 * x / igRoot m x) x := by
  have h1 : HasDerivAt (fun x : ℝ => m ^ 2 * x ^ 2 + 4 * m) (m ^ 2 * (2 * x)) x := by
    simpa using ((hasDerivAt_pow 2 x).const_mul (m ^ 2)).add_const (4 * m)
  have h2 := h1.sqrt (by positivity)
  refine h2.congr_deriv ?_
  unfold igRoot
  have : 0 < Real.sqrt (m ^ 2 * x ^ 2 + 4 * m) := igRoot_pos hm x
  field_simp

theorem igS_hasDerivAt : HasDerivAt (igS m) (m * igS m x / igRoot m x) x := by
  have h1 : HasDerivAt (fun x : ℝ => m * x) m x := by simpa using (hasDerivAt_id x).const_mul m
  have h2 := (h1.add (igRoot_hasDerivAt hm x)).div_const 2
  refine h2.congr_deriv ?_
  have := igRoot_pos hm x
  unfold igS
  field_simp
  ring

omit hm in
theorem igRoot_measurable : Measurable (igRoot m) := by unfold igRoot; fun_prop

omit hm in
theorem igS_measurable : Measurable (igS m) := by
  unfold igS
  exact ((measurable_id.const_mul m).add igRoot_measurable).div_const 2

omit hm in
theorem igW_measurable : Measurable (igW m) := by
  unfold igW
  exact measurable_const.div (igS_measurable.mul igRoot_measurable)

omit x in
theorem igS_strictMono : StrictMono (igS m) := by
  refine strictMono_of_deriv_pos fun x => ?_
  rw [(igS_hasDerivAt hm x).deriv]
  have h1 := igS_pos hm x
  have h2 := igRoot_pos hm x
  positivity

/-- `x` from `s`. -/
theorem igS_inv {s : ℝ} (hs : 0 < s) : igS m ((s ^ 2 - m) / (m * s)) = s := by
  have h : igRoot m ((s ^ 2 - m) / (m * s)) = (s ^ 2 + m) / s := by
    unfold igRoot
    rw [show m ^ 2 * ((s ^ 2 - m) / (m * s)) ^ 2 + 4 * m = ((s ^ 2 + m) / s) ^ 2 by field_simp; ring]
    exact Real.sqrt_sq (by positivity)
  unfold igS
  rw [h]
  field_simp
  ring

end

/-- The inverse Gaussian law. -/
theorem stdLaw_invgauss {m : ℝ} (hm : 0 < m) (l c : ℝ) :
    (Frozen.invgauss m l c).stdLaw
      = (volume.withDensity fun x => ENNReal.ofReal (igW m x * stdNormPdf x)).map fun x => igS m x ^ 2 := by
  symm
  refine map_withDensity_of_deriv (φ' := fun x => 2 * igS m x * (m * igS m x / igRoot m x)) (S := univ) (T := Ioi 0)
    MeasurableSet.univ (igS_measurable.pow_const 2) (fun x _ => ?_) (fun x _ y _ h => ?_) ?_ (by simp) ?_
    measurableSet_Ioi fun x _ => ?_
  · simpa using (igS_hasDerivAt hm x).fun_pow 2
  · have h1 := (pow_left_inj₀ (igS_pos hm x).le (igS_pos hm y).le two_ne_zero).mp h
    exact (igS_strictMono hm).injective h1
  · ext y
    simp only [image_univ, mem_range, mem_Ioi]
    constructor
    · rintro ⟨x, rfl⟩; have := igS_pos hm x; positivity
    · intro hy
      have hs := Real.sqrt_pos.mpr hy
      exact ⟨(Real.sqrt y ^ 2 - m) / (m * Real.sqrt y), by rw [igS_inv hm hs, Real.sq_sqrt hy.le]⟩
  · exact Filter.Eventually.of_forall fun x hx => if_neg hx
  · have hS := igS_pos hm x
    have hR := igRoot_pos hm x
    simp only [stdPdf, stdNormPdf, igW]
    rw [if_pos (by positivity), abs_of_pos (by positivity)]
    have e1 : -(igS m x ^ 2 - m) ^ 2 / (2 * igS m x ^ 2 * m ^ 2) = -x ^ 2 / 2 := by
      rw [show igS m x ^ 2 - m = m * x * igS m x by rw [igS_eq hm x]; ring]
      field_simp
    rw [e1, Real.sqrt_mul (by positivity) ((igS m x ^ 2) ^ 3),
      show (igS m x ^ 2) ^ 3 = (igS m x ^ 3) ^ 2 by ring, Real.sqrt_sq (by positivity)]
    have h2 : (0 : ℝ) < Real.sqrt (2 * Real.pi) := Real.sqrt_pos.mpr (by positivity)
    field_simp

/-- The same with the normal law. -/
theorem stdLaw_invgauss' {m : ℝ} (hm : 0 < m) (l c : ℝ) :
    (Frozen.invgauss m l c).stdLaw
      = ((gaussianReal 0 1).withDensity fun x => ENNReal.ofReal (igW m x)).map fun x => igS m x ^ 2 := by
  rw [stdLaw_invgauss hm, ← stdLaw_norm 0 1]
  congr 1
  unfold stdLaw
  rw [← withDensity_mul _ (by simp only [stdPdf, stdNormPdf]; fun_prop) igW_measurable.ennreal_ofReal]
  congr 1
  funext x
  rw [Pi.mul_apply, ENNReal.ofReal_mul (igW_pos hm x).le, mul_comm]
  rfl

end Frozen

/-- Averages under the standard normal law do not change when the integrand is symmetrised. -/
theorem gaussian_symm {h : ℝ → ℝ} (hh : Integrable h (gaussianReal 0 1)) :
    ∫ x, h x ∂gaussianReal 0 1 = ∫ x, (h x + h (-x)) / 2 ∂gaussianReal 0 1 := by
  have hneg : (gaussianReal 0 1).map (fun x => -x) = gaussianReal 0 1 := by
    rw [gaussianReal_map_neg, neg_zero]
  have h2 : Integrable (fun x => h (-x)) (gaussianReal 0 1) := by
    have : Integrable h ((gaussianReal 0 1).map (fun x => -x)) := by rw [hneg]; exact hh
    exact this.comp_measurable measurable_neg
  have h3 : ∫ x, h (-x) ∂gaussianReal 0 1 = ∫ x, h x ∂gaussianReal 0 1 := by
    conv_rhs => rw [← hneg]
    rw [integral_map measurable_neg.aemeasurable (by rw [hneg]; exact hh.aestronglyMeasurable)]
  rw [integral_div, integral_add hh h2, h3]
  ring

end Ondil
