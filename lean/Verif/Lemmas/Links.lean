import Verif.Spec.Links
import Mathlib.Analysis.SpecialFunctions.ExpDeriv
import Mathlib.Analysis.SpecialFunctions.Log.Deriv
import Mathlib.Analysis.SpecialFunctions.Sqrt
import Mathlib.Analysis.SpecialFunctions.Pow.Deriv
import Mathlib.Analysis.Complex.ExponentialBounds
import Mathlib.Tactic.Linarith
import Mathlib.Tactic.FieldSimp
import Mathlib.Tactic.Ring
import Mathlib.Tactic.NormNum

/-! # Lemmas about the robust functions and the links -/

namespace Ondil

open Real

theorem smallNumber_pos : 0 < smallNumber := by unfold smallNumber; positivity

theorem smallNumber_lt_one : smallNumber < 1 := by unfold smallNumber; norm_num

theorem largeNumber_pos : 0 < largeNumber := by unfold largeNumber; positivity

theorem one_lt_largeNumber : 1 < largeNumber := by unfold largeNumber; norm_num

theorem log_large_pos : 0 < Real.log largeNumber := Real.log_pos one_lt_largeNumber

theorem robustLog_of_gt {x : ℝ} (h : smallNumber < x) : robustLog x = Real.log x := if_pos h

theorem robustLog_of_le {x : ℝ} (h : x ≤ smallNumber) : robustLog x = Real.log smallNumber :=
  if_neg (not_lt.2 h)

theorem robustExp_of_le {x : ℝ} (h : x ≤ Real.log largeNumber) : robustExp x = Real.exp x :=
  if_neg (not_lt.2 h)

theorem robustExp_of_gt {x : ℝ} (h : Real.log largeNumber < x) : robustExp x = largeNumber := if_pos h

theorem robustExp_pos (x : ℝ) : 0 < robustExp x := by
  unfold robustExp
  split
  · exact largeNumber_pos
  · exact Real.exp_pos _

theorem robustExp_le (x : ℝ) : robustExp x ≤ largeNumber := by
  unfold robustExp
  split
  · exact le_rfl
  · rename_i h
    calc Real.exp x ≤ Real.exp (Real.log largeNumber) := Real.exp_le_exp.2 (not_lt.1 h)
      _ = largeNumber := Real.exp_log largeNumber_pos

theorem robustExp_monotone : Monotone robustExp := by
  intro a b hab
  by_cases hb : Real.log largeNumber < b
  · rw [robustExp_of_gt hb]; exact robustExp_le a
  · rw [robustExp_of_le (not_lt.1 hb), robustExp_of_le (hab.trans (not_lt.1 hb))]
    exact Real.exp_le_exp.2 hab

theorem robustLog_monotone : Monotone robustLog := by
  intro a b hab
  by_cases ha : smallNumber < a
  · rw [robustLog_of_gt ha, robustLog_of_gt (ha.trans_le hab)]
    exact Real.log_le_log (smallNumber_pos.trans ha) hab
  · rw [robustLog_of_le (not_lt.1 ha)]
    by_cases hb : smallNumber < b
    · rw [robustLog_of_gt hb]; exact Real.log_le_log smallNumber_pos hb.le
    · rw [robustLog_of_le (not_lt.1 hb)]

theorem robustLog_exp {x : ℝ} (h : Real.log smallNumber < x) : robustLog (Real.exp x) = x := by
  rw [robustLog_of_gt, Real.log_exp]
  calc smallNumber = Real.exp (Real.log smallNumber) := (Real.exp_log smallNumber_pos).symm
    _ < Real.exp x := Real.exp_lt_exp.2 h

theorem robustExp_log {x : ℝ} (h0 : 0 < x) (h : x ≤ largeNumber) : robustExp (Real.log x) = x := by
  rw [robustExp_of_le (Real.log_le_log h0 h), Real.exp_log h0]

theorem one_lt_exp_of_small {x : ℝ} (h : smallNumber ≤ x) : 1 < Real.exp x :=
  Real.one_lt_exp_iff.2 (smallNumber_pos.trans_le h)

theorem softplus_gt (x : ℝ) : x < Real.log (1 + Real.exp x) := by
  calc x = Real.log (Real.exp x) := (Real.log_exp x).symm
    _ < _ := Real.log_lt_log (Real.exp_pos _) (by linarith)

theorem softplus_pos (x : ℝ) : 0 < Real.log (1 + Real.exp x) :=
  Real.log_pos (by linarith [Real.exp_pos x])

theorem softplus_lt {a b : ℝ} (h : a < b) : Real.log (1 + Real.exp a) < Real.log (1 + Real.exp b) :=
  Real.log_lt_log (by positivity) (by linarith [Real.exp_lt_exp.2 h])

theorem robustSoftplus_of_le {x : ℝ} (h : x ≤ 40) : robustSoftplus x = Real.log (1 + Real.exp x) :=
  if_neg (not_lt.2 h)

theorem robustSoftplus_of_gt {x : ℝ} (h : 40 < x) : robustSoftplus x = x := if_pos h

theorem robustSoftplusInverse_of_gt {x : ℝ} (h : 40 < x) : robustSoftplusInverse x = x := if_pos h

theorem robustSoftplusInverse_mid {x : ℝ} (h1 : smallNumber ≤ x) (h2 : x ≤ 40) :
    robustSoftplusInverse x = Real.log (Real.exp x - 1) := by
  unfold robustSoftplusInverse
  rw [if_neg (not_lt.2 h2), if_neg (not_lt.2 h1)]

theorem smallNumber_lt_40 : smallNumber < 40 := smallNumber_lt_one.trans (by norm_num)

theorem robustSoftplusInverse_of_lt {x : ℝ} (h : x < smallNumber) : robustSoftplusInverse x = -30 := by
  unfold robustSoftplusInverse
  rw [if_neg (not_lt.2 (h.trans smallNumber_lt_40).le), if_pos h]

theorem softplusInv_lt {x : ℝ} (h : 0 < x) : Real.log (Real.exp x - 1) < x := by
  have h1 : 0 < Real.exp x - 1 := by linarith [Real.one_lt_exp_iff.2 h]
  calc Real.log (Real.exp x - 1) < Real.log (Real.exp x) := Real.log_lt_log h1 (by linarith)
    _ = x := Real.log_exp x

theorem softplusInv_mono {a b : ℝ} (h0 : 0 < a) (h : a < b) :
    Real.log (Real.exp a - 1) < Real.log (Real.exp b - 1) :=
  Real.log_lt_log (by linarith [Real.one_lt_exp_iff.2 h0]) (by linarith [Real.exp_lt_exp.2 h])

/-- `log(exp(x) - 1)` at 1e-10 is above the value -30 used below. -/
theorem neg30_lt_softplusInv_small : -30 < Real.log (Real.exp smallNumber - 1) := by
  have h1 : smallNumber ≤ Real.exp smallNumber - 1 := by linarith [Real.add_one_le_exp smallNumber]
  have h2 : Real.log smallNumber ≤ Real.log (Real.exp smallNumber - 1) :=
    Real.log_le_log smallNumber_pos h1
  have h3 : -30 < Real.log smallNumber := by
    rw [Real.lt_log_iff_exp_lt smallNumber_pos]
    have he : Real.exp (-30) = (Real.exp 1)⁻¹ ^ 30 := by
      rw [← Real.exp_neg, ← Real.exp_nat_mul]; norm_num
    rw [he]
    have hle : (Real.exp 1)⁻¹ ≤ (27 / 10 : ℝ)⁻¹ :=
      inv_anti₀ (by norm_num) (by linarith [Real.exp_one_gt_d9])
    calc (Real.exp 1)⁻¹ ^ 30 ≤ (27 / 10 : ℝ)⁻¹ ^ 30 := pow_le_pow_left₀ (by positivity) hle _
      _ < smallNumber := by unfold smallNumber; norm_num
  linarith

theorem robustSoftplusInverse_strictMonoOn : StrictMonoOn robustSoftplusInverse (Set.Ici smallNumber) := by
  intro a ha b _ hab
  have ha' : smallNumber ≤ a := ha
  have ha0 : 0 < a := smallNumber_pos.trans_le ha'
  by_cases hb : 40 < b
  · rw [robustSoftplusInverse_of_gt hb]
    by_cases ha4 : 40 < a
    · rwa [robustSoftplusInverse_of_gt ha4]
    · rw [robustSoftplusInverse_mid ha' (not_lt.1 ha4)]
      exact (softplusInv_lt ha0).trans hab
  · have hb' := not_lt.1 hb
    rw [robustSoftplusInverse_mid ha' (hab.le.trans hb'), robustSoftplusInverse_mid (ha'.trans hab.le) hb']
    exact softplusInv_mono ha0 hab

theorem robustSoftplusInverse_monotone : Monotone robustSoftplusInverse := by
  intro a b hab
  by_cases ha : smallNumber ≤ a
  · exact robustSoftplusInverse_strictMonoOn.monotoneOn ha (ha.trans hab) hab
  · rw [robustSoftplusInverse_of_lt (not_le.1 ha)]
    by_cases hb : smallNumber ≤ b
    · calc (-30 : ℝ) ≤ Real.log (Real.exp smallNumber - 1) := neg30_lt_softplusInv_small.le
        _ = robustSoftplusInverse smallNumber :=
          (robustSoftplusInverse_mid le_rfl smallNumber_lt_40.le).symm
        _ ≤ robustSoftplusInverse b :=
          robustSoftplusInverse_strictMonoOn.monotoneOn (Set.mem_Ici.2 le_rfl) hb hb
    · rw [robustSoftplusInverse_of_lt (not_le.1 hb)]

theorem div_one_sub_lt {a b : ℝ} (ha : 0 < a) (hb : b < 1) (h : a < b) : a / (1 - a) < b / (1 - b) := by
  rw [div_lt_div_iff₀ (by linarith) (by linarith)]
  nlinarith

theorem div_add_one_lt {a b : ℝ} (ha : 0 < a) (h : a < b) : a / (a + 1) < b / (b + 1) := by
  rw [div_lt_div_iff₀ (by linarith) (by linarith)]
  nlinarith

/-! ### Derivatives -/

theorem hasDerivAt_robustLog {x : ℝ} (h : smallNumber < x) : HasDerivAt robustLog (1 / x) x := by
  have h0 : 0 < x := smallNumber_pos.trans h
  have := Real.hasDerivAt_log h0.ne'
  rw [← one_div] at this
  refine this.congr_of_eventuallyEq ?_
  filter_upwards [Ioi_mem_nhds h] with z hz using robustLog_of_gt hz

theorem hasDerivAt_robustExp {x : ℝ} (h : x < Real.log largeNumber) :
    HasDerivAt robustExp (Real.exp x) x := by
  refine (Real.hasDerivAt_exp x).congr_of_eventuallyEq ?_
  filter_upwards [Iio_mem_nhds h] with z hz using robustExp_of_le (le_of_lt hz)

theorem hasDerivAt_robustSoftplus {x : ℝ} (h : x < 40) :
    HasDerivAt robustSoftplus (1 / (Real.exp (-x) + 1)) x := by
  have h1 : HasDerivAt (fun z => Real.log (1 + Real.exp z)) (Real.exp x / (1 + Real.exp x)) x := by
    have := ((Real.hasDerivAt_exp x).const_add 1).log (by positivity)
    exact this
  have h2 : Real.exp x / (1 + Real.exp x) = 1 / (Real.exp (-x) + 1) := by
    rw [Real.exp_neg]; field_simp
  rw [h2] at h1
  refine h1.congr_of_eventuallyEq ?_
  filter_upwards [Iio_mem_nhds h] with z hz using robustSoftplus_of_le (le_of_lt hz)

theorem hasDerivAt_robustSoftplusInverse {x : ℝ} (h1 : smallNumber < x) (h2 : x < 40) :
    HasDerivAt robustSoftplusInverse (1 / (1 - Real.exp (-x))) x := by
  have h0 : 0 < x := smallNumber_pos.trans h1
  have he : 1 < Real.exp x := Real.one_lt_exp_iff.2 h0
  have hd : HasDerivAt (fun z => Real.log (Real.exp z - 1)) (Real.exp x / (Real.exp x - 1)) x :=
    ((Real.hasDerivAt_exp x).sub_const 1).log (by linarith)
  have h3 : Real.exp x / (Real.exp x - 1) = 1 / (1 - Real.exp (-x)) := by
    have h5 : 1 - Real.exp (-x) = (Real.exp x - 1) / Real.exp x := by
      rw [Real.exp_neg]; field_simp
    rw [h5, one_div, inv_div]
  rw [h3] at hd
  refine hd.congr_of_eventuallyEq ?_
  filter_upwards [Ioo_mem_nhds h1 h2] with z hz using robustSoftplusInverse_mid hz.1.le hz.2.le

/-- Derivative of `1 / (1 - exp(-x))`. -/
theorem hasDerivAt_inv_one_sub_exp {x : ℝ} (h0 : 0 < x) :
    HasDerivAt (fun z => 1 / (1 - Real.exp (-z))) (1 / (2 - 2 * Real.cosh x)) x := by
  have he : Real.exp (-x) < 1 := by rw [Real.exp_lt_one_iff]; linarith
  have hne : 1 - Real.exp (-x) ≠ 0 := by linarith
  have h1 : HasDerivAt (fun z : ℝ => 1 - Real.exp (-z)) (Real.exp (-x)) x := by
    have := ((Real.hasDerivAt_exp (-x)).comp x (hasDerivAt_neg x)).const_sub 1
    simpa using this
  have h2 := h1.inv hne
  have h3 : -Real.exp (-x) / (1 - Real.exp (-x)) ^ 2 = 1 / (2 - 2 * Real.cosh x) := by
    have hx : Real.exp x = 1 / Real.exp (-x) := by rw [Real.exp_neg]; simp
    have hp := Real.exp_pos (-x)
    rw [Real.cosh_eq, hx]
    have : 2 - 2 * ((1 / Real.exp (-x) + Real.exp (-x)) / 2)
        = -((1 - Real.exp (-x)) ^ 2 / Real.exp (-x)) := by
      field_simp; ring
    rw [this, one_div, inv_neg, inv_div, neg_div]
  rw [h3] at h2
  have h4 : (fun z : ℝ => 1 / (1 - Real.exp (-z))) = (fun z : ℝ => 1 - Real.exp (-z))⁻¹ := by
    funext z; simp
  rw [h4]; exact h2

theorem zeroSafeDivision_one {b : ℝ} (h : 1 / 10 ^ 8 < |b|) : zeroSafeDivision 1 b = 1 / b := by
  unfold zeroSafeDivision isCloseZero
  rw [if_neg (not_le.2 h), if_neg (by norm_num)]

end Ondil
