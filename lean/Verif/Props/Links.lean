import Verif.Lemmas.Links
import Mathlib.Analysis.SpecialFunctions.Trigonometric.DerivHyp
import Mathlib.Analysis.SpecialFunctions.Trigonometric.Series

/-! # C41 to C45: link functions and robust elementary functions -/

namespace Ondil

open Real

private theorem small_eq : (1 / 10 ^ 10 : ℝ) = smallNumber := rfl
private theorem large_eq : (10 ^ 15 : ℝ) = largeNumber := rfl

/-! ## C41 round trips -/

/-- C41, part: `inverse(link(x)) = x` on the whole unclipped range, for the classes that do not add 1e-10. -/
theorem C41_inverse_link_partial (L : LinkClass) (hL : ¬ L.AddsSmall) {x : ℝ} (hx : x ∈ L.workParam) :
    L.inverse (L.link x) = x := by
  cases L with
  | identity => rfl
  | logit =>
    obtain ⟨h0, h1, h2, h3⟩ := hx
    rw [small_eq] at h2; rw [large_eq] at h3
    have hr : 0 < x / (1 - x) := smallNumber_pos.trans h2
    simp only [LinkClass.link, LinkClass.inverse]
    rw [robustLog_of_gt h2, robustExp_log hr h3]
    have h4 : (1 - x) ≠ 0 := by linarith
    field_simp
    ring
  | log =>
    obtain ⟨h1, h2⟩ := hx
    rw [small_eq] at h1; rw [large_eq] at h2
    simp only [LinkClass.link, LinkClass.inverse]
    rw [robustLog_of_gt h1, robustExp_log (smallNumber_pos.trans h1) h2]
  | logShift v => exact absurd trivial hL
  | logIdent =>
    have h1 : smallNumber < x := hx
    have h0 := smallNumber_pos.trans h1
    by_cases hx1 : x ≤ 1
    · have hl : LinkClass.logIdent.link x = Real.log x := (if_pos hx1).trans (robustLog_of_gt h1)
      rw [hl]
      exact (if_pos (Real.log_nonpos h0.le hx1)).trans (robustExp_log h0 (hx1.trans one_lt_largeNumber.le))
    · have hl : LinkClass.logIdent.link x = x - 1 := if_neg hx1
      rw [hl]
      exact (if_neg (by linarith [not_le.1 hx1])).trans (by ring)
  | softplus =>
    have h1 : smallNumber ≤ x := hx
    have h0 := smallNumber_pos.trans_le h1
    simp only [LinkClass.link, LinkClass.inverse]
    by_cases h4 : 40 < x
    · rw [robustSoftplusInverse_of_gt h4, robustSoftplus_of_gt h4]
    · have h4' := not_lt.1 h4
      rw [robustSoftplusInverse_mid h1 h4', robustSoftplus_of_le ((softplusInv_lt h0).le.trans h4'),
        Real.exp_log (by linarith [Real.one_lt_exp_iff.2 h0])]
      rw [add_sub_cancel, Real.log_exp]
  | softplusShift v =>
    have h1 : smallNumber ≤ x - v := hx
    have h0 := smallNumber_pos.trans_le h1
    simp only [LinkClass.link, LinkClass.inverse]
    by_cases h4 : 40 < x - v
    · rw [robustSoftplusInverse_of_gt h4, robustSoftplus_of_gt h4]; ring
    · have h4' := not_lt.1 h4
      rw [robustSoftplusInverse_mid h1 h4', robustSoftplus_of_le ((softplusInv_lt h0).le.trans h4'),
        Real.exp_log (by linarith [Real.one_lt_exp_iff.2 h0])]
      rw [add_sub_cancel, Real.log_exp]; ring
  | sqrt => exact Real.sq_sqrt hx
  | sqrtShift v => exact absurd trivial hL

/-- C41, part: `link(inverse(eta)) = eta` on the whole unclipped range, for the classes that do not add
1e-10. -/
theorem C41_link_inverse_partial (L : LinkClass) (hL : ¬ L.AddsSmall) {x : ℝ} (hx : x ∈ L.workPred) :
    L.link (L.inverse x) = x := by
  have key : ∀ x : ℝ, (1 / 10 ^ 10 : ℝ) ≤ Real.log (1 + Real.exp x) ∧
      (Real.log (1 + Real.exp x) ≤ 40 ∨ 40 < x) → robustSoftplusInverse (robustSoftplus x) = x := by
    rintro x ⟨h1, h2⟩
    rw [small_eq] at h1
    rcases h2 with h2 | h2
    · have hx : x ≤ 40 := (softplus_gt x).le.trans h2
      rw [robustSoftplus_of_le hx, robustSoftplusInverse_mid h1 h2, Real.exp_log (by positivity),
        add_sub_cancel_left, Real.log_exp]
    · rw [robustSoftplus_of_gt h2, robustSoftplusInverse_of_gt h2]
  cases L with
  | identity => rfl
  | logit =>
    obtain ⟨h1, h2⟩ := hx
    simp only [LinkClass.link, LinkClass.inverse]
    rw [robustExp_of_le h2]
    have hp := Real.exp_pos x
    have : Real.exp x / (Real.exp x + 1) / (1 - Real.exp x / (Real.exp x + 1)) = Real.exp x := by
      have : (1 - Real.exp x / (Real.exp x + 1)) = 1 / (Real.exp x + 1) := by field_simp; ring
      rw [this]; field_simp
    rw [this]
    exact robustLog_exp h1
  | log =>
    obtain ⟨h1, h2⟩ := hx
    simp only [LinkClass.link, LinkClass.inverse]
    rw [robustExp_of_le h2]
    exact robustLog_exp h1
  | logShift v => exact absurd trivial hL
  | logIdent =>
    have h1 : Real.log smallNumber < x := hx
    by_cases h0 : x ≤ 0
    · have hi : LinkClass.logIdent.inverse x = Real.exp x :=
        (if_pos h0).trans (robustExp_of_le (h0.trans log_large_pos.le))
      rw [hi]
      exact (if_pos (Real.exp_le_one_iff.2 h0)).trans (robustLog_exp h1)
    · have hi : LinkClass.logIdent.inverse x = x + 1 := if_neg h0
      rw [hi]
      exact (if_neg (by linarith [not_le.1 h0])).trans (by ring)
  | softplus => exact key x hx
  | softplusShift v =>
    simp only [LinkClass.link, LinkClass.inverse, add_sub_cancel_right]
    exact key x hx
  | sqrt => exact Real.sqrt_sq hx
  | sqrtShift v => exact absurd trivial hL

/-- C41 does not hold for `LogShiftValue` and `SqrtShiftValue`: at every point of the unclipped range the round
trip is off by exactly 1e-10. -/
theorem C41_shifted_round_trip_fails (L : LinkClass) (hL : L.AddsSmall) {x : ℝ} (hx : x ∈ L.workParam) :
    L.inverse (L.link x) = x + 1 / 10 ^ 10 ∧ L.inverse (L.link x) ≠ x := by
  have key : L.inverse (L.link x) = x + 1 / 10 ^ 10 := by
    cases L with
    | logShift v =>
      obtain ⟨h1, h2⟩ := hx
      rw [small_eq, large_eq] at h2
      have h3 : smallNumber < x - v + smallNumber := by linarith
      simp only [LinkClass.link, LinkClass.inverse]
      rw [robustLog_of_gt h3, robustExp_log (smallNumber_pos.trans h3) h2, small_eq]; ring
    | sqrtShift v =>
      have h1 : v ≤ x := hx
      simp only [LinkClass.link, LinkClass.inverse]
      rw [Real.sq_sqrt (by linarith [smallNumber_pos]), small_eq]; ring
    | _ => exact absurd hL id
  refine ⟨key, ?_⟩
  rw [key]
  have := smallNumber_pos
  rw [small_eq]
  linarith

/-- C41 does not hold for the reverse round trip of these classes either. -/
theorem C41_shifted_reverse_fails (L : LinkClass) (hL : L.AddsSmall) {x : ℝ} (hx : x ∈ L.workPred) :
    L.link (L.inverse x) ≠ x := by
  cases L with
  | logShift v =>
    have h2 : x ≤ Real.log largeNumber := hx
    simp only [LinkClass.link, LinkClass.inverse]
    rw [robustExp_of_le h2, robustLog_of_gt (by linarith [Real.exp_pos x])]
    intro h
    have h3 : v + Real.exp x - v + smallNumber = Real.exp x := by
      rw [← Real.exp_log (show 0 < v + Real.exp x - v + smallNumber by
        linarith [Real.exp_pos x, smallNumber_pos]), h]
    linarith [smallNumber_pos]
  | sqrtShift v =>
    have h0 : 0 ≤ x := hx
    simp only [LinkClass.link, LinkClass.inverse]
    intro h
    have h3 : v + x ^ 2 - v + smallNumber = x ^ 2 := by
      rw [← Real.sq_sqrt (show 0 ≤ v + x ^ 2 - v + smallNumber by
        linarith [sq_nonneg x, smallNumber_pos]), h]
    linarith [smallNumber_pos]
  | _ => exact absurd hL id

/-- The ranges contain ordinary points, e.g. 1/2 for every class without shift and 5/2 for the shift 2. -/
example : (1 / 2 : ℝ) ∈ LinkClass.logit.workParam ∧ (1 / 2 : ℝ) ∈ LinkClass.log.workParam ∧
    (5 / 2 : ℝ) ∈ LinkClass.logShiftTwo.workParam ∧ (5 / 2 : ℝ) ∈ LinkClass.softplusShiftTwo.workParam := by
  refine ⟨⟨?_, ?_, ?_, ?_⟩, ⟨?_, ?_⟩, ⟨?_, ?_⟩, show (1 / 10 ^ 10 : ℝ) ≤ 5 / 2 - 2 by norm_num⟩ <;> norm_num

/-- Zero is an unclipped linear predictor of the softplus link. -/
example : (0 : ℝ) ∈ LinkClass.softplus.workPred := by
  refine ⟨?_, Or.inl ?_⟩
  · rw [Real.exp_zero, one_add_one_eq_two]
    linarith [Real.log_two_gt_d9]
  · rw [Real.exp_zero, one_add_one_eq_two]
    linarith [Real.log_two_lt_d9]

/-! ## C42 range of the inverse -/

/-- C42, part: for every linear predictor the inverse link is an admissible parameter value, for all classes
but the square roots. -/
theorem C42_inverse_in_range_partial (L : LinkClass) (hL : ¬ L.IsSqrt) (x : ℝ) : L.inverse x ∈ L.range := by
  have hs : 0 < robustSoftplus x := by
    by_cases h : 40 < x
    · rw [robustSoftplus_of_gt h]; linarith
    · rw [robustSoftplus_of_le (not_lt.1 h)]; exact softplus_pos x
  have he := robustExp_pos x
  cases L with
  | identity => trivial
  | logit =>
    simp only [LinkClass.inverse, LinkClass.range, Set.mem_Ioo]
    exact ⟨by positivity, by rw [div_lt_one (by positivity)]; linarith⟩
  | log => exact he
  | logShift v => simp only [LinkClass.inverse, LinkClass.range, Set.mem_Ioi]; linarith
  | logIdent =>
    simp only [LinkClass.inverse, LinkClass.range, Set.mem_Ioi]
    split
    · exact he
    · rename_i h; linarith [not_le.1 h]
  | softplus => exact hs
  | softplusShift v => simp only [LinkClass.inverse, LinkClass.range, Set.mem_Ioi]; linarith
  | sqrt => exact absurd trivial hL
  | sqrtShift v => exact absurd trivial hL

/-- C42 for the square root classes: admissible except at the linear predictor 0. -/
theorem C42_sqrt_partial (L : LinkClass) (hL : L.IsSqrt) (x : ℝ) : L.inverse x ∈ L.range ↔ x ≠ 0 := by
  cases L with
  | sqrt =>
    simp only [LinkClass.inverse, LinkClass.range, Set.mem_Ioi]
    exact ⟨fun h e => by simp [e] at h, fun h => by positivity⟩
  | sqrtShift v =>
    simp only [LinkClass.inverse, LinkClass.range, Set.mem_Ioi]
    refine ⟨fun h e => by simp [e] at h, fun h => ?_⟩
    have : 0 < x ^ 2 := by positivity
    linarith
  | _ => exact absurd hL id

/-- C42 does not hold for the square root links: the linear predictor 0 gives the excluded boundary. -/
theorem C42_sqrt_fails (v : ℝ) : LinkClass.sqrt.inverse 0 ∉ LinkClass.sqrt.range ∧
    (LinkClass.sqrtShift v).inverse 0 ∉ (LinkClass.sqrtShift v).range :=
  ⟨fun h => (C42_sqrt_partial .sqrt trivial 0).1 h rfl,
   fun h => (C42_sqrt_partial (.sqrtShift v) trivial 0).1 h rfl⟩

/-- C42 does not hold in floating point for the log link: for every rounding that flushes numbers below half
the smallest positive float to zero, the inverse of a linear predictor below -746 is 0. -/
theorem C42_log_underflow_fails (rd : ℝ → ℝ) (hrd : ∀ z : ℝ, |z| < 1 / 2 ^ 1075 → rd z = 0) {x : ℝ}
    (hx : x ≤ -746) : rd (LinkClass.log.inverse x) ∉ LinkClass.log.range := by
  have h1 : LinkClass.log.inverse x = Real.exp x := by
    simp only [LinkClass.inverse]; exact robustExp_of_le (by linarith [log_large_pos])
  have h2 : Real.exp x < 1 / 2 ^ 1075 := by
    have h3 : (1 / 2 ^ 1075 : ℝ) = Real.exp (-(1075 * Real.log 2)) := by
      rw [Real.exp_neg, one_div]
      congr 1
      rw [show (1075 : ℝ) * Real.log 2 = ((1075 : ℕ) : ℝ) * Real.log 2 by norm_num, Real.exp_nat_mul,
        Real.exp_log (by norm_num)]
    rw [h3]
    exact Real.exp_lt_exp.2 (by linarith [Real.log_two_lt_d9])
  rw [h1, hrd _ (by rwa [abs_of_pos (Real.exp_pos x)])]
  exact fun h => lt_irrefl (0 : ℝ) h

/-- Such a rounding exists. -/
example : ∃ rd : ℝ → ℝ, (∀ z : ℝ, |z| < 1 / 2 ^ 1075 → rd z = 0) ∧ rd 1 = 1 := by
  classical
  refine ⟨fun z => if |z| < 1 / 2 ^ 1075 then 0 else z, fun z hz => if_pos hz, ?_⟩
  have : ¬ |(1 : ℝ)| < 1 / 2 ^ 1075 := by
    rw [abs_one, not_lt]
    exact (div_le_one (by positivity)).2 (one_le_pow₀ (by norm_num))
  simp only [if_neg this]

/-! ## C43 monotonicity -/

/-- C43, part: every link is strictly increasing on its unclipped range. -/
theorem C43_link_strict (L : LinkClass) : StrictMonoOn L.link L.workParam := by
  intro a ha b hb hab
  cases L with
  | identity => exact hab
  | logit =>
    obtain ⟨ha0, ha1, ha2, -⟩ := ha
    obtain ⟨hb0, hb1, hb2, -⟩ := hb
    rw [small_eq] at ha2 hb2
    simp only [LinkClass.link]
    rw [robustLog_of_gt ha2, robustLog_of_gt hb2]
    exact Real.log_lt_log (smallNumber_pos.trans ha2) (div_one_sub_lt ha0 hb1 hab)
  | log =>
    simp only [LinkClass.link]
    rw [robustLog_of_gt ha.1, robustLog_of_gt hb.1]
    exact Real.log_lt_log (smallNumber_pos.trans ha.1) hab
  | logShift v =>
    simp only [LinkClass.link]
    rw [robustLog_of_gt (by linarith [ha.1]), robustLog_of_gt (by linarith [hb.1])]
    exact Real.log_lt_log (by linarith [ha.1, smallNumber_pos]) (by linarith)
  | logIdent =>
    have ha' : smallNumber < a := ha
    simp only [LinkClass.link]
    by_cases hb1 : b ≤ 1
    · rw [if_pos hb1, if_pos (hab.le.trans hb1), robustLog_of_gt ha', robustLog_of_gt (ha'.trans hab)]
      exact Real.log_lt_log (smallNumber_pos.trans ha') hab
    · rw [if_neg hb1]
      by_cases ha1 : a ≤ 1
      · rw [if_pos ha1, robustLog_of_gt ha']
        have := Real.log_nonpos (smallNumber_pos.trans ha').le ha1
        linarith [not_le.1 hb1]
      · rw [if_neg ha1]; linarith
  | softplus => exact robustSoftplusInverse_strictMonoOn ha hb hab
  | softplusShift v =>
    have ha' : smallNumber ≤ a - v := ha
    have hb' : smallNumber ≤ b - v := hb
    exact robustSoftplusInverse_strictMonoOn ha' hb' (by linarith)
  | sqrt => exact Real.sqrt_lt_sqrt ha hab
  | sqrtShift v =>
    have ha' : v ≤ a := ha
    exact Real.sqrt_lt_sqrt (by linarith [smallNumber_pos]) (by linarith)

/-- C43, part: every inverse is strictly increasing on its unclipped range. -/
theorem C43_inverse_strict (L : LinkClass) : StrictMonoOn L.inverse L.workPred := by
  have key : ∀ a b : ℝ, Real.log (1 + Real.exp a) ≤ 40 ∨ 40 < a → Real.log (1 + Real.exp b) ≤ 40 ∨ 40 < b →
      a < b → robustSoftplus a < robustSoftplus b := by
    intro a b ha hb hab
    rcases hb with hb | hb
    · have hb' : b ≤ 40 := (softplus_gt b).le.trans hb
      rw [robustSoftplus_of_le hb', robustSoftplus_of_le (hab.le.trans hb')]
      exact softplus_lt hab
    · rw [robustSoftplus_of_gt hb]
      rcases ha with ha | ha
      · rw [robustSoftplus_of_le ((softplus_gt a).le.trans ha)]; linarith
      · rwa [robustSoftplus_of_gt ha]
  intro a ha b hb hab
  have hexp : ∀ {a b : ℝ}, a < b → b ≤ Real.log largeNumber → robustExp a < robustExp b := by
    intro a b h hb
    rw [robustExp_of_le hb, robustExp_of_le (h.le.trans hb)]
    exact Real.exp_lt_exp.2 h
  cases L with
  | identity => exact hab
  | logit => exact div_add_one_lt (robustExp_pos a) (hexp hab hb.2)
  | log => exact hexp hab hb.2
  | logShift v =>
    have := hexp hab hb
    simp only [LinkClass.inverse]; linarith
  | logIdent =>
    simp only [LinkClass.inverse]
    by_cases hb0 : b ≤ 0
    · rw [if_pos hb0, if_pos (hab.le.trans hb0)]
      exact hexp hab (hb0.trans log_large_pos.le)
    · rw [if_neg hb0]
      by_cases ha0 : a ≤ 0
      · rw [if_pos ha0, robustExp_of_le (ha0.trans log_large_pos.le)]
        linarith [Real.exp_le_one_iff.2 ha0, not_le.1 hb0]
      · rw [if_neg ha0]; linarith
  | softplus => exact key a b ha.2 hb.2 hab
  | softplusShift v =>
    have := key a b ha.2 hb.2 hab
    simp only [LinkClass.inverse]; linarith
  | sqrt => exact pow_lt_pow_left₀ hab ha two_ne_zero
  | sqrtShift v =>
    have : a ^ 2 < b ^ 2 := pow_lt_pow_left₀ hab ha two_ne_zero
    simp only [LinkClass.inverse]; linarith

/-- C43, part: every link is non-decreasing on its whole domain, clipped or not. -/
theorem C43_link_monotone (L : LinkClass) : MonotoneOn L.link L.domain := by
  intro a ha b hb hab
  cases L with
  | identity => exact hab
  | logit =>
    rcases hab.eq_or_lt with rfl | h
    · exact le_rfl
    · exact robustLog_monotone (div_one_sub_lt ha.1 hb.2 h).le
  | log => exact robustLog_monotone hab
  | logShift v => exact robustLog_monotone (by linarith)
  | logIdent =>
    simp only [LinkClass.link]
    by_cases hb1 : b ≤ 1
    · rw [if_pos hb1, if_pos (hab.trans hb1)]
      exact robustLog_monotone hab
    · rw [if_neg hb1]
      by_cases ha1 : a ≤ 1
      · rw [if_pos ha1]
        have h1 : robustLog a ≤ robustLog 1 := robustLog_monotone ha1
        rw [robustLog_of_gt smallNumber_lt_one, Real.log_one] at h1
        linarith [not_le.1 hb1]
      · rw [if_neg ha1]; linarith
  | softplus => exact robustSoftplusInverse_monotone hab
  | softplusShift v => exact robustSoftplusInverse_monotone (by linarith)
  | sqrt => exact Real.sqrt_le_sqrt hab
  | sqrtShift v => exact Real.sqrt_le_sqrt (by linarith)

/-- C43, part: every inverse but the softplus and square root ones is non-decreasing on the whole line. -/
theorem C43_inverse_monotone_partial (L : LinkClass) (h1 : ¬ L.IsSqrt) (h2 : ¬ L.IsSoftplus) :
    Monotone L.inverse := by
  intro a b hab
  have he := robustExp_monotone hab
  cases L with
  | identity => exact hab
  | logit =>
    simp only [LinkClass.inverse]
    rcases he.eq_or_lt with h | h
    · rw [h]
    · exact (div_add_one_lt (robustExp_pos a) h).le
  | log => exact he
  | logShift v => simp only [LinkClass.inverse]; linarith
  | logIdent =>
    simp only [LinkClass.inverse]
    by_cases hb0 : b ≤ 0
    · rw [if_pos hb0, if_pos (hab.trans hb0)]; exact he
    · rw [if_neg hb0]
      by_cases ha0 : a ≤ 0
      · rw [if_pos ha0, robustExp_of_le (ha0.trans log_large_pos.le)]
        linarith [Real.exp_le_one_iff.2 ha0, not_le.1 hb0]
      · rw [if_neg ha0]; linarith
  | softplus => exact absurd trivial h2
  | softplusShift v => exact absurd trivial h2
  | sqrt => exact absurd trivial h1
  | sqrtShift v => exact absurd trivial h1

/-- C43 does not hold for the softplus links: the inverse drops when the linear predictor passes 40. -/
theorem C43_softplus_inverse_fails (v : ℝ) : ¬ Monotone LinkClass.softplus.inverse ∧
    ¬ Monotone (LinkClass.softplusShift v).inverse := by
  have h0 := softplus_gt 40
  set c := Real.log (1 + Real.exp 40) with hc
  have h1 : (40 : ℝ) ≤ (40 + c) / 2 := by linarith
  have h2 : (40 : ℝ) < (40 + c) / 2 := by linarith
  have h3 : robustSoftplus ((40 + c) / 2) < robustSoftplus 40 := by
    rw [robustSoftplus_of_gt h2, robustSoftplus_of_le le_rfl, ← hc]; linarith
  refine ⟨fun h => absurd (h h1) (not_le.2 h3), fun h => ?_⟩
  have := h h1
  simp only [LinkClass.inverse] at this
  linarith

/-- C43 for the softplus links: the drop is never larger than `log(1 + exp(-40))`. -/
theorem C43_softplus_inverse_partial (L : LinkClass) (hL : L.IsSoftplus) {a b : ℝ} (hab : a ≤ b) :
    L.inverse a ≤ L.inverse b + Real.log (1 + Real.exp (-40)) := by
  have hpos : 0 < Real.log (1 + Real.exp (-40)) := softplus_pos _
  have key : robustSoftplus a ≤ robustSoftplus b + Real.log (1 + Real.exp (-40)) := by
    by_cases hb : 40 < b
    · rw [robustSoftplus_of_gt hb]
      by_cases ha : 40 < a
      · rw [robustSoftplus_of_gt ha]; linarith
      · rw [robustSoftplus_of_le (not_lt.1 ha)]
        have h1 : Real.log (1 + Real.exp a) ≤ Real.log (1 + Real.exp 40) :=
          Real.log_le_log (by positivity) (by linarith [Real.exp_le_exp.2 (not_lt.1 ha)])
        have h2 : Real.log (1 + Real.exp 40) = 40 + Real.log (1 + Real.exp (-40)) := by
          have : 1 + Real.exp 40 = Real.exp 40 * (1 + Real.exp (-40)) := by
            rw [mul_add, ← Real.exp_add]; norm_num [add_comm]
          rw [this, Real.log_mul (by positivity) (by positivity), Real.log_exp]
        linarith
    · have hb' := not_lt.1 hb
      rw [robustSoftplus_of_le hb', robustSoftplus_of_le (hab.trans hb')]
      have : Real.log (1 + Real.exp a) ≤ Real.log (1 + Real.exp b) :=
        Real.log_le_log (by positivity) (by linarith [Real.exp_le_exp.2 hab])
      linarith
  cases L with
  | softplus => exact key
  | softplusShift v => simp only [LinkClass.inverse]; linarith
  | _ => exact absurd hL id

/-- C43 does not hold for the square root links: two linear predictors of opposite sign. -/
theorem C43_sqrt_inverse_fails (v : ℝ) : ¬ Monotone LinkClass.sqrt.inverse ∧
    ¬ Monotone (LinkClass.sqrtShift v).inverse := by
  constructor <;> intro h <;> have := h (show (-1 : ℝ) ≤ 0 by norm_num) <;>
    simp only [LinkClass.inverse] at this <;> norm_num at this

/-! ## C44 derivatives -/

/-- C44, part: `link_derivative` is the derivative of `link` at every smooth point.  Missing: the plain
softplus link (wrong formula), the log-identity link (not implemented) and points at which the guarded division
of the shifted softplus link replaces the quotient. -/
theorem C44_link_derivative_partial (L : LinkClass) (h1 : L ≠ .softplus) (h2 : L ≠ .logIdent) {x : ℝ}
    (hx : x ∈ L.smoothParam)
    (hg : ∀ v, L = .softplusShift v → 1 / 10 ^ 8 < 1 - Real.exp (v - x)) :
    ∃ d, L.linkDerivative x = .ok d ∧ HasDerivAt L.link d x := by
  cases L with
  | identity => exact ⟨1, rfl, hasDerivAt_id x⟩
  | logit =>
    obtain ⟨h0, h1', h3⟩ := hx
    rw [small_eq] at h3
    refine ⟨_, rfl, ?_⟩
    have hne : 1 - x ≠ 0 := by linarith
    have hd : HasDerivAt (fun z : ℝ => z / (1 - z)) ((1 * (1 - x) - x * (-1)) / (1 - x) ^ 2) x :=
      (hasDerivAt_id x).div ((hasDerivAt_id x).const_sub 1) hne
    have := (hasDerivAt_robustLog h3).comp x hd
    have hval : 1 / (x * (1 - x)) = 1 / (x / (1 - x)) * ((1 * (1 - x) - x * (-1)) / (1 - x) ^ 2) := by
      field_simp; ring
    rw [hval]; exact this
  | log => exact ⟨_, rfl, hasDerivAt_robustLog hx⟩
  | logShift v =>
    have hv : v < x := hx
    refine ⟨_, rfl, ?_⟩
    have hd : HasDerivAt (fun z : ℝ => z - v + smallNumber) 1 x := ((hasDerivAt_id x).sub_const v).add_const _
    have := (hasDerivAt_robustLog (show smallNumber < x - v + smallNumber by linarith)).comp x hd
    rw [mul_one] at this; exact this
  | logIdent => exact absurd rfl h2
  | softplus => exact absurd rfl h1
  | softplusShift v =>
    obtain ⟨h3, h4⟩ := hx
    rw [small_eq] at h3
    have hgv := hg v rfl
    refine ⟨_, rfl, ?_⟩
    have h0 : v - x ≤ Real.log largeNumber := by linarith [log_large_pos, smallNumber_pos]
    rw [robustExp_of_le h0, zeroSafeDivision_one (hgv.trans_le (le_abs_self _))]
    have hd : HasDerivAt (fun z : ℝ => z - v) 1 x := (hasDerivAt_id x).sub_const v
    have := (hasDerivAt_robustSoftplusInverse h3 h4).comp x hd
    rw [mul_one, neg_sub] at this; exact this
  | sqrt =>
    have h0 : 0 < x := hx
    exact ⟨_, rfl, Real.hasDerivAt_sqrt h0.ne'⟩
  | sqrtShift v =>
    have hv : v < x := hx
    refine ⟨_, rfl, ?_⟩
    have hd : HasDerivAt (fun z : ℝ => z - v + smallNumber) 1 x := ((hasDerivAt_id x).sub_const v).add_const _
    have := (Real.hasDerivAt_sqrt (show x - v + smallNumber ≠ 0 by linarith [smallNumber_pos])).comp x hd
    rw [mul_one] at this; exact this

/-- C44, part: `inverse_derivative` is the derivative of `inverse` at every smooth point, for every class. -/
theorem C44_inverse_derivative (L : LinkClass) {x : ℝ} (hx : x ∈ L.smoothPred) :
    HasDerivAt L.inverse (L.inverseDerivative x) x := by
  have hz : ∀ x : ℝ, -Real.log largeNumber ≤ x →
      zeroSafeDivision 1 (robustExp (-x) + 1) = 1 / (Real.exp (-x) + 1) := by
    intro x h
    rw [robustExp_of_le (by linarith)]
    apply zeroSafeDivision_one
    have := Real.exp_pos (-x)
    rw [abs_of_pos (by linarith)]
    norm_num
    linarith
  cases L with
  | identity => exact hasDerivAt_id x
  | logit =>
    have hx' : x < Real.log largeNumber := hx
    have he := hasDerivAt_robustExp hx'
    have hp := robustExp_pos x
    have := he.div (he.add_const 1) (by positivity)
    have hval : LinkClass.logit.inverseDerivative x = (Real.exp x * (robustExp x + 1)
        - robustExp x * Real.exp x) / (robustExp x + 1) ^ 2 := by
      simp only [LinkClass.inverseDerivative]
      rw [robustExp_of_le hx'.le]
      ring
    rw [hval]; exact this
  | log =>
    have hx' : x < Real.log largeNumber := hx
    simp only [LinkClass.inverseDerivative]
    rw [robustExp_of_le hx'.le]
    exact hasDerivAt_robustExp hx'
  | logShift v =>
    have hx' : x < Real.log largeNumber := hx
    simp only [LinkClass.inverseDerivative]
    rw [robustExp_of_le hx'.le]
    exact (hasDerivAt_robustExp hx').const_add v
  | logIdent =>
    have hcont : ∀ z : ℝ, z ≤ 0 → LinkClass.logIdent.inverse z = Real.exp z := by
      intro z hz
      simp only [LinkClass.inverse]
      rw [if_pos hz, robustExp_of_le (hz.trans log_large_pos.le)]
    have hlin : ∀ z : ℝ, 0 < z → LinkClass.logIdent.inverse z = z + 1 := by
      intro z hz
      simp only [LinkClass.inverse]
      rw [if_neg (not_le.2 hz)]
    have hlin' : ∀ z : ℝ, 0 ≤ z → LinkClass.logIdent.inverse z = z + 1 := by
      intro z hz
      rcases hz.eq_or_lt with rfl | h
      · rw [hcont 0 le_rfl]; simp
      · exact hlin z h
    simp only [LinkClass.inverseDerivative]
    rcases lt_trichotomy x 0 with h | h | h
    · rw [if_pos h.le, robustExp_of_le (h.le.trans log_large_pos.le)]
      refine (Real.hasDerivAt_exp x).congr_of_eventuallyEq ?_
      filter_upwards [Iio_mem_nhds h] with z hz using hcont z (le_of_lt hz)
    · subst h
      rw [if_pos le_rfl, robustExp_of_le log_large_pos.le]
      have hl : HasDerivWithinAt LinkClass.logIdent.inverse (Real.exp 0) (Set.Iic 0) 0 :=
        (Real.hasDerivAt_exp 0).hasDerivWithinAt.congr (fun z hz => hcont z hz) (hcont 0 le_rfl)
      have hr : HasDerivWithinAt LinkClass.logIdent.inverse (Real.exp 0) (Set.Ici 0) 0 := by
        rw [Real.exp_zero]
        exact ((hasDerivAt_id (0 : ℝ)).add_const 1).hasDerivWithinAt.congr (fun z hz => hlin' z hz)
          (hlin' 0 le_rfl)
      have := hl.union hr
      rw [Set.Iic_union_Ici] at this
      exact hasDerivWithinAt_univ.1 this
    · rw [if_neg (not_le.2 h)]
      refine ((hasDerivAt_id x).add_const 1).congr_of_eventuallyEq ?_
      filter_upwards [Ioi_mem_nhds h] with z hz using hlin z hz
  | softplus =>
    simp only [LinkClass.inverseDerivative]
    rw [hz x hx.1]
    exact hasDerivAt_robustSoftplus hx.2
  | softplusShift v =>
    simp only [LinkClass.inverseDerivative]
    rw [hz x hx.1]
    exact (hasDerivAt_robustSoftplus hx.2).add_const v
  | sqrt =>
    have := hasDerivAt_pow 2 x
    rw [show ((2 : ℕ) : ℝ) * x ^ (2 - 1) = 2 * x by norm_num] at this
    exact this
  | sqrtShift v =>
    have := (hasDerivAt_pow 2 x).const_add v
    rw [show ((2 : ℕ) : ℝ) * x ^ (2 - 1) = 2 * x by norm_num] at this
    exact this

/-- C44, part: `link_second_derivative` is the derivative of the derivative of `link` at every smooth point.
Missing: the log-identity link (not implemented) and points at which the guarded division of the softplus links
replaces the quotient. -/
theorem C44_second_derivative_partial (L : LinkClass) (h2 : L ≠ .logIdent) {x : ℝ} (hx : x ∈ L.smoothParam)
    (hg : L = .softplus → 1 / 10 ^ 8 < 2 * Real.cosh x - 2)
    (hgv : ∀ v, L = .softplusShift v → 1 / 10 ^ 8 < 2 * Real.cosh (v - x) - 2) :
    ∃ d, L.linkSecondDerivative x = .ok d ∧ HasDerivAt (deriv L.link) d x := by
  have hsp : ∀ v x : ℝ, smallNumber < x - v → x - v < 40 → 1 / 10 ^ 8 < 2 * Real.cosh (v - x) - 2 →
      HasDerivAt (deriv fun z => robustSoftplusInverse (z - v)) (zeroSafeDivision 1 (2 - 2 * Real.cosh (v - x))) x := by
    intro v x h3 h4 h5
    have h0 : 0 < x - v := smallNumber_pos.trans h3
    have hd : ∀ z : ℝ, HasDerivAt (fun z : ℝ => z - v) 1 z := fun z => (hasDerivAt_id z).sub_const v
    rw [zeroSafeDivision_one (by rw [abs_sub_comm]; exact h5.trans_le (le_abs_self _))]
    have hmain := (hasDerivAt_inv_one_sub_exp h0).comp x (hd x)
    rw [mul_one, show Real.cosh (x - v) = Real.cosh (v - x) by rw [← Real.cosh_neg, neg_sub]] at hmain
    refine hmain.congr_of_eventuallyEq ?_
    filter_upwards [Ioo_mem_nhds (show v + smallNumber < x by linarith) (show x < v + 40 by linarith)]
      with z hz
    have := (hasDerivAt_robustSoftplusInverse (show smallNumber < z - v by linarith [hz.1])
      (show z - v < 40 by linarith [hz.2])).comp z (hd z)
    rw [mul_one] at this
    exact this.deriv
  cases L with
  | identity =>
    refine ⟨0, rfl, ?_⟩
    have : deriv LinkClass.identity.link = fun _ => 1 := by
      funext z; exact (hasDerivAt_id z).deriv
    rw [this]; exact hasDerivAt_const x 1
  | logit =>
    obtain ⟨h0, h1', h3⟩ := hx
    rw [small_eq] at h3
    refine ⟨_, rfl, ?_⟩
    have hne : 1 - x ≠ 0 := by linarith
    have hd : HasDerivAt (fun z : ℝ => z * (1 - z)) (1 * (1 - x) + x * (-1)) x :=
      (hasDerivAt_id x).mul ((hasDerivAt_id x).const_sub 1)
    have hmain := hd.inv (mul_ne_zero h0.ne' hne)
    have hval : -(1 * (1 - x) + x * (-1)) / (x * (1 - x)) ^ 2 = -(1 - 2 * x) / (x ^ 2 * (1 - x) ^ 2) := by
      rw [mul_pow]; ring
    rw [hval] at hmain
    refine hmain.congr_of_eventuallyEq ?_
    have hcont : ContinuousAt (fun z : ℝ => z / (1 - z)) x :=
      continuousAt_id.div (continuousAt_const.sub continuousAt_id) hne
    filter_upwards [Ioo_mem_nhds h0 h1', hcont.eventually (Ioi_mem_nhds h3)] with z hz hz3
    obtain ⟨d, hd1, hd2⟩ := C44_link_derivative_partial .logit (by simp) (by simp)
      (x := z) ⟨hz.1, hz.2, hz3⟩ (by simp)
    rw [hd2.deriv]
    simp only [LinkClass.linkDerivative] at hd1
    cases hd1
    simp
  | log =>
    refine ⟨_, rfl, ?_⟩
    have hx' : smallNumber < x := hx
    have h0 : x ≠ 0 := (smallNumber_pos.trans hx').ne'
    have hmain := hasDerivAt_inv h0
    rw [show -(x ^ 2)⁻¹ = -1 / x ^ 2 by rw [neg_div, one_div]] at hmain
    refine hmain.congr_of_eventuallyEq ?_
    filter_upwards [Ioi_mem_nhds hx'] with z hz
    rw [← one_div]
    exact (hasDerivAt_robustLog hz).deriv
  | logShift v =>
    have hv : v < x := hx
    refine ⟨_, rfl, ?_⟩
    have hd : ∀ z : ℝ, HasDerivAt (fun z : ℝ => z - v + smallNumber) 1 z :=
      fun z => ((hasDerivAt_id z).sub_const v).add_const _
    have h0 : x - v + smallNumber ≠ 0 := by linarith [smallNumber_pos]
    have hmain := (hd x).inv h0
    refine hmain.congr_of_eventuallyEq ?_
    filter_upwards [Ioi_mem_nhds hv] with z hz
    have hz' : v < z := hz
    have := (hasDerivAt_robustLog (show smallNumber < z - v + smallNumber by linarith)).comp z (hd z)
    rw [mul_one, one_div] at this
    exact this.deriv
  | logIdent => exact absurd rfl h2
  | softplus =>
    refine ⟨_, rfl, ?_⟩
    have h6 := hg rfl
    rw [← Real.cosh_neg] at h6
    have := hsp 0 x (by rw [sub_zero]; exact hx.1) (by rw [sub_zero]; exact hx.2) (by rw [zero_sub]; exact h6)
    simp only [sub_zero, zero_sub, Real.cosh_neg] at this
    exact this
  | softplusShift v => exact ⟨_, rfl, hsp v x hx.1 hx.2 (hgv v rfl)⟩
  | sqrt =>
    have h0 : 0 < x := hx
    refine ⟨_, rfl, ?_⟩
    have hmain : HasDerivAt (fun z : ℝ => 1 / 2 * z ^ (-(1 / 2) : ℝ))
        (1 / 2 * (-(1 / 2) * x ^ (-(1 / 2) - 1 : ℝ))) x :=
      (Real.hasDerivAt_rpow_const (Or.inl h0.ne')).const_mul _
    have hval : (1 / 2 * (-(1 / 2) * x ^ (-(1 / 2) - 1 : ℝ))) = -1 / (4 * x ^ ((3 : ℝ) / 2)) := by
      rw [show (-(1 / 2) - 1 : ℝ) = -(3 / 2) by norm_num, Real.rpow_neg h0.le]
      field_simp; norm_num
    rw [hval] at hmain
    refine hmain.congr_of_eventuallyEq ?_
    filter_upwards [Ioi_mem_nhds h0] with z hz
    have hz0 : 0 < z := hz
    have : deriv LinkClass.sqrt.link z = 1 / (2 * Real.sqrt z) := (Real.hasDerivAt_sqrt hz0.ne').deriv
    rw [this, Real.rpow_neg hz0.le, ← Real.sqrt_eq_rpow]
    field_simp
  | sqrtShift v =>
    have hv : v < x := hx
    have h0 : 0 < x - v + smallNumber := by linarith [smallNumber_pos]
    refine ⟨_, rfl, ?_⟩
    have hd : ∀ z : ℝ, HasDerivAt (fun z : ℝ => z - v + smallNumber) 1 z :=
      fun z => ((hasDerivAt_id z).sub_const v).add_const _
    have hmain : HasDerivAt (fun z : ℝ => 1 / 2 * (z - v + smallNumber) ^ (-(1 / 2) : ℝ))
        (1 / 2 * (1 * (-(1 / 2)) * (x - v + smallNumber) ^ (-(1 / 2) - 1 : ℝ))) x :=
      ((hd x).rpow_const (Or.inl h0.ne')).const_mul _
    have hval : (1 / 2 * (1 * (-(1 / 2)) * (x - v + smallNumber) ^ (-(1 / 2) - 1 : ℝ)))
        = -1 / (4 * (x - v + smallNumber) ^ ((3 : ℝ) / 2)) := by
      rw [show (-(1 / 2) - 1 : ℝ) = -(3 / 2) by norm_num, Real.rpow_neg h0.le]
      field_simp; norm_num
    rw [hval] at hmain
    refine hmain.congr_of_eventuallyEq ?_
    filter_upwards [Ioi_mem_nhds hv] with z hz
    have hz' : v < z := hz
    have hz0 : 0 < z - v + smallNumber := by linarith [smallNumber_pos]
    have h6 := ((Real.hasDerivAt_sqrt hz0.ne').comp z (hd z))
    have : deriv (LinkClass.sqrtShift v).link z = 1 / (2 * Real.sqrt (z - v + smallNumber)) * 1 := h6.deriv
    rw [this, Real.rpow_neg hz0.le, ← Real.sqrt_eq_rpow]
    field_simp

/-- C44 does not hold for the plain softplus link: at every smooth point `link_derivative` is not the
derivative (it returns `exp(-x)`, the derivative is `1 / (1 - exp(-x))`). -/
theorem C44_softplus_link_derivative_fails {x : ℝ} (hx : x ∈ LinkClass.softplus.smoothParam) :
    ∃ d, LinkClass.softplus.linkDerivative x = .ok d ∧ ¬ HasDerivAt LinkClass.softplus.link d x := by
  refine ⟨_, rfl, fun h => ?_⟩
  have h0 : 0 < x := smallNumber_pos.trans hx.1
  have h1 := hasDerivAt_robustSoftplusInverse hx.1 hx.2
  have h2 := h.unique h1
  have h3 : 1 ≤ robustExp x := by
    have := robustExp_monotone h0.le
    rwa [robustExp_of_le log_large_pos.le, Real.exp_zero] at this
  rw [sub_add_cancel, zeroSafeDivision_one (by rw [abs_of_pos (by linarith)]; norm_num; linarith)] at h2
  have h4 : 1 / robustExp x ≤ 1 := by rw [div_le_one (by linarith)]; exact h3
  have h5 : Real.exp (-x) < 1 := by rw [Real.exp_lt_one_iff]; linarith
  have h6 : 1 < 1 / (1 - Real.exp (-x)) := by
    rw [lt_div_iff₀ (by linarith)]; linarith [Real.exp_pos (-x)]
  linarith

/-- C44 does not hold for the log-identity link: both derivatives of the link raise. -/
theorem C44_logIdent_fails (x : ℝ) : LinkClass.logIdent.linkDerivative x = .error .notImplemented ∧
    LinkClass.logIdent.linkSecondDerivative x = .error .notImplemented := ⟨rfl, rfl⟩

/-- C44 does not hold for the second derivative of the softplus link close to zero: the guarded division returns
a large positive number, the second derivative is negative. -/
theorem C44_softplus_second_derivative_fails {x : ℝ} (hx : x ∈ LinkClass.softplus.smoothParam)
    (hc : 2 * Real.cosh x - 2 ≤ 1 / 10 ^ 8) :
    ∃ d, LinkClass.softplus.linkSecondDerivative x = .ok d ∧ 0 < d ∧
      ∀ d', HasDerivAt (deriv LinkClass.softplus.link) d' x → d' < 0 := by
  have h0 : 0 < x := smallNumber_pos.trans hx.1
  have hcosh : 1 < Real.cosh x := Real.one_lt_cosh.2 h0.ne'
  have hval : zeroSafeDivision 1 (2 - 2 * Real.cosh x) = largeNumber := by
    unfold zeroSafeDivision isCloseZero
    rw [if_pos]
    rw [abs_sub_comm, abs_of_pos (by linarith)]; exact hc
  refine ⟨largeNumber, by simp only [LinkClass.linkSecondDerivative]; rw [hval], largeNumber_pos, ?_⟩
  intro d' hd'
  have hmain := hasDerivAt_inv_one_sub_exp h0
  have heq : deriv LinkClass.softplus.link =ᶠ[nhds x] fun z => 1 / (1 - Real.exp (-z)) := by
    filter_upwards [Ioo_mem_nhds hx.1 hx.2] with z hz
    exact (hasDerivAt_robustSoftplusInverse hz.1 hz.2).deriv
  rw [hd'.unique (hmain.congr_of_eventuallyEq heq)]
  exact div_neg_of_pos_of_neg one_pos (by linarith)

/-- C44 does not hold for the inverse of the softplus link beyond 40: the inverse is the identity there, the
stated derivative is below 1. -/
theorem C44_softplus_inverse_derivative_fails {x : ℝ} (hx : 40 < x) :
    ¬ HasDerivAt LinkClass.softplus.inverse (LinkClass.softplus.inverseDerivative x) x := by
  intro h
  have h1 : HasDerivAt LinkClass.softplus.inverse 1 x := by
    refine (hasDerivAt_id x).congr_of_eventuallyEq ?_
    filter_upwards [Ioi_mem_nhds hx] with z hz using robustSoftplus_of_gt hz
  have h2 := h.unique h1
  simp only [LinkClass.inverseDerivative] at h2
  rw [robustExp_of_le (by linarith [log_large_pos]), zeroSafeDivision_one] at h2
  · have h3 := Real.exp_pos (-x)
    rw [div_eq_iff (by linarith)] at h2
    linarith
  · have := Real.exp_pos (-x)
    rw [abs_of_pos (by linarith)]; norm_num; linarith

/-- The hypotheses of the four results above are met, e.g. at 1, 1e-5 and 50. -/
example : (1 : ℝ) ∈ LinkClass.softplus.smoothParam ∧ (1 / 100000 : ℝ) ∈ LinkClass.softplus.smoothParam ∧
    2 * Real.cosh (1 / 100000) - 2 ≤ 1 / 10 ^ 8 ∧ (40 : ℝ) < 50 := by
  refine ⟨⟨by norm_num, by norm_num⟩, ⟨by norm_num, by norm_num⟩, ?_, by norm_num⟩
  have h1 := Real.cosh_le_exp_half_sq (1 / 100000 : ℝ)
  have h2 : Real.exp ((1 / 100000 : ℝ) ^ 2 / 2) ≤ 1 + 2 * ((1 / 100000 : ℝ) ^ 2 / 2) := by
    have := Real.abs_exp_sub_one_le (x := (1 / 100000 : ℝ) ^ 2 / 2) (by norm_num [abs_le])
    rw [abs_of_pos (show (0 : ℝ) < (1 / 100000 : ℝ) ^ 2 / 2 by positivity)] at this
    linarith [le_abs_self (Real.exp ((1 / 100000 : ℝ) ^ 2 / 2) - 1)]
  norm_num at h1 h2 ⊢
  linarith

/-- The guard of the shifted softplus link is inactive at ordinary points, e.g. 3 for the shift 2. -/
example : (3 : ℝ) ∈ LinkClass.softplusShiftTwo.smoothParam ∧ (1 / 10 ^ 8 : ℝ) < 1 - Real.exp (2 - 3) ∧
    (1 / 10 ^ 8 : ℝ) < 2 * Real.cosh (2 - 3) - 2 := by
  refine ⟨⟨by norm_num, by norm_num⟩, ?_, ?_⟩
  · have h1 : Real.exp (2 - 3) ≤ 1 / 2 := by
      rw [show (2 - 3 : ℝ) = -1 by norm_num, Real.exp_neg, inv_eq_one_div]
      exact one_div_le_one_div_of_le (by norm_num) (by linarith [Real.exp_one_gt_d9])
    norm_num at h1 ⊢; linarith
  · rw [show (2 - 3 : ℝ) = -1 by norm_num, Real.cosh_neg, Real.cosh_eq]
    have h1 := Real.exp_one_gt_d9
    have h2 := Real.exp_pos (-1)
    norm_num at h1 ⊢; linarith

/-! ## C45 robust functions -/

/-- C45: `robust_log` of anything but `+inf` is finite; this includes NaN. -/
theorem C45_robust_log_finite (x : Flt) (h : x ≠ .pinf) : (robustLogF x).IsFinite := by
  cases x with
  | fin x =>
    unfold robustLogF
    split
    · rename_i hlt
      have : smallNumber < x := hlt
      simp only [Flt.log, if_pos (smallNumber_pos.trans this)]; trivial
    · trivial
  | pinf => exact absurd rfl h
  | ninf => unfold robustLogF; rw [if_neg (by simp [Flt.lt])]; trivial
  | nan => unfold robustLogF; rw [if_neg (by simp [Flt.lt])]; trivial

/-- C45: the lower bound of `robust_log` is the logarithm of the small constant, for every input. -/
theorem C45_robust_log_lower (x : ℝ) : Real.log (1 / 10 ^ 10) ≤ robustLog x := by
  by_cases h : smallNumber < x
  · rw [robustLog_of_gt h]; exact Real.log_le_log smallNumber_pos h.le
  · rw [robustLog_of_le (not_lt.1 h)]; exact le_rfl

/-- C45: `robust_log` is the logarithm exactly on the inputs that are at least the small constant. -/
theorem C45_robust_log_agrees {x : ℝ} (hx : 0 < x) : robustLog x = Real.log x ↔ 1 / 10 ^ 10 ≤ x := by
  constructor
  · intro h
    by_contra hlt
    have h1 : x < smallNumber := not_le.1 hlt
    rw [robustLog_of_le h1.le] at h
    exact absurd (Real.log_lt_log hx h1) (by rw [h]; exact lt_irrefl _)
  · intro h
    rcases (show smallNumber ≤ x from h).eq_or_lt with h | h
    · rw [robustLog_of_le h.ge, h]
    · exact robustLog_of_gt h

/-- C45: `robust_exp` of every non-NaN input is a finite number between 0 and the large constant. -/
theorem C45_robust_exp_finite (x : Flt) (h : x ≠ .nan) :
    ∃ r : ℝ, robustExpF x = .fin r ∧ 0 ≤ r ∧ r ≤ 10 ^ 15 := by
  cases x with
  | fin x =>
    refine ⟨robustExp x, ?_, (robustExp_pos x).le, robustExp_le x⟩
    unfold robustExpF robustExp
    by_cases hx : Real.log largeNumber < x
    · rw [if_pos (show Flt.lt (.fin (Real.log largeNumber)) (.fin x) from hx), if_pos hx]
    · rw [if_neg (show ¬ Flt.lt (.fin (Real.log largeNumber)) (.fin x) from hx), if_neg hx]; rfl
  | pinf =>
    refine ⟨largeNumber, ?_, largeNumber_pos.le, le_rfl⟩
    unfold robustExpF; rw [if_pos (by trivial)]
  | ninf =>
    refine ⟨0, ?_, le_rfl, by positivity⟩
    unfold robustExpF; rw [if_neg (by simp [Flt.lt])]; rfl
  | nan => exact absurd rfl h

/-- C45: `robust_exp` is the exponential exactly on the inputs up to the logarithm of the large constant. -/
theorem C45_robust_exp_agrees (x : ℝ) : robustExp x = Real.exp x ↔ x ≤ Real.log (10 ^ 15) := by
  constructor
  · intro h
    by_contra hlt
    have h1 : Real.log largeNumber < x := not_le.1 hlt
    rw [robustExp_of_gt h1] at h
    have h2 : Real.exp (Real.log largeNumber) < Real.exp x := Real.exp_lt_exp.2 h1
    rw [Real.exp_log largeNumber_pos, h] at h2
    exact lt_irrefl _ h2
  · exact fun h => robustExp_of_le h

/-- C45: on finite inputs the extended functions are the real ones. -/
theorem C45_real_and_extended_agree (x : ℝ) : robustLogF (.fin x) = .fin (robustLog x) ∧
    robustExpF (.fin x) = .fin (robustExp x) := by
  constructor
  · unfold robustLogF robustLog
    by_cases hx : smallNumber < x
    · rw [if_pos (show Flt.lt (.fin smallNumber) (.fin x) from hx), if_pos hx]
      simp only [Flt.log, if_pos (smallNumber_pos.trans hx)]
    · rw [if_neg (show ¬ Flt.lt (.fin smallNumber) (.fin x) from hx), if_neg hx]
  · unfold robustExpF robustExp
    by_cases hx : Real.log largeNumber < x
    · rw [if_pos (show Flt.lt (.fin (Real.log largeNumber)) (.fin x) from hx), if_pos hx]
    · rw [if_neg (show ¬ Flt.lt (.fin (Real.log largeNumber)) (.fin x) from hx), if_neg hx]; rfl

/-- C45: `robust_sigmoid` lies in [0, 1] for all finite arguments. -/
theorem C45_robust_sigmoid_range (value k : ℝ) : 0 ≤ robustSigmoid value k ∧ robustSigmoid value k ≤ 1 := by
  unfold robustSigmoid
  split
  · norm_num
  · split
    · norm_num
    · have := robustExp_pos (-k * (value - 1))
      exact ⟨by positivity, by rw [div_le_one (by positivity)]; linarith⟩

/-- C45: without clipping `robust_sigmoid` is the logistic function of `k (value - 1)`. -/
theorem C45_robust_sigmoid_agrees {value k : ℝ} (h1 : |value / k| ≤ 50)
    (h2 : -k * (value - 1) ≤ Real.log (10 ^ 15)) :
    robustSigmoid value k = 1 / (1 + Real.exp (-(k * (value - 1)))) := by
  rw [abs_le] at h1
  unfold robustSigmoid
  rw [if_neg (not_lt.2 h1.2), if_neg (not_lt.2 h1.1), robustExp_of_le h2, neg_mul]

example : |(2 : ℝ) / 1| ≤ 50 ∧ -(1 : ℝ) * (2 - 1) ≤ Real.log (10 ^ 15) := by
  refine ⟨by norm_num, ?_⟩
  linarith [Real.log_nonneg (show (1 : ℝ) ≤ 10 ^ 15 by norm_num)]

theorem robustSigmoidF_fin (value : ℝ) {k : ℝ} (hk : k ≠ 0) : robustSigmoidF (.fin value) (.fin k) = .fin (robustSigmoid value k) := by
  have hd : (Flt.fin value).div (.fin k) = .fin (value / k) := by simp [Flt.div, hk]
  unfold robustSigmoidF robustSigmoid
  rw [hd]
  by_cases h1 : value / k > 50
  · rw [if_pos (show Flt.lt (.fin 50) (.fin (value / k)) from h1), if_pos h1]
  rw [if_neg (show ¬ Flt.lt (.fin 50) (.fin (value / k)) from h1), if_neg h1]
  by_cases h2 : value / k < -50
  · rw [if_pos (show Flt.lt (.fin (value / k)) (.fin (-50)) from h2), if_pos h2]
  rw [if_neg (show ¬ Flt.lt (.fin (value / k)) (.fin (-50)) from h2), if_neg h2]
  have e : Flt.mul (Flt.neg (.fin k)) (Flt.sub (.fin value) (.fin 1)) = .fin (-k * (value - 1)) := by
    simp [Flt.mul, Flt.neg, Flt.sub, Flt.add, sub_eq_add_neg]
  rw [e, (C45_real_and_extended_agree _).2]
  have hp : 1 + robustExp (-k * (value - 1)) ≠ 0 := by
    have := robustExp_pos (-k * (value - 1))
    positivity
  simp only [Flt.add, Flt.div, if_neg hp]

/-- C45: `robust_sigmoid` lies in [0, 1] for every argument but NaN, also for the infinite ones, and every finite `k` except zero; on
finite arguments it is the real function. -/
theorem C45_robust_sigmoid_extended (value : Flt) (hv : value ≠ .nan) {k : ℝ} (hk : k ≠ 0) :
    (∃ r : ℝ, robustSigmoidF value (.fin k) = .fin r ∧ 0 ≤ r ∧ r ≤ 1) ∧
    ∀ x, value = .fin x → robustSigmoidF value (.fin k) = .fin (robustSigmoid x k) := by
  refine ⟨?_, fun x hx => by rw [hx, robustSigmoidF_fin x hk]⟩
  cases value with
  | fin x => exact ⟨_, robustSigmoidF_fin x hk, C45_robust_sigmoid_range x k⟩
  | nan => exact absurd rfl hv
  | pinf =>
    unfold robustSigmoidF
    rcases lt_or_gt_of_ne hk with h | h
    · have hd : Flt.pinf.div (.fin k) = .ninf := by simp [Flt.div, not_le.2 h]
      rw [hd]
      exact ⟨0, by simp [Flt.lt], le_rfl, zero_le_one⟩
    · have hd : Flt.pinf.div (.fin k) = .pinf := by simp [Flt.div, h.le]
      rw [hd]
      exact ⟨1, by simp [Flt.lt], zero_le_one, le_rfl⟩
  | ninf =>
    unfold robustSigmoidF
    rcases lt_or_gt_of_ne hk with h | h
    · have hd : Flt.ninf.div (.fin k) = .pinf := by simp [Flt.div, not_le.2 h]
      rw [hd]
      exact ⟨1, by simp [Flt.lt], zero_le_one, le_rfl⟩
    · have hd : Flt.ninf.div (.fin k) = .ninf := by simp [Flt.div, h.le]
      rw [hd]
      exact ⟨0, by simp [Flt.lt], le_rfl, zero_le_one⟩

/-- Non-vacuity: minus infinity. -/
example : ∃ r : ℝ, robustSigmoidF .ninf (.fin 2) = .fin r ∧ 0 ≤ r ∧ r ≤ 1 :=
  (C45_robust_sigmoid_extended .ninf (by simp) two_ne_zero).1

/-- C45: `robust_softplus` of every number but `+inf` and NaN is a finite number at least zero, `+inf` stays; on finite
numbers it is the real function. -/
theorem C45_robust_softplus_extended (value : Flt) (hn : value ≠ .nan) (hi : value ≠ .pinf) :
    (∃ r : ℝ, robustSoftplusF value = .fin r ∧ 0 ≤ r) ∧ (∀ x, value = .fin x → robustSoftplusF value = .fin (robustSoftplus x)) ∧
    robustSoftplusF .pinf = .pinf := by
  have hfin : ∀ x : ℝ, robustSoftplusF (.fin x) = .fin (robustSoftplus x) ∧ 0 ≤ robustSoftplus x := by
    intro x
    unfold robustSoftplusF robustSoftplus
    by_cases h : x > 40
    · rw [if_pos (show Flt.lt (.fin 40) (.fin x) from h), if_pos h]
      exact ⟨rfl, by linarith⟩
    · rw [if_neg (show ¬ Flt.lt (.fin 40) (.fin x) from h), if_neg h]
      have hp : 0 < 1 + Real.exp x := by positivity
      refine ⟨by simp only [Flt.exp, Flt.add, Flt.log, if_pos hp], Real.log_nonneg ?_⟩
      linarith [Real.exp_pos x]
  refine ⟨?_, fun x hx => by rw [hx, (hfin x).1], by unfold robustSoftplusF; rw [if_pos (by trivial)]⟩
  cases value with
  | fin x => exact ⟨_, hfin x⟩
  | nan => exact absurd rfl hn
  | pinf => exact absurd rfl hi
  | ninf =>
    refine ⟨0, ?_, le_rfl⟩
    unfold robustSoftplusF
    rw [if_neg (by simp [Flt.lt])]
    simp [Flt.exp, Flt.add, Flt.log]

/-- C45: `robust_softplus_inverse` of every number but `+inf` and NaN is finite, also of numbers outside its domain; on finite
numbers it is the real function. -/
theorem C45_robust_softplus_inverse_extended (value : Flt) (hn : value ≠ .nan) (hi : value ≠ .pinf) :
    (robustSoftplusInverseF value).IsFinite ∧
    (∀ x, value = .fin x → robustSoftplusInverseF value = .fin (robustSoftplusInverse x)) ∧ robustSoftplusInverseF .ninf = .fin (-30) := by
  have hninf : robustSoftplusInverseF .ninf = .fin (-30) := by
    unfold robustSoftplusInverseF
    rw [if_neg (by simp [Flt.lt]), if_pos (by trivial)]
  have hfin : ∀ x : ℝ, robustSoftplusInverseF (.fin x) = .fin (robustSoftplusInverse x) := by
    intro x
    unfold robustSoftplusInverseF robustSoftplusInverse
    by_cases h : x > 40
    · rw [if_pos (show Flt.lt (.fin 40) (.fin x) from h), if_pos h]
    · rw [if_neg (show ¬ Flt.lt (.fin 40) (.fin x) from h), if_neg h]
      by_cases h2 : x < smallNumber
      · rw [if_pos (show Flt.lt (.fin x) (.fin smallNumber) from h2), if_pos h2]
      · rw [if_neg (show ¬ Flt.lt (.fin x) (.fin smallNumber) from h2), if_neg h2]
        have h0 : 0 < x := lt_of_lt_of_le (by unfold smallNumber; norm_num) (not_lt.1 h2)
        have hp : 0 < Real.exp x - 1 := by linarith [Real.add_one_lt_exp h0.ne']
        rw [sub_eq_add_neg] at hp
        simp only [Flt.exp, Flt.sub, Flt.neg, Flt.add, Flt.log, if_pos hp, sub_eq_add_neg]
  refine ⟨?_, fun x hx => by rw [hx, hfin x], hninf⟩
  cases value with
  | fin x => rw [hfin]; trivial
  | nan => exact absurd rfl hn
  | pinf => exact absurd rfl hi
  | ninf => rw [hninf]; trivial

end Ondil
