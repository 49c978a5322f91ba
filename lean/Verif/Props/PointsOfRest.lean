import Verif.Props.MaximumLikelihood

/-!
# Points of rest that are not maximum likelihood estimates (C107)

For the mean of the inverse Gaussian and for location, scale and tail of Johnson's SU distribution the log likelihood is not concave
in the linear predictor.  For each of them two observations are given for which an iteration of the fitting algorithm rests at
coefficients that are not the most likely ones.
-/

open scoped BigOperators Topology

namespace Ondil

variable {so : ScipyOracles} {e : Elsewhere} {perm : ∀ J : ℕ, ℕ → ℕ → List (Fin J)} {other : MethodOps MethodState}

/-- Two observations of weight one with one feature and the same fitted parameters. -/
noncomputable def restRows (x₁ x₂ y₁ y₂ : ℝ) (θ : ℕ → ℝ) : List (FitRow fun _ => 1) :=
  [⟨fun _ _ => x₁, y₁, 1, fun j => .fin (θ j)⟩, ⟨fun _ _ => x₂, y₂, 1, fun j => .fin (θ j)⟩]

/-- The regression of distribution `d` on them, with its default links and the feature as the only column of every parameter. -/
noncomputable def restRowsCall (tiny ulp : ℝ) (so : ScipyOracles) (e : Elsewhere) (perm : ∀ J : ℕ, ℕ → ℕ → List (Fin J))
    (other : MethodOps MethodState) (d : Dist) (x₁ x₂ y₁ y₂ : ℝ) (θ : ℕ → ℝ) : Call MethodState 1 where
  D := d.ops tiny ulp so e d.defaultLinks
  M := packageMethods perm other
  cfg := normalConfig 10 5
  X := fun k => some ((restRows x₁ x₂ y₁ y₂ θ).map fun q => ofVec (q.x k))
  y := (restRows x₁ x₂ y₁ y₂ θ).map FitRow.y
  w := (restRows x₁ x₂ y₁ y₂ θ).map FitRow.w

/-- A state in the middle of a fit. -/
noncomputable def restRowsState (x₁ x₂ y₁ y₂ : ℝ) (θ : ℕ → ℝ) : GState MethodState 1 :=
  { scoringState 0 with
    forget := [(0, 0), (1, 0), (2, 0), (3, 0)]
    isRegularized := [(0, [false]), (1, [false]), (2, [false]), (3, [false])]
    stepSize := [(0, 1), (1, 1), (2, 1), (3, 1)]
    paramOrder := [0, 1, 2, 3]
    fv := (restRows x₁ x₂ y₁ y₂ θ).map FitRow.θ }

/-- If the two scores of parameter `k` cancel, the iteration for it rests at coefficient 0; if another coefficient is more likely,
it does not rest at a maximum. -/
theorem rests_but_worse (d : Dist) (L : LinkClass) (k : ℕ) (hk4 : k < 4) (hk : k < d.nParams) (hL : d.defaultLinks[k]? = some L)
    {tiny ulp : ℝ} (ht : 0 < tiny) (hu : 0 < ulp) {x₁ x₂ y₁ y₂ : ℝ} {θ : ℕ → ℝ} (hx : x₁ ≠ 0) (hy₁ : y₁ ∈ d.Responses) (hy₂ : y₂ ∈ d.Responses)
    (hrow : d.WorkRow tiny ulp L k fun j => .fin (θ j)) (h0 : L.link (θ k) = 0)
    (hscore : d.score θ k y₁ * x₁ + d.score θ k y₂ * x₂ = 0) (m : ℝ) (hm₁ : x₁ * m ∈ L.smoothPred) (hm₂ : x₂ * m ∈ L.smoothPred)
    (hlt : d.logLikEta L θ k y₁ 0 + d.logLikEta L θ k y₂ 0 < d.logLikEta L θ k y₁ (x₁ * m) + d.logLikEta L θ k y₂ (x₂ * m)) :
    ∃ (r : Inner × Bool) (t : GState MethodState 1) (o : IterOut),
      fitIteration (restRowsCall tiny ulp so e perm other d x₁ x₂ y₁ y₂ θ) k 1 0 5
        ⟨(restRows x₁ x₂ y₁ y₂ θ).map FitRow.θ, (restRows x₁ x₂ y₁ y₂ θ).map FitRow.θ, .nan, .nan, 0, false, none⟩
        (restRowsState x₁ x₂ y₁ y₂ θ) = (.ok r, t) ∧ r.1.out = some o ∧ o.beta = ofVec (0 : Row 1) ∧
      FittedValuesOf L k (restRows x₁ x₂ y₁ y₂ θ) (0 : Row 1) ∧
      d.logLik L k 0 (restRows x₁ x₂ y₁ y₂ θ) (0 : Row 1) < d.logLik L k 0 (restRows x₁ x₂ y₁ y₂ θ) (fun _ => m : Row 1) ∧
      ¬d.IsMaximumLikelihood L k 0 (restRows x₁ x₂ y₁ y₂ θ) (0 : Row 1) := by
  have hc : ScoringCall tiny ulp so e perm other d d.defaultLinks L k (restRowsCall tiny ulp so e perm other d x₁ x₂ y₁ y₂ θ)
      (restRows x₁ x₂ y₁ y₂ θ) :=
    { tinyPos := ht
      ulpPos := hu
      D := rfl
      M := rfl
      param := hk
      link := hL
      y := rfl
      w := rfl
      X := rfl
      cond := rfl
      ne := by simp [restRows]
      nonneg := by
        intro o ho
        simp only [restRows, List.map_cons, List.map_nil, List.mem_cons, List.not_mem_nil, or_false] at ho
        rcases ho with rfl | rfl <;> norm_num [FitRow.obs]
      rank := by
        intro v hv
        have := hv ⟨fun _ => x₁, y₁, 1⟩ (List.mem_map.2 ⟨_, List.mem_cons_self, rfl⟩) one_pos
        funext j
        simpa [linPred, Fin.eq_zero j, hx] using this
      rows := by
        intro q hq
        simp only [restRows, List.mem_cons, List.not_mem_nil, or_false] at hq
        rcases hq with rfl | rfl
        · exact ⟨hy₁, hrow⟩
        · exact ⟨hy₂, hrow⟩ }
  have hfv : FittedValuesOf L k (restRows x₁ x₂ y₁ y₂ θ) (0 : Row 1) := by
    intro q hq
    simp only [restRows, List.mem_cons, List.not_mem_nil, or_false] at hq
    rcases hq with rfl | rfl <;> exact h0.trans (by simp [linPred])
  have hadm : ∀ q ∈ restRows x₁ x₂ y₁ y₂ θ, d.Admissible (rowReal q.θ) := fun q hq =>
    Dist.admissible_of_inParameterSupport _ _ ht hu d _ (hc.rows q hq).2.support
  obtain ⟨r, t, o, b', h1, h2, h3, h4⟩ := C94_scoring_step hc (f := 0) zero_lt_one (itO := 1) (itI := 0) (sched := 5)
    (a := ⟨(restRows x₁ x₂ y₁ y₂ θ).map FitRow.θ, (restRows x₁ x₂ y₁ y₂ θ).map FitRow.θ, .nan, .nan, 0, false, none⟩)
    (s := restRowsState x₁ x₂ y₁ y₂ θ) (step := 1) (reg := [false])
    (by interval_cases k <;> norm_num [stepAt, stepSchedule, restRowsCall, normalConfig, restRowsState, scoringState] <;> rfl) rfl
    (by interval_cases k <;> rfl) (by interval_cases k <;> rfl) rfl
  have hst : IsStationary (d.logLik L k 0 (restRows x₁ x₂ y₁ y₂ θ)) (0 : Row 1) := fun v => by
    refine (logLik_derivative (f := 0) (k := k) hk (fun q hq => ⟨(hc.rows q hq).1, hadm q hq,
      (hc.rows q hq).2.workParam, (hc.rows q hq).2.smooth⟩) hfv v).congr_deriv ?_
    rw [discSum_forget_zero]
    have hr : rowReal (fun j => .fin (θ j)) = θ := rfl
    simp only [restRows, List.map_cons, List.map_nil, List.sum_cons, List.sum_nil, add_zero, one_mul, hr]
    simp only [linPred, Finset.univ_unique, Finset.sum_singleton]
    linear_combination L.inverseDerivative (L.link (θ k)) * v default * hscore
  have hlik : ∀ b : Row 1, d.logLik L k 0 (restRows x₁ x₂ y₁ y₂ θ) b =
      d.logLikEta L θ k y₁ (x₁ * b 0) + d.logLikEta L θ k y₂ (x₂ * b 0) := by
    intro b
    unfold Dist.logLik
    rw [discSum_forget_zero]
    have hr : rowReal (fun j => .fin (θ j)) = θ := rfl
    simp [restRows, linPred, hr]
  have hlt' : d.logLik L k 0 (restRows x₁ x₂ y₁ y₂ θ) (0 : Row 1) < d.logLik L k 0 (restRows x₁ x₂ y₁ y₂ θ) (fun _ => m : Row 1) := by
    rw [hlik, hlik]
    simpa using hlt
  refine ⟨r, t, o, h1, h2, ?_, hfv, hlt', fun hmax => ?_⟩
  · rw [h3, ((h4 0 hfv).1.2 hst)]
  · refine absurd (hmax (fun _ => m) ?_) (not_le.2 hlt')
    intro q hq
    simp only [restRows, List.mem_cons, List.not_mem_nil, or_false] at hq
    rcases hq with rfl | rfl
    · simpa [linPred] using hm₁
    · simpa [linPred] using hm₂

theorem log_link_one : LinkClass.log.link 1 = 0 := by
  change robustLog 1 = 0
  unfold robustLog smallNumber
  rw [if_pos (by norm_num), Real.log_one]

theorem log_work_one : (1 : ℝ) ∈ LinkClass.log.workParam := ⟨by norm_num, by norm_num⟩

theorem log_smooth_of_le {η : ℝ} (h : η ≤ 1) : η ∈ LinkClass.log.smoothPred := by
  change η < Real.log (10 ^ 15)
  refine lt_of_le_of_lt h ?_
  rw [Real.lt_log_iff_exp_lt (by norm_num)]
  exact lt_trans Real.exp_one_lt_d9 (by norm_num)

theorem log_two_le_one : Real.log 2 ≤ 1 := by linarith [Real.log_two_lt_d9]

/-- **C107 fails for the mean of the inverse Gaussian distribution.**  For the feature values 1 and -1, both responses 1/4 and scale 1
an iteration that starts at coefficient 0 stays there, though the coefficient `log 2` is more likely. -/
theorem C107_inverseGaussian_fails : ∃ (r : Inner × Bool) (t : GState MethodState 1) (o : IterOut),
    fitIteration (restRowsCall (1 / 10) (1 / 10) so e perm other .inverseGaussian 1 (-1) (1 / 4) (1 / 4) fun _ => 1) 0 1 0 5
      ⟨(restRows 1 (-1) (1 / 4) (1 / 4) fun _ => 1).map FitRow.θ, (restRows 1 (-1) (1 / 4) (1 / 4) fun _ => 1).map FitRow.θ, .nan, .nan, 0,
        false, none⟩ (restRowsState 1 (-1) (1 / 4) (1 / 4) fun _ => 1) = (.ok r, t) ∧ r.1.out = some o ∧ o.beta = ofVec (0 : Row 1) ∧
      FittedValuesOf .log 0 (restRows 1 (-1) (1 / 4) (1 / 4) fun _ => 1) (0 : Row 1) ∧
      Dist.inverseGaussian.logLik .log 0 0 (restRows 1 (-1) (1 / 4) (1 / 4) fun _ => 1) (0 : Row 1) <
        Dist.inverseGaussian.logLik .log 0 0 (restRows 1 (-1) (1 / 4) (1 / 4) fun _ => 1) (fun _ => Real.log 2 : Row 1) ∧
      ¬Dist.inverseGaussian.IsMaximumLikelihood .log 0 0 (restRows 1 (-1) (1 / 4) (1 / 4) fun _ => 1) (0 : Row 1) := by
  have hlik : ∀ η : ℝ, η ≤ 1 → Dist.inverseGaussian.logLikEta .log (fun _ => 1) 0 (1 / 4) η =
      Dist.inverseGaussianL (1 / 4) (Real.exp η) 1 := by
    intro η hη
    have hi := Dist.inverse_log_smooth (log_smooth_of_le hη)
    rw [Dist.logLikEta_eq (by change (0 : ℝ) < 1 / 4; norm_num) (by rw [hi]; exact ⟨by simp [Real.exp_pos], by simp⟩), hi]
    simp [Dist.logDensity]
  have hone : (((1 / 10 : ℝ) : ℝ) : EReal) ≤ ((1 : ℝ) : EReal) := EReal.coe_le_coe_iff.mpr (by norm_num)
  have hl2 := log_two_le_one
  have hl0 : 0 < Real.log 2 := Real.log_pos one_lt_two
  refine rests_but_worse (θ := fun _ => 1) .inverseGaussian .log 0 (by norm_num) (by norm_num [Dist.nParams]) rfl (by norm_num) (by norm_num) one_ne_zero
    (by change (0 : ℝ) < 1 / 4; norm_num) (by change (0 : ℝ) < 1 / 4; norm_num) ⟨fun _ _ => rfl, ?_, ⟨hone, le_top⟩, log_work_one, ?_⟩
    log_link_one (by ring) (Real.log 2) (log_smooth_of_le (by linarith)) (log_smooth_of_le (by linarith)) ?_
  · intro i sup hs
    have hs' : [Dist.positives (1 / 10), Dist.positives (1 / 10)][i]? = some sup := hs
    match i, hs' with
    | 0, h => cases h; exact ⟨hone, le_top⟩
    | 1, h => cases h; exact ⟨hone, le_top⟩
  · change LinkClass.log.link 1 ∈ _
    rw [log_link_one]
    exact log_smooth_of_le zero_le_one
  · rw [hlik _ zero_le_one, hlik _ (by linarith), hlik _ (by linarith)]
    unfold Dist.inverseGaussianL
    rw [one_mul, neg_one_mul, Real.exp_zero, Real.exp_neg, Real.exp_log two_pos]
    norm_num
    linarith

/-- The parameters of Johnson's SU distribution with location 0, scale 1, skewness `ν` and tail 1. -/
noncomputable def jsuAt (ν : ℝ) : ℕ → ℝ := fun j => if j = 0 then 0 else if j = 2 then ν else 1

theorem jsuAt_support (b : Bool) (ν : ℝ) : (Dist.jsu b).InParameterSupport (1 / 10) (1 / 10) (jsuAt ν) := by
  have hone : (((1 / 10 : ℝ) : ℝ) : EReal) ≤ ((1 : ℝ) : EReal) := EReal.coe_le_coe_iff.mpr (by norm_num)
  intro i sup hs
  have hs' : [Dist.allReals, Dist.positives (1 / 10), Dist.allReals, Dist.positives (1 / 10)][i]? = some sup := hs
  match i, hs' with
  | 0, h => cases h; exact ⟨bot_le, le_top⟩
  | 1, h =>
    cases h
    exact ⟨by change _ ≤ ((jsuAt ν 1 : ℝ) : EReal); rw [show jsuAt ν 1 = 1 by simp [jsuAt]]; exact hone, le_top⟩
  | 2, h => cases h; exact ⟨bot_le, le_top⟩
  | 3, h =>
    cases h
    exact ⟨by change _ ≤ ((jsuAt ν 3 : ℝ) : EReal); rw [show jsuAt ν 3 = 1 by simp [jsuAt]]; exact hone, le_top⟩

/-- **C107 fails for the location of Johnson's SU distribution.**  For the responses 10 and -10, scale 1, skewness 0 and tail 1, intercepts
only, an iteration that starts at location 0 stays there, though location 10 is more likely. -/
theorem C107_johnson_location_fails (b : Bool) : ∃ (r : Inner × Bool) (t : GState MethodState 1) (o : IterOut),
    fitIteration (restRowsCall (1 / 10) (1 / 10) so e perm other (.jsu b) 1 1 10 (-10) (jsuAt 0)) 0 1 0 5
      ⟨(restRows 1 1 10 (-10) (jsuAt 0)).map FitRow.θ, (restRows 1 1 10 (-10) (jsuAt 0)).map FitRow.θ, .nan, .nan, 0, false, none⟩
      (restRowsState 1 1 10 (-10) (jsuAt 0)) = (.ok r, t) ∧ r.1.out = some o ∧ o.beta = ofVec (0 : Row 1) ∧
      FittedValuesOf .identity 0 (restRows 1 1 10 (-10) (jsuAt 0)) (0 : Row 1) ∧
      (Dist.jsu b).logLik .identity 0 0 (restRows 1 1 10 (-10) (jsuAt 0)) (0 : Row 1) <
        (Dist.jsu b).logLik .identity 0 0 (restRows 1 1 10 (-10) (jsuAt 0)) (fun _ => 10 : Row 1) ∧
      ¬(Dist.jsu b).IsMaximumLikelihood .identity 0 0 (restRows 1 1 10 (-10) (jsuAt 0)) (0 : Row 1) := by
  have hlik : ∀ y η : ℝ, (Dist.jsu b).logLikEta .identity (jsuAt 0) 0 y η = Dist.jsuL y η 1 0 1 := by
    intro y η
    rw [Dist.logLikEta_eq (Set.mem_univ _) (by norm_num [Dist.Admissible, Function.update, jsuAt]), Dist.inverse_identity_smooth]
    simp [Dist.logDensity, Function.update, jsuAt]
  refine rests_but_worse (θ := jsuAt 0) (.jsu b) .identity 0 (by norm_num) (by norm_num [Dist.nParams]) rfl (by norm_num) (by norm_num) one_ne_zero (Set.mem_univ _) (Set.mem_univ _)
    ⟨fun _ _ => rfl, jsuAt_support b 0, ⟨bot_le, le_top⟩, trivial, trivial⟩ rfl ?_ 10 trivial trivial ?_
  · norm_num [Dist.score, Dist.dl1, Dist.checked, Dist.validateIndex, Dist.chain, returned, bind, Except.bind, jsuAt, Dist.jsuScore]
    ring
  · rw [hlik, hlik, hlik, hlik]
    unfold Dist.jsuL
    have h20 : 3 * Real.arsinh 20 ≤ 4 * Real.arsinh 10 := by
      have e1 : Real.sqrt (1 + 20 ^ 2) ≤ 21 := Real.sqrt_le_iff.2 ⟨by norm_num, by norm_num⟩
      have e2 : (10 : ℝ) ≤ Real.sqrt (1 + 10 ^ 2) := Real.le_sqrt_of_sq_le (by norm_num)
      unfold Real.arsinh
      have a1 : Real.log (20 + Real.sqrt (1 + 20 ^ 2)) ≤ Real.log 41 :=
        Real.log_le_log (by positivity) (by linarith)
      have a2 : Real.log 20 ≤ Real.log (10 + Real.sqrt (1 + 10 ^ 2)) := Real.log_le_log (by norm_num) (by linarith)
      have a3 : 3 * Real.log 41 ≤ 4 * Real.log 20 := by
        have := Real.log_le_log (by norm_num) (show ((41 : ℝ) ^ 3) ≤ 20 ^ 4 by norm_num)
        rw [Real.log_pow, Real.log_pow] at this
        exact_mod_cast this
      linarith
    have hlog : Real.log 401 ≤ 2 * Real.log 101 := by
      have := Real.log_le_log (by norm_num) (show (401 : ℝ) ≤ 101 ^ 2 by norm_num)
      rwa [Real.log_pow] at this
    have hpos : 0 < Real.arsinh 10 := Real.arsinh_pos_iff.2 (by norm_num)
    have hpos' : 0 < Real.arsinh 20 := Real.arsinh_pos_iff.2 (by norm_num)
    norm_num [Real.arsinh_neg]
    nlinarith

/-- **C107 fails for the tail of Johnson's SU distribution.**  For the feature values 1 and -1, both responses 1, location 0, scale 1 and
skewness -4, an iteration that starts at coefficient 0 (tail 1) stays there, though the coefficient `log 2` is more likely. -/
theorem C107_johnson_tail_fails (b : Bool) : ∃ (r : Inner × Bool) (t : GState MethodState 1) (o : IterOut),
    fitIteration (restRowsCall (1 / 10) (1 / 10) so e perm other (.jsu b) 1 (-1) 1 1 (jsuAt (-4))) 3 1 0 5
      ⟨(restRows 1 (-1) 1 1 (jsuAt (-4))).map FitRow.θ, (restRows 1 (-1) 1 1 (jsuAt (-4))).map FitRow.θ, .nan, .nan, 0, false, none⟩
      (restRowsState 1 (-1) 1 1 (jsuAt (-4))) = (.ok r, t) ∧ r.1.out = some o ∧ o.beta = ofVec (0 : Row 1) ∧
      FittedValuesOf .log 3 (restRows 1 (-1) 1 1 (jsuAt (-4))) (0 : Row 1) ∧
      (Dist.jsu b).logLik .log 3 0 (restRows 1 (-1) 1 1 (jsuAt (-4))) (0 : Row 1) <
        (Dist.jsu b).logLik .log 3 0 (restRows 1 (-1) 1 1 (jsuAt (-4))) (fun _ => Real.log 2 : Row 1) ∧
      ¬(Dist.jsu b).IsMaximumLikelihood .log 3 0 (restRows 1 (-1) 1 1 (jsuAt (-4))) (0 : Row 1) := by
  have hlik : ∀ η : ℝ, η ≤ 1 → (Dist.jsu b).logLikEta .log (jsuAt (-4)) 3 1 η = Dist.jsuL 1 0 1 (-4) (Real.exp η) := by
    intro η hη
    have hi := Dist.inverse_log_smooth (log_smooth_of_le hη)
    rw [Dist.logLikEta_eq (Set.mem_univ _) (by rw [hi]; exact ⟨by simp [jsuAt], by simp [Real.exp_pos]⟩), hi]
    simp [Dist.logDensity, Function.update, jsuAt]
  have hone : (((1 / 10 : ℝ) : ℝ) : EReal) ≤ ((1 : ℝ) : EReal) := EReal.coe_le_coe_iff.mpr (by norm_num)
  have hl2 := log_two_le_one
  have hl0 : 0 < Real.log 2 := Real.log_pos one_lt_two
  have hat : jsuAt (-4) 3 = 1 := by simp [jsuAt]
  refine rests_but_worse (θ := jsuAt (-4)) (.jsu b) .log 3 (by norm_num) (by norm_num [Dist.nParams]) rfl (by norm_num) (by norm_num) one_ne_zero (Set.mem_univ _) (Set.mem_univ _)
    ⟨fun _ _ => rfl, jsuAt_support b (-4), ?_, ?_, ?_⟩ (by rw [hat]; exact log_link_one) (by ring) (Real.log 2)
    (log_smooth_of_le (by linarith)) (log_smooth_of_le (by linarith)) ?_
  · change _ ≤ ((jsuAt (-4) 3 : ℝ) : EReal) ∧ _
    rw [hat]
    exact ⟨hone, le_top⟩
  · change jsuAt (-4) 3 ∈ _
    rw [hat]
    exact log_work_one
  · change LinkClass.log.link (jsuAt (-4) 3) ∈ _
    rw [hat, log_link_one]
    exact log_smooth_of_le zero_le_one
  · rw [hlik _ zero_le_one, hlik _ (by linarith), hlik _ (by linarith)]
    unfold Dist.jsuL
    have hpos : 0 < Real.arsinh 1 := Real.arsinh_pos_iff.2 (by norm_num)
    have hle : Real.arsinh 1 ≤ 1 := by
      have e1 : Real.sqrt (1 + 1 ^ 2) ≤ 3 / 2 := Real.sqrt_le_iff.2 ⟨by norm_num, by norm_num⟩
      have e2 : (5 / 2 : ℝ) ≤ Real.exp 1 := le_trans (by norm_num) Real.exp_one_gt_d9.le
      unfold Real.arsinh
      rw [Real.log_le_iff_le_exp (by positivity)]
      exact (add_le_add_right e1 1).trans (le_trans (by norm_num) e2)
    have hln : Real.log (2⁻¹ : ℝ) = -Real.log 2 := Real.log_inv 2
    rw [one_mul, neg_one_mul, Real.exp_zero, Real.exp_neg, Real.exp_log two_pos, hln, Real.log_one]
    norm_num
    nlinarith

/-- **C107 fails for the scale of Johnson's SU distribution.**  For the feature values 1 and -1, both responses 1, location 0, tail 1 and
skewness -100, an iteration that starts at coefficient 0 (scale 1) stays there, though the coefficient `log 2` is more likely. -/
theorem C107_johnson_scale_fails (b : Bool) : ∃ (r : Inner × Bool) (t : GState MethodState 1) (o : IterOut),
    fitIteration (restRowsCall (1 / 10) (1 / 10) so e perm other (.jsu b) 1 (-1) 1 1 (jsuAt (-100))) 1 1 0 5
      ⟨(restRows 1 (-1) 1 1 (jsuAt (-100))).map FitRow.θ, (restRows 1 (-1) 1 1 (jsuAt (-100))).map FitRow.θ, .nan, .nan, 0, false, none⟩
      (restRowsState 1 (-1) 1 1 (jsuAt (-100))) = (.ok r, t) ∧ r.1.out = some o ∧ o.beta = ofVec (0 : Row 1) ∧
      FittedValuesOf .log 1 (restRows 1 (-1) 1 1 (jsuAt (-100))) (0 : Row 1) ∧
      (Dist.jsu b).logLik .log 1 0 (restRows 1 (-1) 1 1 (jsuAt (-100))) (0 : Row 1) <
        (Dist.jsu b).logLik .log 1 0 (restRows 1 (-1) 1 1 (jsuAt (-100))) (fun _ => Real.log 2 : Row 1) ∧
      ¬(Dist.jsu b).IsMaximumLikelihood .log 1 0 (restRows 1 (-1) 1 1 (jsuAt (-100))) (0 : Row 1) := by
  have hlik : ∀ η : ℝ, η ≤ 1 → (Dist.jsu b).logLikEta .log (jsuAt (-100)) 1 1 η = Dist.jsuL 1 0 (Real.exp η) (-100) 1 := by
    intro η hη
    have hi := Dist.inverse_log_smooth (log_smooth_of_le hη)
    rw [Dist.logLikEta_eq (Set.mem_univ _) (by rw [hi]; exact ⟨by simp [Real.exp_pos], by simp [jsuAt]⟩), hi]
    simp [Dist.logDensity, Function.update, jsuAt]
  have hone : (((1 / 10 : ℝ) : ℝ) : EReal) ≤ ((1 : ℝ) : EReal) := EReal.coe_le_coe_iff.mpr (by norm_num)
  have hl2 := log_two_le_one
  have hl0 : 0 < Real.log 2 := Real.log_pos one_lt_two
  have hat : jsuAt (-100) 1 = 1 := by simp [jsuAt]
  refine rests_but_worse (θ := jsuAt (-100)) (.jsu b) .log 1 (by norm_num) (by norm_num [Dist.nParams]) rfl (by norm_num) (by norm_num) one_ne_zero (Set.mem_univ _) (Set.mem_univ _)
    ⟨fun _ _ => rfl, jsuAt_support b (-100), ?_, ?_, ?_⟩ (by rw [hat]; exact log_link_one) (by ring) (Real.log 2)
    (log_smooth_of_le (by linarith)) (log_smooth_of_le (by linarith)) ?_
  · change _ ≤ ((jsuAt (-100) 1 : ℝ) : EReal) ∧ _
    rw [hat]
    exact ⟨hone, le_top⟩
  · change jsuAt (-100) 1 ∈ _
    rw [hat]
    exact log_work_one
  · change LinkClass.log.link (jsuAt (-100) 1) ∈ _
    rw [hat, log_link_one]
    exact log_smooth_of_le zero_le_one
  · rw [hlik _ zero_le_one, hlik _ (by linarith), hlik _ (by linarith)]
    unfold Dist.jsuL
    have hln : Real.log (2⁻¹ : ℝ) = -Real.log 2 := Real.log_inv 2
    have hsum : 2 * Real.arsinh 1 + 1 / 10 ≤ Real.arsinh (1 / 2) + Real.arsinh 2 := by
      have s5 : (11 / 5 : ℝ) ≤ Real.sqrt 5 := Real.le_sqrt_of_sq_le (by norm_num)
      have s2 : Real.sqrt 2 ≤ 3 / 2 := Real.sqrt_le_iff.2 ⟨by norm_num, by norm_num⟩
      have h5 : Real.sqrt 5 ^ 2 = 5 := Real.sq_sqrt (by norm_num)
      have h2 : Real.sqrt 2 ^ 2 = 2 := Real.sq_sqrt (by norm_num)
      have r1 : Real.sqrt (1 + (1 / 2) ^ 2) = Real.sqrt 5 / 2 := by
        have q : (Real.sqrt 5 / 2) ^ 2 = 5 / 4 := by rw [div_pow, h5]; norm_num
        rw [show (1 + (1 / 2) ^ 2 : ℝ) = 5 / 4 by norm_num, ← q]
        exact Real.sqrt_sq (by positivity)
      unfold Real.arsinh
      rw [r1, show (1 + 2 ^ 2 : ℝ) = 5 by norm_num, show (1 + 1 ^ 2 : ℝ) = 2 by norm_num]
      have p2 : (0 : ℝ) < 1 + Real.sqrt 2 := by positivity
      have k1 : Real.log (1 / 2 + Real.sqrt 5 / 2) + Real.log (2 + Real.sqrt 5) =
          Real.log ((1 / 2 + Real.sqrt 5 / 2) * (2 + Real.sqrt 5)) := (Real.log_mul (by positivity) (by positivity)).symm
      have k2 : 2 * Real.log (1 + Real.sqrt 2) = Real.log ((1 + Real.sqrt 2) ^ 2) := by rw [Real.log_pow]; norm_num
      have k3 : 1 / 10 ≤ Real.log (((1 / 2 + Real.sqrt 5 / 2) * (2 + Real.sqrt 5)) / (1 + Real.sqrt 2) ^ 2) := by
        have q : (10 / 9 : ℝ) ≤ ((1 / 2 + Real.sqrt 5 / 2) * (2 + Real.sqrt 5)) / (1 + Real.sqrt 2) ^ 2 := by
          rw [le_div_iff₀ (by positivity)]
          nlinarith
        have := Real.one_sub_inv_le_log_of_pos (show (0 : ℝ) < 10 / 9 by norm_num)
        have := Real.log_le_log (by norm_num) q
        norm_num at *
        linarith
      rw [Real.log_div (by positivity) (by positivity)] at k3
      linarith
    have b1 : 0 < Real.arsinh 1 := Real.arsinh_pos_iff.2 (by norm_num)
    have b2 : Real.arsinh (1 / 2) ≤ Real.arsinh 1 := Real.arsinh_le_arsinh.2 (by norm_num)
    have b3 : 0 < Real.arsinh 2 := Real.arsinh_pos_iff.2 (by norm_num)
    have b5 : 0 < Real.arsinh (1 / 2) := Real.arsinh_pos_iff.2 (by norm_num)
    have b4 : Real.arsinh 2 ≤ 2 := by
      have e1 : Real.sqrt (1 + 2 ^ 2) ≤ 5 / 2 := Real.sqrt_le_iff.2 ⟨by norm_num, by norm_num⟩
      unfold Real.arsinh
      rw [Real.log_le_iff_le_exp (by positivity)]
      have h1 : (5 / 2 : ℝ) ≤ Real.exp 1 := le_trans (by norm_num) Real.exp_one_gt_d9.le
      have h2 : Real.exp 2 = Real.exp 1 * Real.exp 1 := by rw [← Real.exp_add]; norm_num
      have h3 : (5 / 2 : ℝ) * (5 / 2) ≤ Real.exp 1 * Real.exp 1 := mul_le_mul h1 h1 (by norm_num) (by linarith)
      rw [h2]
      exact (add_le_add_right e1 2).trans (le_trans (by norm_num) h3)
    have l1 : Real.log (5 / 4) ≤ 1 := (Real.log_le_sub_one_of_pos (by norm_num)).trans (by norm_num)
    have l2 : Real.log 5 ≤ 4 := (Real.log_le_sub_one_of_pos (by norm_num)).trans (by norm_num)
    have x1 : Real.exp (1 * Real.log 2) = 2 := by rw [one_mul, Real.exp_log two_pos]
    have x2 : Real.exp (-1 * Real.log 2) = 1 / 2 := by rw [neg_one_mul, Real.exp_neg, Real.exp_log two_pos, one_div]
    have x3 : Real.log (1 / 2 : ℝ) = -Real.log 2 := by rw [one_div, Real.log_inv]
    rw [x1, x2, x3, Real.exp_zero, Real.log_one]
    generalize Real.log (Real.sqrt (2 * Real.pi)) = C
    rw [show ((1 - 0) / 1 : ℝ) = 1 by norm_num, show ((1 - 0) / 2 : ℝ) = 1 / 2 by norm_num, show ((1 - 0) / (1 / 2) : ℝ) = 2 by norm_num,
      show ((1 / 2) ^ 2 + 1 : ℝ) = 5 / 4 by norm_num, show (2 ^ 2 + 1 : ℝ) = 5 by norm_num, show (1 ^ 2 + 1 : ℝ) = 2 by norm_num]
    nlinarith

/-! ### Beta distributions -/

/-- The beta distribution and the two inflated ones. -/
def BetaClass (d : Dist) : Prop := d = .beta ∨ d = .betaInflated ∨ d = .betaInflatedZero

/-- Mean `m`, scale `s`, inflation parameters 1. -/
noncomputable def betaAt (m s : ℝ) : ℕ → ℝ := fun j => if j = 0 then m else if j = 1 then s else 1

theorem betaAt_support {d : Dist} (hd : BetaClass d) {tiny ulp m s : ℝ} (hm : tiny ≤ m ∧ m ≤ 1 - ulp) (hs : tiny ≤ s ∧ s ≤ 1 - ulp)
    (hu : 0 < ulp) : d.InParameterSupport tiny ulp (betaAt m s) := by
  have h0 : betaAt m s 0 = m := by simp [betaAt]
  have h1 : betaAt m s 1 = s := by simp [betaAt]
  have h2 : betaAt m s 2 = 1 := by simp [betaAt]
  have h3 : betaAt m s 3 = 1 := by simp [betaAt]
  have g0 : (Dist.unitOpen tiny ulp).1 ≤ ((betaAt m s 0 : ℝ) : EReal) ∧ ((betaAt m s 0 : ℝ) : EReal) ≤ (Dist.unitOpen tiny ulp).2 := by
    rw [h0]
    exact ⟨EReal.coe_le_coe_iff.mpr hm.1, EReal.coe_le_coe_iff.mpr hm.2⟩
  have g1 : (Dist.unitOpen tiny ulp).1 ≤ ((betaAt m s 1 : ℝ) : EReal) ∧ ((betaAt m s 1 : ℝ) : EReal) ≤ (Dist.unitOpen tiny ulp).2 := by
    rw [h1]
    exact ⟨EReal.coe_le_coe_iff.mpr hs.1, EReal.coe_le_coe_iff.mpr hs.2⟩
  have ht : tiny ≤ 1 := by linarith
  have g2 : (Dist.positives tiny).1 ≤ ((betaAt m s 2 : ℝ) : EReal) ∧ ((betaAt m s 2 : ℝ) : EReal) ≤ (Dist.positives tiny).2 := by
    rw [h2]
    exact ⟨EReal.coe_le_coe_iff.mpr ht, le_top⟩
  have g3 : (Dist.positives tiny).1 ≤ ((betaAt m s 3 : ℝ) : EReal) ∧ ((betaAt m s 3 : ℝ) : EReal) ≤ (Dist.positives tiny).2 := by
    rw [h3]
    exact ⟨EReal.coe_le_coe_iff.mpr ht, le_top⟩
  intro i sup hi
  rcases hd with rfl | rfl | rfl
  · have hi' : [Dist.unitOpen tiny ulp, Dist.unitOpen tiny ulp][i]? = some sup := hi
    match i, hi' with
    | 0, h => cases h; exact g0
    | 1, h => cases h; exact g1
  · have hi' : [Dist.unitOpen tiny ulp, Dist.unitOpen tiny ulp, Dist.positives tiny, Dist.positives tiny][i]? = some sup := hi
    match i, hi' with
    | 0, h => cases h; exact g0
    | 1, h => cases h; exact g1
    | 2, h => cases h; exact g2
    | 3, h => cases h; exact g3
  · have hi' : [Dist.unitOpen tiny ulp, Dist.unitOpen tiny ulp, Dist.positives tiny][i]? = some sup := hi
    match i, hi' with
    | 0, h => cases h; exact g0
    | 1, h => cases h; exact g1
    | 2, h => cases h; exact g2

theorem beta_response {d : Dist} (hd : BetaClass d) {y : ℝ} (hy : 0 < y ∧ y < 1) : y ∈ d.Responses := by
  rcases hd with rfl | rfl | rfl
  · exact hy
  · exact ⟨hy.1.le, hy.2.le⟩
  · exact ⟨hy.1.le, hy.2⟩

/-- The log density inside the unit interval, up to the same constant for all parameters. -/
theorem beta_logLik {d : Dist} (hd : BetaClass d) : ∃ C : ℝ, ∀ y m s : ℝ, 0 < y ∧ y < 1 → 0 < m ∧ m < 1 → 0 < s ∧ s < 1 →
    d.Admissible (betaAt m s) ∧ d.logDensity y (betaAt m s) = Dist.betaL y m s - C := by
  rcases hd with rfl | rfl | rfl
  · exact ⟨0, fun y m s _ hm hs => ⟨⟨by simpa [betaAt] using hm, by simpa [betaAt] using hs⟩, by simp [Dist.logDensity, betaAt]⟩⟩
  · exact ⟨Real.log (1 + 1 + 1), fun y m s hy hm hs => ⟨⟨by simpa [betaAt] using hm, by simpa [betaAt] using hs, by simp [betaAt],
      by simp [betaAt]⟩, by simp [Dist.logDensity, betaAt, hy.1.ne', hy.2.ne]⟩⟩
  · exact ⟨Real.log (1 + 1), fun y m s hy hm hs => ⟨⟨by simpa [betaAt] using hm, by simpa [betaAt] using hs, by simp [betaAt]⟩,
      by simp [Dist.logDensity, betaAt, hy.1.ne']⟩⟩

theorem logit_link_half : LinkClass.logit.link (1 / 2) = 0 := by
  change robustLog (1 / 2 / (1 - 1 / 2)) = 0
  unfold robustLog smallNumber
  rw [if_pos (by norm_num)]
  norm_num

theorem logit_work_half : (1 / 2 : ℝ) ∈ LinkClass.logit.workParam := ⟨by norm_num, by norm_num, by norm_num, by norm_num⟩

theorem logit_smooth_of_le {η : ℝ} (h : η ≤ 1) : η ∈ LinkClass.logit.smoothPred := log_smooth_of_le h

/-- `logit⁻¹ (log q)`. -/
theorem logit_inverse_log {q : ℝ} (hq : 0 < q) (h1 : q ≤ 2) : LinkClass.logit.inverse (Real.log q) - LinkClass.logit.offset = q / (q + 1) := by
  rw [Dist.inverse_logit_smooth (logit_smooth_of_le ((Real.log_le_log hq h1).trans log_two_le_one)), Real.exp_log hq]

theorem betaAt_update_mean (m m' s : ℝ) : Function.update (betaAt m s) 0 m' = betaAt m' s := by
  funext j
  by_cases h : j = 0
  · subst h; simp [betaAt]
  · simp [betaAt, h]

theorem betaAt_update_scale (m s s' : ℝ) : Function.update (betaAt m s) 1 s' = betaAt m s' := by
  funext j
  by_cases h : j = 1
  · subst h; simp [betaAt]
  · simp [betaAt, h]

theorem beta_workRow {d : Dist} (hd : BetaClass d) {tiny ulp m s : ℝ} (hm : tiny ≤ m ∧ m ≤ 1 - ulp) (hs : tiny ≤ s ∧ s ≤ 1 - ulp)
    (hu : 0 < ulp) {k : ℕ} (hk : betaAt m s k = 1 / 2) (hh : tiny ≤ 1 / 2 ∧ (1 / 2 : ℝ) ≤ 1 - ulp) :
    d.WorkRow tiny ulp .logit k fun j => .fin (betaAt m s j) := by
  refine ⟨fun _ _ => rfl, betaAt_support hd hm hs hu, ?_, ?_, ?_⟩
  · change _ ≤ ((betaAt m s k : ℝ) : EReal) ∧ ((betaAt m s k : ℝ) : EReal) ≤ _
    rw [hk]
    exact ⟨EReal.coe_le_coe_iff.mpr hh.1, EReal.coe_le_coe_iff.mpr hh.2⟩
  · change betaAt m s k ∈ _
    rw [hk]
    exact logit_work_half
  · change LinkClass.logit.link (betaAt m s k) ∈ _
    rw [hk, logit_link_half]
    exact logit_smooth_of_le zero_le_one

/-- A response in the unit interval with any given logit. -/
theorem exists_logit (l : ℝ) : ∃ y : ℝ, (0 < y ∧ y < 1) ∧ Real.log y - Real.log (1 - y) = l := by
  have he := Real.exp_pos l
  refine ⟨Real.exp l / (Real.exp l + 1), ⟨by positivity, by rw [div_lt_one (by positivity)]; linarith⟩, ?_⟩
  rw [show 1 - Real.exp l / (Real.exp l + 1) = 1 / (Real.exp l + 1) by field_simp; ring, Real.log_div he.ne' (by positivity),
    Real.log_div one_ne_zero (by positivity), Real.log_exp, Real.log_one]
  ring

/-- **C107 fails for the mean of the beta distributions.**  There are two responses, with feature values 1 and 2, scale 1/2 and
inflation parameters 1, for which an iteration that starts at coefficient 0 (mean 1/2) stays there, though the coefficient `-log 2` is more
likely. -/
theorem C107_beta_mean_fails {d : Dist} (hd : BetaClass d) {tiny ulp : ℝ} (ht : 0 < tiny) (ht' : tiny ≤ 1 / 2) (hu : 0 < ulp)
    (hu' : ulp ≤ 1 / 2) : ∃ (y₁ y₂ : ℝ) (r : Inner × Bool) (t : GState MethodState 1) (o : IterOut), (0 < y₁ ∧ y₁ < 1) ∧ (0 < y₂ ∧ y₂ < 1) ∧
      fitIteration (restRowsCall tiny ulp so e perm other d 1 2 y₁ y₂ (betaAt (1 / 2) (1 / 2))) 0 1 0 5
        ⟨(restRows 1 2 y₁ y₂ (betaAt (1 / 2) (1 / 2))).map FitRow.θ, (restRows 1 2 y₁ y₂ (betaAt (1 / 2) (1 / 2))).map FitRow.θ, .nan, .nan, 0,
          false, none⟩ (restRowsState 1 2 y₁ y₂ (betaAt (1 / 2) (1 / 2))) = (.ok r, t) ∧ r.1.out = some o ∧ o.beta = ofVec (0 : Row 1) ∧
      FittedValuesOf .logit 0 (restRows 1 2 y₁ y₂ (betaAt (1 / 2) (1 / 2))) (0 : Row 1) ∧
      d.logLik .logit 0 0 (restRows 1 2 y₁ y₂ (betaAt (1 / 2) (1 / 2))) (0 : Row 1) <
        d.logLik .logit 0 0 (restRows 1 2 y₁ y₂ (betaAt (1 / 2) (1 / 2))) (fun _ => -Real.log 2 : Row 1) ∧
      ¬d.IsMaximumLikelihood .logit 0 0 (restRows 1 2 y₁ y₂ (betaAt (1 / 2) (1 / 2))) (0 : Row 1) := by
  let g : ℝ → ℝ := fun m => -logGamma (3 * m) - logGamma (3 * (1 - m))
  let K : ℝ := 10 * (2 * g (1 / 2) - g (1 / 3) - g (1 / 5) + 1)
  obtain ⟨y₁, hy₁, e₁⟩ := exists_logit (-2 * K)
  obtain ⟨y₂, hy₂, e₂⟩ := exists_logit K
  obtain ⟨C, hC⟩ := beta_logLik hd
  have hlik : ∀ y q : ℝ, 0 < y ∧ y < 1 → 0 < q → q ≤ 2 → d.logLikEta .logit (betaAt (1 / 2) (1 / 2)) 0 y (Real.log q) =
      3 * (q / (q + 1)) * (Real.log y - Real.log (1 - y)) + g (q / (q + 1)) +
        (logGamma 3 - Real.log y + 2 * Real.log (1 - y) - C) := by
    intro y q hy hq hq2
    have hi := logit_inverse_log hq hq2
    have hm : 0 < q / (q + 1) ∧ q / (q + 1) < 1 := ⟨by positivity, by rw [div_lt_one (by positivity)]; linarith⟩
    obtain ⟨a1, a2⟩ := hC y (q / (q + 1)) (1 / 2) hy hm ⟨by norm_num, by norm_num⟩
    rw [Dist.logLikEta_eq (beta_response hd hy) (by rw [hi, betaAt_update_mean]; exact a1), hi, betaAt_update_mean, a2]
    generalize q / (q + 1) = m
    have hA : Dist.betaA m (1 / 2) = 3 * m := by unfold Dist.betaA; norm_num; ring
    have hB : Dist.betaB m (1 / 2) = 3 * (1 - m) := by unfold Dist.betaB; norm_num; ring
    unfold Dist.betaL
    rw [hA, hB, show 3 * m + 3 * (1 - m) = 3 by ring]
    simp only [g]
    ring
  have hscore : ∀ y : ℝ, 0 < y ∧ y < 1 → d.score (betaAt (1 / 2) (1 / 2)) 0 y = 3 * (Real.log y - Real.log (1 - y)) := by
    intro y hy
    have hAB : Dist.betaA (1 / 2) (1 / 2) = Dist.betaB (1 / 2) (1 / 2) := by unfold Dist.betaA Dist.betaB; norm_num
    have h3 : (1 - (1 / 2 : ℝ) ^ 2) / (1 / 2) ^ 2 = 3 := by norm_num
    obtain ⟨r, hs⟩ : ∃ r, Dist.betaScore y (1 / 2) (1 / 2) = [3 * (Real.log y - Real.log (1 - y)), r] := by
      have hfirst : (1 - (1 / 2 : ℝ) ^ 2) / (1 / 2) ^ 2 * (-digamma (Dist.betaA (1 / 2) (1 / 2)) + digamma (Dist.betaB (1 / 2) (1 / 2)) +
          Real.log y - Real.log (1 - y)) = 3 * (Real.log y - Real.log (1 - y)) := by
        rw [h3, hAB]
        ring
      exact ⟨_, by rw [← hfirst]; rfl⟩
    have h0 : betaAt (1 / 2) (1 / 2) 0 = 1 / 2 := by simp [betaAt]
    have h1 : betaAt (1 / 2) (1 / 2) 1 = 1 / 2 := by simp [betaAt]
    rcases hd with rfl | rfl | rfl
    · simp only [Dist.score, Dist.dl1, h0, h1]
      rw [hs]
      rfl
    · simp only [Dist.score, Dist.dl1, Dist.betaInflatedScore, h0, h1]
      rw [hs]
      simp [Dist.checked, Dist.validateIndex, Dist.chain, returned, bind, Except.bind, hy.1.ne', hy.2.ne]
    · simp only [Dist.score, Dist.dl1, Dist.betaInflatedZeroScore, h0, h1]
      rw [hs]
      simp [Dist.checked, Dist.validateIndex, Dist.chain, returned, bind, Except.bind, hy.1.ne']
  have hh : betaAt (1 / 2) (1 / 2) 0 = 1 / 2 := by simp [betaAt]
  have hl0 : 0 < Real.log 2 := Real.log_pos one_lt_two
  have hb : tiny ≤ 1 / 2 ∧ (1 / 2 : ℝ) ≤ 1 - ulp := ⟨ht', by linarith⟩
  have hn : 0 < d.nParams := by rcases hd with rfl | rfl | rfl <;> norm_num [Dist.nParams]
  have hL : d.defaultLinks[0]? = some .logit := by rcases hd with rfl | rfl | rfl <;> rfl
  have hcmp : d.logLikEta .logit (betaAt (1 / 2) (1 / 2)) 0 y₁ 0 + d.logLikEta .logit (betaAt (1 / 2) (1 / 2)) 0 y₂ 0 <
      d.logLikEta .logit (betaAt (1 / 2) (1 / 2)) 0 y₁ (1 * -Real.log 2) +
        d.logLikEta .logit (betaAt (1 / 2) (1 / 2)) 0 y₂ (2 * -Real.log 2) := by
    have l1 : (0 : ℝ) = Real.log 1 := Real.log_one.symm
    have l2 : 1 * -Real.log 2 = Real.log (1 / 2) := by rw [one_mul, one_div, Real.log_inv]
    have l4 : 2 * -Real.log 2 = Real.log (1 / 4) := by
      rw [show (1 / 4 : ℝ) = (2 ^ 2)⁻¹ by norm_num, Real.log_inv, Real.log_pow]
      push_cast
      ring
    rw [l2, l4, l1, hlik y₁ 1 hy₁ (by norm_num) (by norm_num), hlik y₂ 1 hy₂ (by norm_num) (by norm_num),
      hlik y₁ (1 / 2) hy₁ (by norm_num) (by norm_num), hlik y₂ (1 / 4) hy₂ (by norm_num) (by norm_num), e₁, e₂,
      show ((1 : ℝ) / (1 + 1)) = 1 / 2 by norm_num, show ((1 / 2 : ℝ) / (1 / 2 + 1)) = 1 / 3 by norm_num,
      show ((1 / 4 : ℝ) / (1 / 4 + 1)) = 1 / 5 by norm_num]
    simp only [K]
    linarith
  obtain ⟨r, t, o, h⟩ := rests_but_worse (so := so) (e := e) (perm := perm) (other := other) (θ := betaAt (1 / 2) (1 / 2)) d .logit 0
    (by norm_num) hn hL ht hu one_ne_zero (beta_response hd hy₁) (beta_response hd hy₂) (beta_workRow hd hb hb hu hh hb)
    (by rw [hh]; exact logit_link_half) (by rw [hscore _ hy₁, hscore _ hy₂, e₁, e₂]; ring) (-Real.log 2)
    (logit_smooth_of_le (by linarith)) (logit_smooth_of_le (by linarith)) hcmp
  exact ⟨y₁, y₂, r, t, o, hy₁, hy₂, h⟩

/-- `log Γ(c x)` for small `x`. -/
theorem logGamma_small {c x : ℝ} (hc : 0 < c) (hx : 0 < x) : logGamma (c * x) = logGamma (1 + c * x) - Real.log c - Real.log x := by
  have h : 0 < c * x := mul_pos hc hx
  unfold logGamma
  rw [add_comm 1 (c * x), Real.Gamma_add_one h.ne', Real.log_mul h.ne' (Real.Gamma_pos_of_pos h).ne', Real.log_mul hc.ne' hx.ne']
  ring

theorem continuousAt_logGamma {x : ℝ} (hx : 0 < x) : ContinuousAt logGamma x := by
  have : ContinuousAt Real.Gamma x := (Real.differentiableAt_Gamma fun m => by
    have : (0 : ℝ) ≤ m := Nat.cast_nonneg m
    linarith).continuousAt
  exact this.log (Real.Gamma_pos_of_pos hx).ne'

/-- **C107 fails for the scale of the beta distributions.**  There is a mean `m` such that for the feature values 1 and -1 and both
responses equal to `m` an iteration that starts at coefficient 0 (scale 1/2) stays there, though the coefficient `log 2` is more likely. -/
theorem C107_beta_scale_fails {d : Dist} (hd : BetaClass d) : ∃ m : ℝ, 0 < m ∧ m < 1 / 2 ∧ ∀ {tiny ulp : ℝ}, 0 < tiny → tiny ≤ m →
    0 < ulp → ulp ≤ 1 / 2 → ∃ (r : Inner × Bool) (t : GState MethodState 1) (o : IterOut),
      fitIteration (restRowsCall tiny ulp so e perm other d 1 (-1) m m (betaAt m (1 / 2))) 1 1 0 5
        ⟨(restRows 1 (-1) m m (betaAt m (1 / 2))).map FitRow.θ, (restRows 1 (-1) m m (betaAt m (1 / 2))).map FitRow.θ, .nan, .nan, 0,
          false, none⟩ (restRowsState 1 (-1) m m (betaAt m (1 / 2))) = (.ok r, t) ∧ r.1.out = some o ∧ o.beta = ofVec (0 : Row 1) ∧
      FittedValuesOf .logit 1 (restRows 1 (-1) m m (betaAt m (1 / 2))) (0 : Row 1) ∧
      d.logLik .logit 1 0 (restRows 1 (-1) m m (betaAt m (1 / 2))) (0 : Row 1) <
        d.logLik .logit 1 0 (restRows 1 (-1) m m (betaAt m (1 / 2))) (fun _ => Real.log 2 : Row 1) ∧
      ¬d.IsMaximumLikelihood .logit 1 0 (restRows 1 (-1) m m (betaAt m (1 / 2))) (0 : Row 1) := by
  -- the log density at the response `m`, as a function of the precision `f`, and its limit for small `m`
  let h : ℝ → ℝ → ℝ := fun f m => logGamma f + (f * m - 1) * Real.log m + (f * (1 - m) - 1) * Real.log (1 - m) - logGamma (f * m) -
    logGamma (f * (1 - m))
  let k : ℝ → ℝ → ℝ := fun f m => logGamma f + Real.log f - f * Real.negMulLog m + (f * (1 - m) - 1) * Real.log (1 - m) -
    logGamma (1 + f * m) - logGamma (f * (1 - m))
  have hk : ∀ f m, 0 < f → 0 < m → h f m = k f m := by
    intro f m hf hm
    simp only [h, k]
    rw [logGamma_small hf hm, Real.negMulLog]
    ring
  have hcont : ∀ f, 0 < f → ContinuousAt (k f) 0 := by
    intro f hf
    simp only [k]
    have c1 : ContinuousAt (fun m : ℝ => Real.log (1 - m)) 0 := (continuousAt_const.sub continuousAt_id).log (by norm_num)
    have c2 : ContinuousAt (fun m : ℝ => logGamma (1 + f * m)) 0 :=
      ContinuousAt.comp (g := logGamma) (continuousAt_logGamma (by norm_num)) (by fun_prop)
    have c3 : ContinuousAt (fun m : ℝ => logGamma (f * (1 - m))) 0 :=
      ContinuousAt.comp (g := logGamma) (continuousAt_logGamma (by simpa using hf)) (by fun_prop)
    have c4 : ContinuousAt (fun m : ℝ => Real.negMulLog m) 0 := Real.continuous_negMulLog.continuousAt
    have c5 : ContinuousAt (fun m : ℝ => f * (1 - m) - 1) 0 := by fun_prop
    exact (((continuousAt_const.sub (continuousAt_const.mul c4)).add (c5.mul c1)).sub c2).sub c3
  have hzero : ∀ f, k f 0 = Real.log f := by
    intro f
    simp [k, logGamma]
  have hlim : 0 < k (5 / 4) 0 + k 8 0 - 2 * k 3 0 := by
    rw [hzero, hzero, hzero]
    have h1 : Real.log (5 / 4) + Real.log 8 = Real.log 10 := by rw [← Real.log_mul (by norm_num) (by norm_num)]; norm_num
    have h2 : 2 * Real.log 3 = Real.log 9 := by rw [show (9 : ℝ) = 3 ^ 2 by norm_num, Real.log_pow]; norm_num
    have h3 : Real.log 9 < Real.log 10 := Real.log_lt_log (by norm_num) (by norm_num)
    linarith
  have hev : ∀ᶠ m in 𝓝 (0 : ℝ), 0 < k (5 / 4) m + k 8 m - 2 * k 3 m := by
    have hc : ContinuousAt (fun m => k (5 / 4) m + k 8 m - 2 * k 3 m) 0 :=
      ((hcont (5 / 4) (by norm_num)).add (hcont 8 (by norm_num))).sub (continuousAt_const.mul (hcont 3 (by norm_num)))
    exact hc.eventually (lt_mem_nhds hlim)
  obtain ⟨ε, hε, hball⟩ := Metric.eventually_nhds_iff.1 hev
  refine ⟨min (ε / 2) (1 / 4), lt_min (by linarith) (by norm_num), lt_of_le_of_lt (min_le_right _ _) (by norm_num), ?_⟩
  have hmpos : 0 < min (ε / 2) (1 / 4) := lt_min (by linarith) (by norm_num)
  have hmle : min (ε / 2) (1 / 4) ≤ 1 / 4 := min_le_right _ _
  have hgood := hball (y := min (ε / 2) (1 / 4)) (by
    rw [Real.dist_eq, sub_zero, abs_of_pos hmpos]
    exact lt_of_le_of_lt (min_le_left _ _) (by linarith))
  generalize min (ε / 2) (1 / 4) = m at hmpos hmle hgood
  intro tiny ulp ht htm hu hu'
  have hm : 0 < m ∧ m < 1 := ⟨hmpos, by linarith⟩
  obtain ⟨C, hC⟩ := beta_logLik hd
  have hlik : ∀ q f : ℝ, 0 < q → q ≤ 2 → (1 - (q / (q + 1)) ^ 2) / (q / (q + 1)) ^ 2 = f → 0 < f →
      d.logLikEta .logit (betaAt m (1 / 2)) 1 m (Real.log q) = k f m - C := by
    intro q f hq hq2 hf hf0
    have hi := logit_inverse_log hq hq2
    have hs : 0 < q / (q + 1) ∧ q / (q + 1) < 1 := ⟨by positivity, by rw [div_lt_one (by positivity)]; linarith⟩
    obtain ⟨a1, a2⟩ := hC m m (q / (q + 1)) hm hm hs
    rw [Dist.logLikEta_eq (beta_response hd hm) (by rw [hi, betaAt_update_scale]; exact a1), hi, betaAt_update_scale, a2, ← hk f m hf0 hmpos]
    generalize q / (q + 1) = s at hf
    have hA : Dist.betaA m s = f * m := by unfold Dist.betaA; rw [← hf]; ring
    have hB : Dist.betaB m s = f * (1 - m) := by unfold Dist.betaB; rw [← hf]; ring
    unfold Dist.betaL
    rw [hA, hB, show f * m + f * (1 - m) = f by ring]
  have hh : betaAt m (1 / 2) 1 = 1 / 2 := by simp [betaAt]
  have hl0 : 0 < Real.log 2 := Real.log_pos one_lt_two
  have hl2 := log_two_le_one
  have hb : tiny ≤ 1 / 2 ∧ (1 / 2 : ℝ) ≤ 1 - ulp := ⟨by linarith, by linarith⟩
  have hn : 1 < d.nParams := by rcases hd with rfl | rfl | rfl <;> norm_num [Dist.nParams]
  have hL : d.defaultLinks[1]? = some .logit := by rcases hd with rfl | rfl | rfl <;> rfl
  refine rests_but_worse (θ := betaAt m (1 / 2)) d .logit 1 (by norm_num) hn hL ht hu one_ne_zero (beta_response hd hm) (beta_response hd hm)
    (beta_workRow hd ⟨htm, by linarith⟩ hb hu hh hb) (by rw [hh]; exact logit_link_half) (by ring) (Real.log 2)
    (logit_smooth_of_le (by linarith)) (logit_smooth_of_le (by linarith)) ?_
  have l1 : (0 : ℝ) = Real.log 1 := Real.log_one.symm
  have l2 : -1 * Real.log 2 = Real.log (1 / 2) := by rw [neg_one_mul, one_div, Real.log_inv]
  rw [l2, l1, one_mul, hlik 1 3 (by norm_num) (by norm_num) (by norm_num) (by norm_num),
    hlik 2 (5 / 4) (by norm_num) (by norm_num) (by norm_num) (by norm_num),
    hlik (1 / 2) 8 (by norm_num) (by norm_num) (by norm_num) (by norm_num)]
  linarith

/-! ### Degrees of freedom of Student's t -/

/-- `log Γ` grows faster and faster. -/
theorem logGamma_increments {a b h : ℝ} (ha : 0 < a) (hab : a ≤ b) (hh : 0 < h) :
    logGamma (a + h) - logGamma a ≤ logGamma (b + h) - logGamma b := by
  have hd : 0 < b - a + h := by linarith
  have hc := Real.convexOn_log_Gamma
  have ht0 : 0 ≤ h / (b - a + h) := by positivity
  have ht1 : 0 ≤ (b - a) / (b - a + h) := div_nonneg (by linarith) hd.le
  have hsum : h / (b - a + h) + (b - a) / (b - a + h) = 1 := by
    rw [← add_div, show h + (b - a) = b - a + h by ring, div_self hd.ne']
  have m1 := hc.2 (show a ∈ Set.Ioi 0 from ha) (show b + h ∈ Set.Ioi 0 from by change 0 < b + h; linarith) ht1 ht0 (by rw [add_comm]; exact hsum)
  have m2 := hc.2 (show a ∈ Set.Ioi 0 from ha) (show b + h ∈ Set.Ioi 0 from by change 0 < b + h; linarith) ht0 ht1 hsum
  have e1 : (b - a) / (b - a + h) * a + h / (b - a + h) * (b + h) = a + h := by
    field_simp
    ring
  have e2 : h / (b - a + h) * a + (b - a) / (b - a + h) * (b + h) = b := by
    field_simp
    ring
  simp only [smul_eq_mul, Function.comp] at m1 m2
  rw [e1] at m1
  rw [e2] at m2
  unfold logGamma
  have : (b - a) / (b - a + h) * Real.log (Real.Gamma a) + h / (b - a + h) * Real.log (Real.Gamma (b + h)) +
      (h / (b - a + h) * Real.log (Real.Gamma a) + (b - a) / (b - a + h) * Real.log (Real.Gamma (b + h))) =
      Real.log (Real.Gamma a) + Real.log (Real.Gamma (b + h)) := by
    linear_combination (Real.log (Real.Gamma a) + Real.log (Real.Gamma (b + h))) * hsum
  linarith

/-- `log Γ((ν + 1) / 2) - log Γ(ν / 2)`. -/
noncomputable def gammaStep (n : ℝ) : ℝ := logGamma ((n + 1) / 2) - logGamma (n / 2)

theorem gammaStep_mono {a b : ℝ} (ha : 0 < a) (hab : a ≤ b) : gammaStep a ≤ gammaStep b := by
  have := logGamma_increments (a := a / 2) (b := b / 2) (h := 1 / 2) (by linarith) (by linarith) (by norm_num)
  unfold gammaStep
  rwa [add_div, add_div]

theorem gammaStep_lower {n : ℝ} (hn : 1 < n) : Real.log ((n - 1) / 2) / 2 ≤ gammaStep n := by
  have h1 := gammaStep_mono (a := n - 1) (b := n) (by linarith) (by linarith)
  have h2 : gammaStep (n - 1) + gammaStep n = Real.log ((n - 1) / 2) := by
    have h0 : 0 < (n - 1) / 2 := by linarith
    unfold gammaStep logGamma
    rw [show (n + 1) / 2 = (n - 1) / 2 + 1 by ring, Real.Gamma_add_one h0.ne', Real.log_mul h0.ne' (Real.Gamma_pos_of_pos h0).ne',
      show (n - 1 + 1) / 2 = n / 2 by ring]
    ring
  linarith

theorem gammaStep_two : gammaStep 2 = Real.log Real.pi / 2 - Real.log 2 := by
  unfold gammaStep logGamma
  rw [show ((2 : ℝ) + 1) / 2 = 1 / 2 + 1 by norm_num, Real.Gamma_add_one (by norm_num), Real.Gamma_one_half_eq,
    show (2 : ℝ) / 2 = 1 by norm_num, Real.Gamma_one, Real.log_one, Real.log_mul (by norm_num) (Real.sqrt_pos.2 Real.pi_pos).ne',
    Real.log_sqrt Real.pi_pos.le, one_div, Real.log_inv]
  ring

theorem gammaStep_three : gammaStep 3 = -(Real.log Real.pi / 2 - Real.log 2) := by
  have : gammaStep 3 = -gammaStep 2 := by
    unfold gammaStep
    rw [show ((3 : ℝ) + 1) / 2 = 2 by norm_num, show ((2 : ℝ) + 1) / 2 = 3 / 2 by norm_num, show (2 : ℝ) / 2 = 1 by norm_num]
    simp [logGamma]
  rw [this, gammaStep_two]

/-- Close to 102 and to 2.01 degrees of freedom are together more likely than close to 3 twice, for a response one scale away from the
location. -/
theorem student_tails : 2 * Dist.studentL 1 0 1 (3 - 1 / 10 ^ 10) <
    Dist.studentL 1 0 1 (102 - 1 / 10 ^ 10) + Dist.studentL 1 0 1 (2 + 1 / 100 - 1 / 10 ^ 10) := by
  have form : ∀ n : ℝ, Dist.studentL 1 0 1 n = gammaStep n - (Real.log Real.pi + Real.log n) / 2 - (n + 1) / 2 * Real.log (1 + 1 / n) := by
    intro n
    unfold Dist.studentL gammaStep
    rw [Real.log_one]
    norm_num
  -- three degrees of freedom
  have u : Dist.studentL 1 0 1 (3 - 1 / 10 ^ 10) ≤ -(Real.log Real.pi / 2 - Real.log 2) - Real.log Real.pi / 2 - Real.log 3 / 2 -
      2 * Real.log (4 / 3) + 1 / 1000 := by
    rw [form]
    have h1 := gammaStep_mono (a := 3 - 1 / 10 ^ 10) (b := 3) (by norm_num) (by norm_num)
    rw [gammaStep_three] at h1
    have h2 : Real.log 3 - 1 / 1000 ≤ Real.log (3 - 1 / 10 ^ 10) := by
      have := Real.one_sub_inv_le_log_of_pos (show (0 : ℝ) < (3 - 1 / 10 ^ 10) / 3 by norm_num)
      rw [Real.log_div (by norm_num) (by norm_num)] at this
      norm_num at this ⊢
      linarith
    have h3 : Real.log (4 / 3) ≤ Real.log (1 + 1 / (3 - 1 / 10 ^ 10)) := Real.log_le_log (by norm_num) (by norm_num)
    have h4 : Real.log (4 / 3) ≤ 1 / 3 := (Real.log_le_sub_one_of_pos (by norm_num)).trans (by norm_num)
    have h5 : 2 * Real.log (4 / 3) - 1 / 2000 ≤ (3 - 1 / 10 ^ 10 + 1) / 2 * Real.log (1 + 1 / (3 - 1 / 10 ^ 10)) := by
      refine le_trans ?_ (mul_le_mul_of_nonneg_left h3 (by norm_num))
      nlinarith
    linarith
  -- about two
  have v : Real.log Real.pi / 2 - Real.log 2 - Real.log Real.pi / 2 - Real.log 2 / 2 - 3 / 2 * Real.log (3 / 2) - 1 / 100 ≤
      Dist.studentL 1 0 1 (2 + 1 / 100 - 1 / 10 ^ 10) := by
    rw [form]
    have h1 := gammaStep_mono (a := 2) (b := 2 + 1 / 100 - 1 / 10 ^ 10) (by norm_num) (by norm_num)
    rw [gammaStep_two] at h1
    have h2 : Real.log (2 + 1 / 100 - 1 / 10 ^ 10) ≤ Real.log 2 + 1 / 200 := by
      have := Real.log_le_sub_one_of_pos (show (0 : ℝ) < (2 + 1 / 100 - 1 / 10 ^ 10) / 2 by norm_num)
      rw [Real.log_div (by norm_num) (by norm_num)] at this
      norm_num at this ⊢
      linarith
    have h3 : Real.log (1 + 1 / (2 + 1 / 100 - 1 / 10 ^ 10)) ≤ Real.log (3 / 2) := Real.log_le_log (by norm_num) (by norm_num)
    have h4 : Real.log (3 / 2) ≤ 1 / 2 := (Real.log_le_sub_one_of_pos (by norm_num)).trans (by norm_num)
    have h5 : (2 + 1 / 100 - 1 / 10 ^ 10 + 1) / 2 * Real.log (1 + 1 / (2 + 1 / 100 - 1 / 10 ^ 10)) ≤ 3 / 2 * Real.log (3 / 2) + 1 / 400 := by
      refine le_trans (mul_le_mul_of_nonneg_left h3 (by norm_num)) ?_
      have h6 : 0 ≤ Real.log (3 / 2) := Real.log_nonneg (by norm_num)
      nlinarith
    linarith
  -- about a hundred
  have w : -(Real.log 2 / 2) - Real.log Real.pi / 2 - 1 / 2 - 1 / 50 ≤ Dist.studentL 1 0 1 (102 - 1 / 10 ^ 10) := by
    rw [form]
    have h1 := gammaStep_lower (n := 102 - 1 / 10 ^ 10) (by norm_num)
    have h2 : Real.log (102 - 1 / 10 ^ 10) - Real.log 2 - 1 / 100 ≤ Real.log ((102 - 1 / 10 ^ 10 - 1) / 2) := by
      have := Real.one_sub_inv_le_log_of_pos (show (0 : ℝ) < ((102 - 1 / 10 ^ 10 - 1) / 2) / ((102 - 1 / 10 ^ 10) / 2) by norm_num)
      rw [Real.log_div (by norm_num) (by norm_num), Real.log_div (x := 102 - 1 / 10 ^ 10) (by norm_num) (by norm_num)] at this
      norm_num at this ⊢
      linarith
    have h3 : Real.log (1 + 1 / (102 - 1 / 10 ^ 10)) ≤ 1 / (102 - 1 / 10 ^ 10) :=
      (Real.log_le_sub_one_of_pos (by norm_num)).trans (by norm_num)
    have h5 := mul_le_mul_of_nonneg_left h3 (show (0 : ℝ) ≤ (102 - 1 / 10 ^ 10 + 1) / 2 by norm_num)
    norm_num at h1 h2 h5 ⊢
    linarith
  have hkey : 11 / 10 ≤ 11 * Real.log 2 + 3 * Real.log Real.pi - 9 * Real.log 3 := by
    have e0 : 11 * Real.log 2 + 3 * Real.log Real.pi - 9 * Real.log 3 = Real.log (2 ^ 11 * Real.pi ^ 3 / 3 ^ 9) := by
      have := Real.pi_pos
      rw [Real.log_div (by positivity) (by norm_num), Real.log_mul (by norm_num) (by positivity), Real.log_pow, Real.log_pow, Real.log_pow]
      norm_num
    have hpi : (3.14 : ℝ) < Real.pi := Real.pi_gt_d2
    have e1 : (3.2 : ℝ) ≤ 2 ^ 11 * Real.pi ^ 3 / 3 ^ 9 := by
      have : (3.14 : ℝ) ^ 3 ≤ Real.pi ^ 3 := pow_le_pow_left₀ (by norm_num) hpi.le 3
      rw [le_div_iff₀ (by norm_num)]
      norm_num at this ⊢
      linarith
    have e2 : Real.exp (11 / 10) ≤ 3.2 := by
      have a1 : Real.exp (11 / 10) = Real.exp 1 * Real.exp (1 / 10) := by rw [← Real.exp_add]; norm_num
      have a2 : Real.exp (1 / 10) ≤ 10 / 9 := by
        have := Real.add_one_le_exp (-(1 / 10 : ℝ))
        rw [Real.exp_neg] at this
        have hp := Real.exp_pos (1 / 10 : ℝ)
        rw [le_inv_comm₀ (by norm_num) hp] at this
        norm_num at this ⊢
        linarith
      have a3 : Real.exp 1 ≤ 2.72 := le_trans Real.exp_one_lt_d9.le (by norm_num)
      rw [a1]
      calc Real.exp 1 * Real.exp (1 / 10) ≤ 2.72 * (10 / 9) := mul_le_mul a3 a2 (Real.exp_pos _).le (by norm_num)
        _ ≤ 3.2 := by norm_num
    rw [e0, Real.le_log_iff_exp_le (lt_of_lt_of_le (by norm_num) e1)]
    exact e2.trans e1
  have q1 : Real.log (4 / 3) = 2 * Real.log 2 - Real.log 3 := by
    rw [Real.log_div (by norm_num) (by norm_num), show (4 : ℝ) = 2 ^ 2 by norm_num, Real.log_pow]
    norm_num
  have q2 : Real.log (3 / 2) = Real.log 3 - Real.log 2 := Real.log_div (by norm_num) (by norm_num)
  rw [q1] at u
  rw [q2] at v
  linarith

/-- Location 0, scale 1 and almost 3 degrees of freedom: the linear predictor of the degrees of freedom is 0. -/
noncomputable def studentAt : ℕ → ℝ := fun j => if j = 0 then 0 else if j = 1 then 1 else 3 - 1 / 10 ^ 10

/-- **C107 fails for the degrees of freedom of Student's t distribution.**  For the feature values 1 and -1, both responses 1, location 0
and scale 1, an iteration that starts at coefficient 0 stays there, though the coefficient `log 100` is more likely. -/
theorem C107_student_freedom_fails : ∃ (r : Inner × Bool) (t : GState MethodState 1) (o : IterOut),
    fitIteration (restRowsCall (1 / 10) (1 / 10) so e perm other .studentT 1 (-1) 1 1 studentAt) 2 1 0 5
      ⟨(restRows 1 (-1) 1 1 studentAt).map FitRow.θ, (restRows 1 (-1) 1 1 studentAt).map FitRow.θ, .nan, .nan, 0, false, none⟩
      (restRowsState 1 (-1) 1 1 studentAt) = (.ok r, t) ∧ r.1.out = some o ∧ o.beta = ofVec (0 : Row 1) ∧
      FittedValuesOf .logShiftTwo 2 (restRows 1 (-1) 1 1 studentAt) (0 : Row 1) ∧
      Dist.studentT.logLik .logShiftTwo 2 0 (restRows 1 (-1) 1 1 studentAt) (0 : Row 1) <
        Dist.studentT.logLik .logShiftTwo 2 0 (restRows 1 (-1) 1 1 studentAt) (fun _ => Real.log 100 : Row 1) ∧
      ¬Dist.studentT.IsMaximumLikelihood .logShiftTwo 2 0 (restRows 1 (-1) 1 1 studentAt) (0 : Row 1) := by
  have hsm : ∀ q : ℝ, 0 < q → q ≤ 100 → Real.log q ∈ LinkClass.logShiftTwo.smoothPred := by
    intro q hq h
    change Real.log q < Real.log (10 ^ 15)
    exact Real.log_lt_log hq (lt_of_le_of_lt h (by norm_num))
  have hlik : ∀ q : ℝ, 0 < q → q ≤ 100 → Dist.studentT.logLikEta .logShiftTwo studentAt 2 1 (Real.log q) =
      Dist.studentL 1 0 1 (2 + q - 1 / 10 ^ 10) ∨ q ≤ 1 / 1000 := by
    intro q hq h
    by_cases hs : q ≤ 1 / 1000
    · exact .inr hs
    have hi : LinkClass.logShiftTwo.inverse (Real.log q) - LinkClass.logShiftTwo.offset = 2 + q - 1 / 10 ^ 10 := by
      change 2 + robustExp (Real.log q) - _ = _
      rw [robustExp_of_le (le_of_lt (hsm q hq h)), Real.exp_log hq]
      simp [LinkClass.logShiftTwo, LinkClass.offset, smallNumber]
    have hp : (1 : ℝ) / 10 ^ 10 < 1 / 1000 := by norm_num
    have hp' : (0 : ℝ) < 2 + q - 1 / 10 ^ 10 := by linarith
    refine .inl ?_
    rw [Dist.logLikEta_eq (Set.mem_univ _) (by rw [hi]; exact ⟨by simp [studentAt], by rw [Function.update_self]; exact hp'⟩), hi]
    simp [Dist.logDensity, Function.update, studentAt]
  have hone : (((1 / 10 : ℝ) : ℝ) : EReal) ≤ ((1 : ℝ) : EReal) := EReal.coe_le_coe_iff.mpr (by norm_num)
  have h0 : studentAt 0 = 0 := by simp [studentAt]
  have h1 : studentAt 1 = 1 := by simp [studentAt]
  have h2 : studentAt 2 = 3 - 1 / 10 ^ 10 := by simp [studentAt]
  have hlink : LinkClass.logShiftTwo.link (3 - 1 / 10 ^ 10) = 0 := by
    change robustLog (3 - 1 / 10 ^ 10 - 2 + smallNumber) = 0
    unfold smallNumber
    rw [show (3 - 1 / 10 ^ 10 - 2 + 1 / 10 ^ 10 : ℝ) = 1 by norm_num]
    exact log_link_one
  have l1 : (0 : ℝ) = Real.log 1 := Real.log_one.symm
  have l2 : -1 * Real.log 100 = Real.log (1 / 100) := by rw [neg_one_mul, one_div, Real.log_inv]
  refine rests_but_worse (θ := studentAt) .studentT .logShiftTwo 2 (by norm_num) (by norm_num [Dist.nParams]) rfl (by norm_num) (by norm_num)
    one_ne_zero (Set.mem_univ _) (Set.mem_univ _) ⟨fun _ _ => rfl, ?_, ?_, ?_, ?_⟩ (by rw [h2]; exact hlink) (by ring) (Real.log 100)
    (by rw [one_mul]; exact hsm _ (by norm_num) le_rfl) (by rw [l2]; exact hsm _ (by norm_num) (by norm_num)) ?_
  · intro i sup hs
    have hs' : [Dist.allReals, Dist.positives (1 / 10), Dist.positives (1 / 10)][i]? = some sup := hs
    match i, hs' with
    | 0, h => cases h; exact ⟨bot_le, le_top⟩
    | 1, h => cases h; exact ⟨by change _ ≤ ((studentAt 1 : ℝ) : EReal); rw [h1]; exact hone, le_top⟩
    | 2, h =>
      cases h
      exact ⟨by change _ ≤ ((studentAt 2 : ℝ) : EReal); rw [h2]; exact EReal.coe_le_coe_iff.mpr (by norm_num), le_top⟩
  · change _ ≤ ((studentAt 2 : ℝ) : EReal) ∧ _
    rw [h2]
    exact ⟨EReal.coe_le_coe_iff.mpr (by norm_num), le_top⟩
  · change studentAt 2 ∈ _
    rw [h2]
    exact ⟨by norm_num, by norm_num⟩
  · change LinkClass.logShiftTwo.link (studentAt 2) ∈ _
    rw [h2, hlink, l1]
    exact hsm 1 one_pos (by norm_num)
  · rw [l2, l1, one_mul, (hlik 1 one_pos (by norm_num)).resolve_right (by norm_num),
      (hlik 100 (by norm_num) le_rfl).resolve_right (by norm_num), (hlik (1 / 100) (by norm_num) (by norm_num)).resolve_right (by norm_num)]
    have := student_tails
    rw [show (2 : ℝ) + 1 - 1 / 10 ^ 10 = 3 - 1 / 10 ^ 10 by norm_num, show (2 : ℝ) + 100 - 1 / 10 ^ 10 = 102 - 1 / 10 ^ 10 by norm_num]
    linarith

end Ondil
