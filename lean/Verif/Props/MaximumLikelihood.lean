import Verif.Lemmas.Concave
import Verif.Props.Scoring

/-!
# The iterations rest exactly at maximum likelihood estimates (C107)
-/

open scoped BigOperators Topology

namespace Ondil

variable {J : ℕ → ℕ} {k : ℕ} {p : ℕ} {tiny ulp : ℝ} {so : ScipyOracles} {e : Elsewhere}
  {perm : ∀ J : ℕ, ℕ → ℕ → List (Fin J)} {other : MethodOps MethodState} {d : Dist} {links : List LinkClass} {L : LinkClass}
  {c : Call MethodState p} {data : List (FitRow J)}

/-- On the way from `b` to `b'` a likelihood with concave terms lies above the line between its ends. -/
theorem logLik_segment {f : ℝ} (hf : f ≤ 1) (hw : ∀ q ∈ data, 0 ≤ q.w)
    (hcc : ∀ q ∈ data, ConcaveOn ℝ L.smoothPred (d.logLikEta L (rowReal q.θ) k q.y)) {b b' : Row (J k)}
    (hb : ∀ q ∈ data, linPred (q.x k) b ∈ L.smoothPred) (hb' : ∀ q ∈ data, linPred (q.x k) b' ∈ L.smoothPred) {t : ℝ}
    (h0 : 0 ≤ t) (h1 : t ≤ 1) :
    (1 - t) * d.logLik L k f data b + t * d.logLik L k f data b' ≤ d.logLik L k f data (b + t • (b' - b)) := by
  unfold Dist.logLik
  rw [← discSum_mul_left, ← discSum_mul_left, ← discSum_add, ← sub_nonneg, ← discSum_sub]
  refine discSum_nonneg hf _ fun q hq => ?_
  have h := (hcc q hq).2 (hb q hq) (hb' q hq) (sub_nonneg.2 h1) h0 (by ring)
  simp only [smul_eq_mul] at h
  have e1 : linPred (q.x k) (b + t • (b' - b)) = (1 - t) * linPred (q.x k) b + t * linPred (q.x k) b' := by
    rw [linPred_add, linPred_smul, linPred_sub]
    ring
  rw [e1]
  nlinarith [mul_le_mul_of_nonneg_left h (hw q hq)]

/-- A stationary point of a likelihood with concave terms is a maximum. -/
theorem stationary_isMaximum {f : ℝ} (hf : f ≤ 1) (hw : ∀ q ∈ data, 0 ≤ q.w)
    (hcc : ∀ q ∈ data, ConcaveOn ℝ L.smoothPred (d.logLikEta L (rowReal q.θ) k q.y)) {b : Row (J k)}
    (hb : ∀ q ∈ data, linPred (q.x k) b ∈ L.smoothPred) (hst : IsStationary (d.logLik L k f data) b) :
    d.IsMaximumLikelihood L k f data b := by
  intro b' hb'
  by_contra hlt
  push Not at hlt
  have h1 := (hasDerivAt_iff_tendsto_slope.1 (hst (b' - b))).eventually
    (gt_mem_nhds (sub_pos.2 hlt))
  rw [eventually_nhdsWithin_iff, Metric.eventually_nhds_iff] at h1
  obtain ⟨ε, hε, h2⟩ := h1
  set t := min (ε / 2) 1
  have ht : 0 < t := lt_min (by linarith) one_pos
  have h3 := h2 (y := t) (by
    rw [Real.dist_eq, sub_zero, abs_of_pos ht]
    exact (min_le_left _ _).trans_lt (by linarith)) ht.ne'
  rw [slope_def_field, sub_zero, zero_smul, add_zero, div_lt_iff₀ ht] at h3
  have h4 := logLik_segment hf hw hcc hb hb' ht.le (min_le_right (ε / 2) 1)
  change _ ≤ d.logLik L k f data (b + t • (b' - b)) at h4
  change _ < _ at h3
  nlinarith

/-- A maximum at which the likelihood is differentiable, with predictors inside an open range, is stationary. -/
theorem maximum_isStationary {f : ℝ} {b : Row (J k)} (hopen : IsOpen L.smoothPred)
    (hb : ∀ q ∈ data, linPred (q.x k) b ∈ L.smoothPred)
    (hd : ∀ v, ∃ g, HasDerivAt (fun t : ℝ => d.logLik L k f data (b + t • v)) g 0) (hm : d.IsMaximumLikelihood L k f data b) :
    IsStationary (d.logLik L k f data) b := by
  intro v
  obtain ⟨g, hg⟩ := hd v
  have hmem : ∀ᶠ t in 𝓝 (0 : ℝ), ∀ q ∈ data, linPred (q.x k) (b + t • v) ∈ L.smoothPred := by
    have : ∀ q ∈ data, ∀ᶠ t in 𝓝 (0 : ℝ), linPred (q.x k) (b + t • v) ∈ L.smoothPred := by
      intro q hq
      have hc : ContinuousAt (fun t : ℝ => linPred (q.x k) (b + t • v)) 0 := by
        have : (fun t : ℝ => linPred (q.x k) (b + t • v)) = fun t => linPred (q.x k) b + t * linPred (q.x k) v := by
          funext t
          rw [linPred_add, linPred_smul]
        rw [this]
        fun_prop
      exact hc.eventually (hopen.mem_nhds (by simpa using hb q hq))
    clear hd hm hg hb
    induction data with
    | nil => simp
    | cons q l ih =>
      filter_upwards [this q (by simp), ih fun r hr => this r (by simp [hr])] with t h1 h2
      intro r hr
      rcases List.mem_cons.1 hr with rfl | hr
      · exact h1
      · exact h2 r hr
  have hmax : IsLocalMax (fun t : ℝ => d.logLik L k f data (b + t • v)) 0 := by
    filter_upwards [hmem] with t ht
    simpa using hm _ ht
  rwa [hmax.hasDerivAt_eq_zero hg] at hg

theorem smoothPred_isOpen (h : d.LocationLike L k ∨ d.ScaleLike L k) : IsOpen L.smoothPred := by
  rcases h with h | h <;> cases h <;> first | exact isOpen_univ | exact isOpen_Iio

theorem concave_rows (h : d.LocationLike L k ∨ d.ScaleLike L k) {θ : ℕ → ℝ} (hθ : d.Admissible θ) {y : ℝ} (hy : y ∈ d.Responses) :
    ConcaveOn ℝ L.smoothPred (d.logLikEta L θ k y) := by
  rcases h with h | h
  · exact (h.strictConcave hθ hy).concaveOn
  · exact h.concave hθ hy

/-- One inner iteration of `fit` for a location or scale parameter with its default link, estimated by least squares, at a batch
at which nothing is clipped.  If the fitted values it starts from are those of coefficients `b`, it returns `b` exactly if `b` is
the maximum likelihood estimate for the discounted weighted observations, the other parameters held fixed. -/
theorem C107_rest_is_maximum_partial (hc : ScoringCall tiny ulp so e perm other d links L k c data)
    (hd : d.LocationLike L k ∨ d.ScaleLike L k) {f : ℝ} (hf : f < 1)
    {itO itI sched : ℕ} {a : Inner} {s : GState MethodState p} {step : ℝ} {reg : List Bool}
    (hstep : stepAt c.cfg s itO itI k = .ok step) (hm : s.method k = some .ols) (hfo : s.forget.get? k = some f)
    (hreg : s.isRegularized.get? k = some reg) (hfv : a.fvIt = data.map FitRow.θ) :
    ∃ (r : Inner × Bool) (t : GState MethodState p) (o : IterOut) (b' : Row (J k)),
      fitIteration c k itO itI sched a s = (.ok r, t) ∧ r.1.out = some o ∧ o.beta = ofVec b' ∧
      ∀ b, FittedValuesOf L k data b → (b' = b ↔ d.IsMaximumLikelihood L k f data b) := by
  obtain ⟨r, t, o, b', h1, h2, h3, h4⟩ := C94_scoring_step hc hf (sched := sched) hstep hm hfo hreg hfv
  refine ⟨r, t, o, b', h1, h2, h3, fun b hb => ?_⟩
  have hadm : ∀ q ∈ data, d.Admissible (rowReal q.θ) := fun q hq =>
    Dist.admissible_of_inParameterSupport _ _ hc.tinyPos hc.ulpPos d _ (hc.rows q hq).2.support
  have hw : ∀ q ∈ data, 0 ≤ q.w := fun q hq => hc.nonneg (q.obs k) (List.mem_map.2 ⟨q, hq, rfl⟩)
  have hcc : ∀ q ∈ data, ConcaveOn ℝ L.smoothPred (d.logLikEta L (rowReal q.θ) k q.y) := fun q hq =>
    concave_rows hd (hadm q hq) (hc.rows q hq).1
  have hbs : ∀ q ∈ data, linPred (q.x k) b ∈ L.smoothPred := fun q hq => by
    rw [← hb q hq]
    exact (hc.rows q hq).2.smooth
  rw [(h4 b hb).1]
  exact ⟨stationary_isMaximum hf.le hw hcc hbs, maximum_isStationary (smoothPred_isOpen hd) hbs fun v =>
    ⟨_, logLik_derivative hc.param (fun q hq => ⟨(hc.rows q hq).1, hadm q hq, (hc.rows q hq).2.workParam, (hc.rows q hq).2.smooth⟩)
      hb v⟩⟩

/-- For a location parameter there is at most one maximum likelihood estimate, if the rows of positive weight have full rank. -/
theorem C107_unique_partial (hd : d.LocationLike L k) {f : ℝ} (hf : f < 1) (hnn : NonnegWeights (data.map (FitRow.obs k)))
    (hr : FullRank (data.map (FitRow.obs k))) (hrow : ∀ q ∈ data, q.y ∈ d.Responses ∧ d.Admissible (rowReal q.θ)) {b b' : Row (J k)}
    (hb : ∀ q ∈ data, linPred (q.x k) b ∈ L.smoothPred) (hb' : ∀ q ∈ data, linPred (q.x k) b' ∈ L.smoothPred)
    (h : d.IsMaximumLikelihood L k f data b) (h' : d.IsMaximumLikelihood L k f data b') : b' = b := by
  by_contra hne
  have hw : ∀ q ∈ data, 0 ≤ q.w := fun q hq => hnn (q.obs k) (List.mem_map.2 ⟨q, hq, rfl⟩)
  have hsc : ∀ q ∈ data, StrictConcaveOn ℝ L.smoothPred (d.logLikEta L (rowReal q.θ) k q.y) := fun q hq =>
    hd.strictConcave (hrow q hq).2 (hrow q hq).1
  have heq : d.logLik L k f data b' = d.logLik L k f data b := le_antisymm (h b' hb') (h' b hb)
  set m := b + (1 / 2 : ℝ) • (b' - b)
  have e1 : ∀ q ∈ data, linPred (q.x k) m = (1 / 2 : ℝ) * linPred (q.x k) b + (1 / 2 : ℝ) * linPred (q.x k) b' := by
    intro q _
    rw [linPred_add, linPred_smul, linPred_sub]
    ring
  have hmid : ∀ q ∈ data, linPred (q.x k) m ∈ L.smoothPred := by
    intro q hq
    rw [e1 q hq]
    exact (hsc q hq).1 (hb q hq) (hb' q hq) (by norm_num) (by norm_num) (by norm_num)
  let T : FitRow J → ℝ := fun q => q.w * (d.logLikEta L (rowReal q.θ) k q.y (linPred (q.x k) m) -
    (1 / 2 * d.logLikEta L (rowReal q.θ) k q.y (linPred (q.x k) b) + 1 / 2 * d.logLikEta L (rowReal q.θ) k q.y (linPred (q.x k) b')))
  have hT : ∀ q ∈ data, 0 ≤ T q := fun q hq => by
    refine mul_nonneg (hw q hq) (sub_nonneg.2 ?_)
    rw [e1 q hq]
    exact (hsc q hq).concaveOn.2 (hb q hq) (hb' q hq) (by norm_num) (by norm_num) (by norm_num)
  have hsum : discSum f data T = d.logLik L k f data m -
      (1 / 2 * d.logLik L k f data b + 1 / 2 * d.logLik L k f data b') := by
    unfold Dist.logLik
    rw [← discSum_mul_left, ← discSum_mul_left, ← discSum_add, ← discSum_sub]
    refine discSum_congr _ _ fun q _ => ?_
    simp only [T]
    ring
  have hz : discSum f data T = 0 := le_antisymm (by rw [hsum, heq]; linarith [h m hmid]) (discSum_nonneg hf.le _ hT)
  refine hne (sub_eq_zero.1 (hr (b' - b) fun o ho hwo => ?_))
  obtain ⟨q, hq, rfl⟩ := List.mem_map.1 ho
  have hwq : 0 < q.w := hwo
  by_contra hx
  have hx' : linPred (q.x k) b ≠ linPred (q.x k) b' := by
    intro h0
    refine hx ?_
    change linPred (q.x k) (b' - b) = 0
    rw [linPred_sub, h0, sub_self]
  have h1 := discSum_eq_zero hf _ hT hz q hq
  have h2 := (hsc q hq).2 (hb q hq) (hb' q hq) hx' (show (0 : ℝ) < 1 / 2 by norm_num) (show (0 : ℝ) < 1 / 2 by norm_num)
    (by norm_num)
  simp only [smul_eq_mul] at h2
  rw [← e1 q hq] at h2
  exact (mul_pos hwq (sub_pos.2 h2)).ne' h1

/-! ### Student's t: several points of rest -/

/-- The responses 10 and -10 of a t distribution with location 0, scale 1 and 3 degrees of freedom, intercepts only. -/
noncomputable def studentRows : List (FitRow fun _ => 1) :=
  [⟨fun _ _ => 1, 10, 1, fun j => .fin (if j = 0 then 0 else if j = 1 then 1 else 3)⟩,
    ⟨fun _ _ => 1, -10, 1, fun j => .fin (if j = 0 then 0 else if j = 1 then 1 else 3)⟩]

noncomputable def studentCall (so : ScipyOracles) (e : Elsewhere) (perm : ∀ J : ℕ, ℕ → ℕ → List (Fin J))
    (other : MethodOps MethodState) : Call MethodState 1 where
  D := Dist.studentT.ops (1 / 10) (1 / 10) so e Dist.studentT.defaultLinks
  M := packageMethods perm other
  cfg := normalConfig 10 5
  X := fun _ => some (studentRows.map fun _ => ofVec fun _ : Fin 1 => (1 : ℝ))
  y := studentRows.map FitRow.y
  w := studentRows.map FitRow.w

noncomputable def studentState : GState MethodState 1 :=
  { scoringState 0 with
    forget := [(0, 0), (1, 0), (2, 0)]
    isRegularized := [(0, [false]), (1, [false]), (2, [false])]
    stepSize := [(0, 1), (1, 1), (2, 1)]
    paramOrder := [0, 1, 2]
    fv := studentRows.map FitRow.θ }

theorem studentCall_scoring (so : ScipyOracles) (e : Elsewhere) (perm : ∀ J : ℕ, ℕ → ℕ → List (Fin J))
    (other : MethodOps MethodState) :
    ScoringCall (1 / 10) (1 / 10) so e perm other .studentT Dist.studentT.defaultLinks .identity 0 (studentCall so e perm other)
      studentRows where
  tinyPos := by norm_num
  ulpPos := by norm_num
  D := rfl
  M := rfl
  param := by norm_num [Dist.nParams]
  link := rfl
  y := rfl
  w := rfl
  X := rfl
  cond := rfl
  ne := by simp [studentRows]
  nonneg := by
    intro o ho
    simp only [studentRows, List.map_cons, List.map_nil, List.mem_cons, List.not_mem_nil, or_false] at ho
    rcases ho with rfl | rfl <;> norm_num [FitRow.obs]
  rank := by
    intro v hv
    have := hv ⟨fun _ => 1, 10, 1⟩ (List.mem_map.2 ⟨_, List.mem_cons_self, rfl⟩) one_pos
    funext j
    simpa [linPred, Fin.eq_zero j] using this
  rows := by
    intro q hq
    simp only [studentRows, List.mem_cons, List.not_mem_nil, or_false] at hq
    have key : Dist.studentT.WorkRow (1 / 10) (1 / 10) .identity 0
        fun j => .fin (if j = 0 then 0 else if j = 1 then 1 else 3) := by
      have hone : (((1 / 10 : ℝ) : ℝ) : EReal) ≤ ((1 : ℝ) : EReal) := EReal.coe_le_coe_iff.mpr (by norm_num)
      have hthree : (((1 / 10 : ℝ) : ℝ) : EReal) ≤ ((3 : ℝ) : EReal) := EReal.coe_le_coe_iff.mpr (by norm_num)
      refine ⟨fun j _ => rfl, ?_, ⟨bot_le, le_top⟩, trivial, trivial⟩
      intro i sup hs
      have hs' : [Dist.allReals, Dist.positives (1 / 10), Dist.positives (1 / 10)][i]? = some sup := hs
      match i, hs' with
      | 0, h => cases h; exact ⟨bot_le, le_top⟩
      | 1, h => cases h; exact ⟨hone, le_top⟩
      | 2, h => cases h; exact ⟨hthree, le_top⟩
    rcases hq with rfl | rfl
    · exact ⟨trivial, key⟩
    · exact ⟨trivial, key⟩

theorem studentRows_fitted : FittedValuesOf .identity 0 studentRows (0 : Row 1) := by
  intro q hq
  simp only [studentRows, List.mem_cons, List.not_mem_nil, or_false] at hq
  rcases hq with rfl | rfl <;> simp [linPred, rowReal, Flt.toReal, LinkClass.link]

/-- The log likelihood of the location. -/
theorem student_logLik (m : ℝ) : Dist.studentT.logLik .identity 0 0 studentRows (fun _ => m : Row 1) =
    Dist.studentL 10 m 1 3 + Dist.studentL (-10) m 1 3 := by
  have h : ∀ y, Dist.studentT.logLikEta .identity (fun j => if j = 0 then 0 else if j = 1 then 1 else 3) 0 y m =
      Dist.studentL y m 1 3 := by
    intro y
    rw [Dist.logLikEta_eq (by trivial) (by norm_num [Dist.Admissible, Function.update]), Dist.inverse_identity_smooth]
    simp [Dist.logDensity, Function.update]
  unfold Dist.logLik
  rw [discSum_forget_zero]
  have hr : rowReal (fun j => .fin (if j = 0 then 0 else if j = 1 then 1 else 3)) =
      fun j => if j = 0 then (0 : ℝ) else if j = 1 then 1 else 3 := rfl
  simp only [studentRows, List.map_cons, List.map_nil, List.sum_cons, List.sum_nil, add_zero, one_mul, hr]
  rw [show linPred (fun _ : Fin 1 => (1 : ℝ)) (fun _ => m) = m by simp [linPred], h, h]

/-- **C107 fails for the location of Student's t distribution.**  For the responses 10 and -10, scale 1 and 3 degrees of freedom,
an iteration that starts at location 0 stays there, though location 10 has a larger likelihood. -/
theorem C107_student_fails : ∃ (r : Inner × Bool) (t : GState MethodState 1) (o : IterOut),
    fitIteration (studentCall so e perm other) 0 1 0 5 ⟨studentRows.map FitRow.θ, studentRows.map FitRow.θ, .nan, .nan, 0, false, none⟩
      studentState = (.ok r, t) ∧ r.1.out = some o ∧ o.beta = ofVec (0 : Row 1) ∧ FittedValuesOf .identity 0 studentRows (0 : Row 1) ∧
      Dist.studentT.logLik .identity 0 0 studentRows (0 : Row 1) < Dist.studentT.logLik .identity 0 0 studentRows (fun _ => 10 : Row 1) ∧
      ¬Dist.studentT.IsMaximumLikelihood .identity 0 0 studentRows (0 : Row 1) := by
  have hc := studentCall_scoring so e perm other
  have hadm : ∀ q ∈ studentRows, Dist.studentT.Admissible (rowReal q.θ) := fun q hq =>
    Dist.admissible_of_inParameterSupport _ _ (by norm_num) (by norm_num) .studentT _ (hc.rows q hq).2.support
  obtain ⟨r, t, o, b', h1, h2, h3, h4⟩ := C94_scoring_step hc (f := 0) zero_lt_one (itO := 1) (itI := 0) (sched := 5)
    (a := ⟨studentRows.map FitRow.θ, studentRows.map FitRow.θ, .nan, .nan, 0, false, none⟩) (s := studentState) (step := 1)
    (reg := [false]) (by norm_num [stepAt, stepSchedule, studentCall, normalConfig, studentState, scoringState]; rfl) rfl rfl rfl rfl
  have hst : IsStationary (Dist.studentT.logLik .identity 0 0 studentRows) (0 : Row 1) := fun v => by
    refine (logLik_derivative (f := 0) (k := 0) (by norm_num [Dist.nParams]) (fun q hq => ⟨(hc.rows q hq).1, hadm q hq,
      (hc.rows q hq).2.workParam, (hc.rows q hq).2.smooth⟩) studentRows_fitted v).congr_deriv ?_
    rw [discSum_forget_zero]
    simp [studentRows, Dist.score, Dist.dl1, Dist.checked, Dist.validateIndex, Dist.chain, returned, bind, Except.bind, rowReal,
      Flt.toReal, LinkClass.inverseDerivative, Dist.studentScore]
  have hlt : Dist.studentT.logLik .identity 0 0 studentRows (0 : Row 1) <
      Dist.studentT.logLik .identity 0 0 studentRows (fun _ => 10 : Row 1) := by
    have h0 : (0 : Row 1) = fun _ => (0 : ℝ) := rfl
    rw [h0, student_logLik, student_logLik]
    unfold Dist.studentL
    have hlog : Real.log (1 + 400 / 3) < 2 * Real.log (1 + 100 / 3) := by
      rw [← Real.log_rpow (by norm_num)]
      exact Real.log_lt_log (by norm_num) (by norm_num)
    norm_num at hlog ⊢
    linarith
  refine ⟨r, t, o, h1, h2, ?_, studentRows_fitted, hlt, fun hmax => ?_⟩
  · rw [h3, ((h4 0 studentRows_fitted).1.2 hst)]
  · exact absurd (hmax (fun _ => 10) fun _ _ => trivial) (not_le.2 hlt)

/-- The responses -1 and 1 of a normal distribution with location 0: the iteration for the location stays, and 0 is the maximum
likelihood estimate, the only one. -/
example : ∃ (r : Inner × Bool) (t : GState MethodState 1) (o : IterOut),
    fitIteration (scoringCall so e perm other 1) 0 1 0 5 ⟨(scoringRows 1).map FitRow.θ, (scoringRows 1).map FitRow.θ, .nan, .nan, 0, false, none⟩
      (scoringState 1) = (.ok r, t) ∧ r.1.out = some o ∧ o.beta = ofVec (0 : Row 1) ∧
      Dist.normal.IsMaximumLikelihood .identity 0 0 (scoringRows 1) (0 : Row 1) ∧
      ∀ b, Dist.normal.IsMaximumLikelihood .identity 0 0 (scoringRows 1) b → b = 0 := by
  have hc := scoringCall_scoring so e perm other 1 0 (by norm_num) .identity rfl
  obtain ⟨r, t, o, b', h1, h2, h3, h4⟩ := C107_rest_is_maximum_partial hc (.inl .normal) (f := 0) zero_lt_one (itO := 1) (itI := 0)
    (sched := 5) (a := ⟨(scoringRows 1).map FitRow.θ, (scoringRows 1).map FitRow.θ, .nan, .nan, 0, false, none⟩) (s := scoringState 1)
    (step := 1) (reg := [false]) (by norm_num [stepAt, stepSchedule, scoringCall, normalConfig, scoringState]; rfl) rfl rfl rfl rfl
  have hadm : ∀ q ∈ scoringRows 1, Dist.normal.Admissible (rowReal q.θ) := fun q hq =>
    Dist.admissible_of_inParameterSupport _ _ (by norm_num) (by norm_num) .normal _ (hc.rows q hq).2.support
  have hst : IsStationary (Dist.normal.logLik .identity 0 0 (scoringRows 1)) (0 : Row 1) := fun v => by
    refine (logLik_derivative (f := 0) (k := 0) (by norm_num [Dist.nParams]) (fun q hq => ⟨(hc.rows q hq).1, hadm q hq,
      (hc.rows q hq).2.workParam, (hc.rows q hq).2.smooth⟩) (scoringRows_fitted 1).1 v).congr_deriv ?_
    rw [discSum_forget_zero]
    simp [scoringRows, Dist.score, Dist.dl1, Dist.checked, Dist.validateIndex, Dist.chain, returned, bind, Except.bind, rowReal,
      Flt.toReal, LinkClass.inverseDerivative]
  have hw : ∀ q ∈ scoringRows 1, 0 ≤ q.w := fun q hq => hc.nonneg (q.obs 0) (List.mem_map.2 ⟨q, hq, rfl⟩)
  have hmax := stationary_isMaximum zero_le_one hw (fun q hq => (Dist.LocationLike.normal.strictConcave (hadm q hq) (hc.rows q hq).1).concaveOn)
    (fun _ _ => trivial) hst
  exact ⟨r, t, o, h1, h2, by rw [h3, (h4 0 (scoringRows_fitted 1).1).2 hmax], hmax, fun b hb =>
    C107_unique_partial .normal zero_lt_one hc.nonneg hc.rank (fun q hq => ⟨(hc.rows q hq).1, hadm q hq⟩) (fun _ _ => trivial)
      (fun _ _ => trivial) hmax hb⟩

end Ondil
