import Verif.Lemmas.GamlssNormalRun
import Verif.Lemmas.GamlssNormalValues

/-!
# The fit of a normal distribution with least squares and an intercept for the scale

The inner loops of the two parameters, and the outer loop.
-/

open scoped BigOperators

namespace Ondil

variable {J p : ℕ}

/-! ### Least squares on working data -/

/-- Working data: regressors, working values, sample weights times a constant working weight. -/
def workObs {q : ℕ} (x : Obs J → Row q) (z : Obs J → ℝ) (ω : ℝ) (d : List (Obs J)) : List (Obs q) :=
  d.map fun o => ⟨x o, z o, o.w * ω⟩

theorem workObs_nonneg {q : ℕ} {x : Obs J → Row q} {z : Obs J → ℝ} {ω : ℝ} {d : List (Obs J)} (hω : 0 ≤ ω)
    (hw : NonnegWeights d) : NonnegWeights (workObs x z ω d) := by
  intro o ho
  obtain ⟨o', ho', rfl⟩ := List.mem_map.1 ho
  exact mul_nonneg (hw o' ho') hω

theorem workObs_fullRank {z : Obs J → ℝ} {ω : ℝ} {d : List (Obs J)} (hω : 0 < ω) (hr : FullRank d) :
    FullRank (workObs Obs.x z ω d) := by
  intro v hv
  refine hr v fun o ho hwo => ?_
  exact hv ⟨o.x, z o, o.w * ω⟩ (List.mem_map.2 ⟨o, ho, rfl⟩) (mul_pos hwo hω)

theorem workObs_fullRank_one {z : Obs J → ℝ} {ω : ℝ} {d : List (Obs J)} (hω : 0 < ω) (hd : d ≠ []) (hw : PosWeights d) :
    FullRank (workObs (fun _ => (fun _ : Fin 1 => (1 : ℝ))) z ω d) := by
  intro v hv
  obtain ⟨o, d', rfl⟩ := List.exists_cons_of_ne_nil hd
  have := hv ⟨fun _ => 1, z o, o.w * ω⟩ (List.mem_map.2 ⟨o, by simp, rfl⟩) (mul_pos (hw o (by simp)) hω)
  funext j
  simpa [linPred, Fin.eq_zero j] using this

theorem discSSE_workObs {q : ℕ} (f : ℝ) (x : Obs J → Row q) (z : Obs J → ℝ) (ω : ℝ) (d : List (Obs J)) (b : Row q) :
    discSSE f (workObs x z ω d) b = discSum f d fun o => o.w * ω * (z o - linPred (x o) b) ^ 2 := by
  unfold discSSE workObs
  rw [discSum_map]

theorem linPred_add (x a b : Row J) : linPred x (a + b) = linPred x a + linPred x b := by
  simp [linPred, mul_add, Finset.sum_add_distrib]

theorem linPred_smul (x b : Row J) (c : ℝ) : linPred x (c • b) = c * linPred x b := by
  simp only [linPred, Pi.smul_apply, smul_eq_mul, Finset.mul_sum]
  exact Finset.sum_congr rfl fun i _ => by ring

theorem linPred_sub (x a b : Row J) : linPred x (a - b) = linPred x a - linPred x b := by
  simp [linPred, mul_sub, Finset.sum_sub_distrib]

/-- Least squares coefficients for working values on the segment between a linear predictor and the response. -/
theorem lsq_shift {f : ℝ} (hf : f < 1) {d : List (Obs J)} (hw : NonnegWeights d) (hr : FullRank d) (b0 : Row J) {r ω : ℝ}
    (hr0 : 0 < r) (hω : 0 < ω) {z : Obs J → ℝ} (hz : ∀ o ∈ d, z o = linPred o.x b0 + r * (o.y - linPred o.x b0)) :
    lsq f (workObs Obs.x z ω d) = b0 + r • (lsq f d - b0) := by
  have hls := lsq_isLeastSquares hf hw hr
  refine isLeastSquares_unique (lsq_isLeastSquares hf (workObs_nonneg hω.le hw) (workObs_fullRank hω hr)) ?_
  have key : ∀ b, discSSE f (workObs Obs.x z ω d) b = ω * r ^ 2 * discSSE f d (b0 + (1 / r) • (b - b0)) := by
    intro b
    rw [discSSE_workObs]
    unfold discSSE
    rw [← discSum_mul_left]
    refine discSum_congr _ _ fun o ho => ?_
    rw [hz o ho, linPred_add, linPred_smul, linPred_sub]
    field_simp
    ring
  intro b' hne
  rw [key, key]
  have e1 : b0 + (1 / r) • (b0 + r • (lsq f d - b0) - b0) = lsq f d := by
    rw [add_sub_cancel_left, smul_smul, one_div, inv_mul_cancel₀ hr0.ne', one_smul, add_sub_cancel]
  rw [e1]
  refine mul_lt_mul_of_pos_left (hls _ fun h => hne ?_) (by positivity)
  rw [← h, add_sub_cancel_left, smul_smul, one_div, mul_inv_cancel₀ hr0.ne', one_smul, add_sub_cancel]

/-- Working values equal to the response do not change the least squares coefficients. -/
theorem lsq_response {f : ℝ} (hf : f < 1) {d : List (Obs J)} (hw : NonnegWeights d) (hr : FullRank d) {ω : ℝ}
    (hω : 0 < ω) {z : Obs J → ℝ} (hz : ∀ o ∈ d, z o = o.y) : lsq f (workObs Obs.x z ω d) = lsq f d := by
  have := lsq_shift hf hw hr 0 one_pos hω (z := z) fun o ho => by rw [hz o ho]; ring
  simpa using this

/-- The least squares intercept is not below a lower bound of the response. -/
theorem lsq_lower {f : ℝ} (hf : f < 1) {d : List (Obs J)} (hd : d ≠ []) (hw : PosWeights d) {ω : ℝ} (hω : 0 < ω)
    {z : Obs J → ℝ} {l : ℝ} (hl : ∀ o ∈ d, l ≤ z o) :
    l ≤ lsq f (workObs (fun _ => (fun _ : Fin 1 => (1 : ℝ))) z ω d) 0 := by
  have hw' : NonnegWeights d := fun o ho => (hw o ho).le
  have hls := lsq_isLeastSquares hf (workObs_nonneg (x := fun _ => (fun _ : Fin 1 => (1 : ℝ))) (z := z) hω.le hw')
    (workObs_fullRank_one hω hd hw)
  set b := lsq f (workObs (fun _ => (fun _ : Fin 1 => (1 : ℝ))) z ω d) with hb
  by_contra hlt
  rw [not_le] at hlt
  have h1 := hls (fun _ => l) (fun h => by rw [← h] at hlt; exact lt_irrefl _ hlt)
  rw [discSSE_workObs, discSSE_workObs] at h1
  have h2 : 0 ≤ discSum f d fun o => o.w * ω * (z o - linPred (fun _ : Fin 1 => (1 : ℝ)) b) ^ 2 -
      o.w * ω * (z o - linPred (fun _ : Fin 1 => (1 : ℝ)) fun _ => l) ^ 2 := by
    refine discSum_nonneg hf.le d fun o ho => ?_
    have h3 := hl o ho
    have h4 := mul_pos (hw o ho) hω
    simp only [linPred, Finset.univ_unique, Fin.default_eq_zero, Finset.sum_singleton, one_mul]
    rw [← mul_sub]
    refine mul_nonneg h4.le ?_
    nlinarith
  rw [discSum_sub] at h2
  linarith

/-! ### The calls and the states -/

variable {tiny ulp : ℝ} {so : ScipyOracles} {e : Elsewhere} {perm : ∀ J : ℕ, ℕ → ℕ → List (Fin J)}
  {other : MethodOps MethodState}

/-- The call works on the design `d` for the location and on an intercept for the scale. -/
structure NormalCall (tiny ulp : ℝ) (so : ScipyOracles) (e : Elsewhere) (perm : ∀ J : ℕ, ℕ → ℕ → List (Fin J))
    (other : MethodOps MethodState) (c : Call MethodState p) (d : List (Obs J)) : Prop where
  D : c.D = normalOps tiny ulp so e
  M : c.M = packageMethods perm other
  y : c.y = ys d
  w : c.w = ws d
  X0 : c.X 0 = some ((xs d).map ofVec)
  X1 : c.X 1 = some (d.map fun _ => ofVec fun _ : Fin 1 => (1 : ℝ))
  cond : c.cfg.condStartVal = false
  ne : d ≠ []
  pos : PosWeights d
  rank : FullRank d
  tiny : tiny ≤ scaleMin

theorem NormalCall.nonneg {c : Call MethodState p} {d : List (Obs J)} (h : NormalCall tiny ulp so e perm other c d) :
    NonnegWeights d := fun o ho => (h.pos o ho).le

/-- The attributes the loops of the fit rely on. -/
structure NormalState (f : ℝ) (mi : ℕ) (s : GState MethodState p) : Prop where
  method : ∀ k < 2, s.method k = some .ols
  forget : ∀ k < 2, s.forget.get? k = some f
  reg : ∀ k < 2, ∃ r, s.isRegularized.get? k = some r
  steps : ∀ k < 2, s.stepSize.values[k]? = some 1
  schedule : ∀ i, 1 ≤ s.scheduleIteration i ∧ s.scheduleIteration i ≤ mi
  first : ∀ o k, s.scheduleStep o 0 k = none
  bounds : ∀ o i k v, s.scheduleStep o i k = some v → 0 ≤ v ∧ v ≤ 1
  order : s.paramOrder = [0, 1]

theorem NormalState.iter {f : ℝ} {mi : ℕ} {s t : GState MethodState p} (h : NormalState f mi s) {k itO itI : ℕ} {step : ℝ}
    (h0 : 0 ≤ step ∧ step ≤ 1) (hk : IterKeeps s t) (hm : t.method = upd s.method k (some .ols))
    (hs : StepKeeps itO itI k step s t) : NormalState f mi t where
  method := by
    intro j hj
    rw [hm]
    unfold upd
    by_cases hjk : j = k
    · subst hjk
      simp
    · rw [Function.update_of_ne hjk]
      exact h.method j hj
  forget := by rw [hk.forget]; exact h.forget
  reg := by rw [hk.reg]; exact h.reg
  steps := by rw [hk.stepSize]; exact h.steps
  schedule := by rw [hk.schedule]; exact h.schedule
  first := by
    intro o j
    rcases hs with hs | hs
    · rw [hs]
      exact h.first o j
    · rw [hs]
      simp only
      rw [if_neg (by omega)]
      exact h.first o j
  bounds := by
    intro o i j v hv
    rcases hs with hs | hs
    · rw [hs] at hv
      exact h.bounds o i j v hv
    · rw [hs] at hv
      simp only at hv
      split at hv
      · cases hv
        constructor <;> linarith [h0.1, h0.2]
      · exact h.bounds o i j v hv
  order := by rw [hk.order]; exact h.order

theorem NormalState.step {f : ℝ} {c : GConfig MethodState p} {s : GState MethodState p} (h : NormalState f c.maxInner s)
    {itO itI k : ℕ} (hO : itO - 1 < c.maxOuter) (hI : itI < c.maxInner) (hk : k < 2) :
    ∃ step, stepAt c s itO itI k = .ok step ∧ 0 ≤ step ∧ step ≤ 1 ∧ (itI = 0 → step = 1) := by
  unfold stepAt stepSchedule
  rw [if_pos ⟨hO, hI⟩, h.steps k hk]
  refine ⟨_, rfl, ?_⟩
  cases hv : s.scheduleStep (itO - 1) itI k with
  | none => simp
  | some v =>
    obtain ⟨h1, h2⟩ := h.bounds _ _ _ _ hv
    refine ⟨h1, h2, ?_⟩
    rintro rfl
    rw [h.first] at hv
    cases hv

/-- Working values of the location. -/
noncomputable def locWorking (σ : ℝ) (g : Obs J → ℝ) (o : Obs J) : ℝ := g o + 1 / σ ^ 2 / locWeight σ * (o.y - g o)

/-- The coefficients one inner iteration computes for the location. -/
noncomputable def locBeta (f σ : ℝ) (g : Obs J → ℝ) (d : List (Obs J)) : Row J :=
  lsq f (workObs Obs.x (locWorking σ g) (locWeight σ) d)

theorem xs_workObs {q : ℕ} (x : Obs J → Row q) (z : Obs J → ℝ) (ω : ℝ) (d : List (Obs J)) :
    xs (workObs x z ω d) = d.map x := by simp [xs, workObs, Function.comp_def]

theorem ys_workObs {q : ℕ} (x : Obs J → Row q) (z : Obs J → ℝ) (ω : ℝ) (d : List (Obs J)) :
    ys (workObs x z ω d) = d.map z := by simp [ys, workObs, Function.comp_def]

theorem ws_workObs {q : ℕ} (x : Obs J → Row q) (z : Obs J → ℝ) (ω : ℝ) (d : List (Obs J)) :
    ws (workObs x z ω d) = d.map fun o => o.w * ω := by simp [ws, workObs, Function.comp_def]

theorem loc_iteration {c : Call MethodState p} {d : List (Obs J)} (hc : NormalCall tiny ulp so e perm other c d)
    {f : ℝ} (hf1 : f < 1) {s : GState MethodState p} (hs : NormalState f c.cfg.maxInner s) {itO itI sched : ℕ}
    (hO : itO - 1 < c.cfg.maxOuter) (hI : itI < c.cfg.maxInner) {a : Inner} {g : Obs J → ℝ} {σ : ℝ} (hσ : ScaleOk σ)
    (ha : FvAt d g σ a.fvIt) :
    Py.Total (fun t => t = s) (fitIteration c 0 itO itI sched a) (fun r t => NormalState f c.cfg.maxInner t ∧
      t.fv = s.fv ∧ t.coef = s.coef ∧ ∃ step : ℝ, (itI = 0 → step = 1) ∧
        IterResult c 0 a (ofVec (locBeta f σ g d)) (d.map fun o => .fin (step * linPred o.x (locBeta f σ g d) +
          (1 - step) * g o)) r) := by
  obtain ⟨step, hstep, h0, h1, hfirst⟩ := hs.step hO hI (k := 0) (by norm_num)
  obtain ⟨reg, hreg⟩ := hs.reg 0 (by norm_num)
  have hwk : working c.D fitClip c.y a.fvIt 0 = .ok ⟨d.map fun o => .fin (g o), d.map fun _ => .fin (locWeight σ),
      d.map fun o => .fin (locWorking σ g o)⟩ := by
    rw [hc.D, hc.y]
    exact normal_working_zero ha (hc.tiny.trans hσ.1)
  have hne : workObs Obs.x (locWorking σ g) (locWeight σ) d ≠ [] := by
    simpa [workObs] using hc.ne
  obtain ⟨xg, yg, hx, hy, hb⟩ := ols_calls (perm := perm) (other := other) hf1 hne
    (workObs_nonneg (locWeight_pos σ).le hc.nonneg) (workObs_fullRank (locWeight_pos σ) hc.rank) reg
  have hww : wmul c.w (d.map fun _ => Flt.fin (locWeight σ)) = (ws (workObs Obs.x (locWorking σ g) (locWeight σ) d)).map
      Flt.fin := by
    rw [hc.w, wmul_maps, ws_workObs, List.map_map]
    rfl
  have hXx : (xs (workObs Obs.x (locWorking σ g) (locWeight σ) d)).map ofVec = (xs d).map ofVec := by
    rw [xs_workObs]
    rfl
  have hyy : (d.map fun o => Flt.fin (locWorking σ g o)) = (ys (workObs Obs.x (locWorking σ g) (locWeight σ) d)).map
      Flt.fin := by
    rw [ys_workObs, List.map_map]
    rfl
  refine (fitIteration_run hstep hc.cond hwk hc.X0 (hs.method 0 (by norm_num)) (by rw [hc.M]; rfl)
    (hs.forget 0 (by norm_num)) hreg (xg := xg) (yg := yg) (b := ofVec (locBeta f σ g d)) (m' := .ols) ?_ ?_ ?_
    (matVec_ofVec _ _) (v := d.map fun o => .fin (step * linPred o.x (locBeta f σ g d) + (1 - step) * g o)) ?_).post ?_
  · rw [hc.M, hww, ← hXx]
    exact hx
  · rw [hc.M, hww, ← hXx]
    change (packageMethods perm other).initY _ _ (d.map fun o => Flt.fin (locWorking σ g o)) _ _ = _
    rw [hyy]
    exact hy
  · rw [hc.M]
    exact hb
  · have : (xs d).map (fun x => Flt.fin (linPred x (locBeta f σ g d))) =
        d.map fun o => Flt.fin (linPred o.x (locBeta f σ g d)) := by
      rw [xs, List.map_map]
      rfl
    rw [this, zipWith_maps, hc.D]
    exact normal_inverse_zero _
  · rintro r t ⟨hr, hk, hm, hst⟩
    exact ⟨hs.iter ⟨h0, h1⟩ hk hm hst, hk.fv, hk.coef, step, hfirst, hr⟩

theorem scale_working_lower {σ : ℝ} (hσ : ScaleOk σ) (v : ℝ) :
    robustLog σ - 1 / 2 ≤ robustLog σ + (v ^ 2 - σ ^ 2) / (2 * σ * max σ smallNumber) := by
  have hpos := hσ.pos
  have hm : σ ≤ max σ smallNumber := le_max_left _ _
  have hm0 : 0 < max σ smallNumber := lt_of_lt_of_le hpos hm
  have : -(1 / 2) ≤ (v ^ 2 - σ ^ 2) / (2 * σ * max σ smallNumber) := by
    rw [le_div_iff₀ (by positivity)]
    nlinarith [sq_nonneg v]
  linarith

theorem scale_iteration {c : Call MethodState p} {d : List (Obs J)} (hc : NormalCall tiny ulp so e perm other c d)
    {f : ℝ} (hf1 : f < 1) {s : GState MethodState p} (hs : NormalState f c.cfg.maxInner s) {itO itI sched : ℕ}
    (hO : itO - 1 < c.cfg.maxOuter) (hI : itI < c.cfg.maxInner) {a : Inner} {g : Obs J → ℝ} {σ : ℝ} (hσ : ScaleOk σ)
    (ha : FvAt d g σ a.fvIt) :
    Py.Total (fun t => t = s) (fitIteration c 1 itO itI sched a) (fun r t => NormalState f c.cfg.maxInner t ∧
      t.fv = s.fv ∧ t.coef = s.coef ∧ ∃ (b : Arr1) (τ : ℝ), ScaleOk τ ∧
        IterResult c 1 a b (d.map fun _ => .fin τ) r) := by
  obtain ⟨step, hstep, h0, h1, hfirst⟩ := hs.step hO hI (k := 1) (by norm_num)
  obtain ⟨reg, hreg⟩ := hs.reg 1 (by norm_num)
  set z : Obs J → ℝ := fun o => robustLog σ + ((o.y - g o) ^ 2 - σ ^ 2) / (2 * σ * max σ smallNumber) with hz
  set x1 : Obs J → Row 1 := fun _ => (fun _ : Fin 1 => (1 : ℝ)) with hx1
  set ω := scaleWeight σ with hω
  have hω0 : 0 < ω := by
    have := (scaleWeight_bounds hσ).1
    rw [hω]
    linarith
  have hwk : working c.D fitClip c.y a.fvIt 1 = .ok ⟨d.map fun _ => .fin (robustLog σ), d.map fun _ => .fin ω,
      d.map fun o => .fin (z o)⟩ := by
    rw [hc.D, hc.y]
    exact normal_working_one ha hc.tiny hσ
  have hne : workObs x1 z ω d ≠ [] := by simpa [workObs] using hc.ne
  obtain ⟨xg, yg, hx, hy, hb⟩ := ols_calls (perm := perm) (other := other) hf1 hne
    (workObs_nonneg hω0.le hc.nonneg) (workObs_fullRank_one hω0 hc.ne hc.pos) reg
  set b := lsq f (workObs x1 z ω d) with hbdef
  have hlow : robustLog σ - 1 / 2 ≤ b 0 := lsq_lower hf1 hc.ne hc.pos hω0 fun o _ => scale_working_lower hσ _
  have hww : wmul c.w (d.map fun _ => Flt.fin ω) = (ws (workObs x1 z ω d)).map Flt.fin := by
    rw [hc.w, wmul_maps, ws_workObs, List.map_map]
    rfl
  have hXx : (xs (workObs x1 z ω d)).map ofVec = d.map fun _ => ofVec fun _ : Fin 1 => (1 : ℝ) := by
    rw [xs_workObs, List.map_map]
    rfl
  have hyy : (d.map fun o => Flt.fin (z o)) = (ys (workObs x1 z ω d)).map Flt.fin := by
    rw [ys_workObs, List.map_map]
    rfl
  have hmv : matVec (d.map fun _ => ofVec fun _ : Fin 1 => (1 : ℝ)) (ofVec b) = .ok (d.map fun _ => .fin (b 0)) := by
    rw [← hXx, matVec_ofVec, xs_workObs, List.map_map]
    refine congrArg Except.ok (List.map_congr_left fun o _ => ?_)
    simp [linPred, hx1]
  refine (fitIteration_run hstep hc.cond hwk hc.X1 (hs.method 1 (by norm_num)) (by rw [hc.M]; rfl)
    (hs.forget 1 (by norm_num)) hreg (xg := xg) (yg := yg) (b := ofVec b) (m' := .ols) ?_ ?_ ?_
    hmv (v := d.map fun _ => .fin (robustExp (step * b 0 + (1 - step) * robustLog σ))) ?_).post ?_
  · rw [hc.M, hww, ← hXx]
    exact hx
  · rw [hc.M, hww, ← hXx]
    change (packageMethods perm other).initY _ _ (d.map fun o => Flt.fin (z o)) _ _ = _
    rw [hyy]
    exact hy
  · rw [hc.M]
    exact hb
  · rw [zipWith_maps, hc.D]
    exact normal_inverse_one _
  · rintro r t ⟨hr, hk, hm, hst⟩
    refine ⟨hs.iter ⟨h0, h1⟩ hk hm hst, hk.fv, hk.coef, _, _, ?_, hr⟩
    refine scale_step (σ := σ) ?_
    nlinarith

/-! ### The inner loops -/

/-- The variables of the inner loop after the location is settled. -/
structure LocInner (d : List (Obs J)) (b : Row J) (σ : ℝ) (a : Inner) : Prop where
  fvNew : FvAt d (fun o => linPred o.x b) σ a.fvNew
  out : ∃ o, a.out = some o ∧ o.beta = ofVec b

/-- One more inner iteration for the location does not move the coefficients `b`. -/
def LocFixed (f : ℝ) (d : List (Obs J)) (b : Row J) : Prop :=
  ∀ σ, ScaleOk σ → locBeta f σ (fun o => linPred o.x b) d = b

theorem FvAt.congr {d : List (Obs J)} {g g' : Obs J → ℝ} {σ : ℝ} {fv : Fv} (h : FvAt d g σ fv) (hg : ∀ o ∈ d, g o = g' o) :
    FvAt d g' σ fv := by
  unfold FvAt at *
  rw [List.forall₂_iff_get] at *
  refine ⟨h.1, fun i h1 h2 => ?_⟩
  rw [← hg _ (List.get_mem _ _)]
  exact h.2 i h1 h2

theorem loc_loop {c : Call MethodState p} {d : List (Obs J)} (hc : NormalCall tiny ulp so e perm other c d)
    {f : ℝ} (hf1 : f < 1) {b : Row J} (hb : LocFixed f d b) {itO sched : ℕ} (hO : itO - 1 < c.cfg.maxOuter) {σ : ℝ}
    (hσ : ScaleOk σ) (n itI : ℕ) (hn : itI + n ≤ c.cfg.maxInner) (a : Inner) (g : Obs J → ℝ)
    (ha : FvAt d (fun o => linPred o.x b) σ a.fvIt) (ha' : FvAt d g σ a.fvNew) (hout : n = 0 → LocInner d b σ a)
    (s : GState MethodState p) (hs : NormalState f c.cfg.maxInner s) :
    Py.Total (fun t => t = s) (fitInnerLoop c 0 itO sched n itI a) (fun r t => NormalState f c.cfg.maxInner t ∧
      t.fv = s.fv ∧ t.coef = s.coef ∧ LocInner d b σ r) := by
  induction n generalizing itI a g s with
  | zero =>
    unfold fitInnerLoop
    refine Py.Total.pure ?_
    rintro _ rfl
    exact ⟨hs, rfl, rfl, hout rfl⟩
  | succ n ih =>
    unfold fitInnerLoop
    refine Py.Total.bind (loc_iteration hc hf1 hs hO (by omega) hσ ha) fun r => ?_
    refine Py.Total.of_state fun t ht => ?_
    obtain ⟨ht, hfv, hco, step, -, hr⟩ := ht
    rw [hb σ hσ] at hr
    have hv : (d.map fun o => Flt.fin (step * linPred o.x b + (1 - step) * linPred o.x b)) =
        d.map fun o => Flt.fin (linPred o.x b) := List.map_congr_left fun o _ => by congr 1; ring
    rw [hv] at hr
    have hnew : FvAt d (fun o => linPred o.x b) σ r.1.fvNew := by
      rw [hr.fvNew]
      exact ha'.set_zero _
    have hin : LocInner d b σ r.1 := ⟨hnew, hr.out⟩
    have hit : FvAt d (fun o => linPred o.x b) σ r.1.fvIt := by
      rcases hr.fvIt with h | h
      · rw [h, (ha'.set_zero _).col_zero]
        exact ha.set_zero _
      · rw [h.1]
        exact ha
    by_cases h : r.2 = true
    · rw [if_pos h]
      refine Py.Total.pure ?_
      rintro _ rfl
      exact ⟨ht, hfv, hco, hin⟩
    · rw [if_neg h]
      refine (ih (itI + 1) (by omega) r.1 _ hit hnew (fun _ => hin) t ht).post ?_
      rintro q u ⟨h1, h2, h3, h4⟩
      exact ⟨h1, h2.trans hfv, h3.trans hco, h4⟩

theorem loc_first {c : Call MethodState p} {d : List (Obs J)} (hc : NormalCall tiny ulp so e perm other c d)
    {f : ℝ} (hf1 : f < 1) {itO sched : ℕ} (hO : itO - 1 < c.cfg.maxOuter) {σ : ℝ}
    (hσ : ScaleOk σ) (n : ℕ) (hn1 : 1 ≤ n) (hn : n ≤ c.cfg.maxInner) (a : Inner) (g : Obs J → ℝ)
    (ha : FvAt d g σ a.fvIt) (ha' : FvAt d g σ a.fvNew) {b : Row J} (hb : locBeta f σ g d = b)
    (hacc : n = 1 ∨ LocFixed f d b ∧ ∀ fv, FvAt d (fun o => linPred o.x b) σ fv →
      ¬ Flt.lt a.dvOld (deviance c.D c.y c.w fv)) (s : GState MethodState p) (hs : NormalState f c.cfg.maxInner s) :
    Py.Total (fun t => t = s) (fitInnerLoop c 0 itO sched n 0 a) (fun r t => NormalState f c.cfg.maxInner t ∧
      t.fv = s.fv ∧ t.coef = s.coef ∧ LocInner d b σ r) := by
  obtain ⟨n, rfl⟩ : ∃ m, n = m + 1 := ⟨n - 1, by omega⟩
  unfold fitInnerLoop
  refine Py.Total.bind (loc_iteration hc hf1 hs hO (by omega) hσ ha) fun r => ?_
  refine Py.Total.of_state fun t ht => ?_
  obtain ⟨ht, hfv, hco, step, hstep, hr⟩ := ht
  rw [hstep rfl, hb] at hr
  have hv : (d.map fun o => Flt.fin (1 * linPred o.x b + (1 - 1) * g o)) =
      d.map fun o => Flt.fin (linPred o.x b) := List.map_congr_left fun o _ => by congr 1; ring
  rw [hv] at hr
  have hnew : FvAt d (fun o => linPred o.x b) σ r.1.fvNew := by
    rw [hr.fvNew]
    exact ha'.set_zero _
  have hin : LocInner d b σ r.1 := ⟨hnew, hr.out⟩
  by_cases h : r.2 = true
  · rw [if_pos h]
    refine Py.Total.pure ?_
    rintro _ rfl
    exact ⟨ht, hfv, hco, hin⟩
  · rw [if_neg h]
    rcases Nat.eq_zero_or_pos n with rfl | hpos
    · unfold fitInnerLoop
      refine Py.Total.pure ?_
      rintro _ rfl
      exact ⟨ht, hfv, hco, hin⟩
    · obtain ⟨hfix, hdev⟩ := hacc.resolve_left (by omega)
      have hit : FvAt d (fun o => linPred o.x b) σ r.1.fvIt := by
        rcases hr.fvIt with h' | h'
        · rw [h', (ha'.set_zero _).col_zero]
          exact ha.set_zero _
        · exact absurd (h'.2.resolve_left h) (hdev _ (ha'.set_zero _))
      refine (loc_loop hc hf1 hfix hO hσ n (0 + 1) (by omega) r.1 _ hit hnew (fun _ => hin) t ht).post ?_
      rintro q u ⟨h1, h2, h3, h4⟩
      exact ⟨h1, h2.trans hfv, h3.trans hco, h4⟩

theorem scale_loop {c : Call MethodState p} {d : List (Obs J)} (hc : NormalCall tiny ulp so e perm other c d)
    {f : ℝ} (hf1 : f < 1) {g : Obs J → ℝ} {itO sched : ℕ} (hO : itO - 1 < c.cfg.maxOuter) (n itI : ℕ)
    (hn : itI + n ≤ c.cfg.maxInner) (a : Inner) (ha : ∃ σ, ScaleOk σ ∧ FvAt d g σ a.fvIt)
    (ha' : ∃ σ, ScaleOk σ ∧ FvAt d g σ a.fvNew) (hout : n = 0 → ∃ o, a.out = some o)
    (s : GState MethodState p) (hs : NormalState f c.cfg.maxInner s) :
    Py.Total (fun t => t = s) (fitInnerLoop c 1 itO sched n itI a) (fun r t => NormalState f c.cfg.maxInner t ∧
      t.fv = s.fv ∧ t.coef = s.coef ∧ (∃ σ, ScaleOk σ ∧ FvAt d g σ r.fvNew) ∧ ∃ o, r.out = some o) := by
  induction n generalizing itI a s with
  | zero =>
    unfold fitInnerLoop
    refine Py.Total.pure ?_
    rintro _ rfl
    exact ⟨hs, rfl, rfl, ha', hout rfl⟩
  | succ n ih =>
    unfold fitInnerLoop
    obtain ⟨σ, hσ, hA⟩ := ha
    obtain ⟨σ', hσ', hA'⟩ := ha'
    refine Py.Total.bind (scale_iteration hc hf1 hs hO (by omega) hσ hA) fun r => ?_
    refine Py.Total.of_state fun t ht => ?_
    obtain ⟨ht, hfv, hco, b, τ, hτ, hr⟩ := ht
    have hnew : ∃ σ, ScaleOk σ ∧ FvAt d g σ r.1.fvNew := by
      refine ⟨τ, hτ, ?_⟩
      rw [hr.fvNew]
      exact hA'.set_one τ
    have hout' : ∃ o, r.1.out = some o := by
      obtain ⟨o, ho, _⟩ := hr.out
      exact ⟨o, ho⟩
    have hit : ∃ σ, ScaleOk σ ∧ FvAt d g σ r.1.fvIt := by
      rcases hr.fvIt with h | h
      · refine ⟨τ, hτ, ?_⟩
        rw [h, (hA'.set_one τ).col_one]
        exact hA.set_one τ
      · rw [h.1]
        exact ⟨σ, hσ, hA⟩
    by_cases h : r.2 = true
    · rw [if_pos h]
      refine Py.Total.pure ?_
      rintro _ rfl
      exact ⟨ht, hfv, hco, hnew, hout'⟩
    · rw [if_neg h]
      refine (ih (itI + 1) (by omega) r.1 hit hnew (fun _ => hout') t ht).post ?_
      rintro q u ⟨h1, h2, h3, h4⟩
      exact ⟨h1, h2.trans hfv, h3.trans hco, h4⟩

/-! ### The passes of the outer loop -/

theorem NormalState.congr {f : ℝ} {mi : ℕ} {s : GState MethodState p} (h : NormalState f mi s) (t : GState MethodState p)
    (ht : (t.method, t.forget, t.isRegularized, t.stepSize, t.scheduleIteration, t.scheduleStep, t.paramOrder) =
      (s.method, s.forget, s.isRegularized, s.stepSize, s.scheduleIteration, s.scheduleStep, s.paramOrder)) :
    NormalState f mi t := by
  simp only [Prod.mk.injEq] at ht
  obtain ⟨a1, a2, a3, a4, a5, a6, a7⟩ := ht
  obtain ⟨h1, h2, h3, h4, h5, h6, h7, h8⟩ := h
  exact ⟨by rwa [a1], by rwa [a2], by rwa [a3], by rwa [a4], by rwa [a5], by rwa [a6], by rwa [a6], by rwa [a7]⟩

/-- The state before the first pass: constant scale, any location. -/
structure NormalStart (f : ℝ) (mi : ℕ) (d : List (Obs J)) (g : Obs J → ℝ) (σ : ℝ) (s : GState MethodState p) : Prop where
  state : NormalState f mi s
  fv : FvAt d g σ s.fv

/-- The state when the location has the coefficients `b`. -/
structure NormalInv (f : ℝ) (mi : ℕ) (d : List (Obs J)) (b : Row J) (s : GState MethodState p) : Prop where
  state : NormalState f mi s
  fv : ∃ σ, ScaleOk σ ∧ FvAt d (fun o => linPred o.x b) σ s.fv
  coef : s.coef 0 = some (ofVec b)

theorem commit_loc {c : Call MethodState p} {f : ℝ} {d : List (Obs J)} {b : Row J} {g : Obs J → ℝ} {σ : ℝ} (hσ : ScaleOk σ)
    {t : GState MethodState p} (ht : NormalState f c.cfg.maxInner t) (hfv : FvAt d g σ t.fv) {a : Inner}
    (ha : LocInner d b σ a) {o : IterOut} (ho : a.out = some o) :
    NormalInv f c.cfg.maxInner d b (commitFit c 0 a o t) := by
  obtain ⟨o', ho', hbeta⟩ := ha.out
  rw [ho] at ho'
  cases ho'
  refine ⟨ht.congr _ rfl, ⟨σ, hσ, ?_⟩, ?_⟩
  · change FvAt d _ σ (t.fv.setCol 0 (a.fvNew.col 0))
    rw [ha.fvNew.col_zero]
    exact hfv.set_zero _
  · simp [commitFit, upd, hbeta]

theorem loc_pass_first {c : Call MethodState p} {d : List (Obs J)} (hc : NormalCall tiny ulp so e perm other c d)
    {f : ℝ} (hf1 : f < 1) (hO : 1 ≤ c.cfg.maxOuter) {σ : ℝ} (hσ : ScaleOk σ) {g : Obs J → ℝ} {b : Row J}
    (hb : locBeta f σ g d = b) {s : GState MethodState p} (hs : NormalStart f c.cfg.maxInner d g σ s)
    (hacc : s.scheduleIteration 0 = 1 ∨ LocFixed f d b ∧ ∀ fv fv', FvAt d g σ fv → FvAt d (fun o => linPred o.x b) σ fv' →
      ¬ Flt.lt (deviance c.D c.y c.w fv) (deviance c.D c.y c.w fv')) :
    Py.Total (fun t => t = s) (innerFit c 1 0) (fun _ t => NormalInv f c.cfg.maxInner d b t) := by
  unfold innerFit
  refine Py.Total.bind_self ?_
  rintro s rfl
  have hn : iterationsAt c.cfg s 1 = .ok (s.scheduleIteration 0) := by
    unfold iterationsAt
    rw [if_pos (by omega)]
  refine Py.Total.bind_call hn (Py.Total.bind (loc_first hc hf1 (by omega) hσ _ (hs.state.schedule 0).1
    (hs.state.schedule 0).2 _ g hs.fv hs.fv hb ?_ s hs.state) fun a => ?_)
  · rcases hacc with h | ⟨h1, h2⟩
    · exact .inl h
    · exact .inr ⟨h1, fun fv hfv => h2 _ _ hs.fv hfv⟩
  · refine Py.Total.of_state ?_
    rintro t ⟨ht, hfv, hco, ha⟩
    obtain ⟨o, ho, _⟩ := ha.out
    refine Py.Total.bind_attr ho (Py.Total.bind_set (P' := NormalInv f c.cfg.maxInner d b) ?_
      (Py.Total.bind_set (P' := NormalInv f c.cfg.maxInner d b) ?_ (Py.Total.pure fun u hu => hu)))
    · rintro _ rfl
      rw [if_pos (.inr rfl)]
      exact commit_loc hσ ht (by rw [hfv]; exact hs.fv) ha ho
    · exact fun u hu => ⟨hu.state.congr _ rfl, hu.fv, hu.coef⟩

theorem loc_pass {c : Call MethodState p} {d : List (Obs J)} (hc : NormalCall tiny ulp so e perm other c d)
    {f : ℝ} (hf1 : f < 1) {itO : ℕ} (hO : itO - 1 < c.cfg.maxOuter) {b : Row J} (hb : LocFixed f d b) :
    Py.Total (NormalInv f c.cfg.maxInner d b) (innerFit c itO 0) (fun _ t => NormalInv f c.cfg.maxInner d b t) := by
  unfold innerFit
  refine Py.Total.bind_self fun s hs => ?_
  obtain ⟨σ, hσ, hA⟩ := hs.fv
  have hn : iterationsAt c.cfg s itO = .ok (s.scheduleIteration (itO - 1)) := by
    unfold iterationsAt
    rw [if_pos hO]
  refine Py.Total.bind_call hn (Py.Total.bind (loc_loop hc hf1 hb hO hσ _ 0 (by
    rw [Nat.zero_add]; exact (hs.state.schedule _).2) _ _ hA hA (fun h => ?_) s hs.state) fun a => ?_)
  · have := (hs.state.schedule (itO - 1)).1
    omega
  · refine Py.Total.of_state ?_
    rintro t ⟨ht, hfv, hco, ha⟩
    obtain ⟨o, ho, _⟩ := ha.out
    refine Py.Total.bind_attr ho (Py.Total.bind_set (P' := NormalInv f c.cfg.maxInner d b) ?_
      (Py.Total.bind_set (P' := NormalInv f c.cfg.maxInner d b) ?_ (Py.Total.pure fun u hu => hu)))
    · rintro _ rfl
      split
      · exact commit_loc hσ ht (by rw [hfv]; exact hA) ha ho
      · exact ⟨ht, ⟨σ, hσ, by rw [hfv]; exact hA⟩, by rw [hco]; exact hs.coef⟩
    · exact fun u hu => ⟨hu.state.congr _ rfl, hu.fv, hu.coef⟩

theorem scale_pass {c : Call MethodState p} {d : List (Obs J)} (hc : NormalCall tiny ulp so e perm other c d)
    {f : ℝ} (hf1 : f < 1) {itO : ℕ} (hO : itO - 1 < c.cfg.maxOuter) {b : Row J} :
    Py.Total (NormalInv f c.cfg.maxInner d b) (innerFit c itO 1) (fun _ t => NormalInv f c.cfg.maxInner d b t) := by
  unfold innerFit
  refine Py.Total.bind_self fun s hs => ?_
  have hn : iterationsAt c.cfg s itO = .ok (s.scheduleIteration (itO - 1)) := by
    unfold iterationsAt
    rw [if_pos hO]
  refine Py.Total.bind_call hn (Py.Total.bind (scale_loop hc hf1 hO _ 0 (by
    rw [Nat.zero_add]; exact (hs.state.schedule _).2) _ hs.fv hs.fv (fun h => ?_) s hs.state) fun a => ?_)
  · have := (hs.state.schedule (itO - 1)).1
    omega
  · refine Py.Total.of_state ?_
    rintro t ⟨ht, hfv, hco, ⟨τ, hτ, hA⟩, o, ho⟩
    obtain ⟨σ, hσ, hS⟩ := hs.fv
    refine Py.Total.bind_attr ho (Py.Total.bind_set (P' := NormalInv f c.cfg.maxInner d b) ?_
      (Py.Total.bind_set (P' := NormalInv f c.cfg.maxInner d b) ?_ (Py.Total.pure fun u hu => hu)))
    · rintro t rfl
      split
      · refine ⟨ht.congr _ rfl, ⟨τ, hτ, ?_⟩, ?_⟩
        · change FvAt d _ τ (t.fv.setCol 1 (a.fvNew.col 1))
          rw [hA.col_one, hfv]
          exact hS.set_one τ
        · change upd t.coef 1 (some o.beta) 0 = _
          rw [upd, Function.update_of_ne (by norm_num), hco]
          exact hs.coef
      · exact ⟨ht, ⟨σ, hσ, by rw [hfv]; exact hS⟩, by rw [hco]; exact hs.coef⟩
    · exact fun u hu => ⟨hu.state.congr _ rfl, hu.fv, hu.coef⟩

theorem normal_outerFit {c : Call MethodState p} {d : List (Obs J)} (hc : NormalCall tiny ulp so e perm other c d)
    {f : ℝ} (hf1 : f < 1) {σ : ℝ} (hσ : ScaleOk σ) {g : Obs J → ℝ} {b : Row J}
    (hb : locBeta f σ g d = b) {s : GState MethodState p} (hs : NormalStart f c.cfg.maxInner d g σ s)
    (hm1 : 1 ≤ s.minIt) (hm : s.minIt ≤ c.cfg.maxOuter) (fuel : ℕ) (hfuel : c.cfg.maxOuter < fuel)
    (hacc : (s.scheduleIteration 0 = 1 ∧ c.cfg.maxOuter = 1) ∨ LocFixed f d b ∧ ∀ fv fv', FvAt d g σ fv →
      FvAt d (fun o => linPred o.x b) σ fv' → ¬ Flt.lt (deviance c.D c.y c.w fv) (deviance c.D c.y c.w fv')) :
    Py.Total (fun t => t = s) (outerFit c fuel) (fun r t => (∃ dv i, r = some (dv, i)) ∧
      NormalInv f c.cfg.maxInner d b t) := by
  unfold outerFit
  refine Py.Total.bind_self ?_
  rintro s rfl
  refine ((outerLoop_total (top := c.cfg.maxOuter)
    (I := fun it t => if it = 0 then t = s else NormalInv f c.cfg.maxInner d b t)
    ?_ ?_ fuel 0 _ _ hfuel (Nat.zero_le _)).pre ?_).post ?_
  · exact fun it dev devOld h => ⟨hm.trans h, .inr (.inl h)⟩
  · intro it dev h1 h2
    rw [hs.state.order]
    unfold paramLoop
    refine Py.Total.bind (R := fun _ => NormalInv f c.cfg.maxInner d b) ?_ fun dv => ?_
    · by_cases hit : it = 1
      · subst hit
        refine (loc_pass_first hc hf1 h2 hσ hb hs ?_).pre fun t ht => by simpa using ht
        rcases hacc with h | h
        · exact .inl h.1
        · exact .inr h
      · refine (loc_pass hc hf1 (by omega) ?_).pre fun t ht => by
          rwa [if_neg (by omega)] at ht
        rcases hacc with h | h
        · omega
        · exact h.1
    · unfold paramLoop
      refine Py.Total.bind (scale_pass hc hf1 (by omega)) fun dv' => ?_
      unfold paramLoop
      refine Py.Total.pure fun t ht => ?_
      rw [if_neg (by omega)]
      exact ht
  · intro t ht
    simpa using ht
  · rintro r t ⟨dv, i, dO, rfl, _, hstop, ht⟩
    refine ⟨⟨dv, i, rfl⟩, ?_⟩
    have : i ≠ 0 := by
      have := hstop.1
      omega
    rwa [if_neg this] at ht

end Ondil
