import Verif.Lemmas.Scoring
import Verif.Props.GamlssNormal

/-!
# The iterations rest exactly at stationary points of the likelihood (C94)
-/

open scoped BigOperators Topology

namespace Ondil

variable {J : ℕ → ℕ} {k : ℕ} {p : ℕ} {tiny ulp : ℝ} {so : ScipyOracles} {e : Elsewhere}
  {perm : ∀ J : ℕ, ℕ → ℕ → List (Fin J)} {other : MethodOps MethodState} {d : Dist} {links : List LinkClass} {L : LinkClass}
  {c : Call MethodState p} {data : List (FitRow J)}

/-- A function with positive derivative grows at first. -/
theorem grows_of_derivative_pos {F : ℝ → ℝ} {g : ℝ} (h : HasDerivAt F g 0) (hg : 0 < g) : ∃ ε > 0, ∀ t ∈ Set.Ioo 0 ε, F 0 < F t := by
  have h1 := (hasDerivAt_iff_tendsto_slope.1 h).eventually (lt_mem_nhds hg)
  rw [eventually_nhdsWithin_iff, Metric.eventually_nhds_iff] at h1
  obtain ⟨ε, hε, h2⟩ := h1
  refine ⟨ε, hε, fun t ht => ?_⟩
  have h3 := h2 (y := t) (by rw [Real.dist_eq, sub_zero, abs_of_pos ht.1]; exact ht.2) ht.1.ne'
  rw [slope_def_field, sub_zero] at h3
  have := mul_pos h3 ht.1
  rw [div_mul_cancel₀ _ ht.1.ne'] at this
  linarith

/-- One inner iteration of `fit` for a parameter estimated by least squares, for every class of the package, every link and
every batch at which nothing is clipped.  It succeeds.  If the fitted values it starts from are those of coefficients `b`, then
its coefficients are `b` again exactly if `b` is a stationary point of the discounted weighted log likelihood; otherwise the way
from `b` to its coefficients leads upwards: small enough steps increase the likelihood. -/
theorem C94_scoring_step (hc : ScoringCall tiny ulp so e perm other d links L k c data) {f : ℝ} (hf : f < 1)
    {itO itI sched : ℕ} {a : Inner} {s : GState MethodState p} {step : ℝ} {reg : List Bool}
    (hstep : stepAt c.cfg s itO itI k = .ok step) (hm : s.method k = some .ols) (hfo : s.forget.get? k = some f)
    (hreg : s.isRegularized.get? k = some reg) (hfv : a.fvIt = data.map FitRow.θ) :
    ∃ (r : Inner × Bool) (t : GState MethodState p) (o : IterOut) (b' : Row (J k)),
      fitIteration c k itO itI sched a s = (.ok r, t) ∧ r.1.out = some o ∧ o.beta = ofVec b' ∧
      ∀ b, FittedValuesOf L k data b → (b' = b ↔ IsStationary (d.logLik L k f data) b) ∧
        (b' ≠ b → ∃ ε > 0, ∀ t ∈ Set.Ioo (0 : ℝ) ε, d.logLik L k f data b < d.logLik L k f data (b + t • (b' - b))) := by
  obtain ⟨b', W, hW, hder, hrun⟩ := scoring_iteration hc hf
  obtain ⟨r, t, hr, ⟨h1, _⟩⟩ := hrun hstep hm hfo hreg hfv s rfl
  obtain ⟨o, ho, hb'⟩ := h1.out
  refine ⟨r, t, o, b', hr, ho, hb', fun b hb => ?_⟩
  have hpos : b' ≠ b → 0 < scoringForm k f W data (b' - b) (b' - b) := fun h =>
    scoringForm_pos hf hW hc.nonneg hc.rank (sub_ne_zero.2 h)
  refine ⟨⟨?_, fun hst => ?_⟩, fun hne => ?_⟩
  · rintro rfl v
    have := hder b' hb v
    rwa [sub_self, scoringForm_zero] at this
  · by_contra hne
    have h2 := (hder b hb (b' - b)).unique (hst (b' - b))
    exact (hpos hne).ne' h2
  · obtain ⟨ε, hε, h⟩ := grows_of_derivative_pos (hder b hb (b' - b)) (hpos hne)
    refine ⟨ε, hε, fun t ht => ?_⟩
    simpa using h t ht

/-! ### The estimate is a point of rest -/

/-- The settings the loops of a fit read, for the parameters of a set. -/
structure LoopState (c : GConfig MethodState p) (order : List ℕ) (f : ℕ → ℝ) (s : GState MethodState p) : Prop where
  method : ∀ k ∈ order, s.method k = some .ols
  forget : ∀ k ∈ order, s.forget.get? k = some (f k)
  reg : ∀ k ∈ order, ∃ r, s.isRegularized.get? k = some r
  steps : ∀ k ∈ order, ∃ v, s.stepSize.values[k]? = some v
  schedule : ∀ i, 1 ≤ s.scheduleIteration i ∧ s.scheduleIteration i ≤ c.maxInner
  order : s.paramOrder = order

theorem LoopState.congr {cfg : GConfig MethodState p} {order : List ℕ} {f : ℕ → ℝ} {s t : GState MethodState p}
    (h : LoopState cfg order f s) (ht : (t.method, t.forget, t.isRegularized, t.stepSize, t.scheduleIteration, t.paramOrder) =
      (s.method, s.forget, s.isRegularized, s.stepSize, s.scheduleIteration, s.paramOrder)) : LoopState cfg order f t := by
  simp only [Prod.mk.injEq] at ht
  obtain ⟨a1, a2, a3, a4, a5, a6⟩ := ht
  obtain ⟨h1, h2, h3, h4, h5, h6⟩ := h
  exact ⟨by rwa [a1], by rwa [a2], by rwa [a3], by rwa [a4], by rwa [a5], by rwa [a6]⟩

theorem LoopState.iter {cfg : GConfig MethodState p} {order : List ℕ} {f : ℕ → ℝ} {s t : GState MethodState p}
    (h : LoopState cfg order f s) (hk : IterKeeps s t) (hm : t.method = upd s.method k (some .ols)) : LoopState cfg order f t where
  method := by
    intro j hj
    rw [hm]
    unfold upd
    by_cases hjk : j = k
    · subst hjk
      simp
    · rw [Function.update_of_ne hjk]
      exact h.method j hj
  forget := by rw [hk.forget]; exact h.forget
  reg := by rw [hk.reg]; exact h.reg
  steps := by rw [hk.stepSize]; exact h.steps
  schedule := by rw [hk.schedule]; exact h.schedule
  order := by rw [hk.order]; exact h.order

theorem LoopState.step {cfg : GConfig MethodState p} {order : List ℕ} {f : ℕ → ℝ} {s : GState MethodState p}
    (h : LoopState cfg order f s) {itO itI : ℕ} (hO : itO - 1 < cfg.maxOuter) (hI : itI < cfg.maxInner) (hk : k ∈ order) :
    ∃ step, stepAt cfg s itO itI k = .ok step := by
  obtain ⟨v, hv⟩ := h.steps k hk
  unfold stepAt stepSchedule
  rw [if_pos ⟨hO, hI⟩, hv]
  exact ⟨_, rfl⟩

theorem setCol_col (k : ℕ) (fv : Fv) : fv.setCol k (fv.col k) = fv := by
  unfold Fv.setCol Fv.col
  induction fv with
  | nil => rfl
  | cons r fv ih => rw [List.map_cons, List.zipWith_cons_cons, ih, Function.update_eq_self]

theorem setCol_same (h : ∀ q ∈ data, d.WorkRow tiny ulp L k q.θ) (hk : k < d.nParams) :
    Fv.setCol (data.map FitRow.θ) k (data.map fun q => .fin (rowReal q.θ k)) = data.map FitRow.θ := by
  unfold Fv.setCol
  rw [zipWith_maps]
  refine List.map_congr_left fun q hq => ?_
  rw [← (h q hq).finite k hk]
  exact Function.update_eq_self _ _

/-- A stationary point of the coefficients of parameter `k` at the fitted values of the rows. -/
structure AtRest (d : Dist) (L : LinkClass) (k : ℕ) (f : ℝ) (data : List (FitRow J)) (b : Row (J k)) : Prop where
  exact : L.offset = 0
  fitted : FittedValuesOf L k data b
  stationary : IsStationary (d.logLik L k f data) b

theorem rest_loop (hc : ScoringCall tiny ulp so e perm other d links L k c data) {order : List ℕ} {f : ℕ → ℝ} (hf : f k < 1)
    (hko : k ∈ order) {b : Row (J k)} (hb : AtRest d L k (f k) data b) {itO sched : ℕ} (hO : itO - 1 < c.cfg.maxOuter)
    (n itI : ℕ) (hn : itI + n ≤ c.cfg.maxInner) (a : Inner) (ha : a.fvIt = data.map FitRow.θ) (ha' : a.fvNew = data.map FitRow.θ)
    (hout : n = 0 → ∃ o, a.out = some o ∧ o.beta = ofVec b) (s : GState MethodState p) (hs : LoopState c.cfg order f s) :
    Py.Total (fun t => t = s) (fitInnerLoop c k itO sched n itI a) (fun r t => LoopState c.cfg order f t ∧ t.fv = s.fv ∧
      t.coef = s.coef ∧ r.fvNew = data.map FitRow.θ ∧ ∃ o, r.out = some o ∧ o.beta = ofVec b) := by
  induction n generalizing itI a s with
  | zero =>
    unfold fitInnerLoop
    refine Py.Total.pure ?_
    rintro _ rfl
    exact ⟨hs, rfl, rfl, ha', hout rfl⟩
  | succ n ih =>
    unfold fitInnerLoop
    obtain ⟨step, hstep⟩ := hs.step hO (show itI < c.cfg.maxInner by omega) hko
    obtain ⟨reg, hreg⟩ := hs.reg k hko
    obtain ⟨b', W, hW, hder, hrun⟩ := scoring_iteration hc hf
    have hbb : b' = b := by
      by_contra hne
      exact (scoringForm_pos hf hW hc.nonneg hc.rank (sub_ne_zero.2 hne)).ne'
        ((hder b hb.fitted (b' - b)).unique (hb.stationary (b' - b)))
    subst hbb
    refine Py.Total.bind (hrun hstep (hs.method k hko) (hs.forget k hko) hreg ha) fun r => ?_
    refine Py.Total.of_state fun t ht => ?_
    obtain ⟨hr, hk, hm, _⟩ := ht
    have hv : (data.map fun q => Flt.fin (L.inverse (step * linPred (q.x k) b' + (1 - step) * L.link (rowReal q.θ k)))) =
        data.map fun q => Flt.fin (rowReal q.θ k) := by
      refine List.map_congr_left fun q hq => ?_
      rw [← hb.fitted q hq]
      have h1 := LinkClass.inverse_link (hc.rows q hq).2.workParam
      rw [hb.exact, sub_zero] at h1
      rw [show step * L.link (rowReal q.θ k) + (1 - step) * L.link (rowReal q.θ k) = L.link (rowReal q.θ k) by ring, h1]
    rw [hv] at hr
    have hset := setCol_same (fun q hq => (hc.rows q hq).2) hc.param
    have hnew : r.1.fvNew = data.map FitRow.θ := by rw [hr.fvNew, ha', hset]
    have hit : r.1.fvIt = data.map FitRow.θ := by
      rcases hr.fvIt with h | h
      · rw [h, ha', hset, ha, setCol_col]
      · rw [h.1, ha]
    have ht' := hs.iter hk hm
    by_cases h : r.2 = true
    · rw [if_pos h]
      refine Py.Total.pure ?_
      rintro _ rfl
      exact ⟨ht', hk.fv, hk.coef, hnew, hr.out⟩
    · rw [if_neg h]
      refine (ih (itI + 1) (by omega) r.1 hit hnew (fun _ => hr.out) t ht').post ?_
      rintro q u ⟨h1, h2, h3, h4⟩
      exact ⟨h1, h2.trans hk.fv, h3.trans hk.coef, h4⟩

theorem rest_pass (hc : ScoringCall tiny ulp so e perm other d links L k c data) {order : List ℕ} {f : ℕ → ℝ} (hf : f k < 1)
    (hko : k ∈ order) {b : Row (J k)} (hb : AtRest d L k (f k) data b) {itO : ℕ} (hO : itO - 1 < c.cfg.maxOuter)
    (s : GState MethodState p) (hs : LoopState c.cfg order f s) (hfv : s.fv = data.map FitRow.θ)
    (hco : itO = 1 ∨ s.coef k = some (ofVec b)) :
    Py.Total (fun t => t = s) (innerFit c itO k) (fun _ t => LoopState c.cfg order f t ∧ t.fv = data.map FitRow.θ ∧
      t.coef k = some (ofVec b) ∧ ∀ j, j ≠ k → t.coef j = s.coef j) := by
  unfold innerFit
  refine Py.Total.bind_self ?_
  rintro s rfl
  have hn : iterationsAt c.cfg s itO = .ok (s.scheduleIteration (itO - 1)) := by
    unfold iterationsAt
    rw [if_pos hO]
  refine Py.Total.bind_call hn (Py.Total.bind (rest_loop hc hf hko hb hO _ 0 (by
    rw [Nat.zero_add]; exact (hs.schedule _).2) _ hfv hfv (fun h => ?_) s hs) fun a => ?_)
  · have := (hs.schedule (itO - 1)).1
    omega
  · refine Py.Total.of_state ?_
    rintro t ⟨ht, htfv, htco, hnew, o, ho, hbeta⟩
    refine Py.Total.bind_attr ho (Py.Total.bind_set (P' := fun t => LoopState c.cfg order f t ∧ t.fv = data.map FitRow.θ ∧
      t.coef k = some (ofVec b) ∧ ∀ j, j ≠ k → t.coef j = s.coef j) ?_
      (Py.Total.bind_set (P' := fun t => LoopState c.cfg order f t ∧ t.fv = data.map FitRow.θ ∧
        t.coef k = some (ofVec b) ∧ ∀ j, j ≠ k → t.coef j = s.coef j) ?_ (Py.Total.pure fun u hu => hu)))
    · rintro t rfl
      split
      · refine ⟨ht.congr rfl, ?_, ?_, fun j hj => ?_⟩
        · change t.fv.setCol k (a.fvNew.col k) = _
          rw [htfv, hfv, hnew, setCol_col]
        · simp [commitFit, upd, hbeta]
        · change upd t.coef k (some o.beta) j = _
          rw [upd, Function.update_of_ne hj, htco]
      · rename_i hno
        refine ⟨ht, htfv.trans hfv, ?_, fun j _ => by rw [htco]⟩
        rcases hco with h | h
        · exact absurd (.inr h) hno
        · rw [htco, h]
    · exact fun u hu => ⟨hu.1.congr rfl, hu.2⟩

/-- One outer iteration. -/
theorem rest_outer {order : List ℕ} {f : ℕ → ℝ} {Ls : ℕ → LinkClass}
    (hc : ∀ k ∈ order, ScoringCall tiny ulp so e perm other d links (Ls k) k c data) (hf : ∀ k ∈ order, f k < 1)
    {b : ∀ k, Row (J k)} (hb : ∀ k ∈ order, AtRest d (Ls k) k (f k) data (b k)) {itO : ℕ} (hO : itO - 1 < c.cfg.maxOuter)
    (done todo : List ℕ) (hsub : ∀ k ∈ todo, k ∈ order) (dev : Flt) :
    Py.Total (fun t => LoopState c.cfg order f t ∧ t.fv = data.map FitRow.θ ∧
        (∀ k ∈ done, t.coef k = some (ofVec (b k))) ∧ (itO = 1 ∨ ∀ k ∈ todo, t.coef k = some (ofVec (b k))))
      (paramLoop (innerFit c itO) todo dev) (fun _ t => LoopState c.cfg order f t ∧ t.fv = data.map FitRow.θ ∧
        ∀ k, k ∈ done ∨ k ∈ todo → t.coef k = some (ofVec (b k))) := by
  induction todo generalizing done dev with
  | nil =>
    unfold paramLoop
    refine Py.Total.pure ?_
    rintro t ⟨h1, h2, h3, _⟩
    exact ⟨h1, h2, fun k hk => h3 k (hk.resolve_right (by simp))⟩
  | cons k ks ih =>
    unfold paramLoop
    refine Py.Total.of_state ?_
    rintro s ⟨h1, h2, h3, h4⟩
    have hko := hsub k (by simp)
    refine Py.Total.bind (rest_pass (hc k hko) (hf k hko) hko (hb k hko) hO s h1 h2 (h4.imp_right fun h => h k (by simp)))
      fun dv => ?_
    refine ((ih (k :: done) (fun j hj => hsub j (by simp [hj])) dv).pre ?_).post ?_
    · rintro t ⟨g1, g2, g3, g4⟩
      refine ⟨g1, g2, fun j hj => ?_, h4.imp_right fun h j hj => ?_⟩
      · by_cases hjk : j = k
        · subst hjk; exact g3
        · rw [g4 j hjk]
          exact h3 j ((List.mem_cons.1 hj).resolve_left hjk)
      · by_cases hjk : j = k
        · subst hjk; exact g3
        · rw [g4 j hjk]
          exact h j (by simp [hj])
    · rintro _ t ⟨g1, g2, g3⟩
      refine ⟨g1, g2, fun j hj => g3 j ?_⟩
      rcases hj with h | h
      · exact .inl (by simp [h])
      · rcases List.mem_cons.1 h with h | h
        · exact .inl (by simp [h])
        · exact .inr h

/-- The fitting loops as a whole.  When they are started at fitted values that belong to coefficients of all parameters, and
the coefficients of every parameter are a stationary point of the log likelihood, the loops end, the fitted values are the same
and the coefficients are the given ones. -/
theorem C94_estimate_at_rest {order : List ℕ} {f : ℕ → ℝ} {Ls : ℕ → LinkClass}
    (hc : ∀ k ∈ order, ScoringCall tiny ulp so e perm other d links (Ls k) k c data) (hf : ∀ k ∈ order, f k < 1)
    {b : ∀ k, Row (J k)} (hb : ∀ k ∈ order, AtRest d (Ls k) k (f k) data (b k)) {s : GState MethodState p}
    (hs : LoopState c.cfg order f s) (hfv : s.fv = data.map FitRow.θ) (hm1 : 1 ≤ s.minIt) (hm : s.minIt ≤ c.cfg.maxOuter)
    (fuel : ℕ) (hfuel : c.cfg.maxOuter < fuel) :
    ∃ dv it t, outerFit c fuel s = (.ok (some (dv, it)), t) ∧ t.fv = s.fv ∧ ∀ k ∈ order, t.coef k = some (ofVec (b k)) := by
  have key : Py.Total (fun t => t = s) (outerFit c fuel) (fun r t => (∃ dv i, r = some (dv, i)) ∧ t.fv = data.map FitRow.θ ∧
      ∀ k ∈ order, t.coef k = some (ofVec (b k))) := by
    unfold outerFit
    refine Py.Total.bind_self ?_
    rintro s rfl
    refine ((outerLoop_total (top := c.cfg.maxOuter)
      (I := fun it t => LoopState c.cfg order f t ∧ t.fv = data.map FitRow.θ ∧
        (it = 0 ∨ ∀ k ∈ order, t.coef k = some (ofVec (b k))))
      ?_ ?_ fuel 0 _ _ hfuel (Nat.zero_le _)).pre ?_).post ?_
    · exact fun it dev devOld h => ⟨hm.trans h, .inr (.inl h)⟩
    · intro it dev h1 h2
      rw [hs.order]
      refine ((rest_outer hc hf hb (itO := it) (by omega) [] order (fun _ h => h) dev).pre ?_).post ?_
      · rintro t ⟨g1, g2, g3⟩
        refine ⟨g1, g2, by simp, g3.imp (fun h => by omega) id⟩
      · rintro _ t ⟨g1, g2, g3⟩
        exact ⟨g1, g2, .inr fun k hk => g3 k (.inr hk)⟩
    · rintro t rfl
      exact ⟨hs, hfv, .inl rfl⟩
    · rintro r t ⟨dv, i, dO, rfl, _, hstop, _, ht2, ht3⟩
      refine ⟨⟨dv, i, rfl⟩, ht2, ht3.resolve_left ?_⟩
      have := hstop.1
      omega
  obtain ⟨r, t, h1, ⟨dv, i, rfl⟩, h2, h3⟩ := key s rfl
  exact ⟨dv, i, t, h1, h2.trans hfv.symm, h3⟩

/-! ### A case -/

/-- The directional derivative of the likelihood in the coefficients: a discounted weighted sum of scores. -/
theorem logLik_derivative {f : ℝ} (hk : k < d.nParams)
    (hrow : ∀ q ∈ data, q.y ∈ d.Responses ∧ d.Admissible (rowReal q.θ) ∧ rowReal q.θ k ∈ L.workParam ∧
      L.link (rowReal q.θ k) ∈ L.smoothPred) {b : Row (J k)} (hb : FittedValuesOf L k data b) (v : Row (J k)) :
    HasDerivAt (fun t : ℝ => d.logLik L k f data (b + t • v)) (discSum f data (fun q => q.w * (d.score (rowReal q.θ) k q.y *
      L.inverseDerivative (L.link (rowReal q.θ k)) * linPred (q.x k) v))) 0 := by
  unfold Dist.logLik
  refine hasDerivAt_discSum f data fun q hq => HasDerivAt.const_mul q.w ?_
  obtain ⟨h1, h2, h3, h4⟩ := hrow q hq
  have h5 : HasDerivAt (fun t : ℝ => linPred (q.x k) (b + t • v)) (linPred (q.x k) v) 0 := by
    have : (fun t : ℝ => linPred (q.x k) (b + t • v)) = fun t => linPred (q.x k) b + t * linPred (q.x k) v := by
      funext t
      rw [linPred_add, linPred_smul]
    rw [this]
    simpa using ((hasDerivAt_id (0 : ℝ)).mul_const (linPred (q.x k) v)).const_add (linPred (q.x k) b)
  have h6 := Dist.hasDerivAt_logLikEta d L h2 hk h3 h4 h1
  rw [hb q hq] at h6
  have h7 : HasDerivAt (d.logLikEta L (rowReal q.θ) k q.y) (d.score (rowReal q.θ) k q.y *
      L.inverseDerivative (L.link (rowReal q.θ k))) (linPred (q.x k) (b + (0 : ℝ) • v)) := by
    rw [zero_smul, add_zero, hb q hq]
    exact h6
  exact HasDerivAt.comp (0 : ℝ) h7 h5

/-- Two responses `-1` and `y` of a normal distribution with location 0 and scale 1, intercepts only. -/
noncomputable def scoringRows (y : ℝ) : List (FitRow fun _ => 1) :=
  [⟨fun _ _ => 1, -1, 1, fun j => .fin (if j = 0 then 0 else 1)⟩, ⟨fun _ _ => 1, y, 1, fun j => .fin (if j = 0 then 0 else 1)⟩]

noncomputable def scoringCall (so : ScipyOracles) (e : Elsewhere) (perm : ∀ J : ℕ, ℕ → ℕ → List (Fin J))
    (other : MethodOps MethodState) (y : ℝ) : Call MethodState 1 where
  D := Dist.normal.ops (1 / 10) (1 / 10) so e [.identity, .log]
  M := packageMethods perm other
  cfg := normalConfig 10 5
  X := fun _ => some ((scoringRows y).map fun _ => ofVec fun _ : Fin 1 => (1 : ℝ))
  y := (scoringRows y).map FitRow.y
  w := (scoringRows y).map FitRow.w

noncomputable def scoringState (y : ℝ) : GState MethodState 1 :=
  { GState.new MethodState 1 with
    method := fun _ => some .ols
    forget := [(0, 0), (1, 0)]
    isRegularized := [(0, [false]), (1, [false])]
    stepSize := [(0, 1), (1, 1)]
    scheduleIteration := fun _ => 5
    paramOrder := [0, 1]
    minIt := 1
    fv := (scoringRows y).map FitRow.θ }

theorem scoringCall_scoring (so : ScipyOracles) (e : Elsewhere) (perm : ∀ J : ℕ, ℕ → ℕ → List (Fin J))
    (other : MethodOps MethodState) (y : ℝ) (k : ℕ) (hk : k < 2) (L : LinkClass)
    (hL : ([.identity, .log] : List LinkClass)[k]? = some L) :
    ScoringCall (1 / 10) (1 / 10) so e perm other .normal [.identity, .log] L k (scoringCall so e perm other y) (scoringRows y) where
  tinyPos := by norm_num
  ulpPos := by norm_num
  D := rfl
  M := rfl
  param := hk
  link := hL
  y := rfl
  w := rfl
  X := rfl
  cond := rfl
  ne := by simp [scoringRows]
  nonneg := by
    intro o ho
    simp only [scoringRows, List.map_cons, List.map_nil, List.mem_cons, List.not_mem_nil, or_false] at ho
    rcases ho with rfl | rfl <;> norm_num [FitRow.obs]
  rank := by
    intro v hv
    have := hv ⟨fun _ => 1, -1, 1⟩ (List.mem_map.2 ⟨_, List.mem_cons_self, rfl⟩) one_pos
    funext j
    simpa [linPred, Fin.eq_zero j] using this
  rows := by
    intro q hq
    simp only [scoringRows, List.mem_cons, List.not_mem_nil, or_false] at hq
    have key : Dist.normal.WorkRow (1 / 10) (1 / 10) L k fun j => .fin (if j = 0 then 0 else 1) := by
      have hone : (((1 / 10 : ℝ) : ℝ) : EReal) ≤ ((1 : ℝ) : EReal) := EReal.coe_le_coe_iff.mpr (by norm_num)
      have hsup : Dist.normal.InParameterSupport (1 / 10) (1 / 10) (rowReal fun j => .fin (if j = 0 then 0 else 1)) := by
        intro i sup hs
        have hs' : [Dist.allReals, Dist.positives (1 / 10)][i]? = some sup := hs
        match i, hs' with
        | 0, h => cases h; exact ⟨bot_le, le_top⟩
        | 1, h => cases h; exact ⟨hone, le_top⟩
      match k, hL with
      | 0, h =>
        cases h
        exact ⟨fun j _ => rfl, hsup, ⟨bot_le, le_top⟩, trivial, trivial⟩
      | 1, h =>
        cases h
        refine ⟨fun j _ => rfl, hsup, ⟨hone, le_top⟩, ?_, ?_⟩
        · change (1 : ℝ) ∈ Set.Ioc (1 / 10 ^ 10 : ℝ) (10 ^ 15)
          norm_num
        · change robustLog 1 < Real.log (10 ^ 15)
          rw [robustLog_of_gt (by unfold smallNumber; norm_num), Real.log_one]
          exact Real.log_pos (by norm_num)
    rcases hq with rfl | rfl
    · exact ⟨trivial, key⟩
    · exact ⟨trivial, key⟩

theorem scoringRows_fitted (y : ℝ) : FittedValuesOf .identity 0 (scoringRows y) (0 : Row 1) ∧ FittedValuesOf .log 1 (scoringRows y) (0 : Row 1) := by
  constructor <;> intro q hq <;> simp only [scoringRows, List.mem_cons, List.not_mem_nil, or_false] at hq
  · rcases hq with rfl | rfl <;> simp [linPred, rowReal, Flt.toReal, LinkClass.link]
  · have : robustLog 1 = 0 := by rw [robustLog_of_gt (by unfold smallNumber; norm_num), Real.log_one]
    rcases hq with rfl | rfl <;> simp [linPred, rowReal, Flt.toReal, LinkClass.link, this]

/-- The responses -1 and 1: location 0 and scale 1 are the maximum likelihood estimate, and the loops stay there. -/
example : ∃ dv it t, outerFit (scoringCall so e perm other 1) 11 (scoringState 1) = (.ok (some (dv, it)), t) ∧
    t.fv = (scoringState 1).fv ∧ t.coef 0 = some (ofVec (0 : Row 1)) ∧ t.coef 1 = some (ofVec (0 : Row 1)) := by
  have hcall := scoringCall_scoring so e perm other 1
  let Ls : ℕ → LinkClass := fun k => if k = 0 then .identity else .log
  have hLs : ∀ k ∈ [0, 1], ([.identity, .log] : List LinkClass)[k]? = some (Ls k) ∧ k < 2 := by
    intro k hk
    fin_cases hk <;> exact ⟨rfl, by norm_num⟩
  have hadm : ∀ q ∈ scoringRows 1, Dist.normal.Admissible (rowReal q.θ) := fun q hq =>
    Dist.admissible_of_inParameterSupport _ _ (by norm_num) (by norm_num) .normal _
      ((hcall 0 (by norm_num) .identity rfl).rows q hq).2.support
  have hrest : ∀ k ∈ [0, 1], AtRest .normal (Ls k) k 0 (scoringRows 1) (0 : Row 1) := by
    intro k hk
    have hst : ∀ v : Row 1, discSum 0 (scoringRows 1) (fun q => q.w * (Dist.normal.score (rowReal q.θ) k q.y *
        (Ls k).inverseDerivative ((Ls k).link (rowReal q.θ k)) * linPred (q.x k) v)) = 0 := by
      intro v
      rw [discSum_forget_zero]
      fin_cases hk
      · simp [scoringRows, Dist.score, Dist.dl1, Dist.checked, Dist.validateIndex, Dist.chain, returned, bind, Except.bind, rowReal, Flt.toReal, Ls,
          LinkClass.inverseDerivative]
      · simp [scoringRows, Dist.score, Dist.dl1, Dist.checked, Dist.validateIndex, Dist.chain, returned, bind, Except.bind, rowReal, Flt.toReal, Ls]
    have hfit : FittedValuesOf (Ls k) k (scoringRows 1) (0 : Row 1) := by
      fin_cases hk
      · exact (scoringRows_fitted 1).1
      · exact (scoringRows_fitted 1).2
    have hr := (hcall k (hLs k hk).2 (Ls k) (hLs k hk).1).rows
    refine ⟨?_, hfit, fun v => (logLik_derivative (hLs k hk).2 (fun q hq => ⟨(hr q hq).1, hadm q hq, (hr q hq).2.workParam,
      (hr q hq).2.smooth⟩) hfit v).congr_deriv (hst v)⟩
    fin_cases hk <;> rfl
  have hls : LoopState (normalConfig 10 5) [0, 1] (fun _ => 0) (scoringState 1) := by
    refine ⟨fun _ _ => rfl, ?_, ?_, ?_, fun _ => ⟨by norm_num [scoringState], le_refl _⟩, rfl⟩
    · intro k hk
      fin_cases hk <;> rfl
    · intro k hk
      fin_cases hk <;> exact ⟨_, rfl⟩
    · intro k hk
      fin_cases hk <;> exact ⟨_, rfl⟩
  obtain ⟨dv, it, t, h1, h2, h3⟩ := C94_estimate_at_rest (order := [0, 1]) (f := fun _ => 0) (Ls := Ls)
    (c := scoringCall so e perm other 1) (data := scoringRows 1) (b := fun _ => 0) (d := .normal) (links := [.identity, .log])
    (fun k hk => hcall k (hLs k hk).2 (Ls k) (hLs k hk).1) (fun _ _ => zero_lt_one) hrest hls rfl le_rfl
    (by norm_num [scoringCall, normalConfig, scoringState]) 11 (by norm_num [scoringCall, normalConfig])
  exact ⟨dv, it, t, h1, h2, h3 0 (by simp), h3 1 (by simp)⟩

/-- The responses -1 and 3: from location 0 the iteration moves, and uphill. -/
example : ∃ (r : Inner × Bool) (t : GState MethodState 1) (o : IterOut) (b' : Row 1),
    fitIteration (scoringCall so e perm other 3) 0 1 0 5 ⟨(scoringRows 3).map FitRow.θ, (scoringRows 3).map FitRow.θ, .nan, .nan, 0, false, none⟩
      (scoringState 3) = (.ok r, t) ∧ r.1.out = some o ∧ o.beta = ofVec b' ∧ b' ≠ 0 := by
  have hc := scoringCall_scoring so e perm other 3 0 (by norm_num) .identity rfl
  obtain ⟨r, t, o, b', h1, h2, h3, h4⟩ := C94_scoring_step hc (f := 0) zero_lt_one (itO := 1) (itI := 0) (sched := 5)
    (a := ⟨(scoringRows 3).map FitRow.θ, (scoringRows 3).map FitRow.θ, .nan, .nan, 0, false, none⟩) (s := scoringState 3) (step := 1)
    (reg := [false]) (by norm_num [stepAt, stepSchedule, scoringCall, normalConfig, scoringState]; rfl) rfl rfl rfl rfl
  refine ⟨r, t, o, b', h1, h2, h3, fun h0 => ?_⟩
  have hst := ((h4 0 (scoringRows_fitted 3).1).1.1 h0) (fun _ => 1)
  have hadm : ∀ q ∈ scoringRows 3, Dist.normal.Admissible (rowReal q.θ) := fun q hq =>
    Dist.admissible_of_inParameterSupport _ _ (by norm_num) (by norm_num) .normal _ (hc.rows q hq).2.support
  have hd := logLik_derivative (f := 0) (k := 0) (by norm_num [Dist.nParams]) (fun q hq => ⟨(hc.rows q hq).1, hadm q hq,
    (hc.rows q hq).2.workParam, (hc.rows q hq).2.smooth⟩) (scoringRows_fitted 3).1 (fun _ => 1)
  have := hd.unique hst
  rw [discSum_forget_zero] at this
  norm_num [scoringRows, Dist.score, Dist.dl1, Dist.checked, Dist.validateIndex, Dist.chain, returned, bind, Except.bind, rowReal, Flt.toReal,
    LinkClass.inverseDerivative, linPred] at this

end Ondil
