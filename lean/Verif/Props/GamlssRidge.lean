import Verif.Lemmas.GamlssRidge
import Verif.Lemmas.GamlssPathToy
import Verif.Props.GamlssSource

/-!
# C76 with `Ridge`: no exception of the method either
-/

open scoped BigOperators Matrix

namespace Ondil

variable {p : ℕ} {perm : ∀ J : ℕ, ℕ → ℕ → List (Fin J)} {other : MethodOps MethodState}

/-- The second derivatives the distribution gives are not positive. -/
def NoPositiveCurvature (D : DistOps) : Prop :=
  ∀ y fv k r, D.dl2 y fv k = .ok r → ∀ v ∈ r, v ≠ .pinf ∧ ∀ t, v = .fin t → t ≤ 0

theorem clip_pos {v : Flt} {r : ℝ} (h : Flt.clip fitClip 10000000000 v = .fin r) : 0 < r := by
  have hc : (0 : ℝ) < fitClip := by unfold fitClip; norm_num
  have hc' : fitClip ≤ 10000000000 := by unfold fitClip; norm_num
  cases v with
  | fin x =>
    simp only [Flt.clip, Flt.fin.injEq] at h
    subst h
    exact lt_min (hc.trans_le (le_max_right _ _)) (by norm_num)
  | pinf =>
    simp only [Flt.clip, Flt.fin.injEq] at h
    subst h
    norm_num
  | ninf =>
    simp only [Flt.clip, Flt.fin.injEq] at h
    subst h
    exact hc
  | nan => cases h

theorem wmul_mem {w : List ℝ} {a : Arr1} {r : ℝ} (h : .fin r ∈ wmul w a) : ∃ u ∈ w, ∃ v ∈ a, Flt.mul (.fin u) v = .fin r := by
  unfold wmul at h
  rw [← List.map_uncurry_zip_eq_zipWith] at h
  obtain ⟨ab, hab, e⟩ := List.mem_map.1 h
  exact ⟨ab.1, (List.of_mem_zip hab).1, ab.2, (List.of_mem_zip hab).2, e⟩

theorem mul_fin {u : ℝ} {v : Flt} {r : ℝ} (h : Flt.mul (.fin u) v = .fin r) : ∃ t, v = .fin t ∧ r = u * t := by
  cases v with
  | fin t =>
    simp only [Flt.mul, Flt.fin.injEq] at h
    exact ⟨t, rfl, h.symm⟩
  | pinf => simp only [Flt.mul, Flt.infSigned] at h; split_ifs at h
  | ninf => simp only [Flt.mul, Flt.infSigned] at h; split_ifs at h <;> simp [Flt.neg] at h
  | nan => cases h

theorem working_wt {D : DistOps} {lo : ℝ} {y : List ℝ} {fv : Fv} {k : ℕ} {wk : Working} (h : working D lo y fv k = .ok wk) :
    ∃ d2 dr : Arr1, D.dl2 y fv k = .ok d2 ∧
      wk.wt = List.zipWith (fun a b => Flt.clip lo 10000000000 (Flt.neg (Flt.div a (Flt.mul b b)))) d2 dr := by
  unfold working at h
  obtain ⟨eta, _, h⟩ := bind_ok.1 h
  obtain ⟨g, _, h⟩ := bind_ok.1 h
  obtain ⟨d1, _, h⟩ := bind_ok.1 h
  obtain ⟨d2, h2, h⟩ := bind_ok.1 h
  cases h
  exact ⟨d2, _, h2, rfl⟩

theorem fitWeights_pos {D : DistOps} {y : List ℝ} {fv : Fv} {k : ℕ} {wk : Working} (h : working D fitClip y fv k = .ok wk) {w : List ℝ}
    (hw : ∀ u ∈ w, 0 < u) {r : ℝ} (hr : .fin r ∈ wmul w wk.wt) : 0 < r := by
  obtain ⟨u, hu, v, hv, e⟩ := wmul_mem hr
  obtain ⟨t, rfl, rfl⟩ := mul_fin e
  obtain ⟨d2, dr, _, hwt⟩ := working_wt h
  rw [hwt, ← List.map_uncurry_zip_eq_zipWith] at hv
  obtain ⟨ab, _, e⟩ := List.mem_map.1 hv
  exact mul_pos (hw u hu) (clip_pos e)

theorem curvature_weight {a b : Flt} (h1 : a ≠ .pinf) (h2 : ∀ t, a = .fin t → t ≤ 0) {r : ℝ}
    (h : Flt.clip updateClip 10000000000 (Flt.neg (Flt.div a (Flt.mul b b))) = .fin r) : 0 ≤ r := by
  have key : ∀ x : ℝ, 0 ≤ x → 0 ≤ min (max x updateClip) 10000000000 := fun x hx => le_min (hx.trans (le_max_left _ _)) (by norm_num)
  have hbb : Flt.mul b b = .pinf ∨ Flt.mul b b = .nan ∨ ∃ s, 0 ≤ s ∧ Flt.mul b b = .fin s := by
    cases b with
    | fin x => exact .inr (.inr ⟨x * x, mul_self_nonneg x, rfl⟩)
    | pinf => exact .inl rfl
    | ninf => exact .inl rfl
    | nan => exact .inr (.inl rfl)
  cases a with
  | pinf => exact absurd rfl h1
  | nan =>
    rcases hbb with e | e | ⟨s, hs, e⟩ <;> rw [e] at h <;> cases h
  | ninf =>
    rcases hbb with e | e | ⟨s, hs, e⟩
    · rw [e] at h; cases h
    · rw [e] at h; cases h
    · rw [e] at h
      simp only [Flt.div, if_pos hs, Flt.neg, Flt.clip, Flt.fin.injEq] at h
      subst h
      norm_num
  | fin t =>
    have ht := h2 t rfl
    rcases hbb with e | e | ⟨s, hs, e⟩
    · rw [e] at h
      simp only [Flt.div, Flt.neg, Flt.clip, Flt.fin.injEq] at h
      subst h
      exact key _ (by simp)
    · rw [e] at h; cases h
    · rw [e] at h
      simp only [Flt.div] at h
      split_ifs at h with h0
      · unfold Flt.infSigned at h
        rw [if_neg (not_lt.2 ht)] at h
        split_ifs at h
        · simp only [Flt.neg, Flt.clip, Flt.fin.injEq] at h
          subst h
          norm_num
        · cases h
      · simp only [Flt.neg, Flt.clip, Flt.fin.injEq] at h
        subst h
        refine key _ (neg_nonneg.2 (div_nonpos_of_nonpos_of_nonneg ht hs))

theorem updateWeights_nonneg {D : DistOps} (hD : NoPositiveCurvature D) {y : List ℝ} {fv : Fv} {k : ℕ} {wk : Working}
    (h : working D updateClip y fv k = .ok wk) {w : List ℝ} (hw : ∀ u ∈ w, 0 ≤ u) {r : ℝ} (hr : .fin r ∈ wmul w wk.wt) : 0 ≤ r := by
  obtain ⟨u, hu, v, hv, e⟩ := wmul_mem hr
  obtain ⟨t, rfl, rfl⟩ := mul_fin e
  obtain ⟨d2, dr, h2, hwt⟩ := working_wt h
  rw [hwt, ← List.map_uncurry_zip_eq_zipWith] at hv
  obtain ⟨ab, hab, e⟩ := List.mem_map.1 hv
  obtain ⟨c1, c2⟩ := hD _ _ _ _ h2 ab.1 (List.of_mem_zip hab).1
  exact mul_nonneg (hw u hu) (curvature_weight c1 c2 e)

theorem regularizedFlags_only_first (K : ℕ) (fi ri : Bool) (eq : Equation) (j : Fin K) (h : j.val ≠ 0 ∨ fi = false) :
    flags K (regularizedFlags K fi ri eq) j = true := by
  rw [regularizedFlags_iff]
  rintro ⟨h1, h2, _⟩
  rcases h with h | h
  · exact h h1
  · rw [h] at h2; cases h2

/-- **C76 with `Ridge`.**  Let all parameters be estimated by `Ridge` with a positive `lambda_reg`, let the bounds (if any) have as many
entries as there are coefficients, let the sample weights of the first batch be positive and those of the others not negative, and let
the distribution give no positive second derivatives if there are updates.  Then the method raises nothing: for options in their
documented domains and responses in the support, `fit` and any number of updates return, and parameters are predicted for all
inputs.  No design matrix is excluded: columns may be collinear, constant or zero. -/
theorem C76_ridge {frames : Bool} {D : DistOps} (hD : Regular D) {c : GConfig MethodState p}
    (hcond : c.condStartVal = true → ConditionalRegular D) {a : RidgeObj} {lam : ℝ} (hlam : 0 < lam) (ha : a.lambdaReg = some lam)
    {fi : Bool} {J : ℕ → ℕ} (ho : TotalElsewhere other) (hlo : ∀ k, BoundsFit (J k) a.lower)
    (hup : ∀ k, BoundsFit (J k) a.upper) (h : GoodOptions frames D c (.ridge a) fi J) (hp : p ≠ 0) {data : List (Obs p)}
    (h2 : 2 ≤ data.length) (hw : ∀ o ∈ data, 0 < o.w) (hy : ¬ OutOfSupport D (ys data)) (bs : List (List (Obs p)))
    (hbs : ∀ b ∈ bs, GoodBatch D c b ∧ NonnegWeights b) (hneg : bs ≠ [] → NoPositiveCurvature D) (s : GState MethodState p) :
    ∃ t, GState.fit frames D (packageMethods perm other) c data s = (.ok (), t) ∧
      ∃ u, GState.updates D (packageMethods perm other) c bs t = (.ok (), u) ∧ u.isFitted = true ∧
        ∀ X : List (Row p), X ≠ [] → ∃ th, predictParams D u X .response = .ok th ∧ th.length = X.length := by
  refine C76_no_exception hD hcond (fun k => ridgeContract perm ho fi hlam ha (hlo k) (hup k)) (fun _ _ => rfl) h hp h2 hw hy bs
    (fun b hb => (hbs b hb).1) ?_ ?_ ?_ s
  · intro k hk X hX hr fv wk hwk
    refine ⟨fun r hr => fitWeights_pos hwk ?_ hr, fun hfi x hx => (hr x hx).one (by rw [h.intercept, hfi])⟩
    intro u hu
    obtain ⟨o, ho, rfl⟩ := List.mem_map.1 hu
    exact hw o ho
  · intro b hb k hk X hX hr fv wk hwk r hr
    refine updateWeights_nonneg (hneg (List.ne_nil_of_mem hb)) hwk ?_ hr
    intro u hu
    obtain ⟨o, ho, rfl⟩ := List.mem_map.1 hu
    exact (hbs b hb).2 o ho
  · intro k hk ri j hj
    exact regularizedFlags_only_first _ _ _ _ j hj

/-- **C76 with `OrdinaryLeastSquares`.**  If in the first batch the sample weights are positive and the columns of the design of every
parameter are linearly independent, the method raises nothing, neither in the fit nor in any number of updates, whatever the
weights and columns of the later batches are. -/
theorem C76_ols {frames : Bool} {D : DistOps} (hD : Regular D) {c : GConfig MethodState p}
    (hcond : c.condStartVal = true → ConditionalRegular D) {fi : Bool} {J : ℕ → ℕ} (ho : OlsElsewhere other)
    (h : GoodOptions frames D c .ols fi J) (hp : p ≠ 0) {data : List (Obs p)} (h2 : 2 ≤ data.length) (hw : ∀ o ∈ data, 0 < o.w)
    (hX : ∀ k < D.nParams, ∀ X : List (Row (J k)), FirstDesign c data k (X.map ofVec) → ColumnsIndependent X)
    (hy : ¬ OutOfSupport D (ys data)) (bs : List (List (Obs p))) (hbs : ∀ b ∈ bs, GoodBatch D c b) (s : GState MethodState p) :
    ∃ t, GState.fit frames D (packageMethods perm other) c data s = (.ok (), t) ∧
      ∃ u, GState.updates D (packageMethods perm other) c bs t = (.ok (), u) ∧ u.isFitted = true ∧
        ∀ X : List (Row p), X ≠ [] → ∃ th, predictParams D u X .response = .ok th ∧ th.length = X.length := by
  refine C76_no_exception hD hcond (fun k => olsContract perm ho) (fun _ _ => rfl) h hp h2 hw hy bs hbs ?_
    (fun _ _ _ _ _ _ _ _ _ _ => trivial) (fun _ _ _ => trivial) s
  intro k hk A hA hr fv wk hwk
  refine ⟨fun r hr => fitWeights_pos hwk ?_ hr, fun X e => hX k hk X (e ▸ hA)⟩
  intro u hu
  obtain ⟨o, ho, rfl⟩ := List.mem_map.1 hu
  exact hw o ho

/-! ### Concrete cases -/

/-- For arrays that are not finite every result is NaN; the objects stay. -/
def nanMethods : MethodOps MethodState where
  ols := .ols
  pathBased := fun m => match m with
    | .path _ => true
    | _ => false
  initX := fun _ X _ _ => .ok (List.replicate (width X) (List.replicate (width X) .nan))
  initY := fun _ X _ _ _ => .ok (List.replicate (width X) .nan)
  updateX := fun _ _ X _ _ => .ok (List.replicate (width X) (List.replicate (width X) .nan))
  updateY := fun _ _ X _ _ _ => .ok (List.replicate (width X) .nan)
  fitBeta := fun m G _ _ => match m with
    | .ridge a => .ok (List.replicate G.length .nan, .ridge { a with lambdaReg := some (a.lambdaReg.getD 0) })
    | m => .ok (List.replicate G.length .nan, m)
  updateBeta := fun m G _ _ _ => match m with
    | .ridge a => .ok (List.replicate G.length .nan, .ridge { a with lambdaReg := some (a.lambdaReg.getD 0) })
    | m => .ok (List.replicate G.length .nan, m)
  fitPath := fun m G _ _ => match m with
    | .path a => .ok (List.replicate a.lambdaN (List.replicate G.length .nan), m)
    | _ => .error .notImplemented
  updatePath := fun m G _ _ _ => match m with
    | .path a => .ok (List.replicate a.lambdaN (List.replicate G.length .nan), m)
    | _ => .error .notImplemented

theorem nanMat (J : ℕ) (hJ : J ≠ 0) : mat? J (List.replicate J (List.replicate J .nan)) = none := by
  obtain ⟨J, rfl⟩ := Nat.exists_eq_succ_of_ne_zero hJ
  unfold mat?
  rw [List.replicate_succ, List.mapM_cons]
  have : vec? (J + 1) (List.replicate (J + 1) .nan) = none := by
    unfold vec?
    rw [List.replicate_succ, List.mapM_cons]
    simp [Flt.real?]
  rw [this]
  simp
  rfl

theorem nan_total : TotalElsewhere nanMethods where
  initX := fun _ _ _ _ => ⟨_, rfl, by simp, nanMat _⟩
  initY := fun _ _ _ _ _ => ⟨_, rfl, by simp⟩
  updateX := fun _ _ _ _ _ _ => ⟨_, rfl, by simp, nanMat _⟩
  updateY := fun _ _ _ _ _ _ _ => ⟨_, rfl, by simp⟩
  fitBeta := fun a G _ _ h _ => by
    obtain ⟨l, hl⟩ := Option.ne_none_iff_exists'.1 h
    refine ⟨List.replicate G.length .nan, ?_, by simp⟩
    obtain ⟨_, _, _, _, _, _, _⟩ := a
    cases hl
    rfl
  updateBeta := fun a G _ _ _ h _ _ => by
    obtain ⟨l, hl⟩ := Option.ne_none_iff_exists'.1 h
    refine ⟨List.replicate G.length .nan, ?_, by simp⟩
    obtain ⟨_, _, _, _, _, _, _⟩ := a
    cases hl
    rfl

theorem nan_ols : OlsElsewhere nanMethods where
  initX := fun _ _ _ => ⟨_, rfl, by simp⟩
  initY := fun _ _ _ _ => ⟨_, rfl, by simp⟩
  updateX := fun _ _ _ _ _ => ⟨_, rfl, by simp⟩
  updateY := fun _ _ _ _ _ _ => ⟨_, rfl, by simp⟩
  fitBeta := fun G _ _ _ => ⟨List.replicate G.length .nan, rfl, by simp⟩
  updateBeta := fun G _ _ _ _ _ => ⟨List.replicate G.length .nan, rfl, by simp⟩

theorem nan_keeps : KeepsObjects nanMethods where
  fitBeta := fun m _ _ _ b m' h => by
    cases m with
    | ols => cases h; rfl
    | path a => cases h; rfl
    | ridge a => cases h; exact ⟨_, rfl, fun l hl => by rw [hl]; rfl⟩
  updateBeta := fun m _ _ _ _ b m' h => by
    cases m with
    | ols => cases h; rfl
    | path a => cases h; rfl
    | ridge a => cases h; exact ⟨_, rfl, fun l hl => by rw [hl]; rfl⟩
  fitPath := fun m _ _ _ b m' h => by
    cases m with
    | path a => cases h; rfl
    | _ => cases h
  updatePath := fun m _ _ _ _ b m' h => by
    cases m with
    | path a => cases h; rfl
    | _ => cases h

/-- `quadDist` with the exception for arrays whose lengths differ. -/
noncomputable def strictDist : DistOps :=
  { quadDist with
    dl1 := fun y fv _ => if fv.length = y.length then .ok (List.zipWith (fun y r => Flt.fin (y - (r 0).num)) y fv) else .error .valueError }

theorem strict_regular : Regular strictDist where
  pos := Nat.one_pos
  link := fun _ _ a => ⟨_, rfl, by simp⟩
  linkInverse := fun _ _ a => ⟨a, rfl, rfl⟩
  linkInverseDerivative := fun _ _ a => ⟨_, rfl, by simp⟩
  dl1 := fun _ _ y fv h => ⟨_, if_pos h, by simp [h]⟩
  dl2 := fun _ _ y _ _ => ⟨_, rfl, by simp⟩
  initialValues := fun y _ => ⟨_, rfl, by simp⟩

/-- Its second derivatives are minus one. -/
theorem strict_curvature : NoPositiveCurvature strictDist := by
  intro y fv k r h v hv
  cases h
  obtain ⟨_, _, rfl⟩ := List.mem_map.1 hv
  exact ⟨by simp, fun t ht => by cases ht; norm_num⟩

theorem strict_working {lo : ℝ} (hlo : lo ≤ 1) {y : List ℝ} {fv : Fv} {wk : Working}
    (hw : working strictDist lo y fv 0 = .ok wk) : wk.wt = y.map (fun _ => .fin 1) ∧ wk.wv = y.map .fin := by
  by_cases h : fv.length = y.length
  · refine quad_working hlo h ?_
    rw [← hw]
    unfold working
    simp only [strictDist, if_pos h]
    rfl
  · exfalso
    unfold working at hw
    simp only [strictDist, if_neg h] at hw
    cases hw

/-- Ridge regression with penalty 2 and at most 100 iterations of the coordinate descent. -/
noncomputable def ridgeTwo : RidgeObj where
  lambdaReg := some 2
  startBeta := none
  selection := .cyclic
  lower := none
  upper := none
  tolerance := 1 / 10000
  maxIterations := 100

/-- The options: the default equation, here an intercept and a slope. -/
noncomputable def slopeConfig (m : MethodState) : GConfig MethodState 1 :=
  { nanConfig with
    equation := none
    forget := .value (1 / 10)
    method := .value (some m) }

/-- Two observations. -/
def ridgeData : List (Obs 1) := [⟨![0], 1, 1⟩, ⟨![1], 3, 2⟩]

/-- One more. -/
def ridgeBatch : List (Obs 1) := [⟨![2], 0, 1⟩]

theorem slope_options (m : MethodState) : GoodOptions false strictDist (slopeConfig m) m true fun _ => 2 where
  valid := by norm_num [GConfig.Valid, slopeConfig, nanConfig, OptArg.OnlyValue]; decide
  method := rfl
  intercept := rfl
  columns := fun k hk => by
    have : k = 0 := by simpa [strictDist, quadDist, walkDist] using hk
    subst this
    have e : (slopeConfig m).equationFor 0 = .str "all" := rfl
    rw [e]
    exact ⟨rfl, by simp, fun h => by simp at h, [0], .all, rfl⟩
  order := fun o h => by cases h
  minIt := by simp [slopeConfig, nanConfig]
  prefit := by simp [slopeConfig, nanConfig]

theorem strict_support (y : List ℝ) : ¬ OutOfSupport strictDist y := quad_support y

/-- Non-vacuity of C76 with `Ridge`. -/
theorem slope_runs (s : GState MethodState 1) :
    ∃ t, GState.fit false strictDist (packageMethods perm nanMethods) (slopeConfig (.ridge ridgeTwo)) ridgeData s = (.ok (), t) ∧
      ∃ u, GState.updates strictDist (packageMethods perm nanMethods) (slopeConfig (.ridge ridgeTwo)) [ridgeBatch] t = (.ok (), u) ∧ u.isFitted = true ∧
        ∀ X : List (Row 1), X ≠ [] → ∃ th, predictParams strictDist u X .response = .ok th ∧ th.length = X.length := by
  refine C76_ridge (lam := 2) strict_regular (fun h => by cases h) (by norm_num) rfl nan_total
    (fun _ l h => by cases h) (fun _ l h => by cases h) (slope_options _) one_ne_zero (by decide) ?_ (strict_support _) _ ?_
    (fun _ => strict_curvature) s
  · simp [ridgeData]
  · intro b hb
    obtain rfl := List.mem_singleton.1 hb
    exact ⟨⟨by simp [ridgeBatch], strict_support _, fun h => by cases h⟩, by intro o ho; simp [ridgeBatch] at ho; simp [ho]⟩

/-- What the fit leaves as settings. -/
theorem slope_settings {m : MethodState} {s t : GState MethodState 1} {u : Unit} {M : MethodOps MethodState}
    (h : GState.fit false strictDist M (slopeConfig m) ridgeData s = (.ok u, t)) :
    t.equation = [(0, .str "all")] ∧ t.fitIntercept = [(0, true)] ∧ t.paramOrder = [0] ∧ t.forget = [(0, 1 / 10)] ∧
      t.regularizeIntercept = [(0, false)] ∧ t.scaler = some (.off (ws ridgeData).sum) := by
  obtain ⟨r⟩ := fit_ok h
  obtain ⟨q⟩ := prepare_ok r.hprepare
  have hset := (outerFit_setup _ _ _).ok (SameSetup.refl _) r.hloop
  have e5 : t.equation = r.sP.equation := ((congrArg GState.equation r.ht).trans rfl).trans (hset.equation.trans (by unfold_start))
  have e6 : t.fitIntercept = r.sP.fitIntercept :=
    ((congrArg GState.fitIntercept r.ht).trans rfl).trans (hset.fitIntercept.trans (by unfold_start))
  have e7 : t.paramOrder = r.sP.paramOrder :=
    ((congrArg GState.paramOrder r.ht).trans rfl).trans (hset.paramOrder.trans (by unfold_start))
  have e1 : t.forget = r.sP.forget := ((congrArg GState.forget r.ht).trans rfl).trans (hset.forget.trans (by unfold_start))
  have e2 : t.regularizeIntercept = r.sP.regularizeIntercept :=
    ((congrArg GState.regularizeIntercept r.ht).trans rfl).trans (hset.regularizeIntercept.trans (by unfold_start))
  have e8 : t.scaler = some r.sc := ((congrArg GState.scaler r.ht).trans rfl).trans (hset.scaler.trans (by unfold_start))
  have hfi : q.fi = [(0, true)] := (Except.ok.inj q.hfi).symm
  have hfo : q.fo = [(0, 1 / 10)] := (Except.ok.inj q.hfo).symm
  have hri : q.ri = [(0, false)] := (Except.ok.inj q.hri).symm
  have heq : q.eq = [(0, .str "all")] := (Except.ok.inj q.heq).symm
  refine ⟨?_, ?_, ?_, ?_, ?_, ?_⟩
  · rw [e5, q.ht]; exact heq
  · rw [e6, q.ht]; exact hfi
  · rw [e7, q.ht]; rfl
  · rw [e1, q.ht]; exact hfo
  · rw [e2, q.ht]; exact hri
  · have h' : Scaler.fit (slopeConfig m).scaleInputs r.forget0 (xs ridgeData) (ws ridgeData) = .ok (.off (ws ridgeData).sum) := by
      simp [Scaler.fit, ToScale.selection, slopeConfig, nanConfig, ridgeData, xs]
    rw [e8, Except.ok.inj (r.hsc.symm.trans h')]

theorem slope_array (n : ℝ) (X : List (Row 1)) : modelArray (.fin 1) true (.str "all") ((Scaler.off n).transformFlt X) =
    .ok (X.map fun x => [.fin 1, .fin (x 0)]) := by
  change modelArray (.fin 1) true (.str "all") (X.map fun x j => Flt.fin (x j)) = _
  unfold modelArray
  induction X with
  | nil => rfl
  | cons x X ih =>
    rw [List.map_cons, List.mapM_cons, ih]
    rfl

/-- A row of the design. -/
theorem slope_design {s : GState MethodState 1} (h1 : s.equation = [(0, .str "all")]) (h2 : s.fitIntercept = [(0, true)]) (n : ℝ)
    (X : List (Row 1)) : designFor s (.off n) X 0 = .ok (X.map fun x => [.fin 1, .fin (x 0)]) := by
  unfold designFor
  rw [h1, h2]
  exact slope_array n X

/-- The rows of the weighted regression: intercept and slope, the response, and the sample weight. -/
def slopeRows (data : List (Obs 1)) : List (Obs 2) := data.map fun o => ⟨![1, o.x 0], o.y, o.w⟩

theorem slope_rows {clip : ℝ} (hc : clip ≤ 1) {data : List (Obs 1)} {fv : Fv} {wk : Working}
    (h : working strictDist clip (ys data) fv 0 = .ok wk) :
    WorkingRows strictDist clip data ((xs data).map fun x => [.fin 1, .fin (x 0)]) fv 0 (slopeRows data) := by
  obtain ⟨h1, h2⟩ := strict_working hc h
  refine ⟨?_, wk, h, ?_, ?_⟩
  · simp [slopeRows, xs, ofVec, List.finRange_succ, Function.comp_def]
  · rw [h2]; simp [slopeRows, ys]
  · rw [h1]
    clear h h1 h2
    induction data with
    | nil => rfl
    | cons o data ih =>
      simp only [wmul, ws, ys, slopeRows, List.map_cons, List.zipWith_cons_cons] at ih ⊢
      rw [ih]
      simp [Flt.mul]

theorem slopeRows_weights : NonnegWeights (slopeRows ridgeData) ∧ NonnegWeights (slopeRows ridgeBatch) := by
  constructor
  · intro o ho; simp [slopeRows, ridgeData] at ho; rcases ho with rfl | rfl <;> norm_num
  · intro o ho; simp [slopeRows, ridgeBatch] at ho; subst ho; norm_num

theorem slopeRows_rank : FullRank (slopeRows ridgeData) := by
  intro v hv
  have h1 := hv ⟨![1, 0], 1, 1⟩ (by simp [slopeRows, ridgeData]) (by norm_num)
  have h2 := hv ⟨![1, 1], 3, 2⟩ (by simp [slopeRows, ridgeData]) (by norm_num)
  simp [linPred, Fin.sum_univ_two] at h1 h2
  funext i
  fin_cases i
  · simpa using h1
  · have : v 1 = 0 := by linarith
    simpa using this

theorem slope_scaler {m : MethodState} {M : MethodOps MethodState} {t u : GState MethodState 1} {x : Unit} {n : ℝ} {sc : Scaler 1}
    (hu : GState.update strictDist M (slopeConfig m) ridgeBatch t = (.ok x, u)) (h : t.scaler = some (.off n)) (hsc : u.scaler = some sc) :
    ∃ n, sc = .off n := by
  obtain ⟨r⟩ := update_ok hu
  have hset := (outerUpdate_committed _ _ _).ok (SameCommitted.refl _) r.hloop
  have e2 : r.s1.scaler = some r.sc := r.proj GState.scaler (fun _ => rfl) fun _ _ => rfl
  have e1 : u.scaler = some r.sc := ((congrArg GState.scaler r.ht).trans rfl).trans (hset.setup.scaler.trans e2)
  rw [hsc] at e1
  cases e1
  have h0 := Option.some.inj (r.hsc0.symm.trans h)
  have h1 := r.hsc
  rw [h0] at h1
  exact ⟨_, (Except.ok.inj h1).symm⟩

/-- Non-vacuity of C102 for `Ridge`: two observations, then one more. -/
example (s : GState MethodState 1) :
    ∃ t u, GState.fit false strictDist (packageMethods perm nanMethods) (slopeConfig (.ridge ridgeTwo)) ridgeData s = (.ok (), t) ∧
      GState.update strictDist (packageMethods perm nanMethods) (slopeConfig (.ridge ridgeTwo)) ridgeBatch t = (.ok (), u) ∧
      KeepsRows t 0 (1 / 10) (Penalised true false (.str "all")) (slopeRows ridgeData) ∧
      KeepsRows u 0 (1 / 10) (Penalised true false (.str "all")) (slopeRows ridgeData ++ slopeRows ridgeBatch) ∧
      u.method 0 = some (.ridge ridgeTwo) ∧
      ∃ b : Row 2, t.coef 0 = some (ofVec b) ∧ ∀ b0, IsLeastSquares (1 / 10) (slopeRows ridgeData) b0 →
        penalisedError (1 / 10) 2 0 (Penalised true false (.str "all")) (slopeRows ridgeData) b ≤
          penalisedError (1 / 10) 2 0 (Penalised true false (.str "all")) (slopeRows ridgeData) b0 := by
  obtain ⟨t, ht, u, hu, _⟩ := slope_runs (perm := perm) s
  have hu : GState.update strictDist (packageMethods perm nanMethods) (slopeConfig (.ridge ridgeTwo)) ridgeBatch t = (.ok (), u) := by
    unfold GState.updates at hu
    obtain ⟨⟨⟩, u1, h1, h2⟩ := Py.bind_ok_iff.1 hu
    cases h2
    exact h1
  obtain ⟨q1, q2, q3, q4, q5, q6⟩ := slope_settings ht
  obtain ⟨it, i1, _, i2⟩ := C58_fit_outer ht
  obtain ⟨X, fv, sc, forget, lam, K, fi, ri, eq, a1, a2, a3, a4, a5, a6, a7, a8, a9, ⟨wk, a10⟩, a11⟩ := C102_fit_ridge nan_keeps ht it i1
    i2 (by rw [q3]; simp : 0 ∈ t.paramOrder) (ms := [(0, some (.ridge ridgeTwo))]) rfl rfl
  rw [q6] at a1; cases a1
  rw [q1] at a6; cases a6
  rw [q2] at a4; cases a4
  rw [q5] at a5; cases a5
  rw [q4] at a9; cases a9
  obtain rfl := a8 2 rfl
  obtain rfl : 2 = K := Except.ok.inj a3
  rw [slope_design q1 q2] at a2
  cases a2
  have hp := slopeRows_weights.1
  have hp2 := slopeRows_weights.2
  have hr := slopeRows_rank
  obtain ⟨k1, b, hb, hle⟩ := a11 (slopeRows ridgeData) (slope_rows (by norm_num [fitClip]) a10) (by norm_num) hp
  obtain ⟨it', j1, j2⟩ := update_iterates hu (by rw [q3]; simp) (fit_settings (slope_options _) ht).2 (by decide)
  obtain ⟨X, fv, sc, v, c1, c2, c3, _, ⟨wk', c4⟩, c5⟩ := C102_update_ridge nan_keeps hu it' j1 j2 (by rw [q3]; simp : 0 ∈ t.paramOrder)
    (by norm_num) a7 hp k1
  obtain ⟨n, rfl⟩ := slope_scaler hu q6 c1
  rw [slope_design q1 q2] at c2
  cases c2
  obtain ⟨k2, _⟩ := c5 (slopeRows ridgeBatch) (slope_rows (by norm_num [updateClip]) c4) hp2
  refine ⟨t, u, ht, hu, k1, k2, c3, b, hb, fun b0 hb0 => hle b0 _ _ (.inr ⟨rfl, .inl ⟨hr, hb0⟩⟩) rfl rfl ?_ ?_ (by norm_num)⟩
  · intro j l u h; cases h
  · intro j; exact ⟨fun _ h => (by cases h), fun _ h => (by cases h)⟩

/-- Non-vacuity of C76 with `OrdinaryLeastSquares`. -/
theorem slope_runs_ols (s : GState MethodState 1) :
    ∃ t, GState.fit false strictDist (packageMethods perm nanMethods) (slopeConfig .ols) ridgeData s = (.ok (), t) ∧
      ∃ u, GState.updates strictDist (packageMethods perm nanMethods) (slopeConfig .ols) [ridgeBatch] t = (.ok (), u) ∧
        u.isFitted = true ∧
        ∀ X : List (Row 1), X ≠ [] → ∃ th, predictParams strictDist u X .response = .ok th ∧ th.length = X.length := by
  refine C76_ols strict_regular (fun h => by cases h) nan_ols (slope_options _) one_ne_zero (by decide) ?_ ?_
    (strict_support _) _ ?_ s
  · simp [ridgeData]
  · intro k hk X hX
    have : k = 0 := by simpa [strictDist, quadDist, walkDist] using hk
    subst this
    obtain ⟨f, fi, sc, h1, h2, h3, h4⟩ := hX
    cases h2
    have h' : Scaler.fit (slopeConfig .ols).scaleInputs f (xs ridgeData) (ws ridgeData) = .ok (.off (ws ridgeData).sum) := by
      simp [Scaler.fit, ToScale.selection, slopeConfig, nanConfig, ridgeData, xs]
    cases h'.symm.trans h3
    have h5 := Except.ok.inj ((slope_array _ _).symm.trans h4)
    have h6 : X = [![1, 0], ![1, 1]] := by
      have e : ([![1, 0], ![1, 1]] : List (Row 2)).map ofVec = X.map ofVec := by
        rw [← h5]
        simp [xs, ridgeData, ofVec, List.finRange_succ]
      have := congrArg (fun A => A.mapM (vec? 2)) e
      simp only [mapM_vec, Option.some.injEq] at this
      exact this.symm
    subst h6
    intro v hv
    have h1 := hv ![1, 0] (by simp)
    have h2 := hv ![1, 1] (by simp)
    simp [linPred, Fin.sum_univ_two] at h1 h2
    funext i
    fin_cases i
    · simpa using h1
    · have : v 1 = 0 := by linarith
      simpa using this
  · intro b hb
    obtain rfl := List.mem_singleton.1 hb
    exact ⟨by simp [ridgeBatch], strict_support _, fun h => by cases h⟩

/-- Non-vacuity of C102 for `OrdinaryLeastSquares`. -/
example (s : GState MethodState 1) :
    ∃ t u, GState.fit false strictDist (packageMethods perm nanMethods) (slopeConfig .ols) ridgeData s = (.ok (), t) ∧
      GState.update strictDist (packageMethods perm nanMethods) (slopeConfig .ols) ridgeBatch t = (.ok (), u) ∧
      KeepsLeastSquares t 0 (1 / 10) (slopeRows ridgeData) ∧
      KeepsLeastSquares u 0 (1 / 10) (slopeRows ridgeData ++ slopeRows ridgeBatch) := by
  obtain ⟨t, ht, u, hu, _⟩ := slope_runs_ols (perm := perm) s
  have hu : GState.update strictDist (packageMethods perm nanMethods) (slopeConfig .ols) ridgeBatch t = (.ok (), u) := by
    unfold GState.updates at hu
    obtain ⟨⟨⟩, u1, h1, h2⟩ := Py.bind_ok_iff.1 hu
    cases h2
    exact h1
  obtain ⟨q1, q2, q3, q4, q5, q6⟩ := slope_settings ht
  obtain ⟨it, i1, _, i2⟩ := C58_fit_outer ht
  obtain ⟨X, fv, sc, forget, a1, a2, a3, ⟨wk, a4⟩, a5⟩ := C102_fit_ols nan_keeps ht it i1 i2 (by rw [q3]; simp : 0 ∈ t.paramOrder)
    (ms := [(0, some .ols)]) rfl rfl
  rw [q6] at a1; cases a1
  rw [q4] at a3; cases a3
  rw [slope_design q1 q2] at a2
  cases a2
  have k1 := a5 2 (slopeRows ridgeData) (slope_rows (by norm_num [fitClip]) a4) (by norm_num) slopeRows_weights.1 slopeRows_rank
  obtain ⟨it', j1, j2⟩ := update_iterates hu (by rw [q3]; simp) (fit_settings (slope_options _) ht).2 (by decide)
  obtain ⟨X, fv, sc, c1, c2, ⟨wk', c3⟩, c4⟩ := C102_update_ols nan_keeps hu it' j1 j2 (by rw [q3]; simp : 0 ∈ t.paramOrder)
    (by norm_num) slopeRows_weights.1 k1
  obtain ⟨n, rfl⟩ := slope_scaler hu q6 c1
  rw [slope_design q1 q2] at c2
  cases c2
  exact ⟨t, u, ht, hu, k1, c4 (slopeRows ridgeBatch) (slope_rows (by norm_num [updateClip]) c3) slopeRows_weights.2⟩

end Ondil
