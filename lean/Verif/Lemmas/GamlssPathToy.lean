import Verif.Lemmas.GamlssToy

/-!
# A small estimator with a fixed coefficient path

A distribution object with one parameter, identity link and log density `-(y - v)² / 2` without the constant, and a path based method object that
always returns the same path.  These are witnesses for the results on model selection: the estimator accepts any
distribution and method object.
-/

namespace Ondil

/-- The number in a float; zero if there is none. -/
def Flt.num : Flt → ℝ
  | .fin r => r
  | _ => 0

/-- The distribution object: normal with variance one, without the constant of the log density. -/
noncomputable def quadDist : DistOps :=
  { walkDist (fun _ => .fin 0) with
    link := fun _ a => .ok (a.map fun v => .fin v.num)
    dl1 := fun y fv _ => .ok (List.zipWith (fun y r => Flt.fin (y - (r 0).num)) y fv)
    logpdf := fun y fv => List.zipWith (fun y r => Flt.fin (-(y - (r 0).num) ^ 2 / 2)) y fv }

/-- The method object. -/
def rowsMethod (P : Arr2) : MethodOps Unit where
  ols := ()
  pathBased := fun _ => true
  initX := fun _ X _ _ => .ok X
  initY := fun _ _ y _ _ => .ok y
  updateX := fun _ G _ _ _ => .ok G
  updateY := fun _ h _ _ _ _ => .ok h
  fitBeta := fun _ _ _ _ => .error .notImplemented
  updateBeta := fun _ _ _ _ _ => .error .notImplemented
  fitPath := fun _ _ _ _ => .ok (P, ())
  updatePath := fun _ _ _ _ _ => .ok (P, ())

/-- The options: an intercept, one outer iteration with one inner iteration, the given selection, criterion and forget factor. -/
noncomputable def rowsConfig (m : Selecting) (ic : Criterion) (f : ℝ) : GConfig Unit 1 :=
  { walkConfig 1 1 with
    forget := .value f
    ic := .value ic
    modelSelection := m }

/-- The method object behaves as the estimator expects. -/
def rowsContract (P : Arr2) (hP : P ≠ []) (h1 : ∀ b ∈ P, b.length = 1) : MethodContract (rowsMethod P) 1 where
  Ok := fun _ => True
  Gx := fun _ => True
  Gy := fun _ => True
  L := P.length
  isPath := true
  pos := List.length_pos_iff_ne_nil.2 hP
  path := fun _ _ => rfl
  initX := fun _ _ X _ _ _ _ _ _ _ _ => ⟨X, rfl, trivial⟩
  initY := fun _ _ _ _ _ y _ _ _ _ _ _ _ => ⟨y, rfl, trivial⟩
  updateX := fun _ _ g _ _ _ _ _ _ _ _ _ _ => ⟨g, rfl, trivial⟩
  updateY := fun _ _ g _ _ _ _ _ _ _ _ _ _ _ _ => ⟨g, rfl, trivial⟩
  fitBeta := fun h => by cases h
  updateBeta := fun h => by cases h
  fitPath := fun _ _ _ _ _ _ _ _ _ _ => ⟨P, (), rfl, ⟨rfl, h1⟩, trivial⟩
  updatePath := fun _ _ _ _ _ _ _ _ _ _ _ _ _ => ⟨P, (), rfl, ⟨rfl, h1⟩, trivial⟩

theorem quad_regular : Regular quadDist where
  pos := Nat.one_pos
  link := fun _ _ a => ⟨_, rfl, by simp⟩
  linkInverse := fun _ _ a => ⟨a, rfl, rfl⟩
  linkInverseDerivative := fun _ _ a => ⟨_, rfl, by simp⟩
  dl1 := fun _ _ y fv h => ⟨_, rfl, by simp [h]⟩
  dl2 := fun _ _ y _ _ => ⟨_, rfl, by simp⟩
  initialValues := fun y _ => ⟨_, rfl, by simp⟩

/-- The working response is the response, and the working weights are one. -/
theorem quad_working {lo : ℝ} (hlo : lo ≤ 1) {y : List ℝ} {fv : Fv} (h : fv.length = y.length) {wk : Working}
    (hw : working quadDist lo y fv 0 = .ok wk) : wk.wt = y.map (fun _ => .fin 1) ∧ wk.wv = y.map .fin := by
  have := Except.ok.inj hw
  subst this
  simp only [quadDist, walkDist]
  clear hw
  induction y generalizing fv with
  | nil =>
    obtain rfl := List.length_eq_zero_iff.1 h
    simp [Fv.col]
  | cons a y ih =>
    obtain ⟨r, fv, rfl⟩ : ∃ r fv', fv = r :: fv' := by
      cases fv with
      | nil => cases h
      | cons r fv => exact ⟨r, fv, rfl⟩
    obtain ⟨h1, h2⟩ := ih (fv := fv) (by simpa using h)
    simp only [Fv.col, List.map_cons, List.zipWith_cons_cons, List.cons.injEq] at h1 h2 ⊢
    refine ⟨⟨?_, h1⟩, ?_, h2⟩
    · norm_num [Flt.div, Flt.mul, Flt.neg, Flt.clip, hlo]
    · norm_num [Flt.div, Flt.mul, Flt.neg, Flt.clip, Flt.add, hlo]

theorem rows_options {m : Selecting} {ic : Criterion} {f : ℝ} (h0 : 0 ≤ f) (h1 : f < 1) (hic : ic ≠ .aicc) :
    GoodOptions false quadDist (rowsConfig m ic f) () true fun _ => 1 where
  valid := by simp [GConfig.Valid, rowsConfig, walkConfig, OptArg.OnlyValue, h0, h1, hic]
  method := rfl
  intercept := rfl
  columns := fun k hk => by
    have : k = 0 := by simpa [quadDist, walkDist] using hk
    subst this
    have e : (rowsConfig m ic f).equationFor 0 = .str "intercept" := rfl
    rw [e]
    exact ⟨rfl, by simp, fun _ => rfl, [], .intercept, rfl⟩
  order := fun o h => by cases h
  minIt := ⟨le_rfl, le_rfl⟩
  prefit := ⟨Nat.zero_le _, Nat.zero_le _⟩

theorem quad_support (y : List ℝ) : ¬ OutOfSupport quadDist y := by
  rintro (⟨v, _, h⟩ | ⟨v, _, h⟩)
  · exact absurd h not_lt_bot
  · exact absurd h not_top_lt

/-- The fit succeeds, and so does an update. -/
theorem rows_runs {P : Arr2} (hP : P ≠ []) (h1 : ∀ b ∈ P, b.length = 1) {m : Selecting} {ic : Criterion} {f : ℝ} (hf0 : 0 ≤ f)
    (hf1 : f < 1) (hic : ic ≠ .aicc) {data : List (Obs 1)} (h2 : 2 ≤ data.length) (hw : ∀ o ∈ data, 0 < o.w)
    (s : GState Unit 1) :
    ∃ t, GState.fit false quadDist (rowsMethod P) (rowsConfig m ic f) data s = (.ok (), t) ∧
      GFitted quadDist (rowsConfig m ic f) (fun _ => rowsContract P hP h1) t ∧
      ∀ batch : List (Obs 1), batch ≠ [] → ∃ u, GState.update quadDist (rowsMethod P) (rowsConfig m ic f) batch t = (.ok (), u) ∧
        GFitted quadDist (rowsConfig m ic f) (fun _ => rowsContract P hP h1) u := by
  have ho := rows_options (m := m) hf0 hf1 hic
  obtain ⟨⟨⟩, t, e1, g1⟩ := fit_total quad_regular (fun h => by cases h) (fun _ => rowsContract P hP h1) (fun _ _ => trivial) ho
    one_ne_zero h2 hw (quad_support _) (fun _ _ _ _ _ _ _ _ => trivial) (fun _ _ _ => trivial) s trivial
  refine ⟨t, e1, g1, fun batch hb => ?_⟩
  obtain ⟨⟨⟩, u, e2, g2⟩ := update_total quad_regular (fun h => by cases h) (fun _ => rowsContract P hP h1) ho.valid ho.minIt.2
    ho.prefit.2 one_ne_zero (data := batch) ⟨hb, quad_support _, fun h => by cases h⟩ (fun _ _ _ _ _ _ _ _ => trivial) t g1
  exact ⟨u, e2, g2⟩

/-- What the fit leaves as settings. -/
theorem rows_settings {P : Arr2} {m : Selecting} {ic : Criterion} {f : ℝ} {data : List (Obs 1)} (h2 : 2 ≤ data.length)
    {s t : GState Unit 1} {u : Unit} (h : GState.fit false quadDist (rowsMethod P) (rowsConfig m ic f) data s = (.ok u, t)) :
    t.forget = [(0, f)] ∧ t.ic = [(0, ic)] ∧ t.nTraining.get? 0 = some (effectiveTrainingLength f (ws data).sum) ∧
      t.nObs = some (ws data).sum ∧ t.equation = [(0, .str "intercept")] ∧ t.fitIntercept = [(0, true)] ∧ t.paramOrder = [0] ∧
      t.scaler = some (.off (ws data).sum) := by
  obtain ⟨r⟩ := fit_ok h
  obtain ⟨q⟩ := prepare_ok r.hprepare
  have hset := (outerFit_setup _ _ _).ok (SameSetup.refl _) r.hloop
  have e1 : t.forget = r.sP.forget := ((congrArg GState.forget r.ht).trans rfl).trans (hset.forget.trans (by unfold_start))
  have e2 : t.ic = r.sP.ic := ((congrArg GState.ic r.ht).trans rfl).trans (hset.ic.trans (by unfold_start))
  have e3 : t.nTraining = r.nt := ((congrArg GState.nTraining r.ht).trans rfl).trans (hset.nTraining.trans (by unfold_start))
  have e4 : t.nObs = some (ws data).sum := ((congrArg GState.nObs r.ht).trans rfl).trans (hset.nObs.trans (by unfold_start))
  have e5 : t.equation = r.sP.equation := ((congrArg GState.equation r.ht).trans rfl).trans (hset.equation.trans (by unfold_start))
  have e6 : t.fitIntercept = r.sP.fitIntercept :=
    ((congrArg GState.fitIntercept r.ht).trans rfl).trans (hset.fitIntercept.trans (by unfold_start))
  have e7 : t.paramOrder = r.sP.paramOrder :=
    ((congrArg GState.paramOrder r.ht).trans rfl).trans (hset.paramOrder.trans (by unfold_start))
  have e8 : t.scaler = some r.sc := ((congrArg GState.scaler r.ht).trans rfl).trans (hset.scaler.trans (by unfold_start))
  have hfo : q.fo = [(0, f)] := (Except.ok.inj q.hfo).symm
  have hic : q.ic = [(0, ic)] := (Except.ok.inj q.hic).symm
  have hfi : q.fi = [(0, true)] := (Except.ok.inj q.hfi).symm
  have heq : q.eq = [(0, .str "intercept")] := (Except.ok.inj q.heq).symm
  have s1 : r.sP.forget = [(0, f)] := by rw [q.ht]; exact hfo
  refine ⟨e1.trans s1, ?_, ?_, e4, ?_, ?_, ?_, ?_⟩
  · rw [e2, q.ht]; exact hic
  · have := r.hnt
    rw [s1] at this
    have h' : trainingLengths quadDist.nParams [(0, f)] (ws data).sum =
      .ok [(0, effectiveTrainingLength f (ws data).sum)] := rfl
    rw [e3, ← Except.ok.inj (h'.symm.trans this)]
    rfl
  · rw [e5, q.ht]; exact heq
  · rw [e6, q.ht]; exact hfi
  · rw [e7, q.ht]; rfl
  · have h' : Scaler.fit (rowsConfig m ic f).scaleInputs r.forget0 (xs data) (ws data) = .ok (.off (ws data).sum) := by
      have : 1 < (xs data).length := by rw [xs, List.length_map]; omega
      simp [Scaler.fit, ToScale.selection, rowsConfig, walkConfig, this]
    rw [e8, Except.ok.inj (r.hsc.symm.trans h')]

/-- The design is a column of ones. -/
theorem rows_design {s : GState Unit 1} (h1 : s.equation = [(0, .str "intercept")]) (h2 : s.fitIntercept = [(0, true)]) (n : ℝ)
    (X : List (Row 1)) : designFor s (.off n) X 0 = .ok (X.map fun _ => [.fin 1]) := by
  unfold designFor
  rw [h1, h2]
  change modelArray (.fin 1) true (.str "intercept") (X.map fun x j => Flt.fin (x j)) = _
  unfold modelArray
  induction X with
  | nil => rfl
  | cons x X ih =>
    rw [List.map_cons, List.mapM_cons, ih]
    rfl

end Ondil
