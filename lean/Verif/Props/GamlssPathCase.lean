import Verif.Props.GamlssRidge
import Verif.Lemmas.Methods

/-!
# A distributional regression with a lasso path: C102 applies
-/

open scoped BigOperators Matrix

namespace Ondil

variable {perm : ∀ J : ℕ, ℕ → ℕ → List (Fin J)}

/-- The lasso with five penalties and the default options, each row started from the one before. -/
noncomputable def fiveLambdas : EnetArgs where
  alpha := 1
  lambdaN := 5
  lambdaEps := 1 / 10000
  earlyStop := 0
  startInitial := .previousLambda
  startUpdate := .previousLambda
  selection := .cyclic
  lower := none
  upper := none
  tolerance := 1 / 10000
  maxIterations := 1000

/-- Rows with a one, a positive response and a positive weight. -/
def LevelRows (d : List (Obs 1)) : Prop := d ≠ [] ∧ ∀ o ∈ d, o.x 0 = 1 ∧ 0 < o.y ∧ 0 < o.w

theorem LevelRows.weights {d : List (Obs 1)} (h : LevelRows d) : NonnegWeights d := fun o ho => (h.2 o ho).2.2.le

theorem LevelRows.gram {d : List (Obs 1)} (h : LevelRows d) {f : ℝ} (hf : f < 1) : 0 < initGram (xs d) (ws d) f 0 0 := by
  rw [initGram_apply hf.le d h.weights]
  refine discSum_pos hf d h.1 fun o ho => ?_
  obtain ⟨h1, _, h3⟩ := h.2 o ho
  rw [h1]
  simpa using h3

theorem LevelRows.yGram {d : List (Obs 1)} (h : LevelRows d) {f : ℝ} (hf : f < 1) : 0 < initYGram (xs d) (ys d) (ws d) f 0 := by
  rw [initYGram_apply hf.le d h.weights]
  refine discSum_pos hf d h.1 fun o ho => ?_
  obtain ⟨h1, h2, h3⟩ := h.2 o ho
  rw [h1]
  simpa using mul_pos h3 h2

theorem level_grid (G : Matrix (Fin 1) (Fin 1) ℝ) {h : Row 1} (hh : 0 < h 0) (reg : Fin 1 → Bool) (hr : reg 0 = true) :
    ∃ lams, fiveLambdas.lambdaPath G h reg = .ok lams ∧ ∀ lam ∈ lams, 0 < lam := by
  have e : getLambdaMax G h reg = .ok (h 0) := by
    have : (List.finRange 1).filter (fun j => !reg j) = [] := by simp [List.finRange_succ, hr]
    unfold getLambdaMax
    rw [this]
    rfl
  unfold EnetArgs.lambdaPath geomspace
  rw [e, bind_ok_eq, if_neg (by simp [fiveLambdas, hh.ne'])]
  refine ⟨_, rfl, fun lam hl => ?_⟩
  obtain ⟨i, _, rfl⟩ := List.mem_map.1 hl
  refine mul_pos hh (Real.rpow_pos_of_pos (div_pos (mul_pos hh ?_) hh) _)
  norm_num [fiveLambdas]

/-- The lasso path as the estimator uses it, for an intercept alone and positive working responses. -/
noncomputable def levelContract (perm : ∀ J : ℕ, ℕ → ℕ → List (Fin J)) : MethodContract (packageMethods perm nanMethods) 1 where
  Ok := fun m => m = .path fiveLambdas
  Gx := fun g => ∃ G : Matrix (Fin 1) (Fin 1) ℝ, g = ofMat G ∧ 0 < G 0 0
  Gy := fun h => ∃ v : Row 1, h = ofVec v ∧ 0 < v 0
  FitArrays := fun X y w => ∃ d, LevelRows d ∧ X = (xs d).map ofVec ∧ y = (ys d).map .fin ∧ w = (ws d).map .fin
  UpdateArrays := fun X y w => ∃ d, LevelRows d ∧ X = (xs d).map ofVec ∧ y = (ys d).map .fin ∧ w = (ws d).map .fin
  Flags := fun reg => flags 1 reg 0 = true
  L := 5
  isPath := true
  pos := by decide
  path := by rintro _ rfl; rfl
  initX := by
    rintro _ rfl X hX _ w _ ⟨y, d, hd, rfl, rfl, rfl⟩ f _ hf
    have hne : xs d ≠ [] := by simpa [xs] using hd.1
    exact ⟨_, initX_gram hne _ _ (by simp), _, rfl, hd.gram hf⟩
  initY := by
    rintro _ rfl X hX _ y w _ _ ⟨d, hd, rfl, rfl, rfl⟩ f _ hf
    have hne : xs d ≠ [] := by simpa [xs] using hd.1
    exact ⟨_, initY_ols hne _ _ _ _, _, rfl, hd.yGram hf⟩
  updateX := by
    rintro _ rfl _ ⟨G, rfl, hG⟩ X hX _ w _ ⟨y, d, hd, rfl, rfl, rfl⟩ f _ hf
    have hne : xs d ≠ [] := by simpa [xs] using hd.1
    refine ⟨_, updateX_real hne _ _ _ _, updateGram G (xs d) f (.array (ws d)), rfl, ?_⟩
    obtain ⟨c, hc, h⟩ := updateGram_diag (G := G) (X := xs d) hf (w := ws d) (fun v hv => by
      obtain ⟨o, ho, rfl⟩ := List.mem_map.1 hv
      exact hd.weights o ho) 0
    exact (mul_pos hc hG).trans_le h
  updateY := by
    rintro _ rfl _ ⟨v, rfl, hv⟩ X hX _ y w _ _ ⟨d, hd, rfl, rfl, rfl⟩ f _ hf
    have hne : xs d ≠ [] := by simpa [xs] using hd.1
    refine ⟨_, updateY_real hne _ _ _ _ _, _, rfl, ?_⟩
    rw [updateYGram_apply hf.le _ d hd.weights]
    have h1 := hd.yGram hf
    rw [initYGram_apply hf.le d hd.weights] at h1
    have h2 : 0 < (1 - f) ^ d.length * v 0 := mul_pos (pow_pos (by linarith) _) hv
    linarith
  fitBeta := fun h => by cases h
  updateBeta := fun h => by cases h
  fitPath := by
    rintro _ _ rfl _ _ ⟨G, rfl, hG⟩ ⟨v, rfl, hv⟩ reg _ hr
    obtain ⟨lams, hl, hpos⟩ := level_grid G hv (flags 1 reg) hr
    obtain ⟨q, hq, hq5⟩ := fitBetaPath_total (a := fiveLambdas) (perm 1) (lo := fun _ => none) (up := fun _ => none) rfl rfl hl
      (fun lam hlam j => by
        obtain rfl : j = 0 := Subsingleton.elim _ _
        rw [if_pos hr]
        simpa [fiveLambdas] using hG.ne')
    refine ⟨q.map ofVec, .path fiveLambdas, by rw [fitPath_real, hq]; rfl, ⟨by rw [List.length_map]; exact hq5, fun b hb => ?_⟩, rfl⟩
    obtain ⟨r, _, rfl⟩ := List.mem_map.1 hb
    exact ofVec_length _
  updatePath := by
    rintro _ _ rfl _ _ ⟨G, rfl, hG⟩ ⟨v, rfl, hv⟩ old hold hold1 reg _ hr
    obtain ⟨lams, hl, hpos⟩ := level_grid G hv (flags 1 reg) hr
    obtain ⟨q, hq, hq5⟩ := updateBetaPath_total (a := fiveLambdas) (perm 1) (lo := fun _ => none) (up := fun _ => none) rfl rfl hl
      (fun lam hlam j => by
        obtain rfl : j = 0 := Subsingleton.elim _ _
        rw [if_pos hr]
        simpa [fiveLambdas] using hG.ne') (old.map fun _ => 0) (by rw [List.length_map, hold]; rfl)
    refine ⟨q.map ofVec, .path fiveLambdas, by rw [updatePath_rows (old := old.map fun _ => 0) _ _ _ _ rfl, hq]; rfl,
      ⟨by rw [List.length_map]; exact hq5, fun b hb => ?_⟩, rfl⟩
    obtain ⟨r, _, rfl⟩ := List.mem_map.1 hb
    exact ofVec_length _

/-- The options: an intercept alone, estimated with the lasso path. -/
noncomputable def levelConfig : GConfig MethodState 1 :=
  { nanConfig with
    forget := .value (1 / 10)
    method := .value (some (.path fiveLambdas)) }

theorem level_options : GoodOptions false strictDist levelConfig (.path fiveLambdas) true fun _ => 1 where
  valid := by norm_num [GConfig.Valid, levelConfig, nanConfig, OptArg.OnlyValue]; decide
  method := rfl
  intercept := rfl
  columns := fun k hk => by
    have : k = 0 := by simpa [strictDist, quadDist, walkDist] using hk
    subst this
    have e : levelConfig.equationFor 0 = .str "intercept" := rfl
    rw [e]
    exact ⟨rfl, by simp, fun _ => rfl, [], .intercept, rfl⟩
  order := fun o h => by cases h
  minIt := by simp [levelConfig, nanConfig]
  prefit := by simp [levelConfig, nanConfig]

/-- The rows of the weighted regression: a one, the response, and the sample weight. -/
def levelRows (data : List (Obs 1)) : List (Obs 1) := data.map fun o => ⟨![1], o.y, o.w⟩

theorem level_rows {clip : ℝ} (hc : clip ≤ 1) {data : List (Obs 1)} {fv : Fv} {wk : Working}
    (h : working strictDist clip (ys data) fv 0 = .ok wk) :
    WorkingRows strictDist clip data ((xs data).map fun _ => [.fin 1]) fv 0 (levelRows data) := by
  obtain ⟨h1, h2⟩ := strict_working hc h
  refine ⟨?_, wk, h, ?_, ?_⟩
  · simp [levelRows, xs, ofVec, List.finRange_succ]
  · rw [h2]; simp [levelRows, ys]
  · rw [h1]
    clear h h1 h2
    induction data with
    | nil => rfl
    | cons o data ih =>
      simp only [wmul, ws, ys, levelRows, List.map_cons, List.zipWith_cons_cons] at ih ⊢
      rw [ih]
      simp [Flt.mul]

theorem levelRows_level {data : List (Obs 1)} (hne : data ≠ []) (h : ∀ o ∈ data, 0 < o.y ∧ 0 < o.w) : LevelRows (levelRows data) := by
  refine ⟨by simpa [levelRows] using hne, fun o ho => ?_⟩
  obtain ⟨o', ho', rfl⟩ := List.mem_map.1 ho
  exact ⟨rfl, h o' ho'⟩

theorem level_array (X : List (Fin 1 → Flt)) : modelArray (.fin 1) true (.str "intercept") X = .ok (X.map fun _ => [.fin 1]) := by
  unfold modelArray
  induction X with
  | nil => rfl
  | cons x X ih =>
    rw [List.map_cons, List.mapM_cons, ih]
    rfl

theorem rowOk_level {X : Arr2} (h : ∀ x ∈ X, RowOk levelConfig 1 x) {data : List (Obs 1)} (hl : X.length = data.length) :
    X = (xs data).map fun _ => [.fin 1] := by
  have e : X = List.replicate X.length [.fin 1] := by
    refine List.eq_replicate_iff.2 ⟨rfl, fun x hx => ?_⟩
    obtain ⟨h1, h2⟩ := h x hx
    obtain ⟨t, rfl⟩ := h2 rfl
    simp only [List.length_cons, Nat.add_eq_right, List.length_eq_zero_iff] at h1
    rw [h1]
  rw [e, hl]
  simp [xs, Function.comp_def, List.map_const']

theorem level_runs {data : List (Obs 1)} (h2 : 2 ≤ data.length) (hd : ∀ o ∈ data, 0 < o.y ∧ 0 < o.w) {batch : List (Obs 1)}
    (hb : batch ≠ []) (hbd : ∀ o ∈ batch, 0 < o.y ∧ 0 < o.w) (s : GState MethodState 1) :
    ∃ t, GState.fit false strictDist (packageMethods perm nanMethods) levelConfig data s = (.ok (), t) ∧
      ∃ u, GState.updates strictDist (packageMethods perm nanMethods) levelConfig [batch] t = (.ok (), u) ∧ u.isFitted = true ∧
        ∀ X : List (Row 1), X ≠ [] → ∃ th, predictParams strictDist u X .response = .ok th ∧ th.length = X.length := by
  have hne : data ≠ [] := by rintro rfl; simp at h2
  have arrays : ∀ {clip : ℝ} {dat : List (Obs 1)} {X : Arr2} {fv : Fv} {wk : Working}, clip ≤ 1 → dat ≠ [] → (∀ o ∈ dat, 0 < o.y ∧ 0 < o.w) →
      X = ((xs dat).map fun _ => [.fin 1]) → working strictDist clip (ys dat) fv 0 = .ok wk →
      ∃ d, LevelRows d ∧ X = (xs d).map ofVec ∧ wk.wv = (ys d).map .fin ∧ wmul (ws dat) wk.wt = (ws d).map .fin := by
    intro clip dat X fv wk hc hdat hp hX hwk
    obtain ⟨q1, wk', q2, q3, q4⟩ := level_rows hc hwk
    cases hwk.symm.trans q2
    exact ⟨_, levelRows_level hdat hp, hX.trans q1, q3, q4⟩
  refine C76_no_exception strict_regular (fun h => by cases h) (fun _ => levelContract perm) (fun _ _ => rfl) level_options one_ne_zero h2
    (fun o ho => (hd o ho).2) (strict_support _) _ ?_ ?_ ?_ ?_ s
  · intro b hb'
    obtain rfl := List.mem_singleton.1 hb'
    exact ⟨hb, strict_support _, fun h => by cases h⟩
  · intro k hk X hX hr fv wk hwk
    have : k = 0 := by simpa [strictDist, quadDist, walkDist] using hk
    subst this
    obtain ⟨f, fi, sc, e1, e2, e3, e4⟩ := hX
    cases e2
    have e5 := Except.ok.inj ((level_array _).symm.trans e4)
    refine arrays (by norm_num [fitClip]) hne hd (rowOk_level hr ?_) hwk
    rw [← e5, List.length_map, transformFlt_length]
    simp [xs]
  · intro b hb' k hk X hX hr fv wk hwk
    obtain rfl := List.mem_singleton.1 hb'
    have : k = 0 := by simpa [strictDist, quadDist, walkDist] using hk
    subst this
    exact arrays (by norm_num [updateClip]) hb hbd (rowOk_level hr hX) hwk
  · intro k hk ri
    have : k = 0 := by simpa [strictDist, quadDist, walkDist] using hk
    subst this
    exact (regularizedFlags_iff 1 true ri (.str "intercept") 0).2 (by simp [Penalised])

/-- Two observations, and one more. -/
def levelSample : List (Obs 1) := [⟨![0], 1, 1⟩, ⟨![1], 3, 2⟩]

def levelNext : List (Obs 1) := [⟨![2], 5, 1⟩]

/-- What the fit leaves as settings. -/
theorem level_settings {s t : GState MethodState 1} {u : Unit} {M : MethodOps MethodState}
    (h : GState.fit false strictDist M levelConfig levelSample s = (.ok u, t)) :
    t.equation = [(0, .str "intercept")] ∧ t.fitIntercept = [(0, true)] ∧ t.paramOrder = [0] ∧ t.forget = [(0, 1 / 10)] ∧
      t.regularizeIntercept = [(0, false)] := by
  obtain ⟨r⟩ := fit_ok h
  obtain ⟨q⟩ := prepare_ok r.hprepare
  have hset := (outerFit_setup _ _ _).ok (SameSetup.refl _) r.hloop
  have e5 : t.equation = r.sP.equation := ((congrArg GState.equation r.ht).trans rfl).trans (hset.equation.trans (by unfold_start))
  have e6 : t.fitIntercept = r.sP.fitIntercept :=
    ((congrArg GState.fitIntercept r.ht).trans rfl).trans (hset.fitIntercept.trans (by unfold_start))
  have e7 : t.paramOrder = r.sP.paramOrder :=
    ((congrArg GState.paramOrder r.ht).trans rfl).trans (hset.paramOrder.trans (by unfold_start))
  have e1 : t.forget = r.sP.forget := ((congrArg GState.forget r.ht).trans rfl).trans (hset.forget.trans (by unfold_start))
  have e2 : t.regularizeIntercept = r.sP.regularizeIntercept :=
    ((congrArg GState.regularizeIntercept r.ht).trans rfl).trans (hset.regularizeIntercept.trans (by unfold_start))
  have hfi : q.fi = [(0, true)] := (Except.ok.inj q.hfi).symm
  have hfo : q.fo = [(0, 1 / 10)] := (Except.ok.inj q.hfo).symm
  have hri : q.ri = [(0, false)] := (Except.ok.inj q.hri).symm
  have heq : q.eq = [(0, .str "intercept")] := (Except.ok.inj q.heq).symm
  refine ⟨?_, ?_, ?_, ?_, ?_⟩
  · rw [e5, q.ht]; exact heq
  · rw [e6, q.ht]; exact hfi
  · rw [e7, q.ht]; rfl
  · rw [e1, q.ht]; exact hfo
  · rw [e2, q.ht]; exact hri

theorem level_design {s : GState MethodState 1} (h1 : s.equation = [(0, .str "intercept")]) (h2 : s.fitIntercept = [(0, true)])
    (sc : Scaler 1) (X : List (Row 1)) : designFor s sc X 0 = .ok (X.map fun _ => [.fin 1]) := by
  unfold designFor
  rw [h1, h2]
  refine (level_array _).trans ?_
  rw [List.map_const', List.map_const', transformFlt_length]

theorem five_options : RowAfterRow (J := 1) fiveLambdas (fun _ => none) (fun _ => none) where
  noStop := rfl
  alpha0 := by norm_num [fiveLambdas]
  alpha1 := by norm_num [fiveLambdas]
  hlower := rfl
  hupper := rfl
  bounds := by intro j l u h; cases h
  initial := rfl
  update := rfl
  zero := by intro j; exact ⟨fun _ h => (by cases h), fun _ h => (by cases h)⟩

/-- Non-vacuity of C102 for paths. -/
example (s : GState MethodState 1) :
    ∃ t u, GState.fit false strictDist (packageMethods perm nanMethods) levelConfig levelSample s = (.ok (), t) ∧
      GState.update strictDist (packageMethods perm nanMethods) levelConfig levelNext t = (.ok (), u) ∧
      KeepsRows t 0 (1 / 10) (Penalised true false (.str "intercept")) (levelRows levelSample) ∧
      KeepsRows u 0 (1 / 10) (Penalised true false (.str "intercept")) (levelRows levelSample ++ levelRows levelNext) ∧
      ∃ lams path, u.coefPath 0 = some (path.map ofVec) ∧ (∃ b ∈ path, u.coef 0 = some (ofVec b)) ∧
        PathDescends (1 / 10) 1 (Penalised true false (.str "intercept")) (levelRows levelSample ++ levelRows levelNext) lams path := by
  have hd : ∀ o ∈ levelSample, 0 < o.y ∧ 0 < o.w := by
    intro o ho; simp [levelSample] at ho; rcases ho with rfl | rfl <;> norm_num
  have hbd : ∀ o ∈ levelNext, 0 < o.y ∧ 0 < o.w := by
    intro o ho; simp [levelNext] at ho; subst ho; norm_num
  obtain ⟨t, ht, u, hu, _⟩ := level_runs (perm := perm) (data := levelSample) (by decide) hd (batch := levelNext) (by simp [levelNext]) hbd s
  have hu : GState.update strictDist (packageMethods perm nanMethods) levelConfig levelNext t = (.ok (), u) := by
    unfold GState.updates at hu
    obtain ⟨⟨⟩, u1, h1, h2⟩ := Py.bind_ok_iff.1 hu
    cases h2
    exact h1
  obtain ⟨q1, q2, q3, q4, q5⟩ := level_settings ht
  obtain ⟨it, i1, _, i2⟩ := C58_fit_outer ht
  obtain ⟨X, fv, sc, forget, K, fi, ri, eq, a1, a2, a3, a4, a5, a6, a7, a9, ⟨wk, a10⟩, a11⟩ := C102_fit_path_partial nan_keeps ht it i1
    i2 (by rw [q3]; simp : 0 ∈ t.paramOrder) (ms := [(0, some (.path fiveLambdas))]) rfl rfl
  rw [q1] at a6; cases a6
  rw [q2] at a4; cases a4
  rw [q5] at a5; cases a5
  rw [q4] at a9; cases a9
  obtain rfl : 1 = K := Except.ok.inj a3
  rw [level_design q1 q2] at a2
  cases a2
  have hp := (levelRows_level (by simp [levelSample]) hd).weights
  have hp2 := (levelRows_level (by simp [levelNext]) hbd).weights
  obtain ⟨k1, _⟩ := a11 (levelRows levelSample) (level_rows (by norm_num [fitClip]) a10) (by norm_num) hp
  obtain ⟨it', j1, j2⟩ := update_iterates hu (by rw [q3]; simp) (fit_settings level_options ht).2 (by decide)
  obtain ⟨X, fv, sc, v, reg, c1, c2, c3, c4, _, ⟨wk', c5⟩, c6⟩ := C102_update_path nan_keeps hu it' j1 j2
    (by rw [q3]; simp : 0 ∈ t.paramOrder) (by norm_num) a7 hp k1
  rw [level_design q1 q2] at c2
  cases c2
  obtain ⟨k2, c7⟩ := c6 (levelRows levelNext) (level_rows (by norm_num [updateClip]) c5) hp2
  obtain ⟨lams, path, ⟨e1, e2, _⟩, e3⟩ := (c7 _ _ five_options.toPathOptions).1 rfl five_options.zero
  exact ⟨t, u, ht, hu, k1, k2, lams, path, e1, e2, e3⟩

end Ondil
