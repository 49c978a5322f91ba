import Verif.Lemmas.RowOrderInstances
import Verif.Spec.RowOrder
import Verif.Props.GamlssNormal
import Verif.Props.ConditionalStart
import Verif.Props.Refit

/-!
# C95: without forgetting, the order of the observations within a call does not matter
-/

namespace Ondil

variable {p : ℕ} {fi : Bool}

/-! ### The linear model -/

/-- Fit and updates of the linear model with every method and every information criterion: two orders of the same observations
within the calls give the same exception or the same object. -/
theorem C95_linear (c : LMConfig p fi) (hc : c.forget = 0) (perm : ℕ → ℕ → List (Fin (designDim p fi)))
    (rng : ℕ → ℕ → ℕ → List (Fin (designDim p fi))) {data data' : List (Obs p)} (h : data.Perm data') (hw : NonnegWeights data)
    {batches batches' : List (List (Obs p))} (hb : SameBatches batches batches') (hbw : ∀ b ∈ batches, NonnegWeights b) (s : LM p fi) :
    (do LM.fit c perm data; LM.updates c rng 0 batches : Py (LM p fi) Unit) s =
      (do LM.fit c perm data'; LM.updates c rng 0 batches' : Py (LM p fi) Unit) s := by
  rw [Py.bind_apply, Py.bind_apply, ← LM.fit_perm c hc perm h]
  rcases hs : LM.fit c perm data s with ⟨r, s'⟩
  cases r with
  | error e => rfl
  | ok u => exact LM.updates_perm hc rng hb hbw 0 (OrderInv.of_fit hc hw hs)

/-! ### The distributional regression -/

variable {data data' : List (Obs p)}

theorem along_pair {α β : Type} {a a' : List α} {b b' : List β} (h : Along data data' a a') (k : Along data data' b b') :
    ∃ (f : Obs p → α × β), a = (data.map f).map Prod.fst ∧ a' = (data'.map f).map Prod.fst ∧ b = (data.map f).map Prod.snd ∧
      b' = (data'.map f).map Prod.snd := by
  obtain ⟨f, rfl, rfl⟩ := h
  obtain ⟨g, rfl, rfl⟩ := k
  exact ⟨fun o => (f o, g o), by simp, by simp, by simp, by simp⟩

theorem isOls_eq {m m' : MethodState} (h : m' = .ols ↔ m = .ols) : m'.isOls = m.isOls := by
  cases m <;> cases m' <;> simp_all [MethodState.isOls]

theorem SymmetricElsewhere.methods {other : MethodOps MethodState} (h : SymmetricElsewhere other) (uses : ℕ → Bool)
    (hp : data.Perm data') : RowwiseMethods (pkgKind uses) other data data' where
  initX := fun m X X' w w' hX hw => by
    obtain ⟨f, rfl, rfl, rfl, rfl⟩ := along_pair hX hw
    exact h.initX m _ _ (hp.map f)
  initY := fun m X X' y y' w w' hX hy hw => by
    obtain ⟨f, rfl, rfl⟩ := hX
    obtain ⟨g, rfl, rfl⟩ := hy
    obtain ⟨k, rfl, rfl⟩ := hw
    have := h.initY m _ _ (hp.map fun o => (f o, g o, k o))
    simpa only [List.map_map, Function.comp_def] using this
  good := fun m X X' w w' G hm hX hw hg h' => by
    cases m with
    | ols => exact .inr (h.notFinite X w G h')
    | path a => cases hm
    | ridge a => cases hm
  kindBeta := fun m G b reg r hr => isOls_eq (h.fitBeta m G b reg r hr)
  kindPath := fun m G b reg r hr => isOls_eq (h.fitPath m G b reg r hr)
  kindUpdatePath := fun m G b a reg r hr => isOls_eq (h.updatePath m G b a reg r hr)

theorem SymmetricElsewhere.updates {other : MethodOps MethodState} (h : SymmetricElsewhere other) (uses : ℕ → Bool)
    (hp : data.Perm data') : RowwiseUpdates (pkgKind uses) other data data' where
  updateX := fun m G X X' w w' _ hX hw => by
    obtain ⟨f, rfl, rfl, rfl, rfl⟩ := along_pair hX hw
    exact h.updateX m G _ _ (hp.map f)
  updateY := fun m b X X' y y' w w' hX hy hw => by
    obtain ⟨f, rfl, rfl⟩ := hX
    obtain ⟨g, rfl, rfl⟩ := hy
    obtain ⟨k, rfl, rfl⟩ := hw
    have := h.updateY m b _ _ (hp.map fun o => (f o, g o, k o))
    simpa only [List.map_map, Function.comp_def] using this
  good := fun m G X X' w w' G' hm _ hX hw hg h' => by
    cases m with
    | ols => exact .inr (h.notFiniteUpdate G X w G' h')
    | path a => cases hm
    | ridge a => cases hm
  kindUpdateBeta := fun m G b a reg r hr => isOls_eq (h.updateBeta m G b a reg r hr)
  kindUpdatePath := fun m G b a reg r hr => isOls_eq (h.updatePath m G b a reg r hr)

/-- Predictions use nothing that is kept per observation. -/
theorem SameButRows.predict {μ : Type} {s t : GState μ p} (h : SameButRows s t) (D : DistOps) (X : List (Row p)) (what : What) :
    predictParams D t X what = predictParams D s X what := by
  obtain ⟨v, rfl⟩ := h
  rfl

/-- Fit and updates of the distributional regression, for every distribution, all links and all options that forget nothing and
do not ask for conditional starting values: two orders of the same observations within the calls raise the same exception, or
both succeed with the same coefficients, the same deviance, and the same predictions for all features. -/
theorem C95_distributional_partial (frames : Bool) (tiny ulp : ℝ) (ht : 0 < tiny) (hu : 0 < ulp) (o : ScipyOracles) (ho : o.Symmetric)
    (e : Elsewhere) (he : e.Concave) (d : Dist) (links : List LinkClass) (perm : ∀ J : ℕ, ℕ → ℕ → List (Fin J))
    (other : MethodOps MethodState) (hother : SymmetricElsewhere other) (c : GConfig MethodState p)
    (hf : NoForget (d.ops tiny ulp o e links) c) (hcond : c.condStartVal = false)
    {data data' : List (Obs p)} (h : data.Perm data') (hw : NonnegWeights data) (hpos : 0 < (ws data).sum)
    {batches batches' : List (List (Obs p))} (hb : SameBatches batches batches') (hbw : ∀ b ∈ batches, NonnegWeights b)
    (s : GState MethodState p) :
    let D := d.ops tiny ulp o e links
    let M := packageMethods perm other
    let run := (do GState.fit frames D M c data; GState.updates D M c batches : Py (GState MethodState p) Unit) s
    let run' := (do GState.fit frames D M c data'; GState.updates D M c batches' : Py (GState MethodState p) Unit) s
    run'.1 = run.1 ∧ (run.1 = .ok () → run'.2.coef = run.2.coef ∧ run'.2.coefPath = run.2.coefPath ∧ run'.2.xGram = run.2.xGram ∧
      run'.2.yGram = run.2.yGram ∧ run'.2.scaler = run.2.scaler ∧ run'.2.rss = run.2.rss ∧ run'.2.globalDev = run.2.globalDev ∧
      run'.2.itOuter = run.2.itOuter ∧ ∀ X what, predictParams D run'.2 X what = predictParams D run.2 X what) := by
  intro D M run run'
  have hfit := fit_rows_inv frames D M c (K := pkgKind (usesOls D c)) h hf (kindsOf_usesOls D c) hcond hw hpos
    (ops_rowwise tiny ulp o e d links h) (pkg_rowwise _ h (hother.methods _ h)) (ops_initial tiny ulp o e d links h (ho _ _ (h.map _)))
  have hupd := updates_rows D M c (K := pkgKind (usesOls D c)) hb (fun b _ b' hp => ops_rowwise tiny ulp o e d links hp)
    (fun b _ b' hp => pkg_updates _ hp (hother.updates _ hp)) hbw (fun b _ => ops_curvature tiny ulp ht hu o e d links he _ b)
  rcases Py.Sim.bind hfit (fun _ _ _ => hupd) s s
      ⟨⟨s.fv, s.debugWeights, s.debugWorking, s.debugEta, s.debugFv⟩, rfl⟩ with ⟨x, s', t', h1, h2⟩ | ⟨a, a', s', t', h1, h2, _, h3, _⟩
  · have e1 : run = (.error x, s') := h1
    have e2 : run' = (.error x, t') := h2
    rw [e1, e2]
    exact ⟨rfl, fun h => by cases h⟩
  · have e1 : run = (.ok a, s') := h1
    have e2 : run' = (.ok a', t') := h2
    rw [e1, e2]
    refine ⟨rfl, fun _ => ?_⟩
    have hpred := h3.predict D
    obtain ⟨v, rfl⟩ := h3
    exact ⟨rfl, rfl, rfl, rfl, rfl, rfl, rfl, rfl, hpred⟩

/-! ### Cases -/

/-- A choice for arrays that are not finite: all calls raise. -/
def raising : MethodOps MethodState where
  ols := .ols
  pathBased := fun _ => false
  initX := fun _ _ _ _ => .error .valueError
  initY := fun _ _ _ _ _ => .error .valueError
  updateX := fun _ _ _ _ _ => .error .valueError
  updateY := fun _ _ _ _ _ _ => .error .valueError
  fitBeta := fun _ _ _ _ => .error .valueError
  updateBeta := fun _ _ _ _ _ => .error .valueError
  fitPath := fun _ _ _ _ => .error .valueError
  updatePath := fun _ _ _ _ _ => .error .valueError

theorem raising_symmetric : SymmetricElsewhere raising where
  initX := fun _ _ _ _ => rfl
  initY := fun _ _ _ _ => rfl
  updateX := fun _ _ _ _ _ => rfl
  updateY := fun _ _ _ _ _ => rfl
  notFinite := fun _ _ _ h => by cases h
  notFiniteUpdate := fun _ _ _ _ h => by cases h
  fitBeta := fun _ _ _ _ _ h => by cases h
  updateBeta := fun _ _ _ _ _ _ h => by cases h
  fitPath := fun _ _ _ _ _ h => by cases h
  updatePath := fun _ _ _ _ _ _ h => by cases h

/-- A choice outside the domains of the formulas: NaN. -/
def nanElsewhere : Elsewhere where
  link := fun _ _ => .nan
  inverse := fun _ _ => .nan
  inverseDerivative := fun _ _ => .nan
  dl1 := fun _ _ _ => .nan
  dl2 := fun _ _ _ => .nan
  logpdf := fun _ _ => .nan
  ppf := fun _ _ => .nan
  mean := fun _ => .nan
  conditional := fun _ fv _ => fv

/-- Non-vacuity: a normal regression of the line `y = x` with the default options, fitted to the rows in the reverse order, and
updated with the rows in either order. -/
example (frames : Bool) (o : ScipyOracles) (ho : o.Symmetric) (perm : ∀ J : ℕ, ℕ → ℕ → List (Fin J)) (s₀ : GState MethodState 1) :
    let D := Dist.normal.ops (1 / 10 ^ 300) (1 / 10 ^ 16) o nanElsewhere [.identity, .log]
    let M := packageMethods perm raising
    (∃ s, GState.fit frames D M (normalConfig 30 30) (lineObs 1).reverse s₀ = (.ok (), s) ∧ s.coef 0 = some (ofVec ![0, 1])) ∧
    ((do GState.fit frames D M (normalConfig 30 30) (lineObs 1); GState.updates D M (normalConfig 30 30) [lineObs 2] :
        Py (GState MethodState 1) Unit) s₀).1 =
      ((do GState.fit frames D M (normalConfig 30 30) (lineObs 1).reverse;
           GState.updates D M (normalConfig 30 30) [(lineObs 2).reverse] : Py (GState MethodState 1) Unit) s₀).1 := by
  intro D M
  have hf : NoForget D (normalConfig 30 30) := by
    intro d hd k f hk
    cases hd
    rw [PyDict.get?_ofRange] at hk
    split_ifs at hk
    cases hk
    rfl
  have hpos : 0 < (ws (lineObs 1)).sum := by norm_num [ws, lineObs]
  have key := fun bs bs' hb hbw => C95_distributional_partial frames (1 / 10 ^ 300) (1 / 10 ^ 16) (by positivity) (by positivity) o ho
    nanElsewhere (fun _ _ _ => id) .normal [.identity, .log] perm raising raising_symmetric (normalConfig 30 30) hf rfl
    (List.reverse_perm (lineObs 1)).symm (fun o ho => (lineObs_pos 1 o ho).le) hpos (batches := bs) (batches' := bs') hb hbw s₀
  constructor
  · obtain ⟨s, hs, hc⟩ := lineObs_default_fit (ulp := 1 / 10 ^ 16) (so := o) (e := nanElsewhere) (perm := perm) (other := raising) frames s₀
    have h := key [] [] List.Forall₂.nil (fun b hb => absurd hb (by simp))
    have e : ∀ m : Py (GState MethodState 1) Unit, (m >>= fun _ => pure ()) = m := by
      intro m
      funext s
      rw [Py.bind_apply]
      rcases m s with ⟨r, t⟩
      cases r <;> rfl
    simp only [GState.updates, e] at h
    have hs' : GState.fit frames D M (normalConfig 30 30) (lineObs 1) s₀ = (.ok (), s) := hs
    rcases h' : GState.fit frames D M (normalConfig 30 30) (lineObs 1).reverse s₀ with ⟨r, t⟩
    rw [show GState.fit frames (Dist.normal.ops (1 / 10 ^ 300) (1 / 10 ^ 16) o nanElsewhere [.identity, .log]) (packageMethods perm raising)
      (normalConfig 30 30) (lineObs 1) s₀ = _ from hs', show GState.fit frames (Dist.normal.ops (1 / 10 ^ 300) (1 / 10 ^ 16) o nanElsewhere
      [.identity, .log]) (packageMethods perm raising) (normalConfig 30 30) (lineObs 1).reverse s₀ = _ from h'] at h
    obtain ⟨h1, h2⟩ := h
    exact ⟨t, Prod.ext h1 rfl, by rw [(h2 rfl).1]; exact hc⟩
  · exact (key [lineObs 2] [(lineObs 2).reverse] (.cons (List.reverse_perm _).symm .nil) (fun b hb => by
      rw [List.mem_singleton.1 hb]
      exact fun o ho => (lineObs_pos 2 o ho).le)).1.symm

/-! ### Forgetting makes the order matter -/

/-- One column without intercept. -/
noncomputable def pointConfig (f : ℝ) : LMConfig 1 false :=
  { forget := f, scaleInputs := .off, regularizeIntercept := false, method := .str "ols", ic := .bic }

/-- The least squares estimate for two responses at `x = 1`. -/
theorem point_coef {f : ℝ} (hf0 : 0 ≤ f) (hf1 : f < 1) (y1 y2 : ℝ) (s : LM 1 false) : ∃ s', LM.fit (pointConfig f) (fun _ _ => []) [⟨fun _ => 1, y1, 1⟩, ⟨fun _ => 1, y2, 1⟩] s =
    (.ok (), s') ∧ s'.coef = some fun _ => ((1 - f) * y1 + y2) / (2 - f) := by
  set data : List (Obs 1) := [⟨fun _ => 1, y1, 1⟩, ⟨fun _ => 1, y2, 1⟩] with hdata
  have hn : NonnegWeights data := by
    intro o ho
    simp only [hdata, List.mem_cons, List.not_mem_nil, or_false] at ho
    rcases ho with rfl | rfl <;> norm_num
  have hsc := scaler_fit_canon (ToScale.off : ToScale 1) f data (by simp [hdata]) (.inl rfl)
  have hX : scaledDesign false (canonSc (ToScale.off : ToScale 1) f data) (xs data) = xs data := (List.map_id (xs data) : _)
  have hG : initGram (xs data) (ws data) f 0 0 = 2 - f := by
    rw [initGram_apply hf1.le data hn]
    simp [hdata, discSum_cons]
    ring
  have hY : initYGram (xs data) (ys data) (ws data) f 0 = (1 - f) * y1 + y2 := by
    rw [initYGram_apply hf1.le data hn]
    simp [hdata, discSum_cons]
  have hd : IsUnit (initGram (xs data) (ws data) f).det := by
    rw [Matrix.det_fin_one, hG]
    exact IsUnit.mk0 _ (by linarith)
  have hGi : initInvertedGram (scaledDesign false (canonSc (ToScale.off : ToScale 1) f data) (xs data)) (ws data) f =
      .ok (initGram (xs data) (ws data) f)⁻¹ := by
    rw [hX]
    exact initInvertedGram_of_isUnit hd
  obtain ⟨s', hs'⟩ := LM.fit_ols_succeeds (pointConfig f) (fun _ _ => []) data s
    ⟨hf0, hf1, by simp [pointConfig], by simp [pointConfig]⟩ (by simp [pointConfig])
    (by simp [hdata]) (by
      rintro ⟨h, _⟩
      have : ((designDim 1 false : ℕ) : ℝ) = 1 := by norm_num [designDim]
      rw [this] at h
      norm_num [ws, hdata] at h) (by simp [ws, hdata]) getEstimationMethod_ols _ hsc _ hGi
  refine ⟨s', hs', ?_⟩
  obtain ⟨_, _, _, _, _, m, sc, G, hm, hsc', hG', _, _, _, _, _, hcoef, _⟩ := LM.fit_ok hs'
  rw [show getEstimationMethod (pointConfig f).method = .ok .ols from getEstimationMethod_ols] at hm
  cases hm
  rw [show Scaler.fit (pointConfig f).scaleInputs (pointConfig f).forget (xs data) (ws data) = _ from hsc] at hsc'
  cases hsc'
  rw [show MethodObj.initXGram .ols _ (ws data) (pointConfig f).forget = _ from hGi] at hG'
  cases hG'
  rw [(hcoef rfl).2]
  congr 1
  funext (j : Fin 1)
  rw [Subsingleton.elim j 0]
  change ((initGram (xs data) (ws data) f)⁻¹).mulVec (initYGram (scaledDesign false _ (xs data)) (ys data) (ws data) f) 0 = _
  rw [hX]
  have hinv : (initGram (xs data) (ws data) f)⁻¹ 0 0 = 1 / (2 - f) := by
    have h1 := congrFun (congrFun (Matrix.mul_nonsing_inv _ hd) 0) 0
    rw [Matrix.mul_apply, Fin.sum_univ_one, hG, Matrix.one_apply_eq] at h1
    have : 2 - f ≠ 0 := by linarith
    field_simp
    linarith
  have : ((initGram (xs data) (ws data) f)⁻¹).mulVec (initYGram (xs data) (ys data) (ws data) f) 0 =
      (initGram (xs data) (ws data) f)⁻¹ 0 0 * initYGram (xs data) (ys data) (ws data) f 0 := by
    rw [Matrix.mulVec, dotProduct, Fin.sum_univ_one]
  rw [this, hinv, hY]
  ring

/-- Non-vacuity of the linear case: two different observations in both orders. -/
example : ∃ s, LM.fit (pointConfig 0) (fun _ _ => []) [⟨fun _ => 1, 0, 1⟩, ⟨fun _ => 1, 1, 1⟩] (LM.new 1 false) = (.ok (), s) ∧
    LM.fit (pointConfig 0) (fun _ _ => []) [⟨fun _ => 1, 1, 1⟩, ⟨fun _ => 1, 0, 1⟩] (LM.new 1 false) = (.ok (), s) ∧
    s.coef = some fun _ => 1 / 2 := by
  obtain ⟨s, hs, hc⟩ := point_coef le_rfl one_pos 0 1 (LM.new 1 false)
  have h := C95_linear (pointConfig 0) rfl (fun _ _ => []) (fun _ _ _ => []) (List.Perm.swap ⟨fun _ => 1, 1, 1⟩ ⟨fun _ => 1, 0, 1⟩ [])
    (by
      intro o ho
      simp only [List.mem_cons, List.not_mem_nil, or_false] at ho
      rcases ho with rfl | rfl <;> norm_num) (batches := []) (batches' := []) List.Forall₂.nil (by simp) (LM.new 1 false)
  rw [Py.bind_of_ok hs] at h
  refine ⟨s, hs, ?_, by rw [hc]; norm_num⟩
  rcases h' : LM.fit (pointConfig 0) (fun _ _ => []) [⟨fun _ => 1, 1, 1⟩, ⟨fun _ => 1, 0, 1⟩] (LM.new 1 false) with ⟨r, t⟩
  rw [Py.bind_apply, h'] at h
  cases r with
  | error e => cases h
  | ok u =>
    cases h
    rfl

/-- With forgetting the order matters: the last row counts most.  Two observations at the same point, in two orders, give two
different coefficients. -/
theorem C95_forget_fails : ∃ (c : LMConfig 1 false) (data data' : List (Obs 1)) (s t : LM 1 false), data.Perm data' ∧
    NonnegWeights data ∧ LM.fit c (fun _ _ => []) data (LM.new 1 false) = (.ok (), s) ∧
    LM.fit c (fun _ _ => []) data' (LM.new 1 false) = (.ok (), t) ∧ s.coef = some (fun _ => 2 / 3) ∧ t.coef = some fun _ => 1 / 3 := by
  obtain ⟨s, hs, hc⟩ := point_coef (f := 1 / 2) (by norm_num) (by norm_num) 0 1 (LM.new 1 false)
  obtain ⟨t, ht, hc'⟩ := point_coef (f := 1 / 2) (by norm_num) (by norm_num) 1 0 (LM.new 1 false)
  refine ⟨pointConfig (1 / 2), _, _, s, t, List.Perm.swap _ _ _, ?_, hs, ht, ?_, ?_⟩
  · intro o ho
    simp only [List.mem_cons, List.not_mem_nil, or_false] at ho
    rcases ho with rfl | rfl <;> norm_num
  · rw [hc]
    norm_num
  · rw [hc']
    norm_num

/-! ### So do conditional starting values -/

/-- The optimiser for the conditional starting values starts from the parameters of the first row: with an optimiser that stays where
it is, two orders of the same two rows give every observation scale 1, or every observation scale 2. -/
theorem C95_conditional_start_fails : ∃ (minimise : ((ℕ → ℝ) → Except PyErr Flt) → (ℕ → ℝ) → Option (ℕ → ℝ)) (y1 y2 : ℝ)
    (a b : ℕ → ℝ) (r r' : List (ℕ → ℝ)), Dist.normal.conditionalStart minimise [y1, y2] [a, b] 1 = .ok r ∧
      Dist.normal.conditionalStart minimise [y2, y1] [b, a] 1 = .ok r' ∧ (∀ θ ∈ r, θ 1 = 1) ∧ ∀ θ ∈ r', θ 1 = 2 := by
  have key : ∀ (y1 y2 : ℝ) (a b : ℕ → ℝ), Dist.normal.conditionalStart (fun _ x => some x) [y1, y2] [a, b] 1 =
      .ok [Dist.withTail 1 a a, Dist.withTail 1 a b] := by
    intro y1 y2 a b
    have h := Dist.C80_objective_partial .normal trivial .norm rfl 1 le_rfl [y1, y2] [a, b] a (fun h => by cases h)
    unfold Dist.conditionalStart
    simp only [Dist.family, h, bind, Except.bind, pure, Except.pure]
    rfl
  refine ⟨fun _ x => some x, 0, 0, fun _ => 1, fun _ => 2, _, _, key _ _ _ _, key _ _ _ _, ?_, ?_⟩
  · intro θ h
    simp only [List.mem_cons, List.not_mem_nil, or_false] at h
    rcases h with rfl | rfl <;> simp [Dist.withTail]
  · intro θ h
    simp only [List.mem_cons, List.not_mem_nil, or_false] at h
    rcases h with rfl | rfl <;> simp [Dist.withTail]

end Ondil
