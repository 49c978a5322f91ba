import Verif.Lemmas.GamlssOriginDist
import Verif.Spec.RowOrder
import Verif.Props.GamlssNormal
import Verif.Props.RowOrder

/-!
# C118: the origin of the response in a distributional regression with a location
-/

namespace Ondil

variable {p : ℕ}

/-- The number of regressors and the forgetting factor of the location that the options lead to. -/
theorem choose_location (frames : Bool) (n : ℕ) (c : GConfig MethodState p)
    (hf : ∀ d, (c.forget.process n (.value 0)).result = .ok d → ∀ f, d.get? 0 = some f → f < 1) :
    ∃ (J : ℕ) (f0 : ℝ), f0 < 1 ∧ (∀ d, (processEquation frames n c.equation).1 = .ok d → ∀ eq, d.get? 0 = some eq → EquationOk p J eq) ∧
      ∀ d, (c.forget.process n (.value 0)).result = .ok d → ∀ f, d.get? 0 = some f → f = f0 := by
  have h1 : ∃ J, ∀ d, (processEquation frames n c.equation).1 = .ok d → ∀ eq, d.get? 0 = some eq → EquationOk p J eq := by
    by_cases hex : ∃ d eq, (processEquation frames n c.equation).1 = .ok d ∧ d.get? 0 = some eq
    · obtain ⟨d, eq, h1, h2⟩ := hex
      obtain ⟨J, hJ⟩ := equationOk_exists p eq
      refine ⟨J, fun d' h1' eq' h2' => ?_⟩
      obtain rfl : d = d' := Except.ok.inj (h1.symm.trans h1')
      obtain rfl : eq = eq' := Option.some.inj (h2.symm.trans h2')
      exact hJ
    · exact ⟨0, fun d h1 eq h2 => absurd ⟨d, eq, h1, h2⟩ hex⟩
  have h2 : ∃ f0 : ℝ, f0 < 1 ∧ ∀ d, (c.forget.process n (.value 0)).result = .ok d → ∀ f, d.get? 0 = some f → f = f0 := by
    by_cases hex : ∃ d f, (c.forget.process n (.value 0)).result = .ok d ∧ d.get? 0 = some f
    · obtain ⟨d, f, h1, h2⟩ := hex
      refine ⟨f, hf d h1 f h2, fun d' h1' f' h2' => ?_⟩
      obtain rfl : d = d' := Except.ok.inj (h1.symm.trans h1')
      exact Option.some.inj (h2'.symm.trans h2)
    · exact ⟨0, zero_lt_one, fun d h1 f h2 => absurd ⟨d, f, h1, h2⟩ hex⟩
  obtain ⟨J, hJ⟩ := h1
  obtain ⟨f0, h3, h4⟩ := h2
  exact ⟨J, f0, h3, hJ, h4⟩

/-- Fit and updates with least squares, for the classes with a location under the identity link: when the location has an intercept
and its history is not forgotten completely, a shift of all responses raises the same exception, or leads to the same iterations and
deviance and the same coefficients of the other parameters, and moves the intercept, the predicted locations and the predicted
quantiles by the shift. -/
theorem C118_origin_of_response (frames : Bool) (tiny ulp : ℝ) (ht : 0 < tiny) (hu : 0 < ulp) (o : ScipyOracles) (e : Elsewhere) (d : Dist)
    (hd : d.LocationFamily) (links : List LinkClass) (perm : ∀ J : ℕ, ℕ → ℕ → List (Fin J)) (other : MethodOps MethodState)
    (ho : NanOrRaise other) (hb : ResponseBlind other) (δ : ℝ) (he : e.Moves δ) (hc : e.Concave) (hfit : o.FitMoves δ d)
    (c : GConfig MethodState p) (hols : c.method = .value (some .ols)) (hstart : c.condStartVal = false)
    (hit : 0 < c.prefitInitial ∨ 1 ≤ c.minItOuter)
    (hforget : ∀ fs, (c.forget.process d.nParams (.value 0)).result = .ok fs → ∀ f, fs.get? 0 = some f → f < 1)
    (hfi : ∀ fis, (c.fitIntercept.process d.nParams (.value true)).result = .ok fis → ∀ b, fis.get? 0 = some b → b = true)
    (data : List (Obs p)) (hw : NonnegWeights data) (batches : List (List (Obs p))) (hbw : ∀ b ∈ batches, NonnegWeights b) :
    let D := d.ops tiny ulp o e (.identity :: links)
    let M := packageMethods perm other
    let run := (do GState.fit frames D M c data; GState.updates D M c batches : Py (GState MethodState p) Unit) (GState.new _ _)
    let run' := (do
      GState.fit frames D M c (data.map (Obs.respondingFrom δ))
      GState.updates D M c (batches.map fun b => b.map (Obs.respondingFrom δ)) : Py (GState MethodState p) Unit) (GState.new _ _)
    run'.1 = run.1 ∧ (run.1 = .ok () → run'.2.itOuter = run.2.itOuter ∧ run'.2.globalDev = run.2.globalDev ∧
      (∀ k, k ≠ 0 → run'.2.coef k = run.2.coef k) ∧ run'.2.coef 0 = (run.2.coef 0).map (interceptPlus δ) ∧
      (∀ X what, predictParams D run'.2 X what = (predictParams D run.2 X what).map (List.map (locationPlus δ))) ∧
      ∀ X qs, predictQuantile D run'.2 X qs = (predictQuantile D run.2 X qs).map (List.map (List.map (Flt.plus δ)))) := by
  intro D M run run'
  obtain ⟨J, f0, hf0, heq, hf⟩ := choose_location frames d.nParams c hforget
  have hD : DistMoves D δ := location_moves ht hu he hd hfit links
  have hM := ols_origin J δ hf0 perm ho hb
  have hcm : ConfigMoves frames D.nParams J f0 (· = .ols) M.ols c := {
    params := hd.params
    methods := by
      intro ms hms j m hm
      rw [hols] at hms
      cases hms
      rw [PyDict.get?_ofRange] at hm
      split_ifs at hm
      · exact (Option.some.inj hm).symm
      · cases hm
    equation := heq
    forget := hf
    intercept := hfi
    start := hstart
    iterate := hit }
  have hcv : ∀ b ∈ batches, UpdateCurves D b := fun b _ k fv wk hwk =>
    ops_curvature tiny ulp ht hu o e d (.identity :: links) hc (pkgKind fun _ => true) b k rfl fv wk hwk
  rcases Py.Sim.bind (fit_moved frames D hD M c hM hcm data hw) (fun _ _ _ => updates_moved D hD M c hM batches hbw hcv)
      (GState.new _ _) (GState.new _ _) (new_moved _ δ) with ⟨x, s', t', h1, h2⟩ | ⟨a, a', s', t', h1, h2, _, h3⟩
  · have e1 : run = (.error x, s') := h1
    have e2 : run' = (.error x, t') := h2
    rw [e1, e2]
    exact ⟨rfl, fun h => by cases h⟩
  · have e1 : run = (.ok a, s') := h1
    have e2 : run' = (.ok a', t') := h2
    rw [e1, e2]
    refine ⟨rfl, fun _ => ?_⟩
    have hpred := fun X what => predictParams_moved hD h3 X what
    obtain ⟨⟨v, hv, rfl⟩, _⟩ := h3
    refine ⟨rfl, rfl, fun k hk => ?_, ?_, hpred, fun X qs => ?_⟩
    · change v.coef k = s'.coef k
      rcases hv.coef k with ⟨h4, h5⟩ | ⟨x, y, h4, h5, hxy⟩
      · rw [h4, h5]
      · rw [h4, h5, hxy.1 hk]
    · change v.coef 0 = (s'.coef 0).map _
      rcases hv.coef 0 with ⟨h4, h5⟩ | ⟨x, y, h4, h5, hxy⟩
      · rw [h4, h5]
        rfl
      · rw [h4, h5, (hxy.2 rfl trivial).1]
        rfl
    · change predictQuantile D (s'.moved v) X qs = (predictQuantile D s' X qs).map _
      unfold predictQuantile
      rw [hpred]
      cases predictParams D s' X .response with
      | error e => rfl
      | ok th =>
        change Except.ok _ = Except.ok _
        congr 1
        rw [List.length_map, List.map_map]
        refine List.map_congr_left fun i _ => ?_
        simp only [Function.comp, List.map_map]
        refine List.map_congr_left fun q _ => ?_
        simp only [Function.comp]
        rw [hD.ppf]
        exact List.getD_map (D.ppf q th) Flt.nan (Flt.plus δ)

/-! ### Example -/

theorem raising_sizes : NanOrRaise raising where
  initX := fun _ _ _ => .inl ⟨_, fun _ _ => rfl⟩
  initY := fun _ _ _ _ => .inl ⟨_, fun _ _ => rfl⟩
  updateX := fun _ _ _ => .inl ⟨_, fun _ _ _ => rfl⟩
  updateY := fun _ _ _ _ => .inl ⟨_, fun _ _ _ => rfl⟩
  fitBeta := fun _ _ => .inl ⟨_, fun _ _ _ => rfl⟩
  updateBeta := fun _ _ => .inl ⟨_, fun _ _ _ _ => rfl⟩

theorem raising_blind : ResponseBlind raising where
  initY := fun _ _ _ => .inl ⟨_, fun _ _ _ => rfl⟩
  updateY := fun _ _ _ => .inl ⟨_, fun _ _ _ _ => rfl⟩

theorem nanElsewhere_moves (δ : ℝ) : nanElsewhere.Moves δ where
  link := fun _ _ => id
  inverse := fun _ _ => id
  dl1 := fun _ _ _ => rfl
  dl2 := fun _ _ _ => rfl
  logpdf := fun _ _ => rfl
  ppf := fun _ _ => rfl

/-- Non-vacuity: the line `y = x` with the default options; the line `y = x + 5` has the coefficients 5 and 1. -/
example (frames : Bool) (o : ScipyOracles) (perm : ∀ J : ℕ, ℕ → ℕ → List (Fin J)) :
    let D := Dist.normal.ops (1 / 10 ^ 300) (1 / 10 ^ 16) o nanElsewhere [.identity, .log]
    ∃ s, GState.fit frames D (packageMethods perm raising) (normalConfig 30 30) ((lineObs 1).map (Obs.respondingFrom 5)) (GState.new _ _) =
      (.ok (), s) ∧ s.coef 0 = some (ofVec ![5, 1]) := by
  intro D
  obtain ⟨s, hs, hc⟩ := lineObs_default_fit (ulp := 1 / 10 ^ 16) (so := o) (e := nanElsewhere) (perm := perm) (other := raising) frames
    (GState.new _ _)
  have h := C118_origin_of_response (p := 1) frames (1 / 10 ^ 300) (1 / 10 ^ 16) (by positivity) (by positivity) o nanElsewhere .normal trivial
    [.log] perm raising raising_sizes raising_blind 5 (nanElsewhere_moves 5) (fun _ _ _ => id) trivial (normalConfig 30 30) rfl rfl (.inr le_rfl)
    (by
      intro fs hfs f hf
      cases hfs
      rw [PyDict.get?_ofRange] at hf
      split_ifs at hf
      · cases hf
        exact zero_lt_one)
    (by
      intro fs hfs f hf
      cases hfs
      rw [PyDict.get?_ofRange] at hf
      split_ifs at hf
      · cases hf
        rfl)
    (lineObs 1) (fun o ho => (lineObs_pos 1 o ho).le) [] (fun b hb => absurd hb (by simp))
  have e1 : (do
      GState.fit frames D (packageMethods perm raising) (normalConfig 30 30) (lineObs 1)
      GState.updates D (packageMethods perm raising) (normalConfig 30 30) [] : Py (GState MethodState 1) Unit) (GState.new _ _) =
        (.ok (), s) := Py.bind_ok_iff.2 ⟨(), s, hs, rfl⟩
  simp only [show Dist.normal.ops (1 / 10 ^ 300) (1 / 10 ^ 16) o nanElsewhere [.identity, .log] = D from rfl, e1] at h
  obtain ⟨h3, h4⟩ := h
  obtain ⟨_, t', h5, h6⟩ := Py.bind_ok_iff.1 (Prod.ext h3 rfl)
  have h7 := (h4 trivial).2.2.2.1
  have h6' : t' = _ := congrArg Prod.snd h6
  rw [← h6', hc] at h7
  refine ⟨t', h5, h7.trans ?_⟩
  simp [ofVec, interceptPlus, Flt.plus, Flt.add, List.finRange_succ]

end Ondil
