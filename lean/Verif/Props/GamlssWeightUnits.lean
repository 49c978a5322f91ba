import Verif.Lemmas.GamlssWeightUnitsCalls
import Verif.Lemmas.EarlyStopFit
import Verif.Props.RowOrder

/-!
# C116: the unit of the sample weights does not matter to a distributional regression
-/

namespace Ondil

variable {p : ℕ}

/-- Fit and updates of the distributional regression with least squares, for every distribution object, all links and all
options with at least one outer iteration: sample weights in another unit, with the absolute tolerances in the same unit, raise the
same exception, or lead to the same coefficients, the same number of outer iterations, the same fitted values, the same predictions
for all features, and the deviance in the other unit. -/
theorem C116_weight_units_partial {k : ℝ} (hk : 0 < k) (frames : Bool) (D : DistOps) (perm : ∀ J : ℕ, ℕ → ℕ → List (Fin J))
    (other : MethodOps MethodState) (ho : WeightFreeMethods k (· = .ols) other) (c : GConfig MethodState p)
    (hols : c.method = .value (some .ols)) (hmin : 1 ≤ c.minItOuter) (data : List (Obs p)) (batches : List (List (Obs p))) :
    let M := packageMethods perm other
    let run := (do GState.fit frames D M c data; GState.updates D M c batches : Py (GState MethodState p) Unit) (GState.new _ _)
    let run' := (do
      GState.fit frames D M (c.inUnit k) (data.map (Obs.scaleW k))
      GState.updates D M (c.inUnit k) (batches.map fun b => b.map (Obs.scaleW k)) : Py (GState MethodState p) Unit) (GState.new _ _)
    run'.1 = run.1 ∧ (run.1 = .ok () → run'.2.coef = run.2.coef ∧ run'.2.itOuter = run.2.itOuter ∧ run'.2.fv = run.2.fv ∧
      run'.2.globalDev = run.2.globalDev.map (Flt.times k) ∧
      ∀ X what, predictParams D run'.2 X what = predictParams D run.2 X what) := by
  intro M run run'
  have hM := ols_weightFree hk perm ho
  have hok : ∀ d, (c.method.process D.nParams (.value (some M.ols))).result = .ok d →
      ∀ j m, (d.get? j).bind id = some m → m = .ols := by
    intro d hd j m hm
    rw [hols] at hd
    cases hd
    rw [PyDict.get?_ofRange] at hm
    split_ifs at hm
    · exact (Option.some.inj hm).symm
    · cases hm
  rcases Py.Sim.bind (fit_weights hk frames D M c hM hok hmin data) (fun _ _ _ => updates_weights hk D M c hM hmin batches)
      (GState.new _ _) (GState.new _ _) (new_reweighed k) with ⟨x, s', t', h1, h2⟩ | ⟨a, a', s', t', h1, h2, _, h3⟩
  · have e1 : run = (.error x, s') := h1
    have e2 : run' = (.error x, t') := h2
    rw [e1, e2]
    exact ⟨rfl, fun h => by cases h⟩
  · have e1 : run = (.ok a, s') := h1
    have e2 : run' = (.ok a', t') := h2
    rw [e1, e2]
    refine ⟨rfl, fun _ => ?_⟩
    obtain ⟨⟨v, hv, rfl⟩, _⟩ := h3
    exact ⟨rfl, rfl, rfl, rfl, fun X what => predict_weights hv X what⟩

/-- With the absolute tolerances at zero the options are the same in all units. -/
theorem C116_relative_tolerances {k : ℝ} (hk : 0 < k) (frames : Bool) (D : DistOps) (perm : ∀ J : ℕ, ℕ → ℕ → List (Fin J))
    (other : MethodOps MethodState) (ho : WeightFreeMethods k (· = .ols) other) (c : GConfig MethodState p)
    (hols : c.method = .value (some .ols)) (hmin : 1 ≤ c.minItOuter) (hO : c.absTolOuter = 0) (hI : c.absTolInner = 0)
    (data : List (Obs p)) (batches : List (List (Obs p))) :
    let M := packageMethods perm other
    let run := fun k : ℝ => (do
      GState.fit frames D M c (data.map (Obs.scaleW k))
      GState.updates D M c (batches.map fun b => b.map (Obs.scaleW k)) : Py (GState MethodState p) Unit) (GState.new _ _)
    (run k).1 = (run 1).1 ∧ ((run 1).1 = .ok () → (run k).2.coef = (run 1).2.coef ∧
      ∀ X what, predictParams D (run k).2 X what = predictParams D (run 1).2 X what) := by
  intro M run
  have e : c.inUnit k = c := by
    obtain ⟨⟩ := c
    simp only at hO hI
    subst hO hI
    simp [GConfig.inUnit]
  have e1 : ∀ l : List (Obs p), l.map (Obs.scaleW 1) = l := fun l => by
    refine (List.map_congr_left fun o _ => ?_).trans (List.map_id l)
    unfold Obs.scaleW
    rw [one_mul]
    rfl
  have h := C116_weight_units_partial hk frames D perm other ho c hols hmin data batches
  have e2 : run 1 = (do GState.fit frames D M c data; GState.updates D M c batches : Py (GState MethodState p) Unit) (GState.new _ _) := by
    change (do
      GState.fit frames D M c (data.map (Obs.scaleW 1))
      GState.updates D M c (batches.map fun b => b.map (Obs.scaleW 1)) : Py (GState MethodState p) Unit) (GState.new _ _) = _
    rw [e1, show (batches.map fun b => b.map (Obs.scaleW 1)) = batches from
      (List.map_congr_left fun b _ => e1 b).trans (List.map_id batches)]
  rw [e2]
  simp only [e] at h
  exact ⟨h.1, fun h1 => ⟨(h.2 h1).1, (h.2 h1).2.2.2.2⟩⟩

/-- The arrays of `nanMethods` depend on the number of columns only. -/
theorem nan_weightFree (k : ℝ) : WeightFreeMethods k (· = .ols) nanMethods where
  notPath := by rintro m rfl; rfl
  initX := by
    rintro m X w f rfl
    simp [nanMethods, Except.map, scaleGram, scaleCross, Flt.times]
  initY := by
    rintro m X y w f rfl
    simp [nanMethods, Except.map, scaleCross, Flt.times]
  updateX := by
    rintro m G X w f rfl
    simp [nanMethods, Except.map, scaleGram, scaleCross, Flt.times]
  updateY := by
    rintro m h X y w f rfl
    simp [nanMethods, Except.map, scaleCross, Flt.times]
  fitBeta := by
    rintro m G h reg rfl
    simp [nanMethods, scaleGram]
  fitOk := by
    rintro m G h reg r rfl e
    exact (Except.ok.inj e) ▸ rfl
  updateBeta := by
    rintro m G h b reg rfl
    simp [nanMethods, scaleGram]
  updateOk := by
    rintro m G h b reg r rfl e
    exact (Except.ok.inj e) ▸ rfl

/-- Least squares with default tolerances for the exponential distribution, where the unit plays a role. -/
example (tiny ulp : ℝ) (ht : tiny ≤ 1) (so : ScipyOracles) (el : Elsewhere) (perm : ∀ J : ℕ, ℕ → ℕ → List (Fin J)) :
    let run := (do
      GState.fit false (expOps tiny ulp so el) (packageMethods perm nanMethods) (earlyConfig.inUnit (1 / 10000))
        ((earlyData 1).map (Obs.scaleW (1 / 10000)))
      GState.updates (expOps tiny ulp so el) (packageMethods perm nanMethods) (earlyConfig.inUnit (1 / 10000)) [] :
        Py (GState MethodState 1) Unit) (GState.new _ _)
    run.1 = .ok () ∧ run.2.coef 0 = some [.fin earlyThree] := by
  obtain ⟨t, h1, h2⟩ := early_unit (ulp := ulp) (so := so) (el := el) (perm := perm) ht
  have h := C116_weight_units_partial (k := 1 / 10000) (by norm_num) false (expOps tiny ulp so el) perm nanMethods (nan_weightFree _)
    earlyConfig rfl (by simp [earlyConfig, nanConfig]) (earlyData 1) []
  have e : (do
      GState.fit false (expOps tiny ulp so el) (packageMethods perm nanMethods) earlyConfig (earlyData 1)
      GState.updates (expOps tiny ulp so el) (packageMethods perm nanMethods) earlyConfig [] :
        Py (GState MethodState 1) Unit) (GState.new _ _) = (.ok (), t) := by
    refine Py.bind_ok_iff.2 ⟨(), t, h1, rfl⟩
  simp only [e] at h
  exact ⟨h.1, (congrFun (h.2 trivial).1 0).trans h2⟩

/-- With the default tolerances the unit matters.  Least squares for the exponential distribution with sample weights of one makes a
third pass; with weights of `1/10000` the deviance changes by less than the absolute tolerance and the same fit ends with the second
one, at other coefficients and other predictions. -/
theorem C116_tolerance_fails (tiny ulp : ℝ) (ht : tiny ≤ 1) (so : ScipyOracles) (el : Elsewhere) (perm : ∀ J : ℕ, ℕ → ℕ → List (Fin J)) :
    ∃ t t' : GState MethodState 1, earlyConfig.absTolInner = 1 / 1000 ∧ earlyConfig.relTolInner = 1 / 100000 ∧
      GState.fit false (expOps tiny ulp so el) (packageMethods perm nanMethods) earlyConfig (earlyData 1) (GState.new _ _) = (.ok (), t) ∧
      GState.fit false (expOps tiny ulp so el) (packageMethods perm nanMethods) earlyConfig ((earlyData 1).map (Obs.scaleW (1 / 10000)))
        (GState.new _ _) = (.ok (), t') ∧ t'.coef 0 ≠ t.coef 0 := by
  obtain ⟨t, h1, h2⟩ := early_unit (ulp := ulp) (so := so) (el := el) (perm := perm) ht
  obtain ⟨t', h3, h4⟩ := early_small (ulp := ulp) (so := so) (el := el) (perm := perm) ht (w := 1 / 10000) (by norm_num) (by norm_num)
  refine ⟨t, t', rfl, rfl, h1, ?_, ?_⟩
  · have : (earlyData 1).map (Obs.scaleW (1 / 10000)) = earlyData (1 / 10000) := by simp [earlyData, Obs.scaleW]
    rw [this]
    exact h3
  · rw [h2, h4]
    intro h
    have e : earlyTwo = earlyThree := by simpa using h
    have := early_gap.2
    unfold earlyThree earlyNext at e
    linarith

end Ondil
