import Verif.Props.GamlssRidge
import Verif.Lemmas.RowOrderInstances
import Verif.Spec.RowOrder

/-!
# C76 for the distributions of the package with the methods of the package
-/

namespace Ondil

variable {p : ℕ} {perm : ∀ J : ℕ, ℕ → ℕ → List (Fin J)} {other : MethodOps MethodState}

/-- The distributions of the package give no positive second derivatives. -/
theorem ops_noPositiveCurvature {tiny ulp : ℝ} (ht : 0 < tiny) (hu : 0 < ulp) {o : ScipyOracles} {e : Elsewhere} (he : e.Concave) {d : Dist}
    {links : List LinkClass} : NoPositiveCurvature (d.ops tiny ulp o e links) := by
  intro y fv k r h v hv
  have h1 := ops_dl2_nonpos ht hu he h v hv
  refine ⟨fun e => h1 (by rw [e]; trivial), fun t e => ?_⟩
  rw [e] at h1
  exact not_lt.1 h1

/-- **C76, distributions of the package with `Ridge`.**  Every distribution of the package, every link for every parameter, every
penalty: with options in their documented domains and responses in the support, fit and any number of updates return, on all
design matrices.  The second derivatives for parameters that are not finite or outside their support, which are not modelled,
must not be positive. -/
theorem C76_package_ridge {frames : Bool} (tiny ulp : ℝ) (ht : 0 < tiny) (hu : 0 < ulp) (o : ScipyOracles) (e : Elsewhere)
    (he : e.Concave) (d : Dist) (links : List LinkClass) (hl : d.nParams ≤ links.length) {c : GConfig MethodState p}
    (hcond : c.condStartVal = false) {a : RidgeObj} {lam : ℝ} (hlam : 0 < lam) (ha : a.lambdaReg = some lam)
    {fi : Bool} {J : ℕ → ℕ} (ho : TotalElsewhere other) (hlo : ∀ k, BoundsFit (J k) a.lower)
    (hup : ∀ k, BoundsFit (J k) a.upper) (h : GoodOptions frames (d.ops tiny ulp o e links) c (.ridge a) fi J) (hp : p ≠ 0)
    {data : List (Obs p)} (h2 : 2 ≤ data.length) (hw : ∀ o ∈ data, 0 < o.w)
    (hy : ¬ OutOfSupport (d.ops tiny ulp o e links) (ys data)) (bs : List (List (Obs p)))
    (hbs : ∀ b ∈ bs, b ≠ [] ∧ ¬ OutOfSupport (d.ops tiny ulp o e links) (ys b) ∧ NonnegWeights b ∧
      (c.cautiousUpdates = true → b.length = 1 ∧ 4 ≤ c.maxOuter)) (s : GState MethodState p) :
    ∃ t, GState.fit frames (d.ops tiny ulp o e links) (packageMethods perm other) c data s = (.ok (), t) ∧
      ∃ u, GState.updates (d.ops tiny ulp o e links) (packageMethods perm other) c bs t = (.ok (), u) ∧ u.isFitted = true ∧
        ∀ X : List (Row p), X ≠ [] → ∃ th, predictParams (d.ops tiny ulp o e links) u X .response = .ok th ∧ th.length = X.length :=
  C76_ridge (regular_ops tiny ulp o e d links hl) (by simp [hcond]) hlam ha ho hlo hup h hp h2 hw hy bs
    (fun b hb => ⟨⟨(hbs b hb).1, (hbs b hb).2.1, fun hc => ⟨((hbs b hb).2.2.2 hc).1, ((hbs b hb).2.2.2 hc).2, fun q fv => by
      simp [Dist.ops]⟩⟩, (hbs b hb).2.2.1⟩) (fun _ => ops_noPositiveCurvature ht hu he) s

/-- **C76, distributions of the package with `OrdinaryLeastSquares`.**  The same if the columns of the first design of every
parameter are independent, whatever the weights and columns of the later batches are. -/
theorem C76_package_ols {frames : Bool} (tiny ulp : ℝ) (o : ScipyOracles) (e : Elsewhere) (d : Dist) (links : List LinkClass)
    (hl : d.nParams ≤ links.length) {c : GConfig MethodState p} (hcond : c.condStartVal = false) {fi : Bool} {J : ℕ → ℕ}
    (ho : OlsElsewhere other) (h : GoodOptions frames (d.ops tiny ulp o e links) c .ols fi J) (hp : p ≠ 0)
    {data : List (Obs p)} (h2 : 2 ≤ data.length) (hw : ∀ o ∈ data, 0 < o.w)
    (hX : ∀ k < d.nParams, ∀ X : List (Row (J k)), FirstDesign c data k (X.map ofVec) → ColumnsIndependent X)
    (hy : ¬ OutOfSupport (d.ops tiny ulp o e links) (ys data)) (bs : List (List (Obs p)))
    (hbs : ∀ b ∈ bs, b ≠ [] ∧ ¬ OutOfSupport (d.ops tiny ulp o e links) (ys b) ∧
      (c.cautiousUpdates = true → b.length = 1 ∧ 4 ≤ c.maxOuter)) (s : GState MethodState p) :
    ∃ t, GState.fit frames (d.ops tiny ulp o e links) (packageMethods perm other) c data s = (.ok (), t) ∧
      ∃ u, GState.updates (d.ops tiny ulp o e links) (packageMethods perm other) c bs t = (.ok (), u) ∧ u.isFitted = true ∧
        ∀ X : List (Row p), X ≠ [] → ∃ th, predictParams (d.ops tiny ulp o e links) u X .response = .ok th ∧ th.length = X.length :=
  C76_ols (regular_ops tiny ulp o e d links hl) (by simp [hcond]) ho h hp h2 hw hX hy bs
    (fun b hb => ⟨(hbs b hb).1, (hbs b hb).2.1, fun hc => ⟨((hbs b hb).2.2 hc).1, ((hbs b hb).2.2 hc).2, fun q fv => by
      simp [Dist.ops]⟩⟩) s

/-- The options of the example, with an intercept and a slope for the mean and, by the default equation, an intercept for the scale. -/
theorem slope_normal_options (tiny ulp : ℝ) (o : ScipyOracles) (e : Elsewhere) (links : List LinkClass) (m : MethodState) :
    GoodOptions false (Dist.normal.ops tiny ulp o e links) (slopeConfig m) m true fun k => if k = 0 then 2 else 1 where
  valid := by norm_num [GConfig.Valid, slopeConfig, nanConfig, OptArg.OnlyValue]; decide
  method := rfl
  intercept := rfl
  columns := fun k hk => by
    have : k = 0 ∨ k = 1 := by
      have : k < 2 := hk
      omega
    rcases this with rfl | rfl
    · have e : (slopeConfig m).equationFor 0 = .str "all" := rfl
      rw [e]
      exact ⟨rfl, by simp, fun h => by simp at h, [0], .all, rfl⟩
    · have e : (slopeConfig m).equationFor 1 = .str "intercept" := rfl
      rw [e]
      exact ⟨rfl, by simp, fun _ => rfl, [], .intercept, rfl⟩
  order := fun o h => by cases h
  minIt := by simp [slopeConfig, nanConfig]
  prefit := by simp [slopeConfig, nanConfig]

theorem normal_support (tiny ulp : ℝ) (o : ScipyOracles) (e : Elsewhere) (links : List LinkClass) (y : List ℝ) :
    ¬ OutOfSupport (Dist.normal.ops tiny ulp o e links) y := by
  rintro (⟨v, _, h⟩ | ⟨v, _, h⟩)
  · exact not_lt_bot h
  · exact not_top_lt h

/-- Ridge regression for mean and scale of the normal distribution with two links: equations of different sizes. -/
example (tiny ulp : ℝ) (ht : 0 < tiny) (hu : 0 < ulp) (o : ScipyOracles) (e : Elsewhere) (he : e.Concave) (s : GState MethodState 1) :
    ∃ t, GState.fit false (Dist.normal.ops tiny ulp o e [.identity, .log]) (packageMethods perm nanMethods)
        (slopeConfig (.ridge ridgeTwo)) ridgeData s = (.ok (), t) ∧
      ∃ u, GState.updates (Dist.normal.ops tiny ulp o e [.identity, .log]) (packageMethods perm nanMethods)
        (slopeConfig (.ridge ridgeTwo)) [ridgeBatch, ridgeData] t = (.ok (), u) ∧ u.isFitted = true ∧
        ∀ X : List (Row 1), X ≠ [] → ∃ th,
          predictParams (Dist.normal.ops tiny ulp o e [.identity, .log]) u X .response = .ok th ∧ th.length = X.length := by
  refine C76_package_ridge (lam := 2) tiny ulp ht hu o e he .normal _ le_rfl rfl (by norm_num) rfl nan_total
    (fun _ l h => by cases h) (fun _ l h => by cases h) (slope_normal_options tiny ulp o e _ _) one_ne_zero (by decide) ?_
    (normal_support _ _ _ _ _ _) _ ?_ s
  · simp [ridgeData]
  · intro b hb
    simp only [List.mem_cons, List.not_mem_nil, or_false] at hb
    rcases hb with rfl | rfl
    · exact ⟨by simp [ridgeBatch], normal_support _ _ _ _ _ _, by intro o ho; simp [ridgeBatch] at ho; simp [ho], fun h => by cases h⟩
    · refine ⟨by simp [ridgeData], normal_support _ _ _ _ _ _, ?_, fun h => by cases h⟩
      intro o ho
      simp only [ridgeData, List.mem_cons, List.not_mem_nil, or_false] at ho
      rcases ho with rfl | rfl <;> norm_num

/-- Least squares for the same data. -/
example (tiny ulp : ℝ) (o : ScipyOracles) (e : Elsewhere) (s : GState MethodState 1) :
    ∃ t, GState.fit false (Dist.normal.ops tiny ulp o e [.identity, .log]) (packageMethods perm nanMethods)
        (slopeConfig .ols) ridgeData s = (.ok (), t) ∧
      ∃ u, GState.updates (Dist.normal.ops tiny ulp o e [.identity, .log]) (packageMethods perm nanMethods)
        (slopeConfig .ols) [ridgeBatch] t = (.ok (), u) ∧ u.isFitted = true ∧
        ∀ X : List (Row 1), X ≠ [] → ∃ th,
          predictParams (Dist.normal.ops tiny ulp o e [.identity, .log]) u X .response = .ok th ∧ th.length = X.length := by
  refine C76_package_ols tiny ulp o e .normal _ le_rfl rfl nan_ols (slope_normal_options tiny ulp o e _ _) one_ne_zero (by decide) ?_ ?_
    (normal_support _ _ _ _ _ _) _ ?_ s
  · simp [ridgeData]
  · intro k hk X hX
    have hk2 : k = 0 ∨ k = 1 := by
      have : k < 2 := hk
      omega
    obtain ⟨f, fi, sc, h1, h2, h3, h4⟩ := hX
    cases h2
    have h' : Scaler.fit (slopeConfig .ols).scaleInputs f (xs ridgeData) (ws ridgeData) = .ok (.off (ws ridgeData).sum) := by
      simp [Scaler.fit, ToScale.selection, slopeConfig, nanConfig, ridgeData, xs]
    cases h'.symm.trans h3
    rcases hk2 with rfl | rfl
    · change List (Row 2) at X
      have h5 := Except.ok.inj ((slope_array _ _).symm.trans h4)
      have h6 : X = [![1, 0], ![1, 1]] := by
        have e : ([![1, 0], ![1, 1]] : List (Row 2)).map ofVec = X.map ofVec := by
          refine Eq.trans ?_ h5
          simp [xs, ridgeData, ofVec, List.finRange_succ]
        have := congrArg (fun A => A.mapM (vec? 2)) e
        simp only [mapM_vec, Option.some.injEq] at this
        exact this.symm
      subst h6
      intro v hv
      have h1 := hv ![1, 0] (by simp)
      have h2 := hv ![1, 1] (by simp)
      change Row 2 at v
      simp [linPred, Fin.sum_univ_two] at h1 h2
      funext i
      fin_cases i
      · simpa using h1
      · have : v 1 = 0 := by linarith
        simpa using this
    · change List (Row 1) at X
      have h5 : ([[.fin 1], [.fin 1]] : Arr2) = X.map ofVec := by
        have : modelArray (.fin 1) true ((slopeConfig .ols).equationFor 1) ((Scaler.off (ws ridgeData).sum).transformFlt (xs ridgeData)) =
            .ok [[.fin 1], [.fin 1]] := rfl
        exact Except.ok.inj (this.symm.trans h4)
      have h6 : X = [![1], ![1]] := by
        have e : ([![1], ![1]] : List (Row 1)).map ofVec = X.map ofVec := by
          rw [← h5]
          simp [ofVec, List.finRange_succ]
        have := congrArg (fun A => A.mapM (vec? 1)) e
        simp only [mapM_vec, Option.some.injEq] at this
        exact this.symm
      subst h6
      intro v hv
      have h1 := hv ![1] (by simp)
      change Row 1 at v
      simp [linPred] at h1
      funext i
      fin_cases i
      simpa using h1
  · intro b hb
    obtain rfl := List.mem_singleton.1 hb
    exact ⟨by simp [ridgeBatch], normal_support _ _ _ _ _ _, fun h => by cases h⟩

end Ondil
