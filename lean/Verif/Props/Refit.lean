import Verif.Lemmas.Units
import Verif.Props.GamlssExamples
import Verif.Props.LinearModel

/-!
# A fit forgets everything before it (C91)
-/

namespace Ondil

variable {μ : Type} {p : ℕ} {fi : Bool}

theorem sameModel_of_twin {F : ℝ → Prop} {A : Equation → Prop} {s t : GState μ p} (h : TwinState F A Eq s t) : SameModel s t := by
  obtain ⟨o, rfl, h1, h2, ⟨sc, sc', h3, h4, rfl⟩, _⟩ := h
  constructor
  case scaler => exact h4.trans h3.symm
  case globalDev => exact h1
  case itOuter => exact h2
  all_goals rfl

theorem run_twin {F : ℝ → Prop} {A : Equation → Prop} {Q : Scaler p → Scaler p → Prop} (frames : Bool) (D : DistOps) (M : MethodOps μ) (c : GConfig μ p)
    {data data' : List (Obs p)} {batches batches' : List (List (Obs p))} (h : Twins F A Q data data')
    (hb : List.Forall₂ (Twins F A Q) batches batches') (hF : c.Valid → ForgetOk F D c)
    (hA : EquationsOk A frames D c)
    (hfit : ∀ f, F f → BothOr Q (Scaler.fit c.scaleInputs f (xs data) (ws data)) (Scaler.fit c.scaleInputs f (xs data') (ws data)))
    (s s' : GState μ p) :
    let run := fun (d : List (Obs p)) (bs : List (List (Obs p))) => (do
      GState.fit frames D M c d
      GState.updates D M c bs : Py (GState μ p) Unit)
    (run data batches s).1 = (run data' batches' s').1 ∧
      ((run data batches s).1 = .ok () → TwinState F A Q (run data batches s).2 (run data' batches' s').2) := by
  intro run
  by_cases hv : c.Valid
  · have := Py.RelTo.bind (fit_twin frames D M c h (hF hv) hA hfit) (fun _ => updates_twin D M c hb) s s' trivial
    exact ⟨this.1, this.2 ()⟩
  · have key : ∀ (d : List (Obs p)) (bs : List (List (Obs p))) (s : GState μ p), (run d bs s).1 = .error .valueError := by
      intro d bs s
      have : GState.fit frames D M c d s = (.error .valueError, s) := by
        unfold GState.fit
        rw [Py.bind_raiseIf_pos hv]
      simp only [run]
      rw [Py.bind_of_error this]
    rw [key, key]
    exact ⟨rfl, fun h => by cases h⟩

/-- A fit followed by updates gives the same result from every state of the object, whatever data it has seen and whatever
options it had before: the same exception, or the same model with the same predictions.  In particular it is the result of a
new object. -/
theorem C91_distributional (frames : Bool) (D : DistOps) (M : MethodOps μ) (c : GConfig μ p) (data : List (Obs p))
    (batches : List (List (Obs p))) (s s' : GState μ p) :
    let run := (do
      GState.fit frames D M c data
      GState.updates D M c batches : Py (GState μ p) Unit)
    (run s).1 = (run s').1 ∧ ((run s).1 = .ok () → SameModel (run s).2 (run s').2 ∧
      ∀ X what, predictParams D (run s').2 X what = predictParams D (run s).2 X what) := by
  intro run
  obtain ⟨h1, h2⟩ := run_twin frames D M c (F := fun _ => True) (A := fun _ => True) (Q := Eq) (twins_refl data) (batches' := batches)
    (List.forall₂_same.2 fun b _ => twins_refl b) (fun _ _ _ _ _ => trivial) (fun _ _ _ _ _ => trivial) (fun _ _ => bothOr_refl _) s s'
  refine ⟨h1, fun hok => ?_⟩
  have h3 := sameModel_of_twin (h2 hok)
  exact ⟨h3, fun X what => h3.predict D X what⟩

theorem LM.run_twin {F : ℝ → Prop} {Q : Scaler p → Scaler p → Prop} (c : LMConfig p fi)
    (perm : ℕ → ℕ → List (Fin (designDim p fi))) (rng : ℕ → ℕ → ℕ → List (Fin (designDim p fi)))
    {data data' : List (Obs p)} {batches batches' : List (List (Obs p))} (h : Twins F (fun _ => True) Q data data')
    (hb : List.Forall₂ (Twins F (fun _ => True) Q) batches batches') (hF : c.Valid → F c.forget)
    (hfit : ∀ f, F f → BothOr Q (Scaler.fit c.scaleInputs f (xs data) (ws data)) (Scaler.fit c.scaleInputs f (xs data') (ws data)))
    (s s' : LM p fi) :
    let run := fun (d : List (Obs p)) (bs : List (List (Obs p))) => (do
      LM.fit c perm d
      LM.updates c rng 0 bs : Py (LM p fi) Unit)
    (run data batches s).1 = (run data' batches' s').1 ∧
      ((run data batches s).1 = .ok () → TwinLM Q (run data batches s).2 (run data' batches' s').2) := by
  intro run
  by_cases hv : c.Valid
  · have := Py.RelTo.bind (LM.fit_twin c perm h (hF hv) hfit) (fun _ => LM.updates_twin c rng hb (hF hv) 0) s s' trivial
    exact ⟨this.1, this.2 ()⟩
  · have key : ∀ (d : List (Obs p)) (bs : List (List (Obs p))) (s : LM p fi), (run d bs s).1 = .error .valueError := by
      intro d bs s
      have : LM.fit c perm d s = (.error .valueError, s) := by
        unfold LM.fit
        rw [Py.bind_raiseIf_pos hv]
      simp only [run]
      rw [Py.bind_of_error this]
    rw [key, key]
    exact ⟨rfl, fun h => by cases h⟩

/-- The same for the linear model: a fit followed by updates raises alike from every state, or ends with the same
coefficients, counters, predictions and score; for the path methods with the same `predict_path`. -/
theorem C91_linear_partial (c : LMConfig p fi) (perm : ℕ → ℕ → List (Fin (designDim p fi)))
    (rng : ℕ → ℕ → ℕ → List (Fin (designDim p fi))) (data : List (Obs p)) (batches : List (List (Obs p))) (s s' : LM p fi) :
    let run := (do
      LM.fit c perm data
      LM.updates c rng 0 batches : Py (LM p fi) Unit)
    (run s).1 = (run s').1 ∧ ((run s).1 = .ok () →
      (run s').2.coef = (run s).2.coef ∧ (run s').2.nObs = (run s).2.nObs ∧ (run s').2.nTraining = (run s).2.nTraining ∧
      (∀ X, (run s').2.predict X = (run s).2.predict X) ∧ (∀ X y, (run s').2.score X y = (run s).2.score X y) ∧
      ((∃ a, (run s).2.method = some (.path a)) → ∀ X, (run s').2.predictPath X = (run s).2.predictPath X)) := by
  intro run
  obtain ⟨h1, h2⟩ := LM.run_twin c perm rng (F := fun _ => True) (Q := Eq) (twins_refl data) (batches' := batches)
    (List.forall₂_same.2 fun b _ => twins_refl b) (fun _ => trivial) (fun _ _ => bothOr_refl _) s s'
  refine ⟨h1, fun hok => ?_⟩
  have h3 := h2 hok
  exact ⟨h3.coef, h3.nObs, h3.nTraining, fun X => h3.predict (sameDesign_refl X), fun X y => h3.score (sameDesign_refl X) y,
    fun ⟨a, ha⟩ X => h3.predictPath ha (sameDesign_refl X)⟩

theorem LM.fit_keeps_path {c : LMConfig p fi} {perm : ℕ → ℕ → List (Fin (designDim p fi))} {data : List (Obs p)} {s s' : LM p fi}
    (hm : ∀ a, getEstimationMethod c.method ≠ .ok (.path a)) (h : LM.fit c perm data s = (.ok (), s')) :
    s'.coefPath = s.coefPath := by
  unfold LM.fit at h
  simp only [Py.bind_ok_iff, Py.raiseIf_ok_iff, Py.call_ok_iff, Py.set_ok_iff] at h
  obtain ⟨_, _, ⟨h1, rfl⟩, m, _, ⟨he, rfl⟩, _, _, rfl, _, _, ⟨h2, rfl⟩, _, _, ⟨h3, rfl⟩, _, _, rfl, _, _,
    ⟨h4, rfl⟩, _, _, ⟨h5, rfl⟩, _, _, rfl, sc, _, ⟨hsc, rfl⟩, _, _, rfl, G, _, ⟨hG, rfl⟩, _, _, rfl, _, _,
    rfl, h⟩ := h
  cases m with
  | ols =>
    simp only [Py.set_ok_iff] at h
    subst h
    rfl
  | path a => exact absurd he (hm a)
  | ridge a =>
    simp only [Py.bind_ok_iff, Py.call_ok_iff, Py.set_ok_iff] at h
    obtain ⟨r, _, ⟨hr, rfl⟩, rfl⟩ := h
    rfl

/-- **C91 fails** for `predict_path`: after a refit with a method that has no path, a model that was fitted with a path method
before multiplies the new design with the old coefficient path; a new object raises `AttributeError`. -/
theorem C91_predict_path_fails {c : LMConfig p fi} {perm : ℕ → ℕ → List (Fin (designDim p fi))} {data : List (Obs p)}
    {s s' t t' : LM p fi} (hm : ∀ a, getEstimationMethod c.method ≠ .ok (.path a)) (h : LM.fit c perm data s = (.ok (), s'))
    (ht : LM.fit c perm data t = (.ok (), t')) {path : List (Row (designDim p fi))} (hs : s.coefPath = some path)
    (hnew : t.coefPath = none) :
    ∃ sc, Scaler.fit c.scaleInputs c.forget (xs data) (ws data) = .ok sc ∧ ∀ X,
      s'.predictPath X = .ok ((scaledDesign fi sc X).map fun x => path.map fun b => rowDot x b) ∧
      t'.predictPath X = .error .attributeError := by
  obtain ⟨_, _, _, _, _, m, sc, G, _, hsc, _, h1, _⟩ := LM.fit_ok h
  obtain ⟨_, _, _, _, _, m', sc', G', _, hsc', _, h1', _⟩ := LM.fit_ok ht
  rw [hsc] at hsc'
  cases hsc'
  have e1 := (LM.fit_keeps_path hm h).trans hs
  have e2 := (LM.fit_keeps_path hm ht).trans hnew
  refine ⟨sc, hsc, fun X => ⟨?_, ?_⟩⟩
  · unfold LM.predictPath
    rw [h1, e1]
  · unfold LM.predictPath
    rw [h1', e2]

theorem ols_ones_fit (s : LM 1 false) : ∃ s', LM.fit (onesConfig (.str "ols")) (fun _ _ => []) onesData s = (.ok (), s') := by
  have hn : NonnegWeights onesData := by
    intro o ho
    simp only [onesData, List.mem_cons, List.not_mem_nil, or_false] at ho
    rcases ho with rfl | rfl <;> norm_num
  have hX : scaledDesign false (canonSc (ToScale.off : ToScale 1) 0 onesData) (xs onesData) = xs onesData :=
    (List.map_id (xs onesData) : _)
  refine LM.fit_ols_succeeds _ _ _ s ⟨le_refl _, by norm_num [onesConfig], by simp [onesConfig], by simp [onesConfig]⟩
    (by simp [onesConfig]) (by simp [onesData]) ?_ (by simp [ws, onesData]) getEstimationMethod_ols _
    (scaler_fit_canon (ToScale.off : ToScale 1) 0 onesData (by simp [onesData]) (.inl rfl))
    ((initGram (xs onesData) (ws onesData) 0)⁻¹) ?_
  · rintro ⟨h, _⟩
    have : ((designDim 1 false : ℕ) : ℝ) = 1 := by norm_num [designDim]
    rw [this] at h
    norm_num [ws, onesData] at h
  · rw [hX]
    refine initInvertedGram_of_isUnit ?_
    have hG : initGram (xs onesData) (ws onesData) 0 0 0 = 2 := by
      rw [initGram_apply (by norm_num) onesData hn]
      simp [onesData, discSum_cons]
      norm_num
    have hd : IsUnit (initGram (xs onesData) (ws onesData) 0).det := by
      rw [Matrix.det_fin_one, hG]
      norm_num
    exact hd

/-- The case of a lasso that is refitted by least squares. -/
example : ∃ (s1 s2 t : LM 1 false) (path : List (Row (designDim 1 false))),
    LM.fit (onesConfig (.str "lasso")) (fun _ _ => []) onesData (LM.new 1 false) = (.ok (), s1) ∧
    LM.fit (onesConfig (.str "ols")) (fun _ _ => []) onesData s1 = (.ok (), s2) ∧
    LM.fit (onesConfig (.str "ols")) (fun _ _ => []) onesData (LM.new 1 false) = (.ok (), t) ∧
    path.length = 100 ∧ (∃ sc, s2.predictPath (xs onesData) =
      .ok ((scaledDesign false sc (xs onesData)).map fun x => path.map fun b => rowDot x b)) ∧
    t.predictPath (xs onesData) = .error .attributeError := by
  obtain ⟨s1, path, h1, hp, hl⟩ := lasso_ones_fit (LM.new 1 false)
  obtain ⟨s2, h2⟩ := ols_ones_fit s1
  obtain ⟨t, ht⟩ := ols_ones_fit (LM.new 1 false)
  obtain ⟨sc, _, h⟩ := C91_predict_path_fails (fun a ha => by
    rw [show (onesConfig (.str "ols")).method = .str "ols" from rfl, getEstimationMethod_ols] at ha
    cases ha) h2 ht hp rfl
  exact ⟨s1, s2, t, path, h1, h2, ht, hl, ⟨sc, (h (xs onesData)).1⟩, (h (xs onesData)).2⟩

/-- A refit of a used estimator and a first fit, both with an update afterwards. -/
example (g : ℝ → Flt) (s : GState Unit 1) :
    let run := (do
      GState.fit false (walkDist g) firstMethod (walkDebug 3) walkData
      GState.updates (walkDist g) firstMethod (walkDebug 3) [walkData] : Py (GState Unit 1) Unit)
    (run s).1 = .ok () ∧ SameModel (run (GState.new Unit 1)).2 (run s).2 := by
  intro run
  obtain ⟨t, u, ht, hu, _⟩ := walkDebug_run g 3 (by norm_num)
  have hok : (run (GState.new Unit 1)).1 = .ok () := by
    simp only [run]
    rw [Py.bind_of_ok ht]
    unfold GState.updates
    rw [Py.bind_of_ok hu]
    rfl
  obtain ⟨h1, h2⟩ := C91_distributional false (walkDist g) firstMethod (walkDebug 3) walkData [walkData] (GState.new Unit 1) s
  exact ⟨h1.symm.trans hok, (h2 hok).1⟩

end Ondil
