import Verif.Props.Refit

/-!
# The units of standardised features do not matter (C92)
-/

namespace Ondil

variable {μ : Type} {p : ℕ} {fi : Bool}

theorem forgetOk_of_valid {D : DistOps} {c : GConfig μ p} (h : c.Valid) : ForgetOk (fun f => f < 1) D c := by
  intro d hd f hf
  have h1 := h.1
  cases hc : c.forget with
  | dict d' => rw [hc] at h1; exact absurd h1 (by simp [OptArg.OnlyValue])
  | value v =>
    rw [hc] at h1 hd
    have hd' : PyDict.ofRange D.nParams (fun _ => v) = d := by
      have e : ((OptArg.value v).process D.nParams (.value 0)).result = .ok (PyDict.ofRange D.nParams fun _ => v) := rfl
      rw [e] at hd
      cases hd
      rfl
    rw [← hd', PyDict.get?_ofRange] at hf
    split_ifs at hf
    cases hf
    exact h1.2

/-- Standardised columns have no unit: when all rows of the fit, of the updates and of the predictions are measured in other
units, a distributional regression raises alike or ends with the same coefficients, fitted values, deviance, numbers of
iterations and predictions. -/
theorem C92_distributional (frames : Bool) (D : DistOps) (M : MethodOps μ) (c : GConfig μ p) {a b : Fin p → ℝ}
    (hu : UnitChange c.scaleInputs a b) (data : List (Obs p)) (hw : NonnegWeights data) (batches : List (List (Obs p)))
    (hb : ∀ d ∈ batches, NonnegWeights d) (s s' : GState μ p) :
    let run := fun (d : List (Obs p)) (bs : List (List (Obs p))) => (do
      GState.fit frames D M c d
      GState.updates D M c bs : Py (GState μ p) Unit)
    let r := run data batches s
    let r' := run (data.map (Obs.inUnits a b)) (batches.map fun d => d.map (Obs.inUnits a b)) s'
    r'.1 = r.1 ∧ (r.1 = .ok () → r'.2.coef = r.2.coef ∧ r'.2.fv = r.2.fv ∧ r'.2.globalDev = r.2.globalDev ∧
      r'.2.itOuter = r.2.itOuter ∧ r'.2.itInner = r.2.itInner ∧ r'.2.coefPath = r.2.coefPath ∧ r'.2.bestIc = r.2.bestIc ∧
      ∀ X what, predictParams D r'.2 (X.map (Row.inUnits a b)) what = predictParams D r.2 X what) := by
  intro run r r'
  have e : ∀ data : List (Obs p), xs (data.map (Obs.inUnits a b)) = (xs data).map (Row.inUnits a b) := by
    simp [xs, Obs.inUnits]
  obtain ⟨h1, h2⟩ := run_twin frames D M c (twins_units (b := b) hu.pos data hw)
    (batches' := batches.map fun d => d.map (Obs.inUnits a b))
    (List.forall₂_map_right_iff.2 (List.forall₂_same.2 fun d hd => twins_units hu.pos d (hb d hd)))
    forgetOk_of_valid (fun _ _ _ _ _ => trivial) (fun f hf => by rw [e]; exact scaler_fit_units hu hf data hw) s s'
  refine ⟨h1.symm, fun hok => ?_⟩
  have h3 := h2 hok
  have hpred : ∀ X what, predictParams D r'.2 (X.map (Row.inUnits a b)) what = predictParams D r.2 X what :=
    fun X what => predict_twin h3 (sameDesign_units hu.pos X) what
  obtain ⟨o, ho, hd, hi, _⟩ := h3
  have ho' : r'.2 = r.2.hide o := ho
  refine ⟨?_, ?_, ?_, ?_, ?_, ?_, ?_, hpred⟩ <;> rw [ho']
  · rfl
  · rfl
  · exact hd
  · exact hi
  · rfl
  · rfl
  · rfl

/-- The same for the linear model with every estimation method. -/
theorem C92_linear (c : LMConfig p fi) (perm : ℕ → ℕ → List (Fin (designDim p fi)))
    (rng : ℕ → ℕ → ℕ → List (Fin (designDim p fi))) {a b : Fin p → ℝ} (hu : UnitChange c.scaleInputs a b)
    (data : List (Obs p)) (hw : NonnegWeights data) (batches : List (List (Obs p))) (hb : ∀ d ∈ batches, NonnegWeights d)
    (s s' : LM p fi) :
    let run := fun (d : List (Obs p)) (bs : List (List (Obs p))) => (do
      LM.fit c perm d
      LM.updates c rng 0 bs : Py (LM p fi) Unit)
    let r := run data batches s
    let r' := run (data.map (Obs.inUnits a b)) (batches.map fun d => d.map (Obs.inUnits a b)) s'
    r'.1 = r.1 ∧ (r.1 = .ok () → r'.2.coef = r.2.coef ∧
      (∀ X, r'.2.predict (X.map (Row.inUnits a b)) = r.2.predict X) ∧
      ∀ X y, r'.2.score (X.map (Row.inUnits a b)) y = r.2.score X y) := by
  intro run r r'
  have e : ∀ data : List (Obs p), xs (data.map (Obs.inUnits a b)) = (xs data).map (Row.inUnits a b) := by
    simp [xs, Obs.inUnits]
  obtain ⟨h1, h2⟩ := LM.run_twin c perm rng (twins_units (b := b) hu.pos data hw)
    (batches' := batches.map fun d => d.map (Obs.inUnits a b))
    (List.forall₂_map_right_iff.2 (List.forall₂_same.2 fun d hd => twins_units hu.pos d (hb d hd)))
    (fun hv => hv.2.1) (fun f hf => by rw [e]; exact scaler_fit_units hu hf data hw) s s'
  refine ⟨h1.symm, fun hok => ?_⟩
  have h3 := h2 hok
  exact ⟨h3.coef, fun X => h3.predict (sameDesign_units hu.pos X), fun X y => h3.score (sameDesign_units hu.pos X) y⟩

/-- Four points on a line with the feature in degrees Celsius and in degrees Fahrenheit. -/
example (perm : ℕ → ℕ → List (Fin (designDim 1 true))) (rng : ℕ → ℕ → ℕ → List (Fin (designDim 1 true))) :
    UnitChange (olsConfig .all).scaleInputs (fun _ => 9 / 5) (fun _ => 32) ∧
    ∃ s s' : LM 1 true, LM.fit (olsConfig .all) perm lineInit (LM.new 1 true) = (.ok (), s) ∧
      LM.fit (olsConfig .all) perm (lineInit.map (Obs.inUnits (fun _ => 9 / 5) fun _ => 32)) (LM.new 1 true) = (.ok (), s') ∧
      s'.coef = s.coef ∧ ∀ X, s'.predict (X.map (Row.inUnits (fun _ => 9 / 5) fun _ => 32)) = s.predict X := by
  have hu : UnitChange (olsConfig .all).scaleInputs (fun _ => 9 / 5) (fun _ => 32) :=
    ⟨fun _ => by norm_num, fun _ h => absurd trivial h⟩
  obtain ⟨s, hs⟩ := lineInit_fit perm .all (.inl rfl) (LM.new 1 true)
  obtain ⟨h1, h2⟩ := C92_linear (olsConfig .all) perm rng hu lineInit lineInit_nonneg [] (by simp) (LM.new 1 true) (LM.new 1 true)
  simp only [List.map_nil] at h1 h2
  generalize hr' : LM.fit (olsConfig .all) perm (lineInit.map (Obs.inUnits (fun _ => 9 / 5) fun _ => 32)) (LM.new 1 true) = r'
    at h1 h2
  have e : ∀ m : Py (LM 1 true) Unit, (do m; LM.updates (olsConfig .all) rng 0 [] : Py (LM 1 true) Unit) = m := by
    intro m
    funext t
    unfold LM.updates
    rcases hm : m t with ⟨_ | _, t'⟩
    · rw [Py.bind_of_error hm]
    · rw [Py.bind_of_ok hm]; rfl
  rw [e, e, hs, hr'] at h1
  rw [e, e, hs, hr'] at h2
  obtain ⟨h3, h4, _⟩ := h2 rfl
  exact ⟨hu, s, r'.2, hs, Prod.ext h1 rfl, h3, h4⟩

end Ondil
