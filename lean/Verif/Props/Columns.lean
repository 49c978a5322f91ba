import Verif.Lemmas.Columns
import Verif.Props.Refit

/-!
# C99: columns that no equation uses have no effect
-/

namespace Ondil

variable {μ : Type} {p : ℕ}

/-- Fits, updates and predictions of a distributional regression on data that agree in the responses, the weights and the
columns some equation uses, for all distributions, methods and options: both raise the same exception, or both end with the same
coefficients, fitted values, deviance, numbers of iterations and predictions. -/
theorem C99_unused_columns (frames : Bool) (D : DistOps) (M : MethodOps μ) (c : GConfig μ p) {data data' : List (Obs p)}
    (h : SameColumns c.UsesColumn data data') {batches batches' : List (List (Obs p))}
    (hb : List.Forall₂ (SameColumns c.UsesColumn) batches batches') (s s' : GState μ p) :
    let run := fun (d : List (Obs p)) (bs : List (List (Obs p))) => (do
      GState.fit frames D M c d
      GState.updates D M c bs : Py (GState μ p) Unit)
    let r := run data batches s
    let r' := run data' batches' s'
    r'.1 = r.1 ∧ (r.1 = .ok () → r'.2.coef = r.2.coef ∧ r'.2.fv = r.2.fv ∧ r'.2.globalDev = r.2.globalDev ∧
      r'.2.itOuter = r.2.itOuter ∧ r'.2.itInner = r.2.itInner ∧ r'.2.coefPath = r.2.coefPath ∧ r'.2.bestIc = r.2.bestIc ∧
      ∀ (X X' : List (Row p)) what, List.Forall₂ (fun x x' => ∀ j, c.UsesColumn j → x' j = x j) X X' →
        predictParams D r'.2 X' what = predictParams D r.2 X what) := by
  intro run r r'
  by_cases hU : ∃ j, ¬ c.UsesColumn j
  · obtain ⟨h1, h2⟩ := run_twin frames D M c (twins_columns hU h) (hb.imp fun _ _ h => twins_columns hU h)
      (fun _ _ _ _ _ => trivial) (equationsOk_used frames D c)
      (fun f _ => scaler_fit_columns c.scaleInputs f _ h.xs) s s'
    refine ⟨h1.symm, fun hok => ?_⟩
    have h3 := h2 hok
    have hpred : ∀ (X X' : List (Row p)) what, List.Forall₂ (fun x x' => ∀ j, c.UsesColumn j → x' j = x j) X X' →
        predictParams D r'.2 X' what = predictParams D r.2 X what :=
      fun X X' what hX => predict_twin h3 (sameDesign_columns hX hU) what
    obtain ⟨o, ho, hd, hi, _⟩ := h3
    have ho' : r'.2 = r.2.hide o := ho
    refine ⟨?_, ?_, ?_, ?_, ?_, ?_, ?_, hpred⟩ <;> rw [ho']
    · rfl
    · rfl
    · exact hd
    · exact hi
    · rfl
    · rfl
    · rfl
  · push Not at hU
    have key : ∀ {d d' : List (Obs p)}, SameColumns c.UsesColumn d d' → d' = d := by
      intro d d' h
      have := forall₂_map_eq (f := id) (g := id) (fun (o o' : Obs p) (h : _ ∧ _ ∧ _) => by
        obtain ⟨h1, h2, h3⟩ := h
        cases o; cases o'
        simp only at h1 h2 h3
        subst h1 h2
        rw [show _ = _ from funext fun j => h3 j (hU j)]) h
      simpa using this
    have e1 : data' = data := key h
    have e2 : batches' = batches := by
      have := forall₂_map_eq (f := id) (g := id) (fun _ _ h => key h) hb
      simpa using this
    subst e1 e2
    obtain ⟨h1, h2⟩ := run_twin frames D M c (F := fun _ => True) (A := fun _ => True) (Q := Eq) (twins_refl data') (batches' := batches')
      (List.forall₂_same.2 fun b _ => twins_refl b) (fun _ _ _ _ _ => trivial) (fun _ _ _ _ _ => trivial) (fun _ _ => bothOr_refl _) s s'
    refine ⟨h1.symm, fun hok => ?_⟩
    have h3 := h2 hok
    have hpred : ∀ (X X' : List (Row p)) what, List.Forall₂ (fun x x' => ∀ j, c.UsesColumn j → x' j = x j) X X' →
        predictParams D r'.2 X' what = predictParams D r.2 X what := by
      intro X X' what hX
      have := forall₂_map_eq (f := id) (g := id) (fun (x x' : Row p) h => funext fun j => h j (hU j)) hX
      have e : X' = X := by simpa using this
      subst e
      exact predict_twin h3 (sameDesign_refl X') what
    obtain ⟨o, ho, hd, hi, _⟩ := h3
    have ho' : r'.2 = r.2.hide o := ho
    refine ⟨?_, ?_, ?_, ?_, ?_, ?_, ?_, hpred⟩ <;> rw [ho']
    · rfl
    · rfl
    · exact hd
    · exact hi
    · rfl
    · rfl
    · rfl

/-! ### Cases -/

/-- A mask for the location, nothing for the scale: the second column is not used, the first is. -/
example (c : GConfig μ 2) (hc : c.equation = some [(0, .mask [true, false])]) : ¬ c.UsesColumn 1 ∧ c.UsesColumn 0 := by
  unfold GConfig.UsesColumn
  rw [hc]
  constructor
  · rintro ⟨k, e, hk, he⟩
    change (if 0 = k then some _ else none) = some e at hk
    split at hk
    · cases hk
      simp [Equation.Reads] at he
    · cases hk
  · exact ⟨0, _, rfl, by simp [Equation.Reads]⟩

/-- An index array with a negative entry: the last column is used. -/
example (c : GConfig μ 3) (hc : c.equation = some [(0, .index [0, -1])]) : c.UsesColumn 2 := by
  unfold GConfig.UsesColumn
  rw [hc]
  exact ⟨0, _, rfl, .inr (by simp)⟩

/-- Equations with intercepts only: fit and update succeed, and any features give the same coefficients and predictions. -/
example (x x' : Row 1) : ∃ t t', GState.fit false (walkDist fun v => .fin (-v ^ 2)) firstMethod (walkConfig 1 3) walkData (GState.new Unit 1) = (.ok (), t) ∧
    GState.fit false (walkDist fun v => .fin (-v ^ 2)) firstMethod (walkConfig 1 3) [⟨x, 0, 1⟩, ⟨x', 0, 1⟩] (GState.new Unit 1) = (.ok (), t') ∧
    t'.coef = t.coef := by
  obtain ⟨t, _, ht, _⟩ := walk_run (fun v => .fin (-v ^ 2)) (walkConfig 1 3) (walk_options _ _ _ (by norm_num)) rfl rfl walkData
    (walk_batch _ _ rfl _ (by simp [walkData]))
  have hno : ∀ j, ¬ (walkConfig 1 3).UsesColumn j := by
    rintro j ⟨k, e, hk, he⟩
    change (if 0 = k then some _ else none) = some e at hk
    split at hk
    · cases hk
      simp [Equation.Reads] at he
    · cases hk
  have hs : SameColumns (walkConfig 1 3).UsesColumn walkData [⟨x, 0, 1⟩, ⟨x', 0, 1⟩] :=
    .cons ⟨rfl, rfl, fun j hj => absurd hj (hno j)⟩ (.cons ⟨rfl, rfl, fun j hj => absurd hj (hno j)⟩ .nil)
  have key := C99_unused_columns false (walkDist fun v => .fin (-v ^ 2)) firstMethod (walkConfig 1 3) hs
    (batches := []) (batches' := []) .nil (GState.new Unit 1) (GState.new Unit 1)
  have e : ∀ m : Py (GState Unit 1) Unit, (do m; GState.updates (walkDist fun v => .fin (-v ^ 2)) firstMethod (walkConfig 1 3) [] :
      Py (GState Unit 1) Unit) = m := by
    intro m
    funext t
    unfold GState.updates
    rcases hm : m t with ⟨_ | _, t'⟩
    · rw [Py.bind_of_error hm]
    · rw [Py.bind_of_ok hm]; rfl
  simp only [e, ht] at key
  obtain ⟨k1, k2⟩ := key
  exact ⟨t, _, ht, Prod.ext k1 rfl, (k2 trivial).1⟩

end Ondil
