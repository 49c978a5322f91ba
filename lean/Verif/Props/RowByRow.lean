import Verif.Spec.RowByRow
import Verif.Lemmas.GamlssSuccess
import Verif.Props.GamlssPredict

/-!
# Predictions are made row by row: C120
-/

namespace Ondil

variable {μ : Type} {p : ℕ}

/-! ### What a function that works row by row does to stacked matrices -/

/-- A function that works row by row can be called on the parts of a matrix. -/
theorem C120_append {α β ε : Type} {f : List α → Except ε (List β)} (h : RowByRow f) {X Y : List α} (hX : X ≠ []) (hY : Y ≠ []) :
    f (X ++ Y) = (do
      let a ← f X
      let b ← f Y
      pure (a ++ b)) := by
  have hXY : X ++ Y ≠ [] := by simp [hX]
  rcases h with ⟨e, h⟩ | ⟨g, h⟩
  · rw [h X hX, h _ hXY]; rfl
  · rw [h X hX, h Y hY, h _ hXY, List.map_append]; rfl

/-- The result for a row is the result for the matrix that has this row only. -/
theorem C120_single {α β ε : Type} {f : List α → Except ε (List β)} (h : RowByRow f) {X : List α} {r : List β} (hX : X ≠ [])
    (hr : f X = .ok r) : r.length = X.length ∧ ∀ i (hi : i < X.length) (hi' : i < r.length), f [X[i]] = .ok [r[i]] := by
  rcases h with ⟨e, h⟩ | ⟨g, h⟩
  · rw [h X hX] at hr; cases hr
  · rw [h X hX] at hr
    obtain rfl := Except.ok.inj hr
    exact ⟨by simp, fun i hi hi' => by rw [h _ (by simp)]; simp⟩

/-! ### Arrays of several columns -/

theorem mapM_cols {α β κ : Type} (F : κ → List α → Except PyErr (List β)) (ks : List κ) (h : ∀ k ∈ ks, RowByRow (F k)) :
    ColsByRow fun X => ks.mapM fun k => F k X := by
  induction ks with
  | nil => exact .inr ⟨[], fun X _ => rfl⟩
  | cons k ks ih =>
    have ih := ih fun k hk => h k (by simp [hk])
    unfold ColsByRow at ih
    beta_reduce at ih
    rcases h k (by simp) with ⟨e, hk⟩ | ⟨g, hk⟩
    · exact .inl ⟨e, fun X hX => by simp only [List.mapM_cons]; rw [hk X hX]; rfl⟩
    · rcases ih with ⟨e, ih⟩ | ⟨gs, ih⟩
      · exact .inl ⟨e, fun X hX => by simp only [List.mapM_cons]; rw [hk X hX, bind_ok_eq, ih X hX]; rfl⟩
      · exact .inr ⟨g :: gs, fun X hX => by simp only [List.mapM_cons]; rw [hk X hX, bind_ok_eq, ih X hX]; rfl⟩

theorem stack_cols {α : Type} (gs : List (α → Flt)) (X : List α) :
    Fv.stack X.length (gs.map fun g => X.map g) = X.map fun x k => ((gs.map fun g => g x)[k]?).getD .nan := by
  apply List.ext_getElem
  · simp [Fv.stack]
  · intro i h1 h2
    have hi : i < X.length := by simpa using h2
    funext k
    have h3 : (((List.range X.length).map fun i k => ((gs.map fun g => X.map g).getD k []).getD i Flt.nan)[i]'(by simpa using hi)) k =
        ((((gs.map fun g => X.map g)[k]?).getD [])[i]?).getD .nan := by
      rw [List.getElem_map, List.getElem_range, List.getD_eq_getElem?_getD, List.getD_eq_getElem?_getD]
    refine h3.trans ?_
    simp only [List.getElem_map, List.getElem?_map]
    cases gs[k]? with
    | none => rfl
    | some g => simp [hi]

/-! ### The design -/

/-- A function that raises the same exception for every argument, or returns a list of the same length for every argument. -/
def SameShape {α β : Type} (f : α → Except PyErr (List β)) : Prop :=
  (∃ e, ∀ x, f x = .error e) ∨ ∃ (g : α → List β) (L : ℕ), ∀ x, f x = .ok (g x) ∧ (g x).length = L

theorem maskLength {α : Type} (m : List Bool) (l : List α) (h : l.length = m.length) :
    ((l.zip m).filterMap fun xm => if xm.2 then some xm.1 else none).length = m.count true := by
  induction m generalizing l with
  | nil => simp
  | cons b m ih =>
    cases l with
    | nil => simp at h
    | cons a l =>
      have := ih l (by simpa using h)
      cases b <;> simp [List.filterMap_cons, this]

theorem npMask_shape {α : Type} (m : List Bool) : SameShape fun x : Fin p → α => npMask x m := by
  by_cases h : m.length = p
  · refine .inr ⟨_, m.count true, fun x => ⟨if_pos h, maskLength m _ (by simp [h])⟩⟩
  · exact .inl ⟨.indexError, fun x => if_neg h⟩

theorem npIndex_shape {α : Type} (l : List ℤ) : SameShape fun x : Fin p → α => l.mapM (npIndex x) := by
  induction l with
  | nil => exact .inr ⟨fun _ => [], 0, fun x => ⟨rfl, rfl⟩⟩
  | cons i l ih =>
    have hi : (∃ e, ∀ x : Fin p → α, npIndex x i = .error e) ∨ ∃ j : Fin p, ∀ x : Fin p → α, npIndex x i = .ok (x j) := by
      by_cases h : 0 ≤ (if i < 0 then i + p else i) ∧ (if i < 0 then i + (p : ℤ) else i).toNat < p
      · exact .inr ⟨⟨_, h.2⟩, fun x => dif_pos h⟩
      · exact .inl ⟨.indexError, fun x => dif_neg h⟩
    rcases hi with ⟨e, hi⟩ | ⟨j, hi⟩
    · exact .inl ⟨e, fun x => by simp only [List.mapM_cons]; rw [hi x]; rfl⟩
    · unfold SameShape at ih
      beta_reduce at ih
      rcases ih with ⟨e, ih⟩ | ⟨g, L, ih⟩
      · exact .inl ⟨e, fun x => by simp only [List.mapM_cons]; rw [hi x, bind_ok_eq, ih x]; rfl⟩
      · exact .inr ⟨fun x => x j :: g x, L + 1, fun x =>
          ⟨by simp only [List.mapM_cons]; rw [hi x, bind_ok_eq, (ih x).1]; rfl, by simp [(ih x).2]⟩⟩

theorem selectColumns_shape {α : Type} (eq : Equation) : SameShape fun x : Fin p → α => selectColumns x eq := by
  cases eq with
  | str s =>
    by_cases h : s = "all"
    · exact .inr ⟨fun x => List.ofFn x, p, fun x => ⟨if_pos h, by simp⟩⟩
    · exact .inl ⟨.valueError, fun x => if_neg h⟩
  | mask m => exact npMask_shape m
  | boolList m => exact npMask_shape m
  | index l => exact npIndex_shape l
  | intList l => exact npIndex_shape l
  | names l => exact .inl ⟨_, fun x => rfl⟩
  | floatArray => exact .inl ⟨_, fun x => rfl⟩
  | other => exact .inl ⟨_, fun x => rfl⟩

theorem modelRow_shape {α : Type} (one : α) (fi : Bool) (eq : Equation) : SameShape fun x : Fin p → α => modelRow one fi eq x := by
  by_cases h : eq = .str "intercept"
  · cases fi
    · exact .inl ⟨.valueError, fun x => by simp [modelRow, h]⟩
    · exact .inr ⟨fun _ => [one], 1, fun x => ⟨by simp [modelRow, h], rfl⟩⟩
  · have hsel := selectColumns_shape (p := p) (α := α) eq
    unfold SameShape at hsel
    beta_reduce at hsel
    rcases hsel with ⟨e, hs⟩ | ⟨g, L, hs⟩
    · exact .inl ⟨e, fun x => by simp only [modelRow, if_neg h]; rw [hs x]; rfl⟩
    · refine .inr ⟨fun x => if fi then one :: g x else g x, if fi then L + 1 else L, fun x => ⟨?_, ?_⟩⟩
      · simp only [modelRow, if_neg h]; rw [(hs x).1]; rfl
      · cases fi <;> simp [(hs x).2]

theorem mapM_const_error {α β : Type} {f : α → Except PyErr β} {e : PyErr} (h : ∀ x, f x = .error e) {X : List α} (hX : X ≠ []) :
    X.mapM f = .error e := by
  cases X with
  | nil => exact absurd rfl hX
  | cons x X => rw [List.mapM_cons, h x]; rfl

theorem mapM_const_ok {α β : Type} {f : α → Except PyErr β} {g : α → β} (h : ∀ x, f x = .ok (g x)) (X : List α) :
    X.mapM f = .ok (X.map g) := by
  induction X with
  | nil => rfl
  | cons x X ih => rw [List.mapM_cons, h x, bind_ok_eq, ih]; rfl

/-- The design of a distribution parameter is built row by row, and its rows have one length. -/
theorem designFor_rowByRow (s : GState μ p) (sc : Scaler p) (k : ℕ) :
    (∃ e, ∀ X, X ≠ [] → designFor s sc X k = .error e) ∨
      ∃ (g : Row p → Arr1) (L : ℕ), (∀ x, (g x).length = L) ∧ ∀ X, X ≠ [] → designFor s sc X k = .ok (X.map g) := by
  unfold designFor
  cases s.equation.get? k with
  | none => exact .inl ⟨_, fun X _ => rfl⟩
  | some eq =>
    cases s.fitIntercept.get? k with
    | none => exact .inl ⟨_, fun X _ => rfl⟩
    | some fi =>
      obtain ⟨t, ht⟩ : ∃ t : Row p → Fin p → Flt, ∀ X, sc.transformFlt X = X.map t := by
        cases sc with
        | off n => exact ⟨_, fun X => rfl⟩
        | on n sel s => exact ⟨_, fun X => rfl⟩
      simp only [ht, modelArray]
      rcases modelRow_shape (p := p) (Flt.fin 1) fi eq with ⟨e, h⟩ | ⟨g, L, h⟩
      · exact .inl ⟨e, fun X hX => mapM_const_error h (by simpa using hX)⟩
      · refine .inr ⟨fun x => g (t x), L, fun x => (h _).2, fun X _ => ?_⟩
        rw [mapM_const_ok fun x => (h x).1, List.map_map]
        rfl

/-- The linear predictor of one distribution parameter is computed row by row. -/
theorem eta_rows (s : GState μ p) (sc : Scaler p) (k : ℕ) :
    RowByRow fun X : List (Row p) => (do
      let A ← designFor s sc X k
      match s.coef k with
      | none => Except.error PyErr.attributeError
      | some b => matVec A b : Except PyErr Arr1) := by
  rcases designFor_rowByRow s sc k with ⟨e, h⟩ | ⟨g, L, hL, h⟩
  · exact .inl ⟨e, fun X hX => by simp only; rw [h X hX]; rfl⟩
  · cases hb : s.coef k with
    | none => exact .inl ⟨.attributeError, fun X hX => by simp only; rw [h X hX]; rfl⟩
    | some b =>
      by_cases hl : L = b.length
      · refine .inr ⟨fun x => dot (g x) b, fun X hX => ?_⟩
        simp only
        rw [h X hX, bind_ok_eq]
        simp only [matVec]
        rw [if_pos (by simp [hL, hl]), List.map_map]
        rfl
      · refine .inl ⟨.valueError, fun X hX => ?_⟩
        simp only
        rw [h X hX, bind_ok_eq]
        simp only [matVec]
        refine if_neg fun hc => ?_
        obtain ⟨x, X, rfl⟩ := List.exists_cons_of_ne_nil hX
        exact hl ((hL x).symm.trans (hc (g x) (by simp)))

theorem linearPredictors_rows (D : DistOps) (s : GState μ p) : ColsByRow fun X : List (Row p) => linearPredictors D s X := by
  cases hn : s.nObs with
  | none => exact .inl ⟨.notFitted, fun X _ => by unfold linearPredictors; rw [hn]⟩
  | some n =>
    cases hs : s.scaler with
    | none =>
      refine .inl ⟨.notFitted, fun X hX => ?_⟩
      obtain ⟨x, X, rfl⟩ := List.exists_cons_of_ne_nil hX
      unfold linearPredictors
      rw [hn, hs]
    | some sc =>
      have hl : ∀ X, X ≠ [] → linearPredictors D s X = (List.range D.nParams).mapM fun k => (do
          let A ← designFor s sc X k
          match s.coef k with
          | none => Except.error PyErr.attributeError
          | some b => matVec A b : Except PyErr Arr1) := by
        intro X hX
        obtain ⟨x, X, rfl⟩ := List.exists_cons_of_ne_nil hX
        unfold linearPredictors
        rw [hn, hs]
        rfl
      rcases mapM_cols _ (List.range D.nParams) fun k _ => eta_rows s sc k with ⟨e, h⟩ | ⟨gs, h⟩
      · exact .inl ⟨e, fun X hX => (hl X hX).trans (h X hX)⟩
      · exact .inr ⟨gs, fun X hX => (hl X hX).trans (h X hX)⟩

/-! ### Predictions of the distributional regression -/

/-- The predicted distribution parameters, on the link scale or on the scale of the response, are predicted row by row: for every
distribution of the package, links, state, and option `what`. -/
theorem C120_parameters (tiny ulp : ℝ) (o : ScipyOracles) (e : Elsewhere) (d : Dist) (links : List LinkClass) (s : GState μ p)
    (what : What) : RowByRow fun X : List (Row p) => predictParams (d.ops tiny ulp o e links) s X what := by
  have hlin := linearPredictors_rows (d.ops tiny ulp o e links) s
  unfold ColsByRow at hlin
  beta_reduce at hlin
  unfold predictParams RowByRow
  beta_reduce
  rcases hlin with ⟨er, h⟩ | ⟨gs, h⟩
  · exact .inl ⟨er, fun X hX => by rw [h X hX]; rfl⟩
  · cases what with
    | other => exact .inl ⟨.valueError, fun X hX => by rw [h X hX]; rfl⟩
    | link =>
      refine .inr ⟨fun x k => ((gs.map fun g => g x)[k]?).getD .nan, fun X hX => ?_⟩
      rw [h X hX, bind_ok_eq]
      exact congrArg Except.ok (stack_cols gs X)
    | response =>
      have hz : ∀ X : List (Row p), (gs.map fun g => X.map g).zip (List.range d.nParams) =
          (gs.zip (List.range d.nParams)).map fun gk => (X.map gk.1, gk.2) := by
        intro X
        rw [List.zip_map_left]
        rfl
      rcases mapM_cols (fun (gk : (Row p → Flt) × ℕ) (X : List (Row p)) => withLink links (LinkClass.inverseFlt e) gk.2 (X.map gk.1))
          (gs.zip (List.range d.nParams)) (by
            intro gk _
            unfold withLink
            cases links[gk.2]? with
            | none => exact .inl ⟨_, fun X _ => rfl⟩
            | some l => exact .inr ⟨fun x => LinkClass.inverseFlt e l (gk.1 x), fun X _ => by simp [Function.comp_def]⟩) with
        ⟨er, h2⟩ | ⟨gs', h2⟩
      · refine .inl ⟨er, fun X hX => ?_⟩
        rw [h X hX, bind_ok_eq]
        simp only
        have := h2 X hX
        simp only at this
        change ((gs.map fun g => X.map g).zip (List.range d.nParams)).mapM (fun e' => withLink links (LinkClass.inverseFlt e) e'.2 e'.1) >>= _ = _
        rw [hz, List.mapM_map]
        erw [this]
        rfl
      · refine .inr ⟨fun x k => ((gs'.map fun g => g x)[k]?).getD .nan, fun X hX => ?_⟩
        rw [h X hX, bind_ok_eq]
        simp only
        have := h2 X hX
        simp only at this
        change ((gs.map fun g => X.map g).zip (List.range d.nParams)).mapM (fun e' => withLink links (LinkClass.inverseFlt e) e'.2 e'.1) >>= _ = _
        rw [hz, List.mapM_map]
        erw [this]
        exact congrArg Except.ok (stack_cols gs' X)

/-- A function of the predicted parameters that works row by row is predicted row by row. -/
theorem rows_after {β : Type} {f : List (Row p) → Except PyErr Fv} (hf : RowByRow f) (g : (ℕ → Flt) → β) :
    RowByRow fun X => (do
      let th ← f X
      pure (th.map g) : Except PyErr (List β)) := by
  rcases hf with ⟨er, h⟩ | ⟨t, h⟩
  · exact .inl ⟨er, fun X hX => by simp only; rw [h X hX]; rfl⟩
  · exact .inr ⟨fun x => g (t x), fun X hX => by simp only; rw [h X hX, bind_ok_eq, List.map_map]; rfl⟩

/-- `predict`, the means, works row by row. -/
theorem C120_mean (tiny ulp : ℝ) (o : ScipyOracles) (e : Elsewhere) (d : Dist) (links : List LinkClass) (s : GState μ p) :
    RowByRow fun X : List (Row p) => predictMean (d.ops tiny ulp o e links) s X := by
  have hp := C120_parameters tiny ulp o e d links s .response
  by_cases hf : d.family.isSome
  · have hm : (d.ops tiny ulp o e links).mean = some fun fv => fv.map fun r =>
        match (d.realRow? tiny ulp r).bind d.toScipy with
        | some f => o.mean f
        | none => e.mean r := if_pos hf
    unfold predictMean
    rw [hm]
    exact rows_after hp _
  · have hm : (d.ops tiny ulp o e links).mean = none := if_neg hf
    unfold predictMean
    rw [hm]
    unfold RowByRow at hp
    beta_reduce at hp
    rcases hp with ⟨er, h⟩ | ⟨t, h⟩
    · exact .inl ⟨er, fun X hX => by simp only; rw [h X hX]; rfl⟩
    · exact .inl ⟨.attributeError, fun X hX => by simp only; rw [h X hX]; rfl⟩

/-- `predict_quantile` works row by row, for every list of probabilities. -/
theorem C120_quantiles (tiny ulp : ℝ) (o : ScipyOracles) (e : Elsewhere) (d : Dist) (links : List LinkClass) (s : GState μ p)
    (qs : List ℝ) : RowByRow fun X : List (Row p) => predictQuantile (d.ops tiny ulp o e links) s X qs := by
  have h := rows_after (C120_parameters tiny ulp o e d links s .response) (fun r => qs.map fun q =>
    match d.realRow? tiny ulp r with
    | some θ => d.ppf ulp q θ
    | none => e.ppf q r)
  have he : ∀ X : List (Row p), predictQuantile (d.ops tiny ulp o e links) s X qs = (do
      let th ← predictParams (d.ops tiny ulp o e links) s X .response
      pure (th.map fun r => qs.map fun q =>
        match d.realRow? tiny ulp r with
        | some θ => d.ppf ulp q θ
        | none => e.ppf q r) : Except PyErr Arr2) := by
    intro X
    unfold predictQuantile
    congr 1
    funext th
    refine congrArg Except.ok ?_
    apply List.ext_getElem
    · simp
    · intro i h1 h2
      have hi : i < th.length := by simpa using h1
      rw [List.getElem_map, List.getElem_map, List.getElem_range, List.map_map]
      apply List.map_congr_left
      intro q _
      change ((th.map _).getD i .nan : Flt) = _
      rw [List.getD_eq_getElem?_getD, List.getElem?_map, List.getElem?_eq_getElem hi]
      rfl
  simpa only [he] using h

/-- The contributions of the covariates are computed row by row, for every distribution parameter. -/
theorem C120_contributions (D : DistOps) (s : GState μ p) : ColsByRow fun X : List (Row p) => contributions D s X := by
  unfold contributions
  cases s.scaler with
  | none => exact .inl ⟨.notFitted, fun X _ => rfl⟩
  | some sc =>
    refine mapM_cols _ (List.range D.nParams) fun k _ => ?_
    rcases designFor_rowByRow s sc k with ⟨e, h⟩ | ⟨g, L, hL, h⟩
    · exact .inl ⟨e, fun X hX => by simp only; rw [h X hX]; rfl⟩
    · cases hb : s.coef k with
      | none => exact .inl ⟨.attributeError, fun X hX => by simp only; rw [h X hX]; rfl⟩
      | some b =>
        refine .inr ⟨fun x => List.zipWith Flt.mul (g x) b, fun X hX => ?_⟩
        simp only
        rw [h X hX, bind_ok_eq, List.map_map]
        rfl

/-! ### Predictions of the linear model -/

theorem scaledDesign_rows (fi : Bool) (sc : Scaler p) : ∃ t : Row p → Row (designDim p fi), ∀ X, scaledDesign fi sc X = X.map t := by
  cases sc with
  | off n => exact ⟨designRow fi, fun X => rfl⟩
  | on n sel s => exact ⟨fun x => designRow fi (transformRow sel s x), fun X => by simp [scaledDesign, Scaler.transform, Function.comp_def]⟩

/-- `predict` of the linear model works row by row, in every state. -/
theorem C120_linear {fi : Bool} (s : LM p fi) : RowByRow s.predict := by
  unfold LM.predict
  cases s.scaler with
  | none => exact .inl ⟨_, fun X _ => rfl⟩
  | some sc =>
    cases s.coef with
    | none => exact .inl ⟨_, fun X _ => rfl⟩
    | some b =>
      obtain ⟨t, ht⟩ := scaledDesign_rows fi sc
      exact .inr ⟨fun x => rowDot (t x) b, fun X _ => by simp [ht, Function.comp_def]⟩

/-- `predict_path` of the linear model works row by row, in every state. -/
theorem C120_linear_path {fi : Bool} (s : LM p fi) : RowByRow s.predictPath := by
  unfold LM.predictPath
  cases s.scaler with
  | none => exact .inl ⟨_, fun X _ => rfl⟩
  | some sc =>
    cases s.coefPath with
    | none => exact .inl ⟨_, fun X _ => rfl⟩
    | some path =>
      obtain ⟨t, ht⟩ := scaledDesign_rows fi sc
      exact .inr ⟨fun x => path.map fun b => rowDot (t x) b, fun X _ => by simp [ht, Function.comp_def]⟩

/-! ### A case -/

/-- A state whose first coefficient belongs to the intercept and whose second belongs to the covariate. -/
noncomputable def slopeState : GState Unit 1 :=
  { GState.new Unit 1 with
    nObs := some 3
    scaler := some (.off 3)
    equation := PyDict.ofRange 2 fun _ => .str "all"
    fitIntercept := PyDict.ofRange 2 fun _ => true
    coef := fun _ => some [.fin 1, .fin 2] }

/-- The prediction of the location of a normal distribution for the rows 3 and 5 at once, 7 and 11. -/
example (tiny ulp : ℝ) (o : ScipyOracles) (e : Elsewhere) :
    ∃ th, predictParams (Dist.normal.ops tiny ulp o e Dist.normal.defaultLinks) slopeState [fun _ => 3, fun _ => 5] .response = .ok th ∧
      th.col 0 = [.fin 7, .fin 11] := by
  have hk : ∀ k < 2, (do
      let A ← designFor slopeState (.off 3) [fun _ => 3, fun _ => 5] k
      match slopeState.coef k with
      | none => Except.error PyErr.attributeError
      | some b => matVec A b) = (.ok [.fin 7, .fin 11] : Except PyErr Arr1) := by
    intro k hk
    have h1 : designFor slopeState (.off 3) [fun _ => 3, fun _ => 5] k = .ok [[.fin 1, .fin 3], [.fin 1, .fin 5]] := by
      have : k = 0 ∨ k = 1 := by omega
      rcases this with rfl | rfl <;> rfl
    rw [h1, bind_ok_eq]
    simp only [slopeState, matVec]
    rw [if_pos (by simp)]
    simp [dot, asum, Dist.npSum, Flt.mul, Flt.add]
    norm_num
  have hl : linearPredictors (Dist.normal.ops tiny ulp o e Dist.normal.defaultLinks) slopeState [fun _ => 3, fun _ => 5] =
      .ok [[.fin 7, .fin 11], [.fin 7, .fin 11]] := by
    change (List.range 2).mapM _ = _
    rw [show List.range 2 = [0, 1] from rfl, List.mapM_cons]
    erw [hk 0 (by omega)]
    rw [bind_ok_eq, List.mapM_cons]
    erw [hk 1 (by omega)]
    rfl
  refine ⟨_, by unfold predictParams; rw [hl]; rfl, ?_⟩
  rfl

end Ondil
