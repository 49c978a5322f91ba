import Verif.Lemmas.GamlssCoordinatesCalls
import Verif.Lemmas.EarlyStopFit
import Verif.Spec.Coordinates
import Mathlib.LinearAlgebra.Matrix.Determinant.Basic

/-!
# C117: a distributional regression by least squares does not depend on the coordinates of the features
-/

open scoped Matrix BigOperators

namespace Ondil

variable {p : ℕ}

theorem RecodeB.finite {J : ℕ} {A : Matrix (Fin J) (Fin J) ℝ} {b : Row J} {b' : Arr1} (h : RecodeB A (ofVec b) b') :
    b' = ofVec (A⁻¹ *ᵥ b) := by
  rcases h with ⟨br, h1, rfl⟩ | ⟨h1, rfl⟩ | ⟨n, h1, rfl⟩
  · have := (vec_ofVec b).symm.trans ((congrArg (vec? J) h1).trans (vec_ofVec br))
    rw [Option.some.inj this]
  · rcases Nat.eq_zero_or_pos J with rfl | hJ
    · rfl
    · have := (vec_ofVec b).symm.trans ((congrArg (vec? J) h1).trans (nan_vec hJ))
      cases this
  · have hn : n = J := by
      have := congrArg List.length h1
      rw [ofVec_length, List.length_replicate] at this
      exact this.symm
    subst hn
    rw [← ofVec_zero] at h1
    have := (vec_ofVec b).symm.trans ((congrArg (vec? n) h1).trans (vec_ofVec (0 : Row n)))
    rw [Option.some.inj this, Matrix.mulVec_zero, ofVec_zero]

/-- Fit and updates with least squares and without scaling, for every distribution object, all links and options: when in the new
coordinates the regressors of every parameter are invertible combinations of the old ones, then the same exception is raised, or the
iterations, the fitted values, the deviance and all predictions are the same, and the coefficients are those of the new coordinates. -/
theorem C117_same_span {T : Row p → Row p} {J : ℕ → ℕ} {A : ∀ k, Matrix (Fin (J k)) (Fin (J k)) ℝ} (hA : ∀ k, IsUnit (A k).det)
    (frames : Bool) (D : DistOps) (perm : ∀ J : ℕ, ℕ → ℕ → List (Fin J)) (other : MethodOps MethodState) (ho : NanOrRaise other)
    (c : GConfig MethodState p) (hols : c.method = .value (some .ols)) (hs : c.scaleInputs.selection = none)
    (hspan : ∀ eqs fis, (processEquation frames D.nParams c.equation).1 = .ok eqs →
      (c.fitIntercept.process D.nParams (.value true)).result = .ok fis →
      ∀ k eq fi, eqs.get? k = some eq → fis.get? k = some fi → SameSpan fi eq T (A k))
    (data : List (Obs p)) (batches : List (List (Obs p))) :
    let M := packageMethods perm other
    let run := (do GState.fit frames D M c data; GState.updates D M c batches : Py (GState MethodState p) Unit) (GState.new _ _)
    let run' := (do
      GState.fit frames D M c (data.map (Obs.inCoordinates T))
      GState.updates D M c (batches.map fun b => b.map (Obs.inCoordinates T)) : Py (GState MethodState p) Unit) (GState.new _ _)
    run'.1 = run.1 ∧ (run.1 = .ok () → run'.2.fv = run.2.fv ∧ run'.2.itOuter = run.2.itOuter ∧ run'.2.globalDev = run.2.globalDev ∧
      (∀ X what, predictParams D run'.2 (X.map T) what = predictParams D run.2 X what) ∧
      ∀ k (b : Row (J k)), run.2.coef k = some (ofVec b) → run'.2.coef k = some (ofVec ((A k)⁻¹ *ᵥ b))) := by
  intro M run run'
  have hM := ols_recode hA perm ho
  have hok : ∀ d, (c.method.process D.nParams (.value (some M.ols))).result = .ok d →
      ∀ j m, (d.get? j).bind id = some m → m = .ols := by
    intro d hd j m hm
    rw [hols] at hd
    cases hd
    rw [PyDict.get?_ofRange] at hm
    split_ifs at hm
    · exact (Option.some.inj hm).symm
    · cases hm
  rcases Py.Sim.bind (fit_coded frames D M c hM hs hok hspan data) (fun _ _ _ => updates_coded hA D M c hM batches)
      (GState.new _ _) (GState.new _ _) (new_coded _) with ⟨x, s', t', h1, h2⟩ | ⟨a, a', s', t', h1, h2, _, h3⟩
  · have e1 : run = (.error x, s') := h1
    have e2 : run' = (.error x, t') := h2
    rw [e1, e2]
    exact ⟨rfl, fun h => by cases h⟩
  · have e1 : run = (.ok a, s') := h1
    have e2 : run' = (.ok a', t') := h2
    rw [e1, e2]
    refine ⟨rfl, fun _ => ?_⟩
    have hpred := fun X what => predict_coded hA D h3 X what
    obtain ⟨⟨v, hv, rfl⟩, _⟩ := h3
    refine ⟨rfl, rfl, rfl, hpred, fun k b hb => ?_⟩
    have hb' : s'.coef k = some (ofVec b) := hb
    change v.coef k = _
    rcases hv.coef k with ⟨h4, h5⟩ | ⟨x, y, h4, h5, hxy⟩
    · rw [h4] at hb'
      cases hb'
    · rw [h4] at hb'
      rw [h5]
      rw [Option.some.inj hb'] at hxy
      exact congrArg some (RecodeB.finite hxy)

/-! ### Coordinates of the features -/

/-- A matrix with an intercept in front. -/
def borderMatrix {m : ℕ} (C : Matrix (Fin m) (Fin m) ℝ) (u : Row m) : Matrix (Fin (m + 1)) (Fin (m + 1)) ℝ :=
  Fin.cons (Fin.cons 1 u : Fin (m + 1) → ℝ) fun i => (Fin.cons 0 (C i) : Fin (m + 1) → ℝ)

theorem border_det {m : ℕ} (C : Matrix (Fin m) (Fin m) ℝ) (u : Row m) : (borderMatrix C u).det = C.det := by
  rw [Matrix.det_succ_column_zero, Fin.sum_univ_succ, Finset.sum_eq_zero]
  · have : (borderMatrix C u).submatrix (Fin.succAbove 0) Fin.succ = C := by
      funext i j
      simp [borderMatrix, Matrix.submatrix]
    rw [this]
    simp [borderMatrix]
  · intro i _
    simp [borderMatrix]

theorem border_row {m : ℕ} (C : Matrix (Fin m) (Fin m) ℝ) (u z : Row m) :
    (Fin.cons 1 z : Fin (m + 1) → ℝ) ᵥ* borderMatrix C u = (Fin.cons 1 (z ᵥ* C + u) : Fin (m + 1) → ℝ) := by
  funext j
  unfold Matrix.vecMul dotProduct
  rw [Fin.sum_univ_succ]
  refine Fin.cases ?_ (fun i => ?_) j
  · simp [borderMatrix]
  · simp [borderMatrix, Matrix.vecMul, dotProduct, add_comm]

theorem list_cons {m : ℕ} (z : Row m) : (List.finRange (m + 1)).map (Fin.cons 1 z : Fin (m + 1) → ℝ) = 1 :: (List.finRange m).map z := by
  rw [List.finRange_succ, List.map_cons, List.map_map]
  rfl

/-- An equation that reads the columns `cols`, in coordinates in which these columns are mixed among each other. -/
theorem span_cols {T : Row p → Row p} {fi : Bool} {eq : Equation} {m : ℕ} {cols : Fin m → Fin p}
    (hrow : ∀ x : Row p, modelRow (1 : ℝ) fi eq x =
      .ok (if fi then 1 :: (List.finRange m).map (fun i => x (cols i)) else (List.finRange m).map fun i => x (cols i)))
    {C : Matrix (Fin m) (Fin m) ℝ} (hC : IsUnit C.det) {u : Row m} (hu : fi = false → u = 0)
    (hT : ∀ x, (fun i => T x (cols i)) = (fun i => x (cols i)) ᵥ* C + u) :
    ∃ (J : ℕ) (A : Matrix (Fin J) (Fin J) ℝ), SameSpan fi eq T A := by
  cases fi with
  | false =>
    refine ⟨m, C, hC, fun x => .inr ⟨fun i => x (cols i), hrow x, (hrow (T x)).trans ?_⟩⟩
    have : (fun i => T x (cols i)) = (fun i => x (cols i)) ᵥ* C := by rw [hT, hu rfl, add_zero]
    rw [← this]
    rfl
  | true =>
    refine ⟨m + 1, borderMatrix C u, by rwa [border_det], fun x => .inr ⟨Fin.cons 1 fun i => x (cols i), ?_, ?_⟩⟩
    · rw [hrow, list_cons]
      rfl
    · rw [hrow, border_row, list_cons, ← hT]
      rfl

theorem span_error {T : Row p → Row p} {fi : Bool} {eq : Equation} {e : PyErr} (h : ∀ x : Row p, modelRow (1 : ℝ) fi eq x = .error e) :
    ∃ (J : ℕ) (A : Matrix (Fin J) (Fin J) ℝ), SameSpan fi eq T A :=
  ⟨0, 1, by simp, fun x => .inl ⟨e, h x, h (T x)⟩⟩

/-- The regressors "all" and the intercept alone, in coordinates `B x + v`. -/
theorem span_all {B : Matrix (Fin p) (Fin p) ℝ} (hB : IsUnit B.det) {v : Row p} {fi : Bool} (hv : fi = false → v = 0) {eq : Equation}
    (heq : eq = .str "all" ∨ eq = .str "intercept") : ∃ (J : ℕ) (A : Matrix (Fin J) (Fin J) ℝ), SameSpan fi eq (Row.recode B v) A := by
  rcases heq with rfl | rfl
  · refine span_cols (m := p) (cols := id) (C := Bᵀ) (u := v) (fun x => ?_) (by rwa [Matrix.det_transpose]) hv fun x => ?_
    · unfold modelRow
      rw [if_neg (by decide)]
      simp only [selectColumns, if_true]
      rw [List.ofFn_eq_map]
      rfl
    · rw [Matrix.vecMul_transpose]
      rfl
  · cases fi with
    | false => exact span_error (e := .valueError) fun x => rfl
    | true =>
      exact span_cols (m := 0) (cols := Fin.elim0) (C := 1) (u := 0) (fun x => rfl) (by simp) (fun _ => rfl) fun x => funext fun i => i.elim0

theorem span_units {d v : Row p} (hd : ∀ j, d j ≠ 0) {fi : Bool} (hv : fi = false → v = 0) (eq : Equation) :
    ∃ (J : ℕ) (A : Matrix (Fin J) (Fin J) ℝ), SameSpan fi eq (Row.units d v) A := by
  rcases modelRow_cols (p := p) fi eq with ⟨e, he⟩ | ⟨cols, _, hc⟩
  · exact span_error fun x => he 1 x
  · have hl : ∀ x : Row p, cols.map x = (List.finRange cols.length).map fun i => x (cols.get i) := fun x =>
      List.ext_getElem (by simp) fun i h1 h2 => by simp
    refine span_cols (m := cols.length) (cols := cols.get) (C := Matrix.diagonal fun i => d (cols.get i)) (u := fun i => v (cols.get i))
      (fun x => by rw [hc, hl]) ?_ (fun h => by rw [hv h]; rfl) fun x => ?_
    · rw [Matrix.det_diagonal]
      exact (Finset.prod_ne_zero_iff.2 fun i _ => hd _).isUnit
    · funext i
      rw [Pi.add_apply, Matrix.vecMul_diagonal]
      unfold Row.units
      rw [mul_comm]

/-- Choice of the matrices for the processed equations. -/
theorem choose_span {T : Row p → Row p} {frames : Bool} {n : ℕ} {c : GConfig MethodState p}
    (h : ∀ eqs fis, (processEquation frames n c.equation).1 = .ok eqs → (c.fitIntercept.process n (.value true)).result = .ok fis →
      ∀ k eq fi, eqs.get? k = some eq → fis.get? k = some fi → ∃ (J : ℕ) (A : Matrix (Fin J) (Fin J) ℝ), SameSpan fi eq T A) :
    ∃ (J : ℕ → ℕ) (A : ∀ k, Matrix (Fin (J k)) (Fin (J k)) ℝ), (∀ k, IsUnit (A k).det) ∧
      ∀ eqs fis, (processEquation frames n c.equation).1 = .ok eqs → (c.fitIntercept.process n (.value true)).result = .ok fis →
        ∀ k eq fi, eqs.get? k = some eq → fis.get? k = some fi → SameSpan fi eq T (A k) := by
  have key : ∀ k, ∃ (J : ℕ) (A : Matrix (Fin J) (Fin J) ℝ), IsUnit A.det ∧ ∀ eqs fis, (processEquation frames n c.equation).1 = .ok eqs →
      (c.fitIntercept.process n (.value true)).result = .ok fis →
      ∀ eq fi, eqs.get? k = some eq → fis.get? k = some fi → SameSpan fi eq T A := by
    intro k
    by_cases hex : ∃ eqs fis eq fi, (processEquation frames n c.equation).1 = .ok eqs ∧
        (c.fitIntercept.process n (.value true)).result = .ok fis ∧ eqs.get? k = some eq ∧ fis.get? k = some fi
    · obtain ⟨eqs, fis, eq, fi, h1, h2, h3, h4⟩ := hex
      obtain ⟨J, A, hA⟩ := h eqs fis h1 h2 k eq fi h3 h4
      refine ⟨J, A, hA.1, fun eqs' fis' h1' h2' eq' fi' h3' h4' => ?_⟩
      obtain rfl : eqs = eqs' := Except.ok.inj (h1.symm.trans h1')
      obtain rfl : fis = fis' := Except.ok.inj (h2.symm.trans h2')
      obtain rfl : eq = eq' := Option.some.inj (h3.symm.trans h3')
      obtain rfl : fi = fi' := Option.some.inj (h4.symm.trans h4')
      exact hA
    · exact ⟨0, 1, by simp, fun eqs fis h1 h2 eq fi h3 h4 => absurd ⟨eqs, fis, eq, fi, h1, h2, h3, h4⟩ hex⟩
  choose J A hJ using key
  exact ⟨J, A, fun k => (hJ k).1, fun eqs fis h1 h2 k => (hJ k).2 eqs fis h1 h2⟩

/-- Features in other coordinates `B x + v`: when every equation is "all" or "intercept", `B` is invertible, and the origin is
moved only if every parameter has an intercept, nothing but the coefficients changes. -/
theorem C117_coordinates {B : Matrix (Fin p) (Fin p) ℝ} (hB : IsUnit B.det) (v : Row p)
    (frames : Bool) (D : DistOps) (perm : ∀ J : ℕ, ℕ → ℕ → List (Fin J)) (other : MethodOps MethodState) (ho : NanOrRaise other)
    (c : GConfig MethodState p) (hols : c.method = .value (some .ols)) (hs : c.scaleInputs = .off)
    (heq : ∀ eqs, (processEquation frames D.nParams c.equation).1 = .ok eqs →
      ∀ k eq, eqs.get? k = some eq → eq = .str "all" ∨ eq = .str "intercept")
    (hfi : v = 0 ∨ c.fitIntercept = .value true)
    (data : List (Obs p)) (batches : List (List (Obs p))) :
    let T := Row.recode B v
    let M := packageMethods perm other
    let run := (do GState.fit frames D M c data; GState.updates D M c batches : Py (GState MethodState p) Unit) (GState.new _ _)
    let run' := (do
      GState.fit frames D M c (data.map (Obs.inCoordinates T))
      GState.updates D M c (batches.map fun b => b.map (Obs.inCoordinates T)) : Py (GState MethodState p) Unit) (GState.new _ _)
    run'.1 = run.1 ∧ (run.1 = .ok () → run'.2.fv = run.2.fv ∧ run'.2.itOuter = run.2.itOuter ∧ run'.2.globalDev = run.2.globalDev ∧
      ∀ X what, predictParams D run'.2 (X.map T) what = predictParams D run.2 X what) := by
  intro T M run run'
  obtain ⟨J, A, hA, hspan⟩ := choose_span (T := T) (frames := frames) (n := D.nParams) (c := c) fun eqs fis h1 h2 k eq fi h3 h4 =>
    span_all hB (fun hf => by
      rcases hfi with h | h
      · exact h
      · rw [h] at h2
        cases h2
        rw [PyDict.get?_ofRange] at h4
        split_ifs at h4
        cases h4
        cases hf) (heq eqs h1 k eq h3)
  have h := C117_same_span hA frames D perm other ho c hols (by rw [hs]; rfl) hspan data batches
  exact ⟨h.1, fun h1 => ⟨(h.2 h1).1, (h.2 h1).2.1, (h.2 h1).2.2.1, (h.2 h1).2.2.2.1⟩⟩

/-- Units and origins of the columns, for all equations: when every column gets its own unit, and the origins are moved only if every
parameter has an intercept, nothing but the coefficients changes. -/
theorem C117_units {d : Row p} (hd : ∀ j, d j ≠ 0) (v : Row p)
    (frames : Bool) (D : DistOps) (perm : ∀ J : ℕ, ℕ → ℕ → List (Fin J)) (other : MethodOps MethodState) (ho : NanOrRaise other)
    (c : GConfig MethodState p) (hols : c.method = .value (some .ols)) (hs : c.scaleInputs = .off)
    (hfi : v = 0 ∨ c.fitIntercept = .value true)
    (data : List (Obs p)) (batches : List (List (Obs p))) :
    let T := Row.units d v
    let M := packageMethods perm other
    let run := (do GState.fit frames D M c data; GState.updates D M c batches : Py (GState MethodState p) Unit) (GState.new _ _)
    let run' := (do
      GState.fit frames D M c (data.map (Obs.inCoordinates T))
      GState.updates D M c (batches.map fun b => b.map (Obs.inCoordinates T)) : Py (GState MethodState p) Unit) (GState.new _ _)
    run'.1 = run.1 ∧ (run.1 = .ok () → run'.2.fv = run.2.fv ∧ run'.2.itOuter = run.2.itOuter ∧ run'.2.globalDev = run.2.globalDev ∧
      ∀ X what, predictParams D run'.2 (X.map T) what = predictParams D run.2 X what) := by
  intro T M run run'
  obtain ⟨J, A, hA, hspan⟩ := choose_span (T := T) (frames := frames) (n := D.nParams) (c := c) fun eqs fis h1 h2 k eq fi h3 h4 =>
    span_units hd (fun hf => by
      rcases hfi with h | h
      · exact h
      · rw [h] at h2
        cases h2
        rw [PyDict.get?_ofRange] at h4
        split_ifs at h4
        cases h4
        cases hf) eq
  have h := C117_same_span hA frames D perm other ho c hols (by rw [hs]; rfl) hspan data batches
  exact ⟨h.1, fun h1 => ⟨(h.2 h1).1, (h.2 h1).2.1, (h.2 h1).2.2.1, (h.2 h1).2.2.2.1⟩⟩

/-- The methods that return NaN depend on the sizes only. -/
theorem nan_sizes : NanOrRaise nanMethods where
  initX := fun n w f => .inr fun X h => by subst h; rfl
  initY := fun n y w f => .inr fun X h => by subst h; rfl
  updateX := fun n w f => .inr fun G X h => by subst h; rfl
  updateY := fun n y w f => .inr fun g X h => by subst h; rfl
  fitBeta := fun n reg => .inr fun G g h => by subst h; rfl
  updateBeta := fun n reg => .inr fun G g b h => by subst h; rfl

/-- A fit for the exponential distribution with the feature in half units. -/
example (tiny ulp : ℝ) (ht : tiny ≤ 1) (so : ScipyOracles) (el : Elsewhere) (perm : ∀ J : ℕ, ℕ → ℕ → List (Fin J)) :
    ∃ t t' : GState MethodState 1,
      GState.fit false (expOps tiny ulp so el) (packageMethods perm nanMethods) earlyConfig (earlyData 1) (GState.new _ _) = (.ok (), t) ∧
      GState.fit false (expOps tiny ulp so el) (packageMethods perm nanMethods) earlyConfig
        ((earlyData 1).map (Obs.inCoordinates (Row.units (fun _ => 2) 0))) (GState.new _ _) = (.ok (), t') ∧
      predictParams (expOps tiny ulp so el) t' [![2]] .response = predictParams (expOps tiny ulp so el) t [![1]] .response := by
  obtain ⟨t, h1, h2⟩ := early_unit (ulp := ulp) (so := so) (el := el) (perm := perm) ht
  have h := C117_units (p := 1) (d := fun _ => 2) (fun _ => two_ne_zero) 0 false (expOps tiny ulp so el) perm nanMethods nan_sizes
    earlyConfig rfl rfl (.inl rfl) (earlyData 1) []
  have e : (do
      GState.fit false (expOps tiny ulp so el) (packageMethods perm nanMethods) earlyConfig (earlyData 1)
      GState.updates (expOps tiny ulp so el) (packageMethods perm nanMethods) earlyConfig [] :
        Py (GState MethodState 1) Unit) (GState.new _ _) = (.ok (), t) := by
    refine Py.bind_ok_iff.2 ⟨(), t, h1, rfl⟩
  simp only [e] at h
  obtain ⟨h3, h4⟩ := h
  obtain ⟨_, t', h5, h6⟩ := Py.bind_ok_iff.1 (Prod.ext h3 rfl)
  have h7 := h4 trivial
  have h6' : t' = _ := congrArg Prod.snd h6
  rw [← h6'] at h7
  refine ⟨t, t', h1, h5, ?_⟩
  have h8 := h7.2.2.2 [![1]] .response
  have hx : [![(1 : ℝ)]].map (Row.units (fun _ => 2) 0) = [![(2 : ℝ)]] := by
    rw [List.map_cons, List.map_nil]
    congr 1
    funext j
    rw [Fin.fin_one_eq_zero j]
    simp [Row.units]
  rw [← h8, hx]

end Ondil
