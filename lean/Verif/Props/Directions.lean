import Verif.Lemmas.Directions
import Verif.Props.ResponseUnits

/-!
# Reversing features and the response (C105)
-/

open scoped BigOperators

namespace Ondil

variable {p : ℕ} {fi : Bool} {e : Fin p → ℝ} {t : ℝ}

theorem predict_turned {reg : Fin (designDim p fi) → Bool} (he : ∀ j, IsSign (e j)) {s s' : LM p fi} (h : TurnedLM e t reg s s')
    (X : List (Row p)) : s'.predict (X.map (Row.turn e)) = (s.predict X).map (List.map (t * ·)) := by
  unfold LM.predict
  rw [h.scaler, h.coef]
  cases s.scaler with
  | none => cases s.coef <;> rfl
  | some sc =>
    cases s.coef with
    | none => rfl
    | some b =>
      simp only [Option.map, Except.map, Except.ok.injEq]
      rw [scaledDesign_turn, List.map_map, List.map_map]
      exact List.map_congr_left fun x _ => rowDot_turn (designSign_isSign he) ..

theorem predictPath_turned {reg : Fin (designDim p fi) → Bool} (he : ∀ j, IsSign (e j)) {s s' : LM p fi} (h : TurnedLM e t reg s s')
    {a : EnetArgs} (ha : s.method = some (.path a)) (X : List (Row p)) :
    s'.predictPath (X.map (Row.turn e)) = (s.predictPath X).map (List.map (List.map (t * ·))) := by
  unfold LM.predictPath
  rw [h.scaler, (h.path a ha).1]
  cases s.scaler with
  | none => cases s.coefPath <;> rfl
  | some sc =>
    cases s.coefPath with
    | none => rfl
    | some path =>
      simp only [Option.map, Except.map, Except.ok.injEq]
      rw [scaledDesign_turn, List.map_map, List.map_map]
      refine List.map_congr_left fun x _ => ?_
      simp only [Function.comp, List.map_map]
      exact List.map_congr_left fun b _ => rowDot_turn (designSign_isSign he) ..

theorem score_turned (ht : IsSign t) {s s' : LM p fi} {X X' : List (Row p)}
    (h : s'.predict X' = (s.predict X).map (List.map (t * ·))) (y : List ℝ) : s'.score X' (y.map (t * ·)) = s.score X y := by
  unfold LM.score
  rw [h]
  cases s.predict X with
  | error e => rfl
  | ok l =>
    change Except.ok _ = Except.ok _
    have h1 : List.zipWith (fun a b => (a - b) ^ 2) (y.map (t * ·)) (l.map (t * ·)) =
        List.zipWith (fun a b => (a - b) ^ 2) y l := by
      rw [List.zipWith_map]
      congr 1
      funext a b
      rw [← mul_sub, mul_pow, ht.sq, one_mul]
    have h2 : ((y.map (t * ·)).map fun a => (a - (y.map (t * ·)).sum / (y.map (t * ·)).length) ^ 2) =
        y.map fun a => (a - y.sum / y.length) ^ 2 := by
      rw [List.map_map, sum_scale, List.length_map]
      refine List.map_congr_left fun a _ => ?_
      simp only [Function.comp]
      rw [mul_div_assoc, ← mul_sub, mul_pow, ht.sq, one_mul]
    rw [h1, h2]

theorem turned_run (he : ∀ j, IsSign (e j)) (ht : IsSign t) (c : LMConfig p fi) {ma : MethodArg (designDim p fi)}
    (hm : TurnedArg (isRegularized p fi c.regularizeIntercept) (coefSign fi e t) c.method ma)
    (perm : ℕ → ℕ → List (Fin (designDim p fi))) (rng : ℕ → ℕ → ℕ → List (Fin (designDim p fi))) (data : List (Obs p))
    (batches : List (List (Obs p))) (s s' : LM p fi) :
    let run := fun (c : LMConfig p fi) (d : List (Obs p)) (bs : List (List (Obs p))) => (do
      LM.fit c perm d
      LM.updates c rng 0 bs : Py (LM p fi) Unit)
    let r := run c data batches s
    let r' := run { c with method := ma } (data.map (Obs.turn e t)) (batches.map fun d => d.map (Obs.turn e t)) s'
    r'.1 = r.1 ∧ (r.1 = .ok () →
      r'.2.coef = (r.2.coef.map fun b j => t * designRow fi e j * b j) ∧
      (∀ X, r'.2.predict (X.map (Row.turn e)) = (r.2.predict X).map (List.map (t * ·))) ∧
      ((∃ a, r.2.method = some (.path a)) →
        ∀ X, r'.2.predictPath (X.map (Row.turn e)) = (r.2.predictPath X).map (List.map (List.map (t * ·)))) ∧
      ∀ X y, r'.2.score (X.map (Row.turn e)) (y.map (t * ·)) = r.2.score X y) := by
  intro run r r'
  have h := Py.RelTo.bind (LM.fit_turned he ht c hm perm data) (fun _ => LM.updates_turned he ht c hm.other rng batches 0) s s' trivial
  refine ⟨h.1.symm, fun hok => ?_⟩
  have h2 : TurnedLM e t (isRegularized p fi c.regularizeIntercept) r.2 r'.2 := h.2 () hok
  exact ⟨h2.coef, predict_turned he h2, fun ⟨a, ha⟩ X => predictPath_turned he h2 ha X,
    fun X y => score_turned ht (predict_turned he h2 X) y⟩

/-- If features are reversed, and possibly the response, the linear model raises alike, or: the coefficients of the reversed
features are reversed, with a reversed response all coefficients are; predictions for the reversed features are the same, or
reversed with the response; the score is the same. -/
theorem C105_directions_partial (he : ∀ j, IsSign (e j)) (ht : IsSign t) (c : LMConfig p fi)
    (hm : ∀ m, getEstimationMethod c.method = .ok m → m.SignFree (isRegularized p fi c.regularizeIntercept))
    (perm : ℕ → ℕ → List (Fin (designDim p fi))) (rng : ℕ → ℕ → ℕ → List (Fin (designDim p fi))) (data : List (Obs p))
    (batches : List (List (Obs p))) (s s' : LM p fi) :
    let run := fun (d : List (Obs p)) (bs : List (List (Obs p))) => (do
      LM.fit c perm d
      LM.updates c rng 0 bs : Py (LM p fi) Unit)
    let r := run data batches s
    let r' := run (data.map (Obs.turn e t)) (batches.map fun d => d.map (Obs.turn e t)) s'
    r'.1 = r.1 ∧ (r.1 = .ok () →
      r'.2.coef = (r.2.coef.map fun b j => t * designRow fi e j * b j) ∧
      (∀ X, r'.2.predict (X.map (Row.turn e)) = (r.2.predict X).map (List.map (t * ·))) ∧
      ((∃ a, r.2.method = some (.path a)) →
        ∀ X, r'.2.predictPath (X.map (Row.turn e)) = (r.2.predictPath X).map (List.map (List.map (t * ·)))) ∧
      ∀ X y, r'.2.score (X.map (Row.turn e)) (y.map (t * ·)) = r.2.score X y) :=
  turned_run he ht c (TurnedArg.refl _ hm) perm rng data batches s s'

/-- The same for methods with bounds and start values: the second run has those of the reversed coefficients. -/
theorem C105_bounds_partial (he : ∀ j, IsSign (e j)) (ht : IsSign t) (c : LMConfig p fi) (m m' : MethodObj (designDim p fi))
    (hm : m.Turned (isRegularized p fi c.regularizeIntercept) (fun j => t * designRow fi e j) m')
    (perm : ℕ → ℕ → List (Fin (designDim p fi))) (rng : ℕ → ℕ → ℕ → List (Fin (designDim p fi))) (data : List (Obs p))
    (batches : List (List (Obs p))) (s s' : LM p fi) :
    let run := fun (m : MethodObj (designDim p fi)) (d : List (Obs p)) (bs : List (List (Obs p))) => (do
      LM.fit { c with method := .obj m } perm d
      LM.updates { c with method := .obj m } rng 0 bs : Py (LM p fi) Unit)
    let r := run m data batches s
    let r' := run m' (data.map (Obs.turn e t)) (batches.map fun d => d.map (Obs.turn e t)) s'
    r'.1 = r.1 ∧ (r.1 = .ok () →
      r'.2.coef = (r.2.coef.map fun b j => t * designRow fi e j * b j) ∧
      (∀ X, r'.2.predict (X.map (Row.turn e)) = (r.2.predict X).map (List.map (t * ·))) ∧
      ((∃ a, r.2.method = some (.path a)) →
        ∀ X, r'.2.predictPath (X.map (Row.turn e)) = (r.2.predictPath X).map (List.map (List.map (t * ·)))) ∧
      ∀ X y, r'.2.score (X.map (Row.turn e)) (y.map (t * ·)) = r.2.score X y) :=
  turned_run he ht { c with method := .obj m } (TurnedArg.obj hm) perm rng data batches s s'

/-- A lasso with nonnegative slopes for the features, and with slopes that are not positive for the reversed features. -/
noncomputable def nonnegLasso (p : ℕ) : MethodObj (designDim p true) :=
  .path { lassoDefault with lower := some (none :: List.replicate p (some 0)) }

noncomputable def nonposLasso (p : ℕ) : MethodObj (designDim p true) :=
  .path { lassoDefault with upper := some (none :: List.replicate p (some 0)) }

/-- Nonnegative lasso for all features, their reversals, and any data. -/
example (c : LMConfig p true) (hc : c.regularizeIntercept = false) (perm : ℕ → ℕ → List (Fin (designDim p true)))
    (data : List (Obs p)) (s : LM p true) (b : Row (designDim p true))
    (h : ∃ s1, LM.fit { c with method := .obj (nonnegLasso p) } perm data s = (.ok (), s1) ∧ s1.coef = some b) :
    ∃ s1, LM.fit { c with method := .obj (nonposLasso p) } perm (data.map (Obs.turn (fun _ => -1) 1)) s = (.ok (), s1) ∧
      s1.coef = some (Fin.cons (b (0 : Fin (p + 1))) fun j => -b j.succ : Fin (p + 1) → ℝ) := by
  obtain ⟨s1, h1, h2⟩ := h
  have hT : (nonnegLasso p).Turned (isRegularized p true c.regularizeIntercept)
      (fun j => 1 * designRow true (fun _ : Fin p => (-1 : ℝ)) j) (nonposLasso p) := by
    refine ⟨rfl, ⟨?_, ?_, ?_, ?_⟩, ⟨(0 : Fin (p + 1)), by rw [hc]; rfl⟩⟩
    · intro l hl
      have : l = none :: List.replicate p (some 0) := by simpa [nonnegLasso, nonposLasso, lassoDefault] using hl
      rw [this]
      simp [designDim]
    · intro j a b _ hb
      cases hb
    · intro j hj
      refine Fin.cases (motive := fun j : Fin (p + 1) => 1 * (Fin.cons 1 (fun _ : Fin p => (-1 : ℝ)) : Fin (p + 1) → ℝ) j = 1 →
        boundAt none j = boundAt (some (none :: List.replicate p (some (0 : ℝ)))) j ∧
        boundAt (some (none :: List.replicate p (some (0 : ℝ)))) j = boundAt none j) ?_ ?_ j hj
      · intro _
        exact ⟨rfl, rfl⟩
      · intro i hi
        norm_num at hi
    · intro j hj
      refine Fin.cases (motive := fun j : Fin (p + 1) => 1 * (Fin.cons 1 (fun _ : Fin p => (-1 : ℝ)) : Fin (p + 1) → ℝ) j = -1 →
        boundAt none j = (boundAt none j).map (fun b => -b) ∧
        boundAt (some (none :: List.replicate p (some (0 : ℝ)))) j =
          (boundAt (some (none :: List.replicate p (some (0 : ℝ)))) j).map (fun b => -b)) ?_ ?_ j hj
      · intro h0
        norm_num at h0
      · intro i _
        refine ⟨rfl, ?_⟩
        simp [boundAt, List.getElem?_replicate, i.2]
  have := LM.fit_turned (e := fun _ : Fin p => (-1 : ℝ)) (t := 1) (fun _ => .inr rfl) (.inl rfl)
    { c with method := .obj (nonnegLasso p) } (TurnedArg.obj hT) perm data s s trivial
  rw [h1] at this
  have h3 := (this.2 () rfl).coef
  rw [h2] at h3
  refine ⟨(LM.fit { c with method := .obj (nonposLasso p) } perm (data.map (Obs.turn (fun _ => -1) 1)) s).2,
    Prod.ext this.1.symm rfl, Eq.trans h3 (congrArg some ?_)⟩
  funext j
  refine Fin.cases (motive := fun j : Fin (p + 1) => 1 * (Fin.cons 1 (fun _ : Fin p => (-1 : ℝ)) : Fin (p + 1) → ℝ) j * b j =
    (Fin.cons (b (0 : Fin (p + 1))) fun j => -b j.succ : Fin (p + 1) → ℝ) j) ?_ ?_ j
  · simp
  · intro i
    simp

/-- The methods that can be given by name qualify, unless the intercept is penalised or missing. -/
theorem named_signFree (p : ℕ) (name : String) (m : MethodObj (designDim p true))
    (h : getEstimationMethod (.str name : MethodArg (designDim p true)) = .ok m) : m.SignFree (isRegularized p true false) := by
  have h0 : ∃ j : Fin (designDim p true), isRegularized p true false j = false := ⟨(0 : Fin (p + 1)), rfl⟩
  unfold getEstimationMethod methodFromString at h
  simp only at h
  split_ifs at h <;> cases h
  · exact ⟨rfl, rfl, h0⟩
  · trivial
  · exact ⟨rfl, rfl, h0⟩

/-- The estimator with an intercept that is not penalised and a method given by its name, on any data. -/
theorem C105_named_methods_partial (he : ∀ j, IsSign (e j)) (ht : IsSign t) (c : LMConfig p true) (name : String)
    (hn : c.method = .str name) (hi : c.regularizeIntercept = false) (perm : ℕ → ℕ → List (Fin (designDim p true)))
    (data : List (Obs p)) (s s1 : LM p true) (hs : LM.fit c perm data s = (.ok (), s1)) :
    ∃ t1, LM.fit c perm (data.map (Obs.turn e t)) s = (.ok (), t1) ∧
      t1.coef = (s1.coef.map fun b j => t * designRow true e j * b j) ∧
      ∀ X, t1.predict (X.map (Row.turn e)) = (s1.predict X).map (List.map (t * ·)) := by
  have h := LM.fit_turned he ht c (TurnedArg.refl _ fun m h => by rw [hn] at h; rw [hi]; exact named_signFree p name m h) perm data s s
    trivial
  rw [hs] at h
  have h2 : TurnedLM e t (isRegularized p true c.regularizeIntercept) s1 (LM.fit c perm (data.map (Obs.turn e t)) s).2 := h.2 () rfl
  exact ⟨(LM.fit c perm (data.map (Obs.turn e t)) s).2, Prod.ext h.1.symm rfl, h2.coef, predict_turned he h2⟩

/-- Least squares through four points whose only feature is reversed: the intercept stays, the slope changes its sign. -/
example (perm : ℕ → ℕ → List (Fin (designDim 1 true))) :
    ∃ (s s' : LM 1 true), LM.fit (olsConfig .all) perm lineInit (LM.new 1 true) = (.ok (), s) ∧
      LM.fit (olsConfig .all) perm (lineInit.map (Obs.turn (fun _ => -1) 1)) (LM.new 1 true) = (.ok (), s') ∧
      ∃ b b', s.coef = some b ∧ s'.coef = some b' ∧ b' (0 : Fin 2) = b (0 : Fin 2) ∧ b' (1 : Fin 2) = -b (1 : Fin 2) := by
  obtain ⟨s, hs⟩ := lineInit_fit perm .all (.inl rfl) (LM.new 1 true)
  obtain ⟨s', hs', h1, _⟩ := C105_named_methods_partial (e := fun _ : Fin 1 => -1) (t := 1) (fun _ => .inr rfl) (.inl rfl)
    (olsConfig .all) "ols" rfl rfl perm lineInit (LM.new 1 true) s hs
  obtain ⟨_, _, _, _, _, m, _, _, hm', _, _, _, _, _, _, _, h3, _⟩ := LM.fit_ok hs
  have hm : m = .ols := by
    rw [show (olsConfig .all).method = .str "ols" from rfl, getEstimationMethod_ols] at hm'
    cases hm'
    rfl
  have hc := (h3 hm).2
  rw [hc] at h1
  refine ⟨s, s', hs, hs', _, _, hc, h1, ?_, ?_⟩
  · change 1 * (Fin.cons 1 (fun _ : Fin 1 => (-1 : ℝ)) : Fin 2 → ℝ) 0 * _ = _
    rw [Fin.cons_zero, one_mul, one_mul]
  · change 1 * (Fin.cons 1 (fun _ : Fin 1 => (-1 : ℝ)) : Fin 2 → ℝ) (Fin.succ 0) * _ = _
    rw [Fin.cons_succ]
    ring

/-- **C105 fails** when every coefficient is penalised, as without an intercept: the largest penalty is the largest entry of the
response Gramian, not the largest in absolute value.  With the responses 1 and 1 of a column of ones, every coefficient of the
lasso path lies between 0 and the least squares value 1.  With the responses -1 and -1 the penalties are negative, and every
coefficient lies beyond the least squares value -1; the first one, which should be 0, is -2. -/
theorem C105_all_penalised_fails : ∃ (s t : LM 1 false) (path path' : List (Row 1)),
    LM.fit (onesConfig (.str "lasso")) (fun _ _ => []) (pairData 1 1) (LM.new 1 false) = (.ok (), s) ∧
    LM.fit (onesConfig (.str "lasso")) (fun _ _ => []) ((pairData 1 1).map (Obs.turn (fun _ => 1) (-1))) (LM.new 1 false) =
      (.ok (), t) ∧
    s.coefPath = some path ∧ t.coefPath = some path' ∧ path.length = 100 ∧ path'.length = 100 ∧
    (∀ b ∈ path, 0 ≤ b 0 ∧ b 0 < 1) ∧ (∀ b ∈ path', b 0 < -1) ∧
    path[0]? = some (fun _ => (0 : ℝ)) ∧ path'[0]? = some (fun _ => (-2 : ℝ)) := by
  have hm : getEstimationMethod (.str "lasso" : MethodArg (designDim 1 false)) = .ok (.path lassoDefault) := by
    simp [getEstimationMethod, methodFromString]
  have hd : (pairData 1 1).map (Obs.turn (fun _ => 1) (-1)) = pairData (-1) (-1) := by
    simp only [pairData, Obs.turn, List.map_cons, List.map_nil, mul_one]
    rw [show Row.turn (fun _ : Fin 1 => (1 : ℝ)) (fun _ => 1) = fun _ => 1 from funext fun _ => one_mul 1]
  have ha : lassoDefault.alpha = 1 := rfl
  have key : ∀ y : ℝ, y ≠ 0 → ∃ (s : LM 1 false) (path : List (Row 1)),
      LM.fit (onesConfig (.str "lasso")) (fun _ _ => []) (pairData y y) (LM.new 1 false) = (.ok (), s) ∧
      s.coefPath = some path ∧ path.length = 100 ∧
      ∀ i < 100, path[i]? = some fun _ => softThreshold (y + y) (pairLam lassoDefault (y + y) i) / 2 := by
    intro y hy
    obtain ⟨s, path, b, h1, h2, h3, h4, _⟩ := pair_fit_general (.str "lasso") _ hm
      (by simp [lassoDefault]) (by norm_num [lassoDefault]) (by simp [lassoDefault]) (by simp [lassoDefault]) (by simp [lassoDefault])
      (by simp [lassoDefault]) (by norm_num [lassoDefault]) (y := y) (y' := y) (by intro h; exact hy (by linarith))
      (fun i => by rw [ha]; norm_num) (LM.new 1 false)
    refine ⟨s, path, h1, h2, h3.trans rfl, fun i hi => ?_⟩
    rw [h4 i (by simpa [lassoDefault] using hi), ha]
    simp
  have hpow : ∀ i : ℕ, 0 < lassoDefault.lambdaEps ^ ((i : ℝ) / ((lassoDefault.lambdaN : ℝ) - 1)) ∧
      lassoDefault.lambdaEps ^ ((i : ℝ) / ((lassoDefault.lambdaN : ℝ) - 1)) ≤ 1 := by
    intro i
    exact ⟨Real.rpow_pos_of_pos (by norm_num [lassoDefault]) _, Real.rpow_le_one (by norm_num [lassoDefault])
      (by norm_num [lassoDefault]) (div_nonneg (by positivity) (by norm_num [lassoDefault]))⟩
  have hpos : ∀ i, softThreshold (1 + 1) (pairLam lassoDefault (1 + 1) i) / 2 =
      1 - lassoDefault.lambdaEps ^ ((i : ℝ) / ((lassoDefault.lambdaN : ℝ) - 1)) := by
    intro i
    obtain ⟨h1, h2⟩ := hpow i
    unfold softThreshold pairLam
    rw [Real.sign_of_pos (by norm_num), abs_of_pos (by norm_num), max_eq_left (by linarith)]
    ring
  have hneg : ∀ i, softThreshold (-1 + -1) (pairLam lassoDefault (-1 + -1) i) / 2 =
      -1 - lassoDefault.lambdaEps ^ ((i : ℝ) / ((lassoDefault.lambdaN : ℝ) - 1)) := by
    intro i
    obtain ⟨h1, h2⟩ := hpow i
    unfold softThreshold pairLam
    rw [Real.sign_of_neg (by norm_num), abs_of_neg (by norm_num), max_eq_left (by linarith)]
    ring
  obtain ⟨s, path, h1, h2, h3, h4⟩ := key 1 one_ne_zero
  obtain ⟨s', path', g1, g2, g3, g4⟩ := key (-1) (by norm_num)
  refine ⟨s, s', path, path', h1, hd ▸ g1, h2, g2, h3, g3, ?_, ?_, ?_, ?_⟩
  · intro b hb
    obtain ⟨i, hi, rfl⟩ := List.mem_iff_getElem.1 hb
    have := h4 i (by omega)
    rw [List.getElem?_eq_getElem hi] at this
    rw [Option.some.inj this]
    simp only [hpos]
    obtain ⟨h1, h2⟩ := hpow i
    constructor <;> linarith
  · intro b hb
    obtain ⟨i, hi, rfl⟩ := List.mem_iff_getElem.1 hb
    have := g4 i (by omega)
    rw [List.getElem?_eq_getElem hi] at this
    rw [Option.some.inj this]
    simp only [hneg]
    obtain ⟨h1, h2⟩ := hpow i
    linarith
  · rw [h4 0 (by norm_num)]
    simp only [hpos]
    norm_num
  · rw [g4 0 (by norm_num)]
    simp only [hneg]
    norm_num

end Ondil
