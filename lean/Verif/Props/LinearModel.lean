import Verif.Lemmas.LinearModelOls
import Verif.Props.Utils
import Verif.Props.InformationCriteria
import Verif.Props.LeastSquares
import Verif.Props.Methods
import Mathlib.LinearAlgebra.FiniteDimensional.Lemmas

/-!
# Properties of `OnlineLinearModel`: counters, residual sums, guards, dispatch, score
(C31 on the estimator, C35 to C39)
-/

open scoped BigOperators Matrix

namespace Ondil

variable {p : ℕ} {fi : Bool}

/-! ## C35 Counters -/

theorem updates_nil {c : LMConfig p fi} {rng} {k : ℕ} {s s' : LM p fi}
    (h : LM.updates c rng k [] s = (.ok (), s')) : s' = s := by
  unfold LM.updates at h
  exact (Py.pure_ok_iff.1 h).2.symm

theorem updates_cons {c : LMConfig p fi} {rng} {k : ℕ} {b : List (Obs p)} {bs : List (List (Obs p))}
    {s s' : LM p fi} (h : LM.updates c rng k (b :: bs) s = (.ok (), s')) :
    ∃ t, LM.update c (rng k) b s = (.ok (), t) ∧ LM.updates c rng (k + 1) bs t = (.ok (), s') := by
  unfold LM.updates at h
  rw [Py.bind_ok_iff] at h
  obtain ⟨_, t, h1, h2⟩ := h
  exact ⟨t, h1, h2⟩

theorem updates_counters {c : LMConfig p fi} {rng} (batches : List (List (Obs p))) {k : ℕ} {n : ℝ}
    {s s' : LM p fi} (hn : s.nObs = some n) (hT : s.nTraining = some (effectiveTrainingLength c.forget n))
    (h : LM.updates c rng k batches s = (.ok (), s')) :
    s'.nObs = some (n + (ws batches.flatten).sum) ∧
      s'.nTraining = some (effectiveTrainingLength c.forget (n + (ws batches.flatten).sum)) := by
  induction batches generalizing k n s with
  | nil => rw [updates_nil h]; simp [ws, hn, hT]
  | cons b bs ih =>
    obtain ⟨t, h1, h2⟩ := updates_cons h
    obtain ⟨_, _, n0, sc0, sc, m, G0, G, h0, q1, _, _, _, _, _, _, _, _, r3, r4, _⟩ := LM.update_ok h1
    rw [hn] at q1; cases q1
    have := ih r3 r4 h2
    rw [List.flatten_cons, ws_append, List.sum_append, ← add_assoc]
    exact this

/-- **C35.** After a fit and any sequence of accepted updates, for every method and option: the number of
observations is the sum of all weights seen, and the training length is the effective length of that
number. -/
theorem C35_counters (c : LMConfig p fi) (perm : ℕ → ℕ → List (Fin (designDim p fi)))
    (rng : ℕ → ℕ → ℕ → List (Fin (designDim p fi))) (init : List (Obs p))
    (batches : List (List (Obs p))) (s₀ s s' : LM p fi) (hfit : LM.fit c perm init s₀ = (.ok (), s))
    (hup : LM.updates c rng 0 batches s = (.ok (), s')) :
    s'.nObs = some ((init ++ batches.flatten).map Obs.w).sum ∧
      s'.nTraining = some (if c.forget = 0 then ((init ++ batches.flatten).map Obs.w).sum
        else (1 - (1 - c.forget) ^ ((init ++ batches.flatten).map Obs.w).sum) / c.forget) := by
  obtain ⟨_, _, _, _, _, m, sc, G, _, _, _, _, h2, h3, _⟩ := LM.fit_ok hfit
  have := updates_counters batches h2 h3 hup
  rw [← List.sum_append, ← ws_append] at this
  simpa only [effectiveTrainingLength, ws] using this

/-- **C35.** With unit weights: the number of rows, and the sum of the discount factors of the rows. -/
theorem C35_unit_weights (c : LMConfig p fi) (perm : ℕ → ℕ → List (Fin (designDim p fi)))
    (rng : ℕ → ℕ → ℕ → List (Fin (designDim p fi))) (init : List (Obs p))
    (batches : List (List (Obs p))) (s₀ s s' : LM p fi) (hfit : LM.fit c perm init s₀ = (.ok (), s))
    (hup : LM.updates c rng 0 batches s = (.ok (), s'))
    (hw : ∀ o ∈ init ++ batches.flatten, o.w = 1) :
    s'.nObs = some ((init ++ batches.flatten).length : ℝ) ∧
      s'.nTraining = some (discSum c.forget (init ++ batches.flatten) fun _ => 1) := by
  have hsum : ∀ l : List (Obs p), (∀ o ∈ l, o.w = 1) → (l.map Obs.w).sum = (l.length : ℝ) := by
    intro l hl
    induction l with
    | nil => simp
    | cons o l ih =>
      simp only [List.map_cons, List.sum_cons, List.length_cons, Nat.cast_add, Nat.cast_one]
      rw [ih fun o' h' => hl o' (List.mem_cons_of_mem _ h'), hl o List.mem_cons_self]
      ring
  obtain ⟨h1, h2⟩ := C35_counters c perm rng init batches s₀ s s' hfit hup
  rw [hsum _ hw] at h1 h2
  refine ⟨h1, ?_⟩
  rw [h2]
  congr 1
  have := C17_sum_of_weights c.forget (init ++ batches.flatten).length
  unfold effectiveTrainingLength at this
  rw [this]
  clear h1 h2 hw this hup hfit
  generalize init ++ batches.flatten = l
  rw [Finset.sum_range_reflect (fun i => (1 - c.forget) ^ i) l.length]
  induction l with
  | nil => simp
  | cons o l ih =>
    rw [List.length_cons, Finset.sum_range_succ, ih, discSum_cons]
    ring

/-! ## C31 on the estimator -/

/-- `b` is the row of `path` that `np.argmin` prefers by its criterion, the first one in case of ties. -/
def IsBestRow {q : ℕ} (ic : Criterion) (n : ℝ) (path : List (Row q)) (rss : List ℝ) (b : Row q) : Prop :=
  ∃ i : ℕ, path[i]? = some b ∧ ∃ r v, rss[i]? = some r ∧ fromRss ic n (modelSize b) r = .ok v ∧
    ∀ (j : ℕ) (b' : Row q) (r' : ℝ), path[j]? = some b' → rss[j]? = some r' →
      ∃ u, fromRss ic n (modelSize b') r' = .ok u ∧ ¬ u.Preferred v ∧ (j < i → v.Preferred u)

theorem Flt.fin_le_of_not_preferred {u v : ℝ} (h : ¬ (Flt.fin u).Preferred (.fin v)) : v ≤ u :=
  not_lt.1 fun hlt => h (.inr hlt)

theorem fromRss_bic {n : ℝ} (hn : 1 < n) (q : ℝ) {r : ℝ} (hr : 0 < r) : fromRss .bic n q r =
    .ok (.fin (-2 * (-n / 2 * Real.log (r / n) + -n / 2 * (1 + Real.log (2 * Real.pi))) + q * Real.log n)) := by
  have h0 : 0 < n := by linarith
  have hv : 0 < r / n := div_pos hr h0
  simp only [fromRss, fromLL, llFromRss, Flt.div, if_neg h0.ne', Flt.log, if_pos hv, if_pos h0, Flt.mul, Flt.add]

theorem IsBestRow.textbook {q : ℕ} {ic : Criterion} (hic : ic ≠ .aicc) {n : ℝ} (hn : 1 < n) {path : List (Row q)}
    {rss : List ℝ} (hr : ∀ r ∈ rss, 0 < r) {b : Row q} (h : IsBestRow ic n path rss b) : BestByTextbook ic n path rss b := by
  obtain ⟨i, h1, r, v, h2, h3, h4⟩ := h
  refine ⟨i, r, h1, h2, fun j b' r' hp hj => ?_⟩
  obtain ⟨u, g1, g2, g3⟩ := h4 j b' r' hp hj
  rw [fromRss_fin hic hn _ (hr _ (List.mem_of_getElem? h2))] at h3
  rw [fromRss_fin hic hn _ (hr _ (List.mem_of_getElem? hj))] at g1
  cases h3
  cases g1
  simp only [Flt.Preferred, Flt.lt, reduceCtorEq, false_and, false_or] at g2 g3
  exact ⟨not_lt.1 g2, g3⟩

theorem nParams_eq {q : ℕ} (b : Row q) : nParams b = modelSize b := by
  classical
  have h : ∀ l : List (Fin q), l.Nodup → (l.filter fun j => decide (¬ |b j| ≤ 1 / 100000000)).length =
      (l.toFinset.filter fun j => (1 : ℝ) / 10 ^ 8 < |b j|).card := by
    intro l hl
    rw [← List.toFinset_card_of_nodup (hl.filter _), List.toFinset_filter]
    congr 1
    refine Finset.filter_congr fun j _ => ?_
    rw [decide_eq_true_iff, not_le]
    norm_num
  have h1 := h _ (List.nodup_finRange q)
  rw [List.toFinset_finRange] at h1
  unfold nParams modelSize
  convert h1

theorem selectCoef_best {q : ℕ} {ic : Criterion} {n : ℝ} {path : List (Row q)} {rss : List ℝ} {b : Row q}
    (hlen : path.length = rss.length) (h : selectCoef ic n path rss = .ok b) :
    IsBestRow ic n path rss b := by
  unfold selectCoef at h
  rw [bind_ok] at h
  obtain ⟨i, hi, hb⟩ := h
  obtain ⟨pi, ri, v, h1, h2, h3, h4⟩ := C31_selected_is_best (by simpa using hlen) hi
  cases hg : path[i]? with
  | none => rw [hg] at hb; cases hb
  | some b' =>
    rw [hg] at hb
    cases hb
    refine ⟨i, hg, ri, v, h2, ?_, ?_⟩
    · rw [List.getElem?_map, hg] at h1
      cases h1; beta_reduce at h3; rw [nParams_eq] at h3; exact h3
    · intro j b'' r' hj hr
      have h5 := h4 j _ r' (by rw [List.getElem?_map, hj]; rfl) hr
      beta_reduce at h5
      rwa [nParams_eq] at h5

theorem enet_fit_length {q : ℕ} {a : EnetArgs} {G : Matrix (Fin q) (Fin q) ℝ} {h : Row q} {reg} {perm}
    {path : List (Row q)} (hp : a.fitBetaPath G h reg perm = .ok path) : path.length = a.lambdaN := by
  unfold EnetArgs.fitBetaPath at hp
  simp only [bind_ok] at hp
  obtain ⟨lo, _, up, _, lams, hl, rows, hr, hp⟩ := hp
  cases hp
  unfold EnetArgs.lambdaPath at hl
  rw [bind_ok] at hl
  obtain ⟨m, _, hg⟩ := hl
  rw [List.length_map, cdPathLoop_length hr, geomspace_length hg]
  simp

theorem enet_update_length {q : ℕ} {a : EnetArgs} {G : Matrix (Fin q) (Fin q) ℝ} {h : Row q} {reg} {perm}
    {old path : List (Row q)} (hp : a.updateBetaPath G h old reg perm = .ok path)
    (ho : old.length = a.lambdaN) : path.length = a.lambdaN := by
  unfold EnetArgs.updateBetaPath at hp
  simp only [bind_ok] at hp
  obtain ⟨lo, _, up, _, lams, hl, rows, hr, hp⟩ := hp
  cases hp
  unfold EnetArgs.lambdaPath at hl
  rw [bind_ok] at hl
  obtain ⟨m, _, hg⟩ := hl
  rw [List.length_map, cdPathLoop_length hr, geomspace_length hg, ho]
  simp

/-- What holds between calls for a path method with arguments `a`. -/
structure PathInv (c : LMConfig p fi) (a : EnetArgs) (s : LM p fi) : Prop where
  method : s.method = some (.path a)
  best : ∃ path rss n b, s.coefPath = some path ∧ s.rss = some rss ∧ s.nTraining = some n ∧
      s.coef = some b ∧ path.length = a.lambdaN ∧ rss.length = a.lambdaN ∧ IsBestRow c.ic n path rss b

theorem PathInv.of_fit {c : LMConfig p fi} {a : EnetArgs} {perm} {data : List (Obs p)} {s s' : LM p fi}
    (ha : getEstimationMethod c.method = .ok (.path a)) (h : LM.fit c perm data s = (.ok (), s')) :
    PathInv c a s' := by
  obtain ⟨_, _, _, _, _, m, sc, G, hm, _, _, _, _, h3, _, _, _, h5, _⟩ := LM.fit_ok h
  rw [ha] at hm; cases hm
  obtain ⟨g0, path, b, hp, g1, g2, g3, g4⟩ := h5 a rfl
  have hl := enet_fit_length hp
  exact ⟨g0, path, _, _, b, g1, g2, h3, g4, hl, by simp [hl], selectCoef_best (by simp) g3⟩

theorem PathInv.update {c : LMConfig p fi} {a : EnetArgs} {perm} {data : List (Obs p)} {s s' : LM p fi}
    (inv : PathInv c a s) (h : LM.update c perm data s = (.ok (), s')) : PathInv c a s' := by
  obtain ⟨_, _, n0, sc0, sc, m, G0, G, h0, q1, q2, q3, q4, q5, q6, q7, r1, r2, r3, r4, r5, r6, r7, r8, _⟩ :=
    LM.update_ok h
  rw [inv.method] at q3; cases q3
  obtain ⟨path0, path, rss0, b, e1, e2, e3, e4, e5, e6, e7⟩ := r8 a rfl
  obtain ⟨p0, r0, n, b0, i1, i2, i3, i4, i5, i6, i7⟩ := inv.best
  rw [i1] at e1; cases e1
  rw [i2] at e2; cases e2
  have hpl : path.length = a.lambdaN := enet_update_length e3 i5
  have hl : (rssUpdate c.forget rss0 path (scaledDesign fi sc (xs data)) (ys data)).length = a.lambdaN := by
    unfold rssUpdate
    rw [List.length_zipWith]
    omega
  exact ⟨r1, path, _, _, b, e4, e5, r4, e7, hpl, hl, selectCoef_best (by rw [hl, hpl]) e6⟩

theorem PathInv.updates {c : LMConfig p fi} {a : EnetArgs} {rng} (batches : List (List (Obs p))) {k : ℕ}
    {s s' : LM p fi} (inv : PathInv c a s) (h : LM.updates c rng k batches s = (.ok (), s')) :
    PathInv c a s' := by
  induction batches generalizing k s with
  | nil => rw [updates_nil h]; exact inv
  | cons b bs ih =>
    obtain ⟨t, h1, h2⟩ := updates_cons h
    exact ih (inv.update h1) h2

/-- **C31.** After a fit with a path method and any sequence of updates, `coef_` is the row of `coef_path_` with
the smallest information criterion for the stored residual sums and training length. -/
theorem C31_coef_is_best_row (c : LMConfig p fi) (a : EnetArgs)
    (ha : getEstimationMethod c.method = .ok (.path a)) (perm : ℕ → ℕ → List (Fin (designDim p fi)))
    (rng : ℕ → ℕ → ℕ → List (Fin (designDim p fi))) (init : List (Obs p))
    (batches : List (List (Obs p))) (s₀ s s' : LM p fi) (hfit : LM.fit c perm init s₀ = (.ok (), s))
    (hup : LM.updates c rng 0 batches s = (.ok (), s')) :
    ∃ path rss n b, s'.coefPath = some path ∧ s'.rss = some rss ∧ s'.nTraining = some n ∧
      s'.coef = some b ∧ IsBestRow c.ic n path rss b := by
  obtain ⟨path, rss, n, b, h1, h2, h3, h4, _, _, h5⟩ := ((PathInv.of_fit ha hfit).updates batches hup).best
  exact ⟨path, rss, n, b, h1, h2, h3, h4, h5⟩

/-- **C31.** In terms of the textbook formulas: if the stored residual sums are positive and the training length exceeds one,
`coef_` minimises the criterion of the configuration over the path. -/
theorem C31_coef_textbook (c : LMConfig p fi) (a : EnetArgs)
    (ha : getEstimationMethod c.method = .ok (.path a)) (perm : ℕ → ℕ → List (Fin (designDim p fi)))
    (rng : ℕ → ℕ → ℕ → List (Fin (designDim p fi))) (init : List (Obs p))
    (batches : List (List (Obs p))) (s₀ s s' : LM p fi) (hfit : LM.fit c perm init s₀ = (.ok (), s))
    (hup : LM.updates c rng 0 batches s = (.ok (), s')) (path : List (Row (designDim p fi))) (rss : List ℝ) (n : ℝ)
    (b : Row (designDim p fi)) (h1 : s'.coefPath = some path) (h2 : s'.rss = some rss) (h3 : s'.nTraining = some n)
    (h4 : s'.coef = some b) (hn : 1 < n) (hr : ∀ r ∈ rss, 0 < r) : BestByTextbook c.ic n path rss b := by
  have hic : c.ic ≠ .aicc := by
    obtain ⟨hv, _⟩ := LM.fit_ok hfit
    exact hv.2.2.1
  obtain ⟨path', rss', n', b', g1, g2, g3, g4, g5⟩ := C31_coef_is_best_row c a ha perm rng init batches s₀ s s' hfit hup
  rw [h1] at g1; cases g1
  rw [h2] at g2; cases g2
  rw [h3] at g3; cases g3
  rw [h4] at g4; cases g4
  exact g5.textbook hic hn hr

/-- **C69.** `predict` is the column of `predict_path` at the selected position, after any history. -/
theorem C69_predict_is_path_column (c : LMConfig p fi) (a : EnetArgs)
    (ha : getEstimationMethod c.method = .ok (.path a)) (perm : ℕ → ℕ → List (Fin (designDim p fi)))
    (rng : ℕ → ℕ → ℕ → List (Fin (designDim p fi))) (init : List (Obs p))
    (batches : List (List (Obs p))) (s₀ s s' : LM p fi) (hfit : LM.fit c perm init s₀ = (.ok (), s))
    (hup : LM.updates c rng 0 batches s = (.ok (), s')) :
    ∃ i : ℕ, ∀ X : List (Row p), ∃ y P, s'.predict X = .ok y ∧ s'.predictPath X = .ok P ∧
      y.length = X.length ∧ P.length = X.length ∧
      ∀ (j : ℕ) (r : List ℝ), P[j]? = some r → r[i]? = y[j]? ∧ (∃ v, r[i]? = some v) := by
  obtain ⟨path, rss, n, b, h1, h2, h3, h4, _, _, i, hi, _⟩ :=
    ((PathInv.of_fit ha hfit).updates batches hup).best
  have hsc : ∃ sc, s'.scaler = some sc := by
    obtain ⟨_, _, _, _, _, _, sc, _, _, _, _, e1, _⟩ := LM.fit_ok hfit
    have : ∀ (bs : List (List (Obs p))) (k : ℕ) (s : LM p fi), (∃ sc, s.scaler = some sc) →
        LM.updates c rng k bs s = (.ok (), s') → ∃ sc, s'.scaler = some sc := by
      intro bs
      induction bs with
      | nil => intro k s hs h; rw [updates_nil h]; exact hs
      | cons b bs ih =>
        intro k s _ h
        obtain ⟨t, g1, g2⟩ := updates_cons h
        obtain ⟨_, _, _, _, sc, _, _, _, _, _, _, _, _, _, _, _, _, r2, _⟩ := LM.update_ok g1
        exact ih _ t ⟨sc, r2⟩ g2
    exact this batches 0 s ⟨sc, e1⟩ hup
  obtain ⟨sc, hsc⟩ := hsc
  refine ⟨i, fun X => ⟨_, _, by rw [LM.predict, hsc, h4], by rw [LM.predictPath, hsc, h1], ?_, ?_, ?_⟩⟩
  · cases sc <;> simp [scaledDesign, Scaler.transform]
  · cases sc <;> simp [scaledDesign, Scaler.transform]
  · intro j r hr
    rw [List.getElem?_map] at hr ⊢
    cases hx : (scaledDesign fi sc X)[j]? with
    | none => rw [hx] at hr; cases hr
    | some x =>
      rw [hx] at hr
      cases hr
      simp [List.getElem?_map, hi]

/-! ### A concrete history for C31, C35 and C69 -/

/-- `fit` with a path method succeeds when all its checks pass. -/
theorem LM.fit_path_succeeds (c : LMConfig p fi) (perm : ℕ → ℕ → List (Fin (designDim p fi)))
    (data : List (Obs p)) (s : LM p fi) (h1 : c.Valid)
    (h2 : ¬ (c.regularizeIntercept = true ∧ fi = false)) (h3 : ¬ (data = [] ∨ p = 0))
    (h4 : ¬ ((ws data).sum ≤ designDim p fi ∧ c.method = .str "ols")) (h5 : (ws data).sum ≠ 1)
    (a : EnetArgs) (hm : getEstimationMethod c.method = .ok (.path a)) (sc : Scaler p)
    (hsc : Scaler.fit c.scaleInputs c.forget (xs data) (ws data) = .ok sc)
    (path : List (Row (designDim p fi)))
    (hp : a.fitBetaPath (initGram (scaledDesign fi sc (xs data)) (ws data) c.forget)
      (initYGram (scaledDesign fi sc (xs data)) (ys data) (ws data) c.forget)
      (isRegularized p fi c.regularizeIntercept) perm = .ok path) (hne : path ≠ []) :
    ∃ s', LM.fit c perm data s = (.ok (), s') ∧ s'.coefPath = some path ∧ s'.scaler = some sc ∧
      s'.xGram = some (initGram (scaledDesign fi sc (xs data)) (ws data) c.forget) ∧
      s'.yGram = some (initYGram (scaledDesign fi sc (xs data)) (ys data) (ws data) c.forget) ∧
      s'.nObs = some (ws data).sum ∧ s'.method = some (.path a) ∧
      s'.rss = some (path.map (rssFit (scaledDesign fi sc (xs data)) (ys data) (ws data))) := by
  obtain ⟨i, hi⟩ := C31_select_succeeds c.ic h1.2.2.1 (effectiveTrainingLength c.forget (ws data).sum)
    (path.map fun b => (nParams b : ℝ)) (path.map (rssFit (scaledDesign fi sc (xs data)) (ys data) (ws data)))
    (by simp) (by simpa using hne)
  obtain ⟨pi, ri, v, g1, _⟩ := C31_selected_is_best (by simp) hi
  rw [List.getElem?_map] at g1
  cases hg : path[i]? with
  | none => rw [hg] at g1; cases g1
  | some b =>
    have hb : selectCoef c.ic (effectiveTrainingLength c.forget (ws data).sum) path
        (path.map (rssFit (scaledDesign fi sc (xs data)) (ys data) (ws data))) = .ok b := by
      unfold selectCoef
      rw [bind_ok]
      exact ⟨i, hi, by rw [hg]; rfl⟩
    unfold LM.fit
    rw [Py.bind_raiseIf_neg (not_not.2 h1), hm, Py.bind_call_ok, Py.bind_set, Py.bind_raiseIf_neg h2,
      Py.bind_raiseIf_neg h3]
    simp only
    rw [Py.bind_set, Py.bind_raiseIf_neg h4, Py.bind_raiseIf_neg h5, Py.bind_set, hsc, Py.bind_call_ok,
      Py.bind_set]
    simp only [MethodObj.initXGram]
    rw [Py.bind_call_ok, Py.bind_set, Py.bind_set, hp, Py.bind_call_ok, Py.bind_set, Py.bind_set, hb,
      Py.bind_call_ok]
    exact ⟨_, rfl, rfl, rfl, rfl, rfl, rfl, rfl, rfl⟩

/-- Two equal observations of one column. -/
noncomputable def onesData : List (Obs 1) := [⟨fun _ => 1, 1, 1⟩, ⟨fun _ => 1, 1, 1⟩]

/-- A linear model on one column without intercept. -/
noncomputable def onesConfig (m : MethodArg (designDim 1 false)) : LMConfig 1 false :=
  { forget := 0, scaleInputs := .off, regularizeIntercept := false, method := m, ic := .bic }

theorem lasso_ones_fit (s : LM 1 false) : ∃ s' path, LM.fit (onesConfig (.str "lasso")) (fun _ _ => []) onesData s = (.ok (), s') ∧
    s'.coefPath = some path ∧ path.length = 100 := by
  let c : LMConfig 1 false := onesConfig (.str "lasso")
  let data : List (Obs 1) := onesData
  have hm : getEstimationMethod c.method = .ok (.path lassoDefault) := by
    simp [c, onesConfig, getEstimationMethod, methodFromString]
  have hn : NonnegWeights data := by
    intro o ho
    simp only [data, onesData, List.mem_cons, List.not_mem_nil, or_false] at ho
    rcases ho with rfl | rfl <;> norm_num
  have hsc := scaler_fit_canon (ToScale.off : ToScale 1) 0 data (by simp [data, onesData]) (.inl rfl)
  have hG : ∀ i j : Fin 1, initGram (xs data) (ws data) 0 i j = 2 := by
    intro i j
    rw [initGram_apply (by norm_num) data hn]
    simp [data, onesData, discSum_cons]; norm_num
  have hh : ∀ j : Fin 1, initYGram (xs data) (ys data) (ws data) 0 j = 2 := by
    intro j
    rw [initYGram_apply (by norm_num) data hn]
    simp [data, onesData, discSum_cons]; norm_num
  have hX : scaledDesign false (canonSc (ToScale.off : ToScale 1) 0 data) (xs data) = xs data := by
    exact (List.map_id (xs data) : _)
  have hmax : getLambdaMax (initGram (xs data) (ws data) 0) (initYGram (xs data) (ys data) (ws data) 0)
      (fun _ : Fin 1 => true) = .ok 2 := by
    unfold getLambdaMax
    rw [show (List.finRange 1).filter (fun _ => !true) = [] by decide]
    rw [show List.finRange 1 = [0] by decide]
    change Except.ok (initYGram (xs data) (ys data) (ws data) 0 0) = _
    rw [hh]
  have hlams : ∃ l, lassoDefault.lambdaPath (initGram (xs data) (ws data) 0)
      (initYGram (xs data) (ys data) (ws data) 0) (fun _ : Fin 1 => true) = .ok l :=
    ⟨_, lambdaPath_ok.mpr ⟨_, hmax, by unfold geomspace; rw [if_neg (by simp [lassoDefault])]⟩⟩
  obtain ⟨l, hl⟩ := hlams
  obtain ⟨path, hp, hlen⟩ := fitBetaPath_total (fun _ _ => []) (rfl : setBound 1 none = _)
    (rfl : setBound 1 none = _) hl (by
      intro lam _ j
      rw [hG]; simp [lassoDefault])
  obtain ⟨s', hs', hpath, _⟩ := LM.fit_path_succeeds c (fun _ _ => []) data s
    ⟨le_refl _, by norm_num [c, onesConfig], by simp [c, onesConfig], by simp [c, onesConfig]⟩ (by simp [c, onesConfig])
    (by simp [data, onesData]) (by simp [c, onesConfig]) (by simp [ws, data, onesData]) lassoDefault hm _ hsc path
    (by rw [hX]; exact hp) (by
      intro h0; rw [h0] at hlen; simp [lassoDefault] at hlen)
  exact ⟨s', path, hs', hpath, hlen.trans (by simp [lassoDefault])⟩

/-- Non-vacuity of C31 and C69: the default lasso on one column without intercept. -/
example : ∃ (c : LMConfig 1 false) (a : EnetArgs) (s : LM 1 false),
    getEstimationMethod c.method = .ok (.path a) ∧
    LM.fit c (fun _ _ => []) [⟨fun _ => 1, 1, 1⟩, ⟨fun _ => 1, 1, 1⟩] (LM.new 1 false) = (.ok (), s) := by
  obtain ⟨s', _, h, _⟩ := lasso_ones_fit (LM.new 1 false)
  exact ⟨onesConfig (.str "lasso"), lassoDefault, s', by simp [onesConfig, getEstimationMethod, methodFromString], h⟩

/-- Non-vacuity of C35: the four points on a line and a fifth one. -/
example (rng : ℕ → ℕ → ℕ → List (Fin (designDim 1 true)))
    (perm : ℕ → ℕ → List (Fin (designDim 1 true))) :
    ∃ s s', LM.fit (olsConfig .off) perm lineInit (LM.new 1 true) = (.ok (), s) ∧
      LM.updates (olsConfig .off) rng 0 [lineNew] s = (.ok (), s') ∧ s'.nObs = some 5 := by
  obtain ⟨s, hs⟩ := lineInit_fit perm .off (.inr rfl) (LM.new 1 true)
  obtain ⟨a, _, h1, _⟩ := C09_online_eq_batch (olsConfig .off) rfl rfl rng perm perm lineInit
    [lineNew] (by simp [lineNew]) lineInit_nonneg (by simpa using lineNew_nonneg) _ (LM.new 1 true) s hs
  refine ⟨s, a, hs, h1, ?_⟩
  have := (C35_unit_weights _ _ _ _ _ _ _ _ hs h1 (by simp [lineInit, lineNew])).1
  rw [this]
  norm_num [lineInit, lineNew]

/-! ## C67 on the estimator -/

/-- A path-method state whose Gramians are those of the design `d` and whose path is the batch path. -/
structure PathBatchInv (c : LMConfig p fi) (a : EnetArgs) (perm : ℕ → ℕ → List (Fin (designDim p fi)))
    (h : List (Obs p)) (s : LM p fi) : Prop where
  method : s.method = some (.path a)
  scaler : s.scaler = some (canonSc c.scaleInputs c.forget h)
  xGram : s.xGram = some (initGram (xs (plainObs fi h)) (ws (plainObs fi h)) c.forget)
  yGram : s.yGram = some (initYGram (xs (plainObs fi h)) (ys (plainObs fi h)) (ws (plainObs fi h)) c.forget)
  path : ∃ path, s.coefPath = some path ∧ path.length = a.lambdaN ∧
    a.fitBetaPath (initGram (xs (plainObs fi h)) (ws (plainObs fi h)) c.forget)
      (initYGram (xs (plainObs fi h)) (ys (plainObs fi h)) (ws (plainObs fi h)) c.forget)
      (isRegularized p fi c.regularizeIntercept) perm = .ok path

theorem ws_plainObs (h : List (Obs p)) : ws (plainObs fi h) = ws h := by
  simp only [ws, plainObs, List.map_map]; rfl

theorem ys_plainObs (h : List (Obs p)) : ys (plainObs fi h) = ys h := by
  simp only [ys, plainObs, List.map_map]; rfl

theorem plainObs_nonneg {h : List (Obs p)} (hw : NonnegWeights h) : NonnegWeights (plainObs fi h) := by
  intro o ho
  simp only [plainObs, List.mem_map] at ho
  obtain ⟨o', ho', rfl⟩ := ho
  exact hw o' ho'

theorem plainObs_append (h b : List (Obs p)) : plainObs fi (h ++ b) = plainObs fi h ++ plainObs fi b := by
  simp [plainObs]

theorem PathBatchInv.of_fit {c : LMConfig p fi} {a : EnetArgs} {perm} {data : List (Obs p)} {s s' : LM p fi}
    (hs : c.scaleInputs.selection = none) (ha : getEstimationMethod c.method = .ok (.path a))
    (h : LM.fit c perm data s = (.ok (), s')) : PathBatchInv c a perm data s' := by
  obtain ⟨_, _, _, _, _, m, sc, G, hm, hsc, hG, e1, _, _, e4, e5, _, h5, _⟩ := LM.fit_ok h
  rw [ha] at hm; cases hm
  obtain ⟨_, _, rfl⟩ := scaler_fit_ok _ _ _ _ hsc
  obtain ⟨g0, path, b, hp, g1, _⟩ := h5 a rfl
  have hG' : initGram (scaledDesign fi (canonSc c.scaleInputs c.forget data) (xs data)) (ws data) c.forget = G :=
    Except.ok.inj hG
  rw [scaledDesign_canon, designObs_off hs] at hG' e5 hp
  subst hG'
  refine ⟨g0, e1, ?_, ?_, path, g1, enet_fit_length hp, ?_⟩
  · rw [ws_plainObs]; exact e4
  · rw [ws_plainObs, ys_plainObs]; exact e5
  · rw [ws_plainObs, ys_plainObs]; exact hp

theorem updateBetaPath_previousLambda {q : ℕ} (a : EnetArgs) (hi : a.startInitial = .previousLambda)
    (hu : a.startUpdate = .previousLambda) (G : Matrix (Fin q) (Fin q) ℝ) (h : Row q) (reg : Fin q → Bool)
    (perm : ℕ → ℕ → List (Fin q)) (old : List (Row q)) (hold : old.length = a.lambdaN) :
    a.updateBetaPath G h old reg perm = a.fitBetaPath G h reg perm := by
  unfold EnetArgs.updateBetaPath EnetArgs.fitBetaPath
  rw [hi, hu]
  unfold onlineCDPath
  have key : ∀ lo up G h lams, cdPathLoop (a.pathConfig .previousLambda reg lo up perm) G h 0 0 lams old
      = cdPathLoop (a.pathConfig .previousLambda reg lo up perm) G h 0 0 lams (List.replicate a.lambdaN 0) :=
    fun lo up G h lams => cdPathLoop_previousLambda _ rfl _ _ _ _ _ _ _ (by simp [hold])
  simp only [key]

theorem PathBatchInv.update {c : LMConfig p fi} {a : EnetArgs} {perm} {h b : List (Obs p)} {s s' : LM p fi}
    (hs : c.scaleInputs.selection = none) (hi : a.startInitial = .previousLambda)
    (hu : a.startUpdate = .previousLambda) (hh : NonnegWeights h) (hb : NonnegWeights b)
    (inv : PathBatchInv c a perm h s) (hup : LM.update c perm b s = (.ok (), s')) :
    PathBatchInv c a perm (h ++ b) s' := by
  obtain ⟨hv, h3, n0, sc0, sc, m, G0, G, h0, q1, q2, q3, q4, q5, q6, q7, r1, r2, r3, r4, r5, r6, r7, r8, _⟩ :=
    LM.update_ok hup
  rw [inv.method] at q3; cases q3
  rw [inv.scaler] at q2; cases q2
  rw [inv.xGram] at q4; cases q4
  rw [inv.yGram] at q5; cases q5
  have hbne : b ≠ [] := fun h => h3 (.inl h)
  rw [scaler_update_canon c.scaleInputs hv.2.1 h b hbne hb (.inl hs)] at q6
  cases q6
  obtain ⟨path0, path, rss0, b0, e1, e2, e3, e4, _⟩ := r8 a rfl
  obtain ⟨pth, i1, i2, _⟩ := inv.path
  rw [i1] at e1; cases e1
  have hX : scaledDesign fi (canonSc c.scaleInputs c.forget (h ++ b)) (xs b) = xs (plainObs fi b) := by
    rw [scaledDesign_canon, designObs_off hs]
  have hG : updateGram (initGram (xs (plainObs fi h)) (ws (plainObs fi h)) c.forget)
      (scaledDesign fi (canonSc c.scaleInputs c.forget (h ++ b)) (xs b)) c.forget (.array (ws b)) = G :=
    Except.ok.inj q7
  rw [hX, ← ws_plainObs (fi := fi) (h := b), updateGram_initGram hv.2.1.le _ _ (plainObs_nonneg hh) (plainObs_nonneg hb),
    ← plainObs_append] at hG
  subst hG
  rw [hX, ← ws_plainObs (fi := fi) (h := b), ← ys_plainObs (fi := fi) (h := b),
    updateYGram_initYGram hv.2.1.le _ _ (plainObs_nonneg hh) (plainObs_nonneg hb), ← plainObs_append] at r6 e3
  rw [updateBetaPath_previousLambda a hi hu _ _ _ _ _ i2] at e3
  exact ⟨r1, r2, r5, r6, path, e4, enet_fit_length e3, e3⟩

theorem PathBatchInv.updates {c : LMConfig p fi} {a : EnetArgs} {perm}
    (hs : c.scaleInputs.selection = none) (hi : a.startInitial = .previousLambda)
    (hu : a.startUpdate = .previousLambda) (batches : List (List (Obs p))) {h : List (Obs p)} {k : ℕ}
    {s s' : LM p fi} (hh : NonnegWeights h) (hb : ∀ b ∈ batches, NonnegWeights b)
    (inv : PathBatchInv c a perm h s) (hup : LM.updates c (fun _ => perm) k batches s = (.ok (), s')) :
    PathBatchInv c a perm (h ++ batches.flatten) s' := by
  induction batches generalizing h k s with
  | nil => rw [updates_nil hup]; simpa using inv
  | cons b bs ih =>
    obtain ⟨t, h1, h2⟩ := updates_cons hup
    have hb1 := hb b List.mem_cons_self
    have := ih (hh.append hb1) (fun b' hb' => hb b' (List.mem_cons_of_mem _ hb')) (inv.update hs hi hu hh hb1 h1) h2
    simpa using this

/-- **C67** on the estimator: without input scaling, with start values on the previous lambda and the same
coordinate orders in all calls, a fit followed by any sequence of updates has the same coefficient path as one fit
on all data. -/
theorem C67_linear_model (c : LMConfig p fi) (a : EnetArgs)
    (ha : getEstimationMethod c.method = .ok (.path a)) (hs : c.scaleInputs = .off)
    (hi : a.startInitial = .previousLambda) (hu : a.startUpdate = .previousLambda)
    (perm : ℕ → ℕ → List (Fin (designDim p fi))) (init : List (Obs p)) (batches : List (List (Obs p)))
    (hwi : NonnegWeights init) (hwb : ∀ b ∈ batches, NonnegWeights b) (s₀ s₁ s sOnline sBatch : LM p fi)
    (hfit : LM.fit c perm init s₀ = (.ok (), s))
    (hup : LM.updates c (fun _ => perm) 0 batches s = (.ok (), sOnline))
    (hbatch : LM.fit c perm (init ++ batches.flatten) s₁ = (.ok (), sBatch)) :
    sOnline.coefPath = sBatch.coefPath ∧ ∃ path, sOnline.coefPath = some path := by
  have hsel : c.scaleInputs.selection = none := by rw [hs]; rfl
  have i1 := (PathBatchInv.of_fit hsel ha hfit).updates hsel hi hu batches hwi hwb hup
  have i2 := PathBatchInv.of_fit hsel ha hbatch
  obtain ⟨p1, e1, _, f1⟩ := i1.path
  obtain ⟨p2, e2, _, f2⟩ := i2.path
  rw [f1] at f2
  cases f2
  exact ⟨by rw [e1, e2], p1, e1⟩

/-! ## C36 Residual sum of squares -/

theorem sum_zipWith_append {α β : Type*} (f : α → β → ℝ) (a a' : List α) (b b' : List β)
    (h : a.length = b.length) :
    (List.zipWith f (a ++ a') (b ++ b')).sum = (List.zipWith f a b).sum + (List.zipWith f a' b').sum := by
  rw [List.zipWith_append h, List.sum_append]

theorem rssBatch_append {q : ℕ} (b1 b2 : List (Obs q)) (b : Row q) :
    rssBatch (xs (b1 ++ b2)) (ys (b1 ++ b2)) b = rssBatch (xs b1) (ys b1) b + rssBatch (xs b2) (ys b2) b := by
  unfold rssBatch xs ys
  rw [List.map_append, List.map_append, sum_zipWith_append _ _ _ _ _ (by simp)]

theorem rssBatch_eq {q : ℕ} (d : List (Obs q)) (b : Row q) :
    rssBatch (xs d) (ys d) b = (d.map fun o => (o.y - linPred o.x b) ^ 2).sum := by
  induction d with
  | nil => simp [rssBatch, xs, ys]
  | cons o d ih =>
    have : rssBatch (xs (o :: d)) (ys (o :: d)) b = (o.y - linPred o.x b) ^ 2 + rssBatch (xs d) (ys d) b := by
      simp [rssBatch, xs, ys, rowDot, linPred]
    rw [this, ih]; simp

/-- **C36 (what holds).** Without forgetting, updating the residual sums with two batches one after the other
equals updating with both at once, for fixed coefficients.  Missing: with forgetting this is false, see
`C36_chunking_fails`. -/
theorem C36_no_forget_partial {q : ℕ} (path : List (Row q)) (rss : List ℝ) (b1 b2 : List (Obs q)) :
    rssUpdate 0 (rssUpdate 0 rss path (xs b1) (ys b1)) path (xs b2) (ys b2) =
      rssUpdate 0 rss path (xs (b1 ++ b2)) (ys (b1 ++ b2)) := by
  unfold rssUpdate
  induction path generalizing rss with
  | nil => simp
  | cons b path ih =>
    cases rss with
    | nil => simp
    | cons r rss =>
      simp only [List.zipWith_cons_cons]
      rw [ih rss, rssBatch_append]
      simp only [List.cons.injEq, and_true]
      ring

/-- **C36 (what holds).** With unit weights and no forgetting the values stored by `fit` are the residual sums of
squares.  Missing: other weights and forgetting, see `C36_squared_weights_fails`. -/
theorem C36_fit_partial {q : ℕ} (d : List (Obs q)) (hw : ∀ o ∈ d, o.w = 1) (b : Row q) :
    rssFit (xs d) (ys d) (ws d) b = discSSE 0 d b := by
  unfold discSSE
  rw [discSum_forget_zero]
  induction d with
  | nil => simp [rssFit, xs, ys, ws]
  | cons o d ih =>
    have h1 := ih fun o' ho' => hw o' (List.mem_cons_of_mem _ ho')
    have h2 : rssFit (xs (o :: d)) (ys (o :: d)) (ws (o :: d)) b =
        (o.w * (o.y - linPred o.x b)) ^ 2 + rssFit (xs d) (ys d) (ws d) b := by
      simp [rssFit, xs, ys, ws, rowDot, linPred]
    rw [h2, h1, hw o List.mem_cons_self]
    simp [hw o List.mem_cons_self]

/-- **C36 fails.** With forgetting, splitting a batch in two gives another value than one batch unless the
old discounted sum and the residuals of the first part vanish: the old sum is discounted once per call instead
of once per observation. -/
theorem C36_chunking_fails {q : ℕ} (forget r : ℝ) (hf : forget ≠ 0) (b : Row q) (b1 b2 : List (Obs q)) :
    rssUpdate forget (rssUpdate forget [r] [b] (xs b1) (ys b1)) [b] (xs b2) (ys b2) =
      rssUpdate forget [r] [b] (xs (b1 ++ b2)) (ys (b1 ++ b2)) ↔
    (1 - forget) * r + (b1.map fun o => (o.y - linPred o.x b) ^ 2).sum = 0 := by
  simp only [rssUpdate, List.zipWith_cons_cons, List.zipWith_nil_right, rssBatch_append, ← rssBatch_eq,
    List.cons.injEq, and_true]
  constructor
  · intro h
    have : forget * ((1 - forget) * r + rssBatch (xs b1) (ys b1) b) = 0 := by linear_combination -h
    exact (mul_eq_zero.1 this).resolve_left hf
  · intro h
    linear_combination (-forget) * h

/-- A concrete case: forget 1/2, stored value 4, two exactly predicted observations: 1 after two updates, 2 after
one. -/
example : rssUpdate (1 / 2) (rssUpdate (1 / 2) [4] [(0 : Row 1)] [0] [0]) [(0 : Row 1)] [0] [0] = [1] ∧
    rssUpdate (1 / 2) [4] [(0 : Row 1)] [0, 0] [0, 0] = [2] := by
  constructor <;> norm_num [rssUpdate, rssBatch, rowDot]

/-- **C36 fails.** In every accepted update with a path method the residuals of the batch enter with factor one
whatever their weights are, so observations of weight zero count in the model selection. -/
theorem C36_weights_ignored_fails (c : LMConfig p fi) (a : EnetArgs)
    (perm : ℕ → ℕ → List (Fin (designDim p fi))) (data : List (Obs p)) (s s' : LM p fi)
    (hm : s.method = some (.path a)) (h : LM.update c perm data s = (.ok (), s')) :
    ∃ rss path sc, s.rss = some rss ∧ s'.coefPath = some path ∧ s'.scaler = some sc ∧
      s'.rss = some (List.zipWith (fun r b => (1 - c.forget) * r +
        (List.zipWith (fun x y => (y - linPred x b) ^ 2) (scaledDesign fi sc (xs data)) (ys data)).sum)
        rss path) := by
  obtain ⟨_, _, n0, sc0, sc, m, G0, G, h0, q1, q2, q3, q4, q5, q6, q7, r1, r2, r3, r4, r5, r6, r7, r8, _⟩ :=
    LM.update_ok h
  rw [hm] at q3; cases q3
  obtain ⟨path0, path, rss0, b, e1, e2, e3, e4, e5, e6, e7⟩ := r8 a rfl
  exact ⟨rss0, path, sc, e2, e4, r2, e5⟩

/-- **C36 fails.** `fit` counts an observation of weight `w` with factor `w²`. -/
theorem C36_squared_weights_fails {q : ℕ} (o : Obs q) (b : Row q) :
    rssFit (xs [o]) (ys [o]) (ws [o]) b = o.w ^ 2 * (o.y - linPred o.x b) ^ 2 := by
  simp [rssFit, xs, ys, ws, rowDot, linPred, mul_pow]

/-! ## C37 Too few observations -/

theorem fst_raiseIf {σ β : Type} {c : Prop} {e e' : PyErr} {f : Unit → Py σ β} {s : σ}
    (h1 : c → e = e') (h2 : ¬ c → (f () s).1 = .error e') : ((Py.raiseIf c e >>= f) s).1 = .error e' := by
  by_cases h : c
  · rw [Py.bind_of_error (Py.raiseIf_pos h e s), h1 h]
  · rw [Py.bind_of_ok (Py.raiseIf_neg h e s)]; exact h2 h

theorem fst_call {σ α β : Type} {x : Except PyErr α} {e' : PyErr} {f : α → Py σ β} {s : σ}
    (h1 : ∀ e, x = .error e → e = e') (h2 : ∀ a, x = .ok a → (f a s).1 = .error e') :
    ((Py.call x >>= f) s).1 = .error e' := by
  cases x with
  | error e => rw [Py.bind_call_error, h1 e rfl]
  | ok a => rw [Py.bind_call_ok]; exact h2 a rfl

theorem fst_set {σ β : Type} {g : σ → σ} {e' : PyErr} {f : Unit → Py σ β} {s : σ}
    (h : (f () (g s)).1 = .error e') : ((Py.set g >>= f) s).1 = .error e' := h

theorem getEstimationMethod_error {q : ℕ} {m : MethodArg q} {e : PyErr}
    (h : getEstimationMethod m = .error e) : e = .valueError := by
  cases m with
  | str s =>
    simp only [getEstimationMethod, methodFromString] at h
    split_ifs at h
    cases h; rfl
  | obj m => cases h
  | other => cases h; rfl

/-- **C37.** With the method given by name, a total weight not above the number of design columns is rejected
with a `ValueError`. -/
theorem C37_named (c : LMConfig p fi) (hm : c.method = .str "ols")
    (perm : ℕ → ℕ → List (Fin (designDim p fi))) (data : List (Obs p))
    (hn : (data.map Obs.w).sum ≤ designDim p fi) (s : LM p fi) :
    (LM.fit c perm data s).1 = .error .valueError := by
  unfold LM.fit
  refine fst_raiseIf (fun _ => rfl) fun _ => ?_
  refine fst_call (fun e he => getEstimationMethod_error he) fun m _ => ?_
  refine fst_set (fst_raiseIf (fun _ => rfl) fun _ => fst_raiseIf (fun _ => rfl) fun _ => fst_set ?_)
  exact fst_raiseIf (fun _ => rfl) fun h => absurd ⟨hn, hm⟩ h

/-- **C37.** In particular with unit weights: not more rows than columns. -/
theorem C37_named_rows (c : LMConfig p fi) (hm : c.method = .str "ols")
    (perm : ℕ → ℕ → List (Fin (designDim p fi))) (data : List (Obs p)) (hw : ∀ o ∈ data, o.w = 1)
    (hn : data.length ≤ designDim p fi) (s : LM p fi) :
    (LM.fit c perm data s).1 = .error .valueError := by
  refine C37_named c hm perm data ?_ s
  have : data.map Obs.w = List.replicate data.length 1 := by
    rw [List.eq_replicate_iff]
    exact ⟨by simp, by simpa using hw⟩
  rw [this, List.sum_replicate]
  simpa using hn

/-- **C37.** A single row is rejected with a `ValueError` for every method, weight and option. -/
theorem C37_single_row (c : LMConfig p fi) (perm : ℕ → ℕ → List (Fin (designDim p fi))) (o : Obs p)
    (s : LM p fi) : (LM.fit c perm [o] s).1 = .error .valueError := by
  have hsc : Scaler.fit c.scaleInputs c.forget (xs [o]) (ws [o]) = .error .valueError := by
    unfold Scaler.fit
    cases hs : c.scaleInputs.selection with
    | none => simp [xs]
    | some l => simp [scalerFit, xs]
  unfold LM.fit
  refine fst_raiseIf (fun _ => rfl) fun _ => ?_
  refine fst_call (fun e he => getEstimationMethod_error he) fun m _ => ?_
  refine fst_set (fst_raiseIf (fun _ => rfl) fun _ => fst_raiseIf (fun _ => rfl) fun _ => fst_set ?_)
  refine fst_raiseIf (fun _ => rfl) fun _ => fst_raiseIf (fun _ => rfl) fun _ => fst_set ?_
  refine fst_call (fun e he => ?_) fun sc h => ?_
  · rw [hsc] at he; cases he; rfl
  · rw [hsc] at h; cases h

/-- Fewer observations than columns never have full rank. -/
theorem not_fullRank_of_length_lt {q : ℕ} (d : List (Obs q)) (h : d.length < q) : ¬ FullRank d := by
  intro hf
  let f : (Fin q → ℝ) →ₗ[ℝ] (Fin d.length → ℝ) :=
    { toFun := fun v i => linPred (d.get i).x v
      map_add' := fun v w => by
        funext i; simp [linPred, mul_add, Finset.sum_add_distrib]
      map_smul' := fun r v => by
        funext i; simp only [linPred, Pi.smul_apply, smul_eq_mul, RingHom.id_apply, Finset.mul_sum]
        exact Finset.sum_congr rfl fun j _ => by ring }
  have hker : LinearMap.ker f ≠ ⊥ := LinearMap.ker_ne_bot_of_finrank_lt (by simpa using h)
  obtain ⟨v, hv, hv0⟩ := (Submodule.ne_bot_iff _).1 hker
  refine hv0 (hf v fun o ho _ => ?_)
  obtain ⟨i, rfl⟩ := List.get_of_mem ho
  exact congrFun (LinearMap.mem_ker.1 hv) i

/-- **C37.** With the method given as an object, fewer rows than design columns are rejected with a
`ValueError` (for positive weights). -/
theorem C37_object (c : LMConfig p fi) (hm : getEstimationMethod c.method = .ok .ols)
    (perm : ℕ → ℕ → List (Fin (designDim p fi))) (data : List (Obs p)) (hw : ∀ o ∈ data, 0 < o.w)
    (hn : data.length < designDim p fi) (s : LM p fi) :
    (LM.fit c perm data s).1 = .error .valueError := by
  unfold LM.fit
  refine fst_raiseIf (fun _ => rfl) fun hval => ?_
  rw [not_not] at hval
  refine fst_call (fun e he => getEstimationMethod_error he) fun m hm' => ?_
  rw [hm] at hm'; cases hm'
  refine fst_set (fst_raiseIf (fun _ => rfl) fun _ => fst_raiseIf (fun _ => rfl) fun h3 => fst_set ?_)
  refine fst_raiseIf (fun _ => rfl) fun _ => fst_raiseIf (fun _ => rfl) fun _ => fst_set ?_
  have hne : data ≠ [] := fun h => h3 (.inl h)
  have hnn : NonnegWeights data := fun o ho => (hw o ho).le
  have hW : totalWeight c.forget data ≠ 0 :=
    (discSum_pos hval.2.1 data hne fun o ho => hw o ho).ne'
  by_cases hlen : 2 ≤ data.length
  · have hsc := scaler_fit_canon c.scaleInputs c.forget data hlen (.inr hW)
    refine fst_call (fun e he => by rw [hsc] at he; cases he) fun sc h => ?_
    rw [hsc] at h; cases h
    refine fst_set ?_
    set d := designObs c.scaleInputs c.forget fi data data with hd
    have hG : initInvertedGram (scaledDesign fi (canonSc c.scaleInputs c.forget data) (xs data)) (ws data)
        c.forget = .error .valueError := by
      rw [scaledDesign_canon, ← ws_designObs c.scaleInputs c.forget data data (fi := fi), ← hd]
      unfold initInvertedGram
      rw [if_neg]
      rw [rank_eq_iff_isUnit_det, isUnit_det_iff_fullRank hval.2.1 d (designObs_nonneg _ _ _ _ hnn)]
      exact not_fullRank_of_length_lt d (by simpa [hd, designObs] using hn)
    refine fst_call (fun e he => ?_) fun G h => ?_
    · have he' : initInvertedGram _ _ _ = _ := he
      rw [hG] at he'; cases he'; rfl
    · have h' : initInvertedGram _ _ _ = _ := h
      rw [hG] at h'; cases h'
  · have hl1 : (xs data).length < 2 := by simp only [xs, List.length_map]; omega
    have hsc : Scaler.fit c.scaleInputs c.forget (xs data) (ws data) = .error .valueError := by
      unfold Scaler.fit
      cases hs : c.scaleInputs.selection with
      | none => simp only [hl1, if_true]
      | some l => simp only [scalerFit, hl1, if_true]; rfl
    refine fst_call (fun e he => ?_) fun sc h => ?_
    · rw [hsc] at he; cases he; rfl
    · rw [hsc] at h; cases h

/-- Two points with the given weight. -/
noncomputable def twoPoints (w : ℝ) : List (Obs 1) := [⟨fun _ => -1, 3, w⟩, ⟨fun _ => 1, 5, w⟩]

theorem twoPoints_fit (m : MethodArg (designDim 1 true)) (hm : getEstimationMethod m = .ok .ols) (w : ℝ) (hw : 0 < w)
    (h4 : ¬ (w + w ≤ 2 ∧ m = .str "ols")) (h1 : w + w ≠ 1)
    (perm : ℕ → ℕ → List (Fin (designDim 1 true))) (s : LM 1 true) :
    ∃ s', LM.fit { olsConfig .off with method := m } perm (twoPoints w) s = (.ok (), s') := by
  have hn : NonnegWeights (twoPoints w) := by
    intro o ho
    simp only [twoPoints, List.mem_cons, List.not_mem_nil, or_false] at ho
    rcases ho with rfl | rfl <;> exact hw.le
  have hsum : (ws (twoPoints w)).sum = w + w := by simp [ws, twoPoints]
  have hmo : m ≠ .other := by rintro rfl; cases hm
  refine LM.fit_ols_succeeds _ perm _ s ⟨(olsConfig_valid .off).1, (olsConfig_valid .off).2.1,
      (olsConfig_valid .off).2.2.1, hmo⟩ (by simp) ?_ ?_ ?_ hm _
    (scaler_fit_canon .off 0 _ (by simp [twoPoints]) (.inl rfl))
    ((initGram (xs (designObs .off 0 true (twoPoints w) (twoPoints w)))
      (ws (designObs .off 0 true (twoPoints w) (twoPoints w))) 0)⁻¹) ?_
  · simp [twoPoints]
  · rw [hsum]
    have : ((designDim 1 true : ℕ) : ℝ) = 2 := by norm_num [designDim]
    rw [this]; exact h4
  · rw [hsum]; exact h1
  · rw [scaledDesign_canon, ← ws_designObs .off 0 (twoPoints w) (twoPoints w) (fi := true)]
    refine initInvertedGram_of_isUnit
      ((isUnit_det_iff_fullRank (olsConfig_valid .off).2.1 _ (designObs_nonneg _ _ _ _ hn)).2 ?_)
    refine fullRank_of_two (x := -1) (x' := 1) (y := 3) (y' := 5) (w := w) (w' := w) (by norm_num) hw hw ?_ ?_
    · rw [designObs_off rfl]; simp [plainObs, twoPoints]
    · rw [designObs_off rfl]; simp [plainObs, twoPoints]

/-- **C37 fails** (method as an object): two rows and two design columns are accepted with
`method=OrdinaryLeastSquares()`. -/
theorem C37_object_fails (perm : ℕ → ℕ → List (Fin (designDim 1 true))) (s : LM 1 true) :
    ∃ s', LM.fit { olsConfig .off with method := .obj .ols } perm (twoPoints 1) s = (.ok (), s') :=
  twoPoints_fit _ rfl 1 (by norm_num) (by simp) (by norm_num) perm s

/-- **C37 fails** (weights): two rows of weight 2 and two design columns are accepted with
`method="ols"`, because the guard adds up weights. -/
theorem C37_weights_fails (perm : ℕ → ℕ → List (Fin (designDim 1 true))) (s : LM 1 true) :
    ∃ s', LM.fit (olsConfig .off) perm (twoPoints 2) s = (.ok (), s') :=
  twoPoints_fit _ getEstimationMethod_ols 2 (by norm_num) (by norm_num) (by norm_num) perm s

/-! ## C38 Dispatch of `partial_fit` -/

/-- A sequence of `partial_fit` calls. -/
noncomputable def LM.partialFits (c : LMConfig p fi) (rng : ℕ → ℕ → ℕ → List (Fin (designDim p fi))) :
    ℕ → List (List (Obs p)) → Py (LM p fi) Unit
  | _, [] => pure ()
  | k, b :: bs => do
    LM.partialFit c (rng k) b
    LM.partialFits c rng (k + 1) bs

theorem update_isFitted {c : LMConfig p fi} {perm} {data : List (Obs p)} {s s' : LM p fi}
    (h : LM.update c perm data s = (.ok (), s')) : s'.isFitted = true := by
  obtain ⟨_, _, _, _, _, _, _, _, _, _, _, _, _, _, _, _, _, _, r3, _⟩ := LM.update_ok h
  simp [LM.isFitted, r3]

theorem partialFits_fitted (c : LMConfig p fi) (rng : ℕ → ℕ → ℕ → List (Fin (designDim p fi)))
    (bs : List (List (Obs p))) (k : ℕ) (s : LM p fi) (hs : s.isFitted = true) :
    LM.partialFits c rng k bs s = LM.updates c rng k bs s := by
  induction bs generalizing k s with
  | nil => rfl
  | cons b bs ih =>
    unfold LM.partialFits LM.updates
    have h1 : LM.partialFit c (rng k) b s = LM.update c (rng k) b s := by
      unfold LM.partialFit
      rw [Py.bind_self, if_pos hs]
    rcases h : LM.update c (rng k) b s with ⟨r, t⟩
    rw [h] at h1
    cases r with
    | error e => rw [Py.bind_of_error h1, Py.bind_of_error h]
    | ok u =>
      rw [Py.bind_of_ok h1, Py.bind_of_ok h]
      exact ih _ _ (update_isFitted h)

/-- **C38.** Starting from a new estimator, a sequence of `partial_fit` calls whose first call is accepted does
exactly what `fit` followed by `update` calls does: same result, same exceptions, same attributes. -/
theorem C38_partial_fit (c : LMConfig p fi) (rng : ℕ → ℕ → ℕ → List (Fin (designDim p fi)))
    (b : List (Obs p)) (bs : List (List (Obs p))) (s : LM p fi)
    (h : LM.fit c (rng 0) b (LM.new p fi) = (.ok (), s)) :
    LM.partialFits c rng 0 (b :: bs) (LM.new p fi) = LM.updates c rng 1 bs s := by
  unfold LM.partialFits
  have h1 : LM.partialFit c (rng 0) b (LM.new p fi) = (.ok (), s) := by
    unfold LM.partialFit
    rw [Py.bind_self, if_neg (by simp [LM.new, LM.isFitted])]
    exact h
  rw [Py.bind_of_ok h1]
  refine partialFits_fitted c rng bs 1 s ?_
  obtain ⟨_, _, _, _, _, _, _, _, _, _, _, _, h2, _⟩ := LM.fit_ok h
  simp [LM.isFitted, h2]

/-- **C38 (what holds).** A new estimator is not fitted, and it is fitted after an accepted `fit`.  Missing: it
is also reported as fitted after some rejected fits, see `C38_is_fitted_fails`. -/
theorem C38_is_fitted_partial (c : LMConfig p fi) (perm : ℕ → ℕ → List (Fin (designDim p fi)))
    (data : List (Obs p)) (s s' : LM p fi) (h : LM.fit c perm data s = (.ok (), s')) :
    (LM.new p fi).isFitted = false ∧ s'.isFitted = true := by
  obtain ⟨_, _, _, _, _, _, _, _, _, _, _, _, h2, _⟩ := LM.fit_ok h
  exact ⟨rfl, by simp [LM.isFitted, h2]⟩

/-- **C38 fails.** Any first `partial_fit` with too few observations for `method="ols"` is rejected, but the
estimator is reported as fitted afterwards, and every later non-empty `partial_fit` raises
`NotFittedError`. -/
theorem C38_is_fitted_fails (c : LMConfig p fi) (hv : c.Valid) (hm : c.method = .str "ols")
    (hr : c.regularizeIntercept = false) (hp : p ≠ 0) (perm perm' : ℕ → ℕ → List (Fin (designDim p fi)))
    (data data' : List (Obs p)) (hne : data ≠ []) (hne' : data' ≠ [])
    (hn : (data.map Obs.w).sum ≤ designDim p fi) :
    ∃ s, LM.partialFit c perm data (LM.new p fi) = (.error .valueError, s) ∧ s.isFitted = true ∧
      (LM.partialFit c perm' data' s).1 = .error .notFitted := by
  have hg : getEstimationMethod c.method = .ok .ols := by rw [hm]; exact getEstimationMethod_ols
  refine ⟨{ LM.new p fi with method := some .ols, nObs := some (ws data).sum }, ?_, rfl, ?_⟩
  · unfold LM.partialFit
    rw [Py.bind_self, if_neg (by simp [LM.new, LM.isFitted])]
    unfold LM.fit
    rw [Py.bind_raiseIf_neg (not_not.2 hv), hg, Py.bind_call_ok, Py.bind_set,
      Py.bind_raiseIf_neg (by simp [hr]), Py.bind_raiseIf_neg (by simp [hne, hp]), Py.bind_set,
      Py.bind_raiseIf_pos ⟨hn, hm⟩]
    rfl
  · unfold LM.partialFit
    rw [Py.bind_self, if_pos (by rfl)]
    unfold LM.update
    refine fst_raiseIf (fun h => absurd hv h) fun _ => fst_raiseIf (fun h => ?_) fun _ => ?_
    · simp [hne', hp] at h
    · rfl

/-- Non-vacuity of `C38_is_fitted_fails`: one observation for an intercept and a slope. -/
example : (olsConfig .off).Valid ∧ (olsConfig .off).method = .str "ols" ∧
    ((([⟨fun _ => 1, 1, 1⟩] : List (Obs 1)).map Obs.w).sum : ℝ) ≤ designDim 1 true :=
  ⟨olsConfig_valid _, rfl, by norm_num [designDim]⟩

/-! ## C39 Coefficient of determination -/

theorem zipWith_sq_nonneg (y z : List ℝ) : 0 ≤ (List.zipWith (fun a b => (a - b) ^ 2) y z).sum := by
  induction y generalizing z with
  | nil => simp
  | cons a y ih =>
    cases z with
    | nil => simp
    | cons b z =>
      simp only [List.zipWith_cons_cons, List.sum_cons]
      exact add_nonneg (sq_nonneg _) (ih z)

theorem zipWith_sq_eq_zero (y z : List ℝ) (hl : y.length = z.length) :
    (List.zipWith (fun a b => (a - b) ^ 2) y z).sum = 0 ↔ y = z := by
  induction y generalizing z with
  | nil => cases z with
    | nil => simp
    | cons b z => simp at hl
  | cons a y ih =>
    cases z with
    | nil => simp at hl
    | cons b z =>
      simp only [List.zipWith_cons_cons, List.sum_cons, List.cons.injEq]
      rw [← ih z (by simpa using hl), add_eq_zero_iff_of_nonneg (sq_nonneg _) (zipWith_sq_nonneg _ _)]
      refine and_congr_left fun _ => ?_
      rw [sq_eq_zero_iff, sub_eq_zero]

/-- **C39.** For a response that is not constant, the score of any fitted state is at most one, and it is one
exactly when every prediction equals the response. -/
theorem C39_score_le_one (s : LM p fi) (X : List (Row p)) (y z : List ℝ) (hp : s.predict X = .ok z)
    (hl : y.length = z.length) (hc : ∃ a ∈ y, ∃ b ∈ y, a ≠ b) :
    ∃ r, s.score X y = .ok r ∧ r ≤ 1 ∧ (r = 1 ↔ z = y) := by
  have ht : 0 < (y.map fun a => (a - y.sum / y.length) ^ 2).sum := by
    obtain ⟨a, ha, b, hb, hab⟩ := hc
    have hnn : ∀ l : List ℝ, 0 ≤ (l.map fun a => (a - y.sum / y.length) ^ 2).sum := fun l =>
      List.sum_nonneg (by
        intro x hx
        obtain ⟨a, _, rfl⟩ := List.mem_map.1 hx
        exact sq_nonneg _)
    have hz : ∀ l : List ℝ, (l.map fun a => (a - y.sum / y.length) ^ 2).sum = 0 →
        ∀ x ∈ l, x = y.sum / y.length := by
      intro l
      induction l with
      | nil => simp
      | cons x l ih =>
        intro h
        rw [List.map_cons, List.sum_cons, add_eq_zero_iff_of_nonneg (sq_nonneg _) (hnn l)] at h
        intro x' hx'
        rcases List.mem_cons.1 hx' with rfl | hx'
        · exact sub_eq_zero.1 (sq_eq_zero_iff.1 h.1)
        · exact ih h.2 x' hx'
    refine lt_of_le_of_ne (hnn y) fun h => hab ?_
    rw [hz y h.symm a ha, hz y h.symm b hb]
  refine ⟨_, by rw [LM.score, hp]; rfl, ?_, ?_⟩
  · have := div_nonneg (zipWith_sq_nonneg y z) ht.le
    linarith
  · rw [eq_comm (a := z), ← zipWith_sq_eq_zero y z hl]
    constructor
    · intro h
      have : (List.zipWith (fun a b => (a - b) ^ 2) y z).sum /
          (y.map fun a => (a - y.sum / y.length) ^ 2).sum = 0 := by linarith
      exact (div_eq_zero_iff.1 this).resolve_right ht.ne'
    · intro h
      rw [h, zero_div, sub_zero]

/-- Non-vacuity of C39: a model that predicts `x`, scored on the responses 1 and 2. -/
example : ∃ s : LM 1 false, s.predict [fun _ => 1, fun _ => 2] = .ok [1, 2] ∧
    s.score [fun _ => 1, fun _ => 2] [1, 2] = .ok 1 := by
  refine ⟨{ LM.new 1 false with scaler := some (.off 2), coef := some (fun _ => 1 : Row 1) }, ?_⟩
  have h : LM.predict ({ LM.new 1 false with scaler := some (.off 2), coef := some (fun _ => 1 : Row 1) })
      [fun _ => 1, fun _ => 2] = .ok [1, 2] := by
    simp only [LM.predict, scaledDesign, Scaler.transform, List.map_cons, List.map_nil, designRow]
    have e : ∀ z : ℝ, rowDot (fun _ => z : Row (designDim 1 false)) (fun _ => 1) = z := by
      intro z
      change ∑ _j : Fin 1, z * 1 = z
      simp
    exact congrArg Except.ok (congrArg₂ List.cons (e 1) (congrArg₂ List.cons (e 2) rfl))
  refine ⟨h, ?_⟩
  obtain ⟨r, h1, _, h3⟩ := C39_score_le_one _ _ [1, 2] [1, 2] h rfl ⟨1, by simp, 2, by simp, by norm_num⟩
  rw [h1, h3.2 rfl]

end Ondil
