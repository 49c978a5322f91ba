import Verif.Lemmas.WeightUnits
import Verif.Props.Frequencies
import Verif.Props.Improvement

/-!
# The unit of the sample weights (C112)
-/

open scoped BigOperators

namespace Ondil

variable {p : ℕ} {fi : Bool} {k : ℝ}

theorem predict_weighted {s t : LM p fi} (hs : t.scaler = s.scaler.map (Scaler.scaleW k)) (hc : t.coef = s.coef) (X : List (Row p)) :
    t.predict X = s.predict X := by
  unfold LM.predict
  rw [hs, hc]
  cases s.scaler with
  | none => rfl
  | some sc =>
    cases s.coef with
    | none => rfl
    | some b =>
      change Except.ok ((scaledDesign fi (sc.scaleW k) X).map _) = _
      rw [scaledDesign_scaleW]

/-- Sample weights in another unit, for data that pass the checks on the sum of the weights in both units: the runs raise alike;
after a success least squares and ridge with the default penalty have the same coefficients, predictions and scores, and the path
methods have the same coefficient path and the same predictions of all its rows.
Missing: the row that is selected from a path (`C112_selection_fails`), a given ridge penalty (`C112_ridge_fails`), the checks
(`C112_normalised_fails`). -/
theorem C112_weight_units_partial (hk : 0 < k) (c : LMConfig p fi)
    (hm : ∀ m, getEstimationMethod c.method = .ok m → m.WeightFree)
    (perm : ℕ → ℕ → List (Fin (designDim p fi))) (rng : ℕ → ℕ → ℕ → List (Fin (designDim p fi))) (data : List (Obs p))
    (hone : (ws data).sum ≠ 1 ∧ k * (ws data).sum ≠ 1)
    (hols : c.method = .str "ols" → designDim p fi < (ws data).sum ∧ designDim p fi < k * (ws data).sum)
    (batches : List (List (Obs p))) (s s' : LM p fi) :
    let run := fun (d : List (Obs p)) (bs : List (List (Obs p))) => (do
      LM.fit c perm d
      LM.updates c rng 0 bs : Py (LM p fi) Unit)
    let r := run data batches s
    let r' := run (data.map (Obs.scaleW k)) (batches.map fun d => d.map (Obs.scaleW k)) s'
    r'.1 = r.1 ∧ (r.1 = .ok () →
      ((∃ a, r.2.method = some (.path a)) → r'.2.coefPath = r.2.coefPath ∧ ∀ X, r'.2.predictPath X = r.2.predictPath X) ∧
      ((∀ a, r.2.method ≠ some (.path a)) → r'.2.coef = r.2.coef ∧ (∀ X, r'.2.predict X = r.2.predict X) ∧
        ∀ X y, r'.2.score X y = r.2.score X y)) := by
  intro run r r'
  by_cases hv : c.Valid
  · have h := Py.RelTo.bind (LM.fit_weighted hk c hv hm perm data
      (fun e => ⟨fun h => absurd (hols e).1 (not_lt.2 h), fun h => absurd (hols e).2 (not_lt.2 h)⟩)
      ⟨fun h => absurd h hone.1, fun h => absurd h hone.2⟩) (fun _ => LM.updates_weighted hk c hv rng batches 0) s s' trivial
    refine ⟨h.1.symm, fun hok => ?_⟩
    have h2 : WeightedLM k r.2 r'.2 := h.2 () hok
    refine ⟨fun ⟨a, ha⟩ => ?_, fun hp => ?_⟩
    · obtain ⟨path, _, _, _, _, f1, f2, _⟩ := h2.path a ha
      refine ⟨f2.trans f1.symm, fun X => ?_⟩
      unfold LM.predictPath
      rw [h2.scaler, f1, f2]
      cases r.2.scaler with
      | none => rfl
      | some sc =>
        change Except.ok ((scaledDesign fi (sc.scaleW k) X).map _) = _
        rw [scaledDesign_scaleW]
    · have hc := h2.coef hp
      have hpr := predict_weighted h2.scaler hc
      exact ⟨hc, hpr, fun X y => by unfold LM.score; rw [hpr]⟩
  · have key : ∀ (d : List (Obs p)) (bs : List (List (Obs p))) (s : LM p fi), (run d bs s).1 = .error .valueError := by
      intro d bs s
      have : LM.fit c perm d s = (.error .valueError, s) := by
        unfold LM.fit
        rw [Py.bind_raiseIf_pos hv]
      simp only [run]
      rw [Py.bind_of_error this]
    refine ⟨(key ..).trans (key ..).symm, fun h => ?_⟩
    rw [show r.1 = _ from key ..] at h
    cases h

/-! ### Criterion 'max' -/

theorem effectiveTrainingLength_pos {f n : ℝ} (hf0 : 0 ≤ f) (hf1 : f < 1) (hn : 0 < n) : 0 < effectiveTrainingLength f n := by
  unfold effectiveTrainingLength
  split_ifs with h
  · exact hn
  · have hf : 0 < f := lt_of_le_of_ne hf0 (Ne.symm h)
    exact div_pos (sub_pos.2 (Real.rpow_lt_one (by linarith) (by linarith) hn)) hf

theorem rssFit_weights {q : ℕ} (k : ℝ) (X : List (Row q)) (y w : List ℝ) (b : Row q) :
    rssFit X y (w.map (k * ·)) b = k ^ 2 * rssFit X y w b := by
  unfold rssFit
  induction X generalizing y w with
  | nil => simp
  | cons x X ih =>
    cases w with
    | nil => simp
    | cons a w =>
      cases y with
      | nil => simp
      | cons v y =>
        simp only [List.map_cons, List.zip_cons_cons, List.zipWith_cons_cons, List.sum_cons]
        rw [ih]
        ring

theorem rssFit_nonneg_weights {q : ℕ} (X : List (Row q)) (y w : List ℝ) (b : Row q) : 0 ≤ rssFit X y w b := by
  unfold rssFit
  refine List.sum_nonneg fun r hr => ?_
  obtain ⟨i, hi, rfl⟩ := List.getElem_of_mem hr
  rw [List.getElem_zipWith]
  positivity

/-- The criterion 'max' is the exception: after a fit of a path method also the selected coefficients, the predictions and the scores
do not depend on the unit of the weights. -/
theorem C112_max_fit (hk : 0 < k) (c : LMConfig p fi) (hic : c.ic = .max) {a : EnetArgs}
    (hm : getEstimationMethod c.method = .ok (.path a)) (perm : ℕ → ℕ → List (Fin (designDim p fi))) (data : List (Obs p))
    (hw : 0 < (ws data).sum) {s t s' t' : LM p fi} (hs : LM.fit c perm data s = (.ok (), s'))
    (ht : LM.fit c perm (data.map (Obs.scaleW k)) t = (.ok (), t')) :
    t'.coef = s'.coef ∧ (∀ X, t'.predict X = s'.predict X) ∧ ∀ X y, t'.score X y = s'.score X y := by
  obtain ⟨hv, _, _, h4, h5, m, sc, G, hm1, hsc, hG, q1, _, _, _, _, _, q7, _⟩ := LM.fit_ok hs
  obtain ⟨_, _, _, _, g5, m', sc', G', hm1', hsc', hG', q1', _, _, _, _, _, q7', _⟩ := LM.fit_ok ht
  cases hm1.symm.trans hm
  cases hm1'.symm.trans hm
  rw [ws_scaleW, xs_scaleW, Scaler.fit_weights hk.ne', hsc] at hsc'
  cases hsc'
  obtain ⟨_, path, b, e1, _, _, e4, e5⟩ := q7 a rfl
  obtain ⟨_, path', b', e1', _, _, e4', e5'⟩ := q7' a rfl
  rw [ws_scaleW, xs_scaleW, scaledDesign_scaleW, MethodObj.initXGram_weights hk, hG] at hG'
  cases hG'
  rw [ws_scaleW, xs_scaleW, ys_scaleW, scaledDesign_scaleW, initYGram_weights hk.le] at e1'
  have e1'' : a.fitBetaPath (k • G) (k • initYGram (scaledDesign fi sc (xs data)) (ys data) (ws data) c.forget)
      (isRegularized p fi c.regularizeIntercept) perm = .ok path' := e1'
  rw [C30_fit a G _ _ perm hk, e1] at e1''
  cases e1''
  rw [ws_scaleW, xs_scaleW, ys_scaleW, scaledDesign_scaleW, list_sum_scale, hic] at e4'
  rw [hic] at e4
  have hsel : ∀ {n : ℝ} {rss : List ℝ} {b : Row (designDim p fi)}, selectCoef .max n path rss = .ok b →
      ∃ i, selectByRss .max n (path.map fun b => (nParams b : ℝ)) rss = .ok i ∧ path[i]? = some b := by
    intro n rss b h
    unfold selectCoef at h
    rw [bind_ok] at h
    obtain ⟨i, hi, h⟩ := h
    refine ⟨i, hi, ?_⟩
    cases hp : path[i]? with
    | none => rw [hp] at h; cases h
    | some b' => rw [hp] at h; cases h; rfl
  obtain ⟨i, hi, hb⟩ := hsel e4
  obtain ⟨j, hj, hb'⟩ := hsel e4'
  have hn := effectiveTrainingLength_pos hv.1 hv.2.1 hw
  have hn' := effectiveTrainingLength_pos hv.1 hv.2.1 (mul_pos hk hw)
  obtain ⟨ri, a1, a2, a3⟩ := C34_max_likelihood_partial hn (by
    intro r hr
    obtain ⟨b, _, rfl⟩ := List.mem_map.1 hr
    exact rssFit_nonneg_weights ..) (by simp) hi
  obtain ⟨rj, b1, b2, b3⟩ := C34_max_likelihood_partial hn' (by
    intro r hr
    obtain ⟨b, _, rfl⟩ := List.mem_map.1 hr
    exact rssFit_nonneg_weights ..) (by simp) hj
  rw [List.getElem?_map, hb] at a1
  rw [List.getElem?_map, hb'] at b1
  cases a1
  cases b1
  have hk2 : 0 < k ^ 2 := by positivity
  have hij : i = j := by
    rcases lt_trichotomy i j with h | h | h
    · exfalso
      have := b3 i _ h (by rw [List.getElem?_map, hb]; rfl)
      rw [rssFit_weights, rssFit_weights] at this
      have h2 := a2 _ (List.mem_map.2 ⟨b', List.mem_of_getElem? hb', rfl⟩)
      nlinarith
    · exact h
    · exfalso
      have := a3 j _ h (by rw [List.getElem?_map, hb']; rfl)
      have h2 := b2 _ (List.mem_map.2 ⟨b, List.mem_of_getElem? hb, rfl⟩)
      rw [rssFit_weights, rssFit_weights] at h2
      nlinarith
  subst hij
  rw [hb] at hb'
  cases hb'
  have hc : t'.coef = s'.coef := e5'.trans e5.symm
  have hp := predict_weighted (k := k) (s := s') (t := t') (by rw [q1, q1']; rfl) hc
  exact ⟨hc, hp, fun X y => by unfold LM.score; rw [hp]⟩

/-! ### Where it is false -/

/-- **C112 fails for normalised weights.** Whatever the data are: after division of the weights by their sum `fit` always raises a
`ValueError`, as if there were one observation only. -/
theorem C112_normalised_fails (c : LMConfig p fi) (perm : ℕ → ℕ → List (Fin (designDim p fi))) (data : List (Obs p))
    (hw : (ws data).sum ≠ 0) (s : LM p fi) :
    (LM.fit c perm (data.map (Obs.scaleW (1 / (ws data).sum))) s).1 = .error .valueError := by
  have h1 : (ws (data.map (Obs.scaleW (1 / (ws data).sum)))).sum = 1 := by
    rw [ws_scaleW, list_sum_scale, one_div, inv_mul_cancel₀ hw]
  unfold LM.fit
  by_cases h2 : c.Valid
  swap
  · rw [Py.bind_raiseIf_pos h2]
  rw [Py.bind_raiseIf_neg (not_not.2 h2)]
  cases hm : getEstimationMethod c.method with
  | error e =>
    have : e = .valueError := by
      cases hc : c.method with
      | str t =>
        rw [hc] at hm
        change methodFromString _ t = _ at hm
        unfold methodFromString at hm
        split_ifs at hm
        cases hm
        rfl
      | obj m => rw [hc] at hm; cases hm
      | other => rw [hc] at hm; cases hm; rfl
    rw [this]
    rfl
  | ok m =>
    rw [Py.bind_call_ok, Py.bind_set]
    by_cases h3 : c.regularizeIntercept = true ∧ fi = false
    · rw [Py.bind_raiseIf_pos h3]
    rw [Py.bind_raiseIf_neg h3]
    by_cases h4 : data.map (Obs.scaleW (1 / (ws data).sum)) = [] ∨ p = 0
    · rw [Py.bind_raiseIf_pos h4]
    rw [Py.bind_raiseIf_neg h4]
    simp only
    rw [Py.bind_set]
    by_cases h5 : (ws (data.map (Obs.scaleW (1 / (ws data).sum)))).sum ≤ designDim p fi ∧ c.method = .str "ols"
    · rw [Py.bind_raiseIf_pos h5]
    rw [Py.bind_raiseIf_neg h5, Py.bind_raiseIf_pos h1]

/-- **C112 fails for the selection.** The lasso with the default criterion keeps the column with weights 20 and 10 and drops
it with weights 2 and 1: the criterion takes the sum of the weights for the number of observations. -/
theorem C112_selection_fails : ∃ (s t : LM 1 false) (b b' : Row 1),
    LM.fit (onesConfig (.str "lasso")) (fun _ _ => []) (columnData [(1, 20), (-1, 10)]) (LM.new 1 false) = (.ok (), s) ∧
    LM.fit (onesConfig (.str "lasso")) (fun _ _ => []) ((columnData [(1, 20), (-1, 10)]).map (Obs.scaleW (1 / 10))) (LM.new 1 false) =
      (.ok (), t) ∧
    s.coef = some b ∧ t.coef = some b' ∧ 1 / 10 ^ 8 < b 0 ∧ b' 0 ≤ 1 / 10 ^ 8 := by
  obtain ⟨-, s, _, b, _, h1, -, h2, -, h3, -⟩ := C98_selection_fails
  have hd : (columnData [(1, 20), (-1, 10)]).map (Obs.scaleW (1 / 10)) = columnData [(1, 2), (-1, 1)] := by
    simp only [columnData, List.map_cons, List.map_nil, Obs.scaleW]
    norm_num
  obtain ⟨t, path', b', g1, g2, g3, g4, g5⟩ := column_fit [(1, 2), (-1, 1)] (by simp) (by simp) (N := 3) (h := 1)
    (by norm_num) (by norm_num) (by norm_num) (by norm_num) (LM.new 1 false)
  rw [hd]
  refine ⟨s, t, b, b', h1, g1, h2, g4, h3, ?_⟩
  have l0 : pairLam lassoDefault 1 0 = 1 := by simp [pairLam]
  have hr0 := g3 0 (by norm_num)
  rw [l0, sub_self, zero_div] at hr0
  obtain ⟨i, hi, r, v, hr, hv, hbest⟩ := g5
  have hlen : i < 100 := by rw [← g2]; exact (List.getElem?_eq_some_iff.1 hi).1
  have hb3 : b' 0 ≤ 1 / 3 := by
    have := g3 i hlen
    rw [hi] at this
    cases this
    have : 0 ≤ pairLam lassoDefault 1 i := by
      unfold pairLam
      have : (0 : ℝ) ≤ lassoDefault.lambdaEps := by norm_num [lassoDefault]
      positivity
    simp only
    linarith
  rw [List.getElem?_map, hi] at hr
  cases hr
  obtain ⟨u, hu, hvu, _⟩ := hbest 0 _ _ hr0 (by rw [List.getElem?_map, hr0]; rfl)
  have hpos : ∀ x : ℝ, 0 < (([(1, 2), (-1, 1)] : List (ℝ × ℝ)).map fun v => (v.2 * (v.1 - x)) ^ 2).sum := by
    intro x
    simp only [List.map_cons, List.map_nil, List.sum_cons, List.sum_nil, add_zero]
    nlinarith [sq_nonneg x, sq_nonneg (x - 1)]
  have hic := fun q (r : ℝ) (hr : 0 < r) => fromRss_bic (n := 3) (by norm_num) q hr
  have hv' := (hic _ _ (hpos (b' 0))).symm.trans hv
  have hu' := (hic _ _ (hpos 0)).symm.trans hu
  cases hv'
  cases hu'
  replace hvu := Flt.fin_le_of_not_preferred hvu
  by_contra hcon
  rw [not_le] at hcon
  have hsz : modelSize b' = 1 := by
    unfold modelSize
    rw [Finset.filter_true_of_mem]
    · simp
    · intro j _
      rw [Subsingleton.elim j 0]
      exact lt_of_lt_of_le hcon (le_abs_self _)
  rw [hsz, modelSize_zero_one] at hvu
  simp only [List.map_cons, List.map_nil, List.sum_cons, List.sum_nil, add_zero] at hvu
  have k1 : Real.log (32 / 27) ≤ Real.log (((2 * (1 - b' 0)) ^ 2 + (1 * (-1 - b' 0)) ^ 2) / 3) := by
    refine Real.log_le_log (by norm_num) ?_
    rw [le_div_iff₀ (by norm_num)]
    nlinarith [sq_nonneg (b' 0 - 1 / 3)]
  have k2 : Real.log (((2 * (1 - 0)) ^ 2 + (1 * (-1 - 0)) ^ 2) / 3) = Real.log (5 / 3) := by norm_num
  have k3 : 3 * Real.log (5 / 3) < Real.log 3 + 3 * Real.log (32 / 27) := by
    have e1 : 3 * Real.log (5 / 3) = Real.log ((5 / 3) ^ 3) := by rw [Real.log_pow]; norm_num
    have e2 : Real.log 3 + 3 * Real.log (32 / 27) = Real.log (3 * (32 / 27) ^ 3) := by
      rw [Real.log_mul (by norm_num) (by norm_num), Real.log_pow]; norm_num
    rw [e1, e2]
    exact Real.log_lt_log (by norm_num) (by norm_num)
  rw [k2] at hvu
  push_cast at hvu
  linarith

/-- **C112 fails for a given ridge penalty**: the penalty has the unit of the weights. -/
theorem C112_ridge_fails (perm : ℕ → ℕ → List (Fin (designDim 1 false))) : ∃ (s t : LM 1 false) (b b' : Row 1),
    LM.fit (ridgeOne (some 1) 0) perm onesInit (LM.new 1 false) = (.ok (), s) ∧
    LM.fit (ridgeOne (some 1) 0) perm (onesInit.map (Obs.scaleW 2)) (LM.new 1 false) = (.ok (), t) ∧
    s.coef = some b ∧ t.coef = some b' ∧ b 0 = 2 / 3 ∧ b' 0 = 4 / 5 := by
  have hw : NonnegWeights (onesInit.map (Obs.scaleW 2)) := by
    simp [NonnegWeights, onesInit, Obs.scaleW]
  have hG : initGram (xs (onesInit.map (Obs.scaleW 2))) (ws (onesInit.map (Obs.scaleW 2))) 0 0 0 = 4 := by
    rw [ws_scaleW, xs_scaleW, initGram_weights (by norm_num), Matrix.smul_apply, onesInit_gram (by norm_num)]
    norm_num
  have hY : initYGram (xs (onesInit.map (Obs.scaleW 2))) (ys (onesInit.map (Obs.scaleW 2))) (ws (onesInit.map (Obs.scaleW 2))) 0 0 = 4 := by
    rw [ws_scaleW, xs_scaleW, ys_scaleW, initYGram_weights (by norm_num), Pi.smul_apply, onesInit_yGram (by norm_num)]
    norm_num
  obtain ⟨s, b, h1, _, h3, h4, _⟩ := ridgeOne_fit (some 1) le_rfl zero_lt_one perm (d := onesInit) (by simp [onesInit]) onesInit_nonneg
    (by simp [onesInit, ws]) zero_le_one rfl (by rw [onesInit_gram (by norm_num)]; norm_num)
    (by rw [onesInit_yGram (by norm_num)]; norm_num) (LM.new 1 false)
  obtain ⟨t, b', g1, _, g3, g4, _⟩ := ridgeOne_fit (some 1) le_rfl zero_lt_one perm (d := onesInit.map (Obs.scaleW 2))
    (by simp [onesInit]) hw (by simp [onesInit, ws, Obs.scaleW]; norm_num) zero_le_one rfl (by rw [hG]; norm_num)
    (by rw [hY]; norm_num) (LM.new 1 false)
  rw [onesInit_gram (by norm_num), onesInit_yGram (by norm_num)] at h4
  rw [hG, hY] at g4
  refine ⟨s, t, b, b', h1, g1, h3, g3, ?_, ?_⟩
  · rw [h4]; norm_num
  · rw [g4]; norm_num

/-! ### Concrete runs -/

/-- Non-vacuity of `C112_weight_units_partial`: ridge with the default penalty, fitted and updated, with threefold weights. -/
example (perm perm' : ℕ → ℕ → List (Fin (designDim 1 false))) : ∃ t t' : LM 1 false,
    (do LM.fit (ridgeOne none 0) perm onesInit; LM.updates (ridgeOne none 0) (fun _ => perm') 0 [oneNew 5] : Py (LM 1 false) Unit)
      (LM.new 1 false) = (.ok (), t) ∧
    (do LM.fit (ridgeOne none 0) perm (onesInit.map (Obs.scaleW 3))
        LM.updates (ridgeOne none 0) (fun _ => perm') 0 [(oneNew 5).map (Obs.scaleW 3)] : Py (LM 1 false) Unit)
      (LM.new 1 false) = (.ok (), t') ∧ t'.coef = t.coef ∧ ∃ b : Row 1, t.coef = some b ∧ b 0 = 7 / 5 := by
  obtain ⟨s, t, b, b', h1, h2, h3, h4, h5, h6, -⟩ := ridgeOne_run none (f := 0) (y := 5) le_rfl zero_lt_one (by norm_num) (lam := 2)
    (by norm_num) (by norm_num) perm perm'
  have hr : (do LM.fit (ridgeOne none 0) perm onesInit; LM.updates (ridgeOne none 0) (fun _ => perm') 0 [oneNew 5] : Py (LM 1 false) Unit)
      (LM.new 1 false) = (.ok (), t) := by
    rw [Py.bind_of_ok h1]
    unfold LM.updates
    rw [Py.bind_of_ok h2]
    rfl
  have key := C112_weight_units_partial (k := 3) (by norm_num) (ridgeOne none 0) (fun m hm => by cases hm; rfl) perm (fun _ => perm')
    onesInit (by simp [onesInit, ws]; norm_num) (fun h => by cases h) [oneNew 5] (LM.new 1 false) (LM.new 1 false)
  simp only [hr, List.map_cons, List.map_nil] at key
  have hm : ∀ a, t.method ≠ some (.path a) := by
    obtain ⟨_, _, _, _, _, m, _, _, hm, _, _, _, _, _, _, _, _, _, q8⟩ := LM.fit_ok h1
    cases hm
    obtain ⟨_, _, _, q9, _⟩ := q8 _ rfl
    obtain ⟨_, _, _, _, _, m', _, _, _, _, _, u1, _, _, _, _, u2, _⟩ := LM.update_ok h2
    rw [q9] at u1
    cases u1
    rw [u2]
    intro a h
    cases h
  obtain ⟨k1, k2⟩ := key
  exact ⟨t, _, hr, Prod.ext k1 rfl, ((k2 trivial).2 hm).1, b', h4, by rw [h6]; norm_num⟩

/-- Another criterion selects from the same path. -/
theorem LM.fit_other_criterion {c : LMConfig p fi} {perm : ℕ → ℕ → List (Fin (designDim p fi))} {data : List (Obs p)} {s s' : LM p fi}
    {a : EnetArgs} (hm : getEstimationMethod c.method = .ok (.path a)) (h : LM.fit c perm data s = (.ok (), s'))
    {ic : Criterion} (hic : ic ≠ .aicc) : ∃ t, LM.fit { c with ic := ic } perm data s = (.ok (), t) := by
  obtain ⟨h1, h2, h3, h4, h5, m, sc, G, hm1, hsc, hG, _, _, _, _, _, _, q7, _⟩ := LM.fit_ok h
  cases hm1.symm.trans hm
  obtain ⟨_, path, b, e1, _, _, e4, _⟩ := q7 a rfl
  cases hG
  obtain ⟨t, ht, -⟩ := LM.fit_path_succeeds { c with ic := ic } perm data s ⟨h1.1, h1.2.1, hic, h1.2.2.2⟩ h2 h3 h4 h5 a hm sc hsc path e1
    (by rintro rfl; obtain ⟨i, hi, _⟩ := selectCoef_best (by simp) e4; simp at hi)
  exact ⟨t, ht⟩

/-- Non-vacuity of `C112_max_fit`: with the data of `C112_selection_fails`. -/
example : ∃ (s t : LM 1 false),
    LM.fit { onesConfig (.str "lasso") with ic := .max } (fun _ _ => []) (columnData [(1, 20), (-1, 10)]) (LM.new 1 false) = (.ok (), s) ∧
    LM.fit { onesConfig (.str "lasso") with ic := .max } (fun _ _ => []) ((columnData [(1, 20), (-1, 10)]).map (Obs.scaleW (1 / 10)))
      (LM.new 1 false) = (.ok (), t) ∧ t.coef = s.coef := by
  obtain ⟨s, t, _, _, h1, h2, -⟩ := C112_selection_fails
  have hm : getEstimationMethod (onesConfig (.str "lasso")).method = .ok (.path lassoDefault) := by
    simp [onesConfig, getEstimationMethod, methodFromString]
  obtain ⟨s', hs⟩ := LM.fit_other_criterion hm h1 (ic := .max) (by simp)
  obtain ⟨t', ht⟩ := LM.fit_other_criterion hm h2 (ic := .max) (by simp)
  exact ⟨s', t', hs, ht, (C112_max_fit (by norm_num) { onesConfig (.str "lasso") with ic := .max } rfl hm _ _
    (by simp [columnData, ws]; norm_num) hs ht).1⟩

/-- Non-vacuity of `C112_normalised_fails`: two observations with weights one half. -/
example (c : LMConfig 1 true) (perm : ℕ → ℕ → List (Fin 2)) (s : LM 1 true) :
    (LM.fit c perm (onesInit.map (Obs.scaleW (1 / 2))) s).1 = .error .valueError := by
  have h : (ws onesInit).sum = 2 := by simp [onesInit, ws]; norm_num
  rw [← h]
  exact C112_normalised_fails c perm onesInit (by rw [h]; norm_num) s

end Ondil
