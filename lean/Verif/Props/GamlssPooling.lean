import Verif.Props.GamlssSelection

/-!
# Model selection across updates: C90
-/

namespace Ondil

variable {μ : Type} {p : ℕ}

/-- What an estimator keeps of all data for model selection under "local_rss" for parameter `k`: `S j` is the residual sum of
squares of row `j` of the path, `W` the sum of the weights and `N` the number of observations.  The statistic of row `j` is
the residual sum of squares over the mean of the weights. -/
structure PooledRss (t : GState μ p) (k L : ℕ) (S : ℕ → ℝ) (W N : ℝ) : Prop where
  nObs : t.nObs = some N
  sumW : t.sumW k = some (.fin W)
  meanW : t.meanW k = some (.fin (W / N))
  stats : ∃ stats, t.selection k = some stats ∧ stats.length = L ∧ ∀ j < L, stats[j]? = some (.fin (S j / (W / N)))

/-- The rows `d` are the numbers of a weighted regression: regressors, working response and working weight. -/
structure Regression {J : ℕ} (X : Arr2) (wk : Working) (d : List (Obs J)) : Prop where
  X : X = d.map fun o => ofVec o.x
  wv : wk.wv = d.map fun o => .fin o.y
  wt : wk.wt = d.map fun o => .fin o.w

/-! ### Sums -/

theorem asum_fin (l : List ℝ) : asum (l.map Flt.fin) = .fin l.sum := by
  unfold asum Dist.npSum
  induction l with
  | nil => rfl
  | cons a l ih => rw [List.map_cons, List.foldr_cons, ih, List.sum_cons]; rfl

theorem amean_fin {l : List ℝ} (h : l ≠ []) : amean (l.map Flt.fin) = .fin (l.sum / l.length) := by
  have h0 : (l.length : ℝ) ≠ 0 := by
    have := List.length_pos_iff_ne_nil.2 h
    positivity
  have := asum_fin l
  unfold asum at this
  unfold amean Dist.npMean
  rw [this, List.length_map]
  simp [Flt.div, h0]

theorem wmul_fin (w l : List ℝ) : wmul w (l.map Flt.fin) = (List.zipWith (fun a b => a * b) w l).map Flt.fin := by
  unfold wmul
  induction w generalizing l with
  | nil => rfl
  | cons u w ih =>
    cases l with
    | nil => rfl
    | cons v l => rw [List.map_cons, List.zipWith_cons_cons, ih, List.zipWith_cons_cons, List.map_cons]; rfl

theorem zipWith_ones {w l : List ℝ} (hw : ∀ v ∈ w, v = 1) (h : l.length = w.length) :
    List.zipWith (fun a b => a * b) w l = l := by
  induction w generalizing l with
  | nil => exact (List.length_eq_zero_iff.1 h).symm
  | cons u w ih =>
    cases l with
    | nil => cases h
    | cons v l =>
      rw [List.zipWith_cons_cons, ih (fun v hv => hw v (List.mem_cons_of_mem _ hv)) (by simpa using h), hw u List.mem_cons_self, one_mul]

theorem sum_ones {w : List ℝ} (hw : ∀ v ∈ w, v = 1) : w.sum = w.length := by
  induction w with
  | nil => simp
  | cons u w ih =>
    rw [List.sum_cons, ih fun v hv => hw v (List.mem_cons_of_mem _ hv), hw u List.mem_cons_self, List.length_cons]
    push_cast
    ring

theorem discSum_plain {J : ℕ} (d : List (Obs J)) : discSum 0 d Obs.w = (ws d).sum := by
  induction d with
  | nil => simp [ws]
  | cons o d ih =>
    rw [discSum_cons, ih]
    simp [ws]

/-- Without forgetting the running mean is the mean of all values. -/
theorem onlineMeanLoopFlt_zero (l : List ℝ) (avg N : ℝ) (hN : 0 < N) :
    onlineMeanLoopFlt 0 (N + l.length) (.fin avg) (l.map Flt.fin) = .fin ((avg * N + l.sum) / (N + l.length)) := by
  induction l generalizing avg N with
  | nil => simp [onlineMeanLoopFlt, hN.ne']
  | cons v l ih =>
    have hn : N + ((v :: l).length : ℝ) - ((l.map Flt.fin).length : ℝ) = N + 1 := by
      rw [List.length_map, List.length_cons]; push_cast; ring
    have hstep : onlineMeanStepFlt (.fin avg) (.fin v) 0 (N + 1) = .fin (avg + (v - avg) / (N + 1)) := by
      have h1 : N + 1 ≠ 0 := by positivity
      simp [onlineMeanStepFlt, effectiveTrainingLength, h1, Flt.lt, Flt.sub, Flt.neg, Flt.div, Flt.add, sub_eq_add_neg]
    rw [List.map_cons]
    unfold onlineMeanLoopFlt
    rw [hn, hstep]
    have e : N + ((v :: l).length : ℝ) = (N + 1) + l.length := by rw [List.length_cons]; push_cast; ring
    rw [e, ih _ (N + 1) (by positivity), List.sum_cons]
    congr 1
    field_simp
    ring

/-! ### C90 without forgetting and with unit weights -/

/-- **C90 for `fit`, partial.**  Without forgetting and with unit weights the statistics of the rows are their residual sums of
squares in the last weighted regression over the mean of its weights, and sum and mean of the weights are stored.  Missing:
forgetting and sample weights (`C90_forget_fails`, `C90_weights_fails`). -/
theorem C90_fit_partial {frames : Bool} {D : DistOps} (hD : Regular D) {M : MethodOps μ} {c : GConfig μ p}
    (hcond : c.condStartVal = true → ConditionalRegular D) (hm : c.modelSelection = .localRss) {data : List (Obs p)}
    (hw : ∀ o ∈ data, o.w = 1) {s t : GState μ p} {u : Unit} (h : GState.fit frames D M c data s = (.ok u, t)) {k : ℕ}
    (hf : t.forget.get? k = some 0) {path : Arr2} (hp : t.coefPath k = some path) :
    ∃ X fv wk sc, t.scaler = some sc ∧ designFor t sc (xs data) k = .ok X ∧ fv.length = data.length ∧
      working D fitClip (ys data) fv k = .ok wk ∧
      ∀ (J : ℕ) (d : List (Obs J)) (rows : List (Row J)) (S : ℕ → ℝ), Regression X wk d → path = rows.map ofVec → 0 < (ws d).sum →
        (∀ j b, rows[j]? = some b → S j = discSSE 0 d b) → PooledRss t k path.length S (ws d).sum data.length := by
  obtain ⟨stats, Xs, sc, h1, ⟨forget, wt, h2, h3, h4, hlen, X, fv, wk, h5, h6, h7, h8, _, h9, _⟩, h10, h11⟩ := C89_fit_partial hD hcond h hp
  obtain rfl : forget = 0 := Option.some.inj (h2.symm.trans hf)
  subst h8
  refine ⟨X, fv, wk, sc, h10, h11 k X h5, by simpa [ys] using h6, h7, fun J d rows S hd hrows hpos hS => ?_⟩
  have hne : data ≠ [] := by
    obtain ⟨r⟩ := fit_ok h
    exact fun e => r.nonempty (.inl e)
  have hl : d.length = data.length := by
    have := designFor_length (h11 k X h5)
    rw [hd.X] at this
    simpa [xs] using this
  have hwd : wk.wt = (ws d).map Flt.fin := by rw [hd.wt]; simp [ws]
  have hones : ∀ v ∈ ws data, v = 1 := by
    intro v hv
    obtain ⟨o, ho, rfl⟩ := List.mem_map.1 hv
    exact hw o ho
  have hz : List.zipWith (fun a b => a * b) (ws data) (ws d) = ws d := zipWith_ones hones (by simp [ws, hl])
  have hdn : ws d ≠ [] := by
    intro e
    have : (ws d).length = 0 := by rw [e]; rfl
    rw [ws, List.length_map, hl] at this
    exact hne (List.length_eq_zero_iff.1 this)
  have hnl : ((ws d).length : ℝ) = data.length := by rw [ws, List.length_map, hl]
  have hdisc : discSum 0 d Obs.w = (ws d).sum := by
    exact discSum_plain d
  refine ⟨?_, ?_, ?_, stats, h1.stored, hlen, fun j hj => ?_⟩
  · obtain ⟨r⟩ := fit_ok h
    have hset := (outerFit_setup _ _ _).ok (SameSetup.refl _) r.hloop
    have e4 : t.nObs = some (ws data).sum := ((congrArg GState.nObs r.ht).trans rfl).trans (hset.nObs.trans (by unfold_start))
    rw [e4, sum_ones hones, ws, List.length_map]
  · rw [h3]
    change some (asum (wmul (ws data) wk.wt)) = _
    rw [hwd, wmul_fin, hz, asum_fin]
  · rw [h4]
    change some (amean (wmul (ws data) wk.wt)) = _
    rw [hwd, wmul_fin, hz, amean_fin hdn, hnl]
  · rw [hrows, List.length_map] at hj
    have hb := List.getElem?_eq_getElem hj
    rw [hS j _ hb]
    have := h9 hm J d (ws d) (fun e => by subst e; exact hdn rfl) hd.X hd.wv hwd (by simp [ws]) (by simp [ws, hl]) hz.symm
      (by rw [hdisc]; exact hpos.ne') j rows[j] (by rw [hrows, List.getElem?_map, hb]; rfl)
    rw [this, hdisc, hl]

/-- **C90 for `update`, partial.**  Without forgetting and with unit weights an update adds the residual sums of squares of the
rows of the new path in its last weighted regression to the ones kept of the earlier data, and the weights to the weights: the
statistics are those of all data.  Missing: forgetting and sample weights (`C90_forget_fails`, `C90_weights_fails`). -/
theorem C90_update_partial {D : DistOps} (hD : Regular D) {M : MethodOps μ} {c : GConfig μ p} (hm : c.modelSelection = .localRss)
    {data : List (Obs p)} (hw : ∀ o ∈ data, o.w = 1) {s t : GState μ p} {u : Unit} (h : GState.update D M c data s = (.ok u, t))
    (it : ℕ) (hit : t.itOuter = some it) (h1 : 1 ≤ it) {k : ℕ} (hk : k ∈ s.paramOrder) (hf : s.forget.get? k = some 0) {path : Arr2}
    (hp : t.coefPath k = some path) {S : ℕ → ℝ} {W N : ℝ} (hN : 0 < N) (hW : 0 < W) (hs : PooledRss s k path.length S W N) :
    ∃ X fv wk sc, t.scaler = some sc ∧ designFor t sc (xs data) k = .ok X ∧ fv.length = data.length ∧
      working D updateClip (ys data) fv k = .ok wk ∧
      ∀ (J : ℕ) (d : List (Obs J)) (rows : List (Row J)) (S' : ℕ → ℝ), Regression X wk d → path = rows.map ofVec → 0 ≤ (ws d).sum →
        (∀ j b, rows[j]? = some b → S' j = S j + discSSE 0 d b) →
          PooledRss t k path.length S' (W + (ws d).sum) (N + data.length) := by
  obtain ⟨stats, Xs, sc, h2, ⟨forget, old, meanW, sumW, nObs, nTr, wt, a1, a2, a3, a4, a5, a6, a7, a8, hlen, X, fv, wk, h5, h6, h7, h8, _, h9,
    _⟩, h10, h11⟩ := update_selected hD h it hit h1 hk hp
  obtain rfl : forget = 0 := Option.some.inj (a1.symm.trans hf)
  subst h8
  obtain rfl : meanW = .fin (W / N) := Option.some.inj (a3.symm.trans hs.meanW)
  obtain rfl : sumW = .fin W := Option.some.inj (a4.symm.trans hs.sumW)
  obtain ⟨old', b1, b2, b3⟩ := hs.stats
  obtain rfl : old' = old := Option.some.inj (b1.symm.trans a2)
  refine ⟨X, fv, wk, sc, h10, h11 k X h5, by simpa [ys] using h6, h7, fun J d rows S' hd hrows hpos hS => ?_⟩
  have hl : d.length = data.length := by
    have := designFor_length (h11 k X h5)
    rw [hd.X] at this
    simpa [xs] using this
  have hwd : wk.wt = (ws d).map Flt.fin := by rw [hd.wt]; simp [ws]
  have hones : ∀ v ∈ ws data, v = 1 := by
    intro v hv
    obtain ⟨o, ho, rfl⟩ := List.mem_map.1 hv
    exact hw o ho
  have hz : List.zipWith (fun a b => a * b) (ws data) (ws d) = ws d := zipWith_ones hones (by simp [ws, hl])
  have hnl : ((ws d).length : ℝ) = data.length := by rw [ws, List.length_map, hl]
  have hno : t.nObs = some (N + data.length) := by
    obtain ⟨r⟩ := update_ok h
    have hset := (outerUpdate_committed _ _ _).ok (SameCommitted.refl _) r.hloop
    have e1 : r.nObs0 = N := Option.some.inj (r.hnObs0.symm.trans hs.nObs)
    have e4 : t.nObs = some (r.nObs0 + (ws data).sum) :=
      ((congrArg GState.nObs r.ht).trans rfl).trans (hset.setup.nObs.trans (r.proj GState.nObs (fun _ => rfl) fun _ _ => rfl))
    rw [e4, sum_ones hones, e1, ws, List.length_map]
  obtain rfl : nObs = N + data.length := Option.some.inj (a5.symm.trans hno)
  have hnt : nTr = N + data.length := by
    obtain ⟨r⟩ := update_ok h
    have hset := (outerUpdate_committed _ _ _).ok (SameCommitted.refl _) r.hloop
    have e1 : r.nObs0 = N := Option.some.inj (r.hnObs0.symm.trans hs.nObs)
    have e4 : t.nTraining = r.nt :=
      ((congrArg GState.nTraining r.ht).trans rfl).trans (hset.setup.nTraining.trans (r.proj GState.nTraining (fun _ => rfl) fun _ _ => rfl))
    rw [e4] at a6
    have := (forParams_get? r.hnt a6).2
    simp only [hf] at this
    rw [← Except.ok.inj this, sum_ones hones, e1, ws, List.length_map]
    simp [effectiveTrainingLength]
  have hNp : 0 < N + (data.length : ℝ) := by positivity
  have hden : onlineMeanLoopFlt 0 (N + data.length) (.fin (W / N)) wk.wt = .fin ((W + (ws d).sum) / (N + data.length)) := by
    rw [hwd, ← hnl, onlineMeanLoopFlt_zero _ _ _ hN]
    congr 2
    field_simp
  refine ⟨hno, ?_, ?_, stats, h2.stored, by rw [hlen, b2, min_self], fun j hj => ?_⟩
  · rw [a7]
    change some (Flt.add (asum (wmul (ws data) wk.wt)) _) = _
    rw [hwd, wmul_fin, hz, asum_fin]
    simp [Flt.add, Flt.mul, Flt.sub, Flt.neg, add_comm]
  · rw [a8]
    change some (Flt.div (Flt.add (asum (wmul (ws data) wk.wt)) _) _) = _
    rw [hwd, wmul_fin, hz, asum_fin, hnt]
    simp [Flt.add, Flt.mul, Flt.sub, Flt.neg, Flt.div, hNp.ne', add_comm]
  · have ho := b3 j hj
    rw [hrows, List.length_map] at hj
    have hb := List.getElem?_eq_getElem hj
    rw [hS j _ hb]
    have := h9 hm J d (ws d) hd.X hd.wv hwd (by simp [ws]) (by simp [ws, hl]) hz.symm (W / N) ((W + (ws d).sum) / (N + data.length)) rfl hden
      (by positivity) j rows[j] _ (by rw [hrows, List.getElem?_map, hb]; rfl) ho
    rw [this]
    congr 3
    have : W / N ≠ 0 := by positivity
    rw [div_mul_cancel₀ _ this]
    simp [add_comm]

/-- **C90 for "global_ll".**  With any forget factor and any sample weights an update adds the discounted weighted
log-likelihood of the batch, of the rows of the new path, to the discounted statistics of the earlier data. -/
theorem C90_loglikelihood {D : DistOps} (hD : Regular D) {M : MethodOps μ} {c : GConfig μ p} (hm : c.modelSelection = .globalLL)
    {data : List (Obs p)} {s t : GState μ p} {u : Unit} (h : GState.update D M c data s = (.ok u, t)) (it : ℕ) (hit : t.itOuter = some it)
    (h1 : 1 ≤ it) {k : ℕ} (hk : k ∈ s.paramOrder) {path : Arr2} (hp : t.coefPath k = some path) :
    ∃ stats old forget X sc theta, t.selection k = some stats ∧ s.selection k = some old ∧ s.forget.get? k = some forget ∧
      stats.length = min path.length old.length ∧ t.scaler = some sc ∧ designFor t sc (xs data) k = .ok X ∧ theta.length = data.length ∧
      UpdateLLStatistics D k (ys data) forget (ws data) X theta path old stats := by
  obtain ⟨stats, Xs, sc, h2, ⟨forget, old, meanW, sumW, nObs, nTr, wt, a1, a2, a3, a4, a5, a6, a7, a8, hlen, X, fv, wk, h5, h6, h7, h8, _, _,
    h9⟩, h10, h11⟩ := update_selected hD h it hit h1 hk hp
  obtain ⟨theta, h12, h13⟩ := h9 hm
  exact ⟨stats, old, forget, X, sc, theta, h2.stored, a2, a1, hlen, h10, h11 k X h5, by simpa [ys] using h12, h13⟩

/-! ### Concrete cases

The estimator of `Verif.Lemmas.GamlssPathToy`: normal responses with known variance, an intercept, and a method object whose
path always consists of the two rows 0 and 3.  The working response is the response and the working weights are one. -/

/-- The weighted regression of the estimator: a column of ones. -/
def ones (data : List (Obs 1)) : List (Obs 1) := data.map fun o => ⟨fun _ => 1, o.y, o.w⟩

theorem ofVec_one (v : ℝ) : ofVec (fun _ : Fin 1 => v) = [.fin v] := by simp [ofVec]

theorem rows_arrays (data : List (Obs 1)) :
    ((xs data).map fun _ => [Flt.fin 1]) = (ones data).map (fun o => ofVec o.x) ∧ (ys data).map Flt.fin = (ones data).map (fun o => .fin o.y) ∧
      (ys data).map (fun _ => Flt.fin 1) = (List.replicate data.length (1 : ℝ)).map Flt.fin ∧ (ones data).length = data.length ∧
      ws (ones data) = List.zipWith (fun a b => a * b) (ws data) (List.replicate data.length 1) ∧ ws (ones data) = ws data := by
  have h6 : ws (ones data) = ws data := by simp [ws, ones, Function.comp_def]
  refine ⟨by simp [ones, xs, ofVec, Function.comp_def], by simp [ones, ys, Function.comp_def], ?_, by simp [ones], ?_, h6⟩
  · rw [ys, List.map_map, List.map_replicate]
    exact List.map_const'
  · rw [h6]
    refine List.ext_getElem (by simp [ws]) fun i h1 h2 => ?_
    simp

/-- What the fit of this estimator leaves. -/
theorem rows_fit {ic : Criterion} {f : ℝ} (hf0 : 0 ≤ f) (hf1 : f < 1) (hic : ic ≠ .aicc) {data : List (Obs 1)} (h2 : 2 ≤ data.length)
    (hw : ∀ o ∈ data, 0 < o.w) (s : GState Unit 1) :
    ∃ (t : GState Unit 1) (stats : Arr1), GState.fit false quadDist (rowsMethod twoRows) (rowsConfig .localRss ic f) data s = (.ok (), t) ∧
      SelectedRow .localRss t 0 twoRows stats ∧ stats.length = 2 ∧ t.coefPath 0 = some twoRows ∧ t.sumW 0 = some (Flt.fin (ws data).sum) ∧
      t.meanW 0 = some (Flt.fin ((ws data).sum / data.length)) ∧ (discSum f data Obs.w ≠ 0 → ∀ (j : ℕ) (v : ℝ), twoRows[j]? = some [Flt.fin v] →
        stats[j]? = some (Flt.fin (discSSE f (ones data) (fun _ => v) / (discSum f data Obs.w / data.length)))) ∧
      ∀ batch : List (Obs 1), batch ≠ [] → ∃ u, GState.update quadDist (rowsMethod twoRows) (rowsConfig .localRss ic f) batch t = (.ok (), u) ∧
        GFitted quadDist (rowsConfig .localRss ic f) (fun _ => rowsContract twoRows (by simp [twoRows]) (by simp [twoRows])) u := by
  obtain ⟨t, ht, g, hup⟩ := rows_runs (P := twoRows) (by simp [twoRows]) (by simp [twoRows]) (m := .localRss) hf0 hf1 hic h2 hw s
  obtain ⟨f1, f2, f3, f4, f5, f6, f7, f8⟩ := rows_settings h2 ht
  obtain ⟨path, hp, _⟩ := (g.stored 0 Nat.one_pos).path rfl
  obtain ⟨stats, X, sc, h1, ⟨forget, wt, h2', h3, h4, hlen, A, fv, wk, h5, h6, h7, h8, ⟨m, xg, yg, reg, first, start, m', _, _, h9⟩, h10, _⟩,
    h11, h12⟩ := C89_fit_partial quad_regular (fun h => by cases h) ht hp
  have epath : path = twoRows := by
    unfold fitPathFrom at h9
    split at h9
    · exact (Prod.mk.inj (Except.ok.inj h9)).1.symm
    · cases start with
      | none => cases h9
      | some q => exact (Prod.mk.inj (Except.ok.inj h9)).1.symm
  subst epath
  subst h8
  obtain rfl : forget = f := by
    rw [f1] at h2'; exact (Option.some.inj h2').symm
  obtain ⟨e1, e2⟩ := quad_working (lo := fitClip) (by norm_num [fitClip]) h6 h7
  obtain ⟨r1, r2, r3, r4, r5, r6⟩ := rows_arrays data
  have hA : A = (ones data).map fun o => ofVec o.x := by
    have := h12 0 A h5
    rw [f8] at h11
    rw [← Option.some.inj h11, rows_design f5 f6] at this
    rw [← Except.ok.inj this]
    exact r1
  have hwm : wmul (ws data) wk.wt = (ws data).map Flt.fin := by rw [e1, r3, wmul_fin, ← r5, r6]
  have hne : ws data ≠ [] := by
    intro e
    have : (ws data).length = 0 := by rw [e]; rfl
    rw [ws, List.length_map] at this
    omega
  refine ⟨t, stats, ht, h1, hlen, hp, ?_, ?_, fun h0 j v hj => ?_, hup⟩
  · rw [h3]
    change some (asum (wmul (ws data) wk.wt)) = _
    rw [hwm, asum_fin]
  · rw [h4]
    change some (amean (wmul (ws data) wk.wt)) = _
    rw [hwm, amean_fin hne]
    simp [ws]
  · have hd : discSum forget (ones data) Obs.w = discSum forget data Obs.w := by rw [ones, discSum_map]
    have := h10 rfl 1 (ones data) (List.replicate data.length 1) (fun e => by
        have := congrArg List.length e
        rw [r4] at this
        simp only [List.length_nil] at this
        omega) hA (e2.trans r2) (e1.trans r3) (by simp [ones]) (by simp [ones, ws]) r5
      (by rw [hd]; exact h0) j (fun _ => v) (by rw [hj, ofVec_one])
    rw [this, hd, r4]

/-- The settings an update of this estimator relies on. -/
structure RowsState (ic : Criterion) (f N : ℝ) (t : GState Unit 1) : Prop where
  forget : t.forget = [(0, f)]
  ic : t.ic = [(0, ic)]
  nObs : t.nObs = some N
  equation : t.equation = [(0, .str "intercept")]
  fitIntercept : t.fitIntercept = [(0, true)]
  paramOrder : t.paramOrder = [0]
  scaler : ∃ n, t.scaler = some (.off n)
  minIt : 1 ≤ t.minIt

theorem rows_state_fit {ic : Criterion} {f : ℝ} (hf0 : 0 ≤ f) (hf1 : f < 1) (hic : ic ≠ .aicc) {data : List (Obs 1)} (h2 : 2 ≤ data.length)
    {s t : GState Unit 1} (h : GState.fit false quadDist (rowsMethod twoRows) (rowsConfig .localRss ic f) data s = (.ok (), t)) :
    RowsState ic f (ws data).sum t := by
  obtain ⟨f1, f2, f3, f4, f5, f6, f7, f8⟩ := rows_settings h2 h
  exact ⟨f1, f2, f4, f5, f6, f7, ⟨_, f8⟩, (fit_settings (rows_options (m := .localRss) hf0 hf1 hic) h).2⟩

/-- What an update of this estimator leaves. -/
theorem rows_update {ic : Criterion} {f N : ℝ} {batch : List (Obs 1)} {s t : GState Unit 1} (hs : RowsState ic f N s)
    (h : GState.update quadDist (rowsMethod twoRows) (rowsConfig .localRss ic f) batch s = (.ok (), t))
    (g : t.coefPath 0 ≠ none) {old : Arr1} {m W : ℝ} (ho : s.selection 0 = some old) (hm : s.meanW 0 = some (Flt.fin m))
    (hW : s.sumW 0 = some (Flt.fin W)) :
    RowsState ic f (N + (ws batch).sum) t ∧ ∃ stats : Arr1, SelectedRow .localRss t 0 twoRows stats ∧ stats.length = min 2 old.length ∧
      t.coefPath 0 = some twoRows ∧ t.nTraining.get? 0 = some (effectiveTrainingLength f (N + (ws batch).sum)) ∧
      t.sumW 0 = some (Flt.fin ((ws batch).sum + (1 - f) * W)) ∧
      (effectiveTrainingLength f (N + (ws batch).sum) ≠ 0 →
        t.meanW 0 = some (Flt.fin (((ws batch).sum + (1 - f) * W) / effectiveTrainingLength f (N + (ws batch).sum)))) ∧
      ∀ q, onlineMeanLoopFlt f (N + (ws batch).sum) (Flt.fin m) ((List.replicate batch.length (1 : ℝ)).map Flt.fin) = Flt.fin q → q ≠ 0 →
        ∀ (j : ℕ) (v o : ℝ), twoRows[j]? = some [Flt.fin v] → old[j]? = some (Flt.fin o) →
          stats[j]? = some (Flt.fin ((discSSE f (ones batch) (fun _ => v) + (1 - f) ^ batch.length * (o * m)) / q)) := by
  obtain ⟨path, hp⟩ := Option.ne_none_iff_exists'.1 g
  obtain ⟨it, hit, hle⟩ := update_iterates h (by rw [hs.paramOrder]; simp) hs.minIt le_rfl
  obtain ⟨stats, Xs, sc, h2, ⟨forget, old', meanW, sumW, nObs, nTr, wt, a1, a2, a3, a4, a5, a6, a7, a8, hlen, X, fv, wk, h5, h6, h7, h8,
    ⟨_, _, _, _, _, _, _, _, _, _, _, _, h9⟩, h10, _⟩, h11, h12⟩ := update_selected quad_regular h it hit hle (by rw [hs.paramOrder]; simp) hp
  obtain rfl : path = twoRows := (Prod.mk.inj (Except.ok.inj h9)).1.symm
  subst h8
  obtain rfl : forget = f := by rw [hs.forget] at a1; exact (Option.some.inj a1).symm
  obtain rfl : old = old' := Option.some.inj (ho.symm.trans a2)
  obtain rfl : meanW = Flt.fin m := Option.some.inj (a3.symm.trans hm)
  obtain rfl : sumW = Flt.fin W := Option.some.inj (a4.symm.trans hW)
  obtain ⟨r⟩ := update_ok h
  have hset := (outerUpdate_committed _ _ _).ok (SameCommitted.refl _) r.hloop
  have e0 : r.nObs0 = N := Option.some.inj (r.hnObs0.symm.trans hs.nObs)
  have e1 : t.nObs = some (r.nObs0 + (ws batch).sum) :=
    ((congrArg GState.nObs r.ht).trans rfl).trans (hset.setup.nObs.trans (r.proj GState.nObs (fun _ => rfl) fun _ _ => rfl))
  have e2 : t.nTraining = r.nt :=
    ((congrArg GState.nTraining r.ht).trans rfl).trans (hset.setup.nTraining.trans (r.proj GState.nTraining (fun _ => rfl) fun _ _ => rfl))
  have e3 : t.forget = s.forget :=
    ((congrArg GState.forget r.ht).trans rfl).trans (hset.setup.forget.trans (r.proj GState.forget (fun _ => rfl) fun _ _ => rfl))
  have e4 : t.ic = s.ic :=
    ((congrArg GState.ic r.ht).trans rfl).trans (hset.setup.ic.trans (r.proj GState.ic (fun _ => rfl) fun _ _ => rfl))
  have e5 : t.equation = s.equation :=
    ((congrArg GState.equation r.ht).trans rfl).trans (hset.setup.equation.trans (r.proj GState.equation (fun _ => rfl) fun _ _ => rfl))
  have e6 : t.fitIntercept = s.fitIntercept := ((congrArg GState.fitIntercept r.ht).trans rfl).trans
    (hset.setup.fitIntercept.trans (r.proj GState.fitIntercept (fun _ => rfl) fun _ _ => rfl))
  have e7 : t.paramOrder = s.paramOrder :=
    ((congrArg GState.paramOrder r.ht).trans rfl).trans (hset.setup.paramOrder.trans (r.proj GState.paramOrder (fun _ => rfl) fun _ _ => rfl))
  have e8 : t.scaler = some r.sc :=
    ((congrArg GState.scaler r.ht).trans rfl).trans (hset.setup.scaler.trans (r.proj GState.scaler (fun _ => rfl) fun _ _ => rfl))
  have e9 : t.minIt = s.minIt := by
    refine ((congrArg GState.minIt r.ht).trans rfl).trans (hset.setup.minIt.trans ?_)
    have hc := r.hcautious
    unfold cautious at hc
    rw [Py.bind_self] at hc
    have : (rowsConfig .localRss ic forget).cautiousUpdates = false := rfl
    rw [this] at hc
    obtain ⟨_, e⟩ := Py.pure_ok_iff.1 hc
    rw [← e]
    rfl
  obtain ⟨n, hn⟩ := hs.scaler
  have hsc : r.sc = .off (n + (ws batch).sum) := by
    have h0 : r.sc0 = .off n := Option.some.inj (r.hsc0.symm.trans hn)
    have := r.hsc
    rw [h0] at this
    simp only [Scaler.update] at this
    split at this
    · cases this
    · exact (Except.ok.inj this).symm
  have hnt : nTr = effectiveTrainingLength forget (N + (ws batch).sum) := by
    rw [e2] at a6
    have := (forParams_get? r.hnt a6).2
    rw [hs.forget, e0] at this
    exact (Except.ok.inj this).symm
  rw [hnt] at a6 a8
  obtain rfl : nObs = N + (ws batch).sum := by
    rw [e1, e0] at a5; exact (Option.some.inj a5).symm
  obtain ⟨q1, q2⟩ := quad_working (lo := updateClip) (by norm_num [updateClip]) h6 h7
  obtain ⟨r1, r2, r3, r4, r5, r6⟩ := rows_arrays batch
  have hA : X = (ones batch).map fun o => ofVec o.x := by
    have := h12 0 X h5
    rw [e8, hsc] at h11
    rw [← Option.some.inj h11, rows_design (e5.trans hs.equation) (e6.trans hs.fitIntercept)] at this
    rw [← Except.ok.inj this]
    exact r1
  have hwm : wmul (ws batch) wk.wt = (ws batch).map Flt.fin := by rw [q1, r3, wmul_fin, ← r5, r6]
  refine ⟨⟨e3.trans hs.forget, e4.trans hs.ic, a5, e5.trans hs.equation, e6.trans hs.fitIntercept, e7.trans hs.paramOrder,
    ⟨_, e8.trans (congrArg some hsc)⟩, by rw [e9]; exact hs.minIt⟩, stats, h2, hlen, hp, a6, ?_, fun h0 => ?_, fun q hq h0 j v o hj hjo => ?_⟩
  · rw [a7]
    change some (Flt.add (asum (wmul (ws batch) wk.wt)) _) = _
    rw [hwm, asum_fin]
    simp [Flt.add, Flt.mul, Flt.sub, Flt.neg, sub_eq_add_neg]
  · rw [a8]
    change some (Flt.div (Flt.add (asum (wmul (ws batch) wk.wt)) _) _) = _
    rw [hwm, asum_fin]
    simp [Flt.add, Flt.mul, Flt.sub, Flt.neg, Flt.div, h0, sub_eq_add_neg]
  · have := h10 rfl 1 (ones batch) (List.replicate batch.length 1) hA (q2.trans r2) (q1.trans r3) (by simp [ones]) (by simp [ones, ws]) r5 m q rfl
      (by rw [q1.trans r3]; exact hq) h0 j (fun _ => v) o (by rw [hj, ofVec_one]) hjo
    rw [this, r4]

/-- Under the criterion "max" the row with the smaller statistic is selected. -/
theorem rows_pick {t : GState Unit 1} {n a b : ℝ} (hic : t.ic = [(0, .max)]) (hn : t.nTraining.get? 0 = some n) (h1 : 1 < n) {stats : Arr1}
    (hl : stats.length = 2) (ha : stats[0]? = some (Flt.fin a)) (hb : stats[1]? = some (Flt.fin b)) (ha0 : 0 < a) (hb0 : 0 < b)
    (h : SelectedRow .localRss t 0 twoRows stats) :
    (a < b → t.coef 0 = some [Flt.fin 0]) ∧ (b < a → t.coef 0 = some [Flt.fin 3]) := by
  obtain ⟨n', ic, g1, g2, g3⟩ := h.best
  obtain rfl : n' = n := Option.some.inj (g1.symm.trans hn)
  obtain rfl : ic = .max := by rw [hic] at g2; exact (Option.some.inj g2).symm
  obtain ⟨r, v, k1, k2, k3⟩ := g3 h1 (fun d hd => by
    obtain ⟨i, hi, rfl⟩ := List.getElem_of_mem hd
    have hi2 := List.getElem?_eq_getElem hi
    have hi' : i < 2 := by rw [hl] at hi; exact hi
    interval_cases i
    · exact ⟨a, Option.some.inj (hi2.symm.trans ha), fun _ => ha0⟩
    · exact ⟨b, Option.some.inj (hi2.symm.trans hb), fun _ => hb0⟩)
  have hlt : t.bestIc 0 < 2 := (List.getElem?_eq_some_iff.1 k1).1
  have mono : ∀ x y k l : ℝ, 0 < x → 0 < y → textbookIc .max n' k (statisticLL .localRss n' x) ≤ textbookIc .max n' l (statisticLL .localRss n' y) →
      x ≤ y := by
    intro x y k l hx hy h
    simp only [textbookIc, statisticLL] at h
    have hn0 : 0 < n' := by linarith
    have hpi := Real.pi_pos
    have : Real.log (2 * Real.pi * (x / n')) ≤ Real.log (2 * Real.pi * (y / n')) := by
      by_contra hc
      rw [not_le] at hc
      have := mul_lt_mul_of_pos_left hc (half_pos hn0)
      nlinarith
    have := (Real.log_le_log_iff (by positivity) (by positivity)).1 this
    have h2 : x / n' ≤ y / n' := le_of_mul_le_mul_left this (by positivity)
    exact (div_le_div_iff_of_pos_right hn0).1 h2
  obtain ⟨c, hc, hrow⟩ := h.row
  have key : (t.bestIc 0 = 0 ∧ a ≤ b) ∨ (t.bestIc 0 = 1 ∧ b ≤ a) := by
    have h01 : t.bestIc 0 = 0 ∨ t.bestIc 0 = 1 := by omega
    rcases h01 with e | e
    · rw [e] at k2
      have hv : a = v := by injection (Option.some.inj (ha.symm.trans k2))
      exact .inl ⟨e, hv ▸ mono _ _ _ _ (hv ▸ ha0) hb0 (k3 1 [Flt.fin 3] b rfl hb).1⟩
    · rw [e] at k2
      have hv : b = v := by injection (Option.some.inj (hb.symm.trans k2))
      exact .inr ⟨e, hv ▸ mono _ _ _ _ (hv ▸ hb0) ha0 (k3 0 [Flt.fin 0] a rfl ha).1⟩
  rw [hc]
  rcases key with ⟨e, hle⟩ | ⟨e, hle⟩
  · rw [e] at hrow
    exact ⟨fun _ => hrow.symm, fun hlt => absurd hlt (not_lt.2 hle)⟩
  · rw [e] at hrow
    exact ⟨fun hlt => absurd hlt (not_lt.2 hle), fun _ => hrow.symm⟩

/-- An update of a fitted estimator succeeds. -/
theorem rows_updates {ic : Criterion} {f : ℝ} (hf0 : 0 ≤ f) (hf1 : f < 1) (hic : ic ≠ .aicc) {t : GState Unit 1}
    (g : GFitted quadDist (rowsConfig .localRss ic f) (fun _ => rowsContract twoRows (by simp [twoRows]) (by simp [twoRows])) t)
    {batch : List (Obs 1)} (hb : batch ≠ []) :
    ∃ u, GState.update quadDist (rowsMethod twoRows) (rowsConfig .localRss ic f) batch t = (.ok (), u) ∧
      GFitted quadDist (rowsConfig .localRss ic f) (fun _ => rowsContract twoRows (by simp [twoRows]) (by simp [twoRows])) u := by
  have ho := rows_options (m := .localRss) hf0 hf1 hic
  obtain ⟨⟨⟩, u, e2, g2⟩ := update_total quad_regular (fun h => by cases h) (fun _ => rowsContract twoRows _ _) ho.valid ho.minIt.2
    ho.prefit.2 one_ne_zero (data := batch) ⟨hb, quad_support _, fun h => by cases h⟩ (fun _ _ _ _ _ _ _ _ => trivial) t g
  exact ⟨u, e2, g2⟩

theorem linPred_one (v : ℝ) : linPred (fun _ : Fin 1 => 1) (fun _ => v) = v := by simp [linPred]

/-- One observation of the response `y` with weight `w`. -/
def obs1 (y w : ℝ) : Obs 1 := ⟨fun _ => 0, y, w⟩

/-- **C90 fails with forgetting.**  With forget factor 1/2, two responses 0 and an update with the response 14/5 select the row 0;
a fit of all three responses, by the same discounted sums of squares, selects the row 3.  The fit divides the discounted
residual sums of squares by the mean of the discounted weights, and the update multiplies by the mean of the weights without
discount. -/
theorem C90_forget_fails (s : GState Unit 1) :
    ∃ t u v, GState.fit false quadDist (rowsMethod twoRows) (rowsConfig .localRss .max (1 / 2)) [obs1 0 1, obs1 0 1] s = (.ok (), t) ∧
      GState.update quadDist (rowsMethod twoRows) (rowsConfig .localRss .max (1 / 2)) [obs1 (14 / 5) 1] t = (.ok (), u) ∧
      GState.fit false quadDist (rowsMethod twoRows) (rowsConfig .localRss .max (1 / 2)) [obs1 0 1, obs1 0 1, obs1 (14 / 5) 1] s = (.ok (), v) ∧
      u.coefPath 0 = some twoRows ∧ v.coefPath 0 = some twoRows ∧ u.coef 0 = some [Flt.fin 0] ∧ v.coef 0 = some [Flt.fin 3] := by
  obtain ⟨t, st, ht, a1, a2, a3, a4, a5, a6, hup⟩ := rows_fit (ic := .max) (f := 1 / 2) (by norm_num) (by norm_num) (by simp)
    (data := [obs1 0 1, obs1 0 1]) (by simp) (by simp [obs1]) s
  obtain ⟨v, sv, hv, b1, b2, b3, b4, b5, b6, _⟩ := rows_fit (ic := .max) (f := 1 / 2) (by norm_num) (by norm_num) (by simp)
    (data := [obs1 0 1, obs1 0 1, obs1 (14 / 5) 1]) (by simp) (by simp [obs1]) s
  obtain ⟨u, hu, g⟩ := hup [obs1 (14 / 5) 1] (by simp)
  have hst := rows_state_fit (by norm_num) (by norm_num) (by simp) (by simp) ht
  have hsv := rows_state_fit (by norm_num) (by norm_num) (by simp) (by simp) hv
  obtain ⟨_, _, nv, _⟩ := rows_settings (by simp) hv
  have eA : (ws [obs1 0 1, obs1 0 1]).sum = 2 := by norm_num [ws, obs1]
  have eV : (ws [obs1 0 1, obs1 0 1, obs1 (14 / 5) 1]).sum = 3 := by norm_num [ws, obs1]
  have eB : (ws [obs1 (14 / 5) 1]).sum = 1 := by norm_num [ws, obs1]
  have eN : effectiveTrainingLength (1 / 2) 3 = 7 / 4 := by
    have h3 : (3 : ℝ) = ((3 : ℕ) : ℝ) := by norm_num
    unfold effectiveTrainingLength
    rw [if_neg (by norm_num), h3, Real.rpow_natCast]
    norm_num
  rw [eA] at a4 a5 hst
  have a5' : t.meanW 0 = some (.fin 1) := by rw [a5]; norm_num
  have hd : discSum (1 / 2) [obs1 0 1, obs1 0 1] Obs.w = 3 / 2 := by norm_num [discSum_cons, discSum_nil, obs1]
  have hd' : discSum (1 / 2) [obs1 0 1, obs1 0 1, obs1 (14 / 5) 1] Obs.w = 7 / 4 := by norm_num [discSum_cons, discSum_nil, obs1]
  rw [hd] at a6
  rw [hd'] at b6
  have t0 := a6 (by norm_num) 0 0 rfl
  have t1 := a6 (by norm_num) 1 3 rfl
  have v0 := b6 (by norm_num) 0 0 rfl
  have v1 := b6 (by norm_num) 1 3 rfl
  obtain ⟨path, hp, _⟩ := (g.stored 0 Nat.one_pos).path rfl
  obtain ⟨hsu, su, c1, c2, c3, c4, c5, c6, c7⟩ := rows_update hst hu (by rw [hp]; simp) a1.stored a5' a4
  rw [eB] at c4 c7
  norm_num only at c4
  have hq : onlineMeanLoopFlt (1 / 2) (2 + 1) (Flt.fin 1) ((List.replicate [obs1 (14 / 5) 1].length (1 : ℝ)).map Flt.fin) = Flt.fin 1 := by
    have e3 : ((2 : ℝ) + 1) - ((0 : ℕ) : ℝ) = 3 := by norm_num
    simp only [List.length_cons, List.length_nil, List.replicate, List.map_cons, List.map_nil, onlineMeanLoopFlt]
    rw [e3]
    have hne : ¬ effectiveTrainingLength (1 / 2) 3 = 0 := by rw [eN]; norm_num
    have hstep : onlineMeanStepFlt (Flt.fin 1) (Flt.fin 1) (1 / 2) 3 = Flt.fin 1 := by
      unfold onlineMeanStepFlt
      extract_lets n_eff fs diff
      have hfs : fs = .fin (1 / 2 * max (asymptoticTrainingLength (1 / 2) / effectiveTrainingLength (1 / 2) 3) 1) := if_neg hne
      have hdiff : diff = .fin 0 := by simp [diff, Flt.sub, Flt.neg, Flt.add]
      rw [hfs, hdiff]
      split_ifs <;> simp [Flt.mul, Flt.add, Flt.div]
    exact hstep
  have u0 := c7 1 hq one_ne_zero 0 0 _ rfl t0
  have u1 := c7 1 hq one_ne_zero 1 3 _ rfl t1
  simp only [discSSE, ones, obs1, List.map_cons, List.map_nil, discSum_cons, discSum_nil, linPred_one, List.length_cons, List.length_nil]
    at u0 u1 v0 v1
  norm_num at u0 u1 v0 v1
  rw [eV, eN] at nv
  refine ⟨t, u, v, ht, hu, hv, c3, b3, ?_, ?_⟩
  · exact (rows_pick hsu.ic (c4.trans (congrArg some eN)) (by norm_num) (by rw [c2, a2]; rfl) u0 u1 (by norm_num) (by norm_num) c1).1 (by norm_num)
  · exact (rows_pick hsv.ic nv (by norm_num) b2 v0 v1 (by norm_num) (by norm_num) b1).2 (by norm_num)

/-- **C90 fails with sample weights.**  Without forgetting and with weight 2 for every observation, responses 0 and 0, an update
with 0 and an update with 5 select the row 3; a fit of all four selects the row 0.  The denominator of the statistics averages
the working weights without the sample weights, and takes the sum of the sample weights for the number of values. -/
theorem C90_weights_fails (s : GState Unit 1) :
    ∃ t u v w, GState.fit false quadDist (rowsMethod twoRows) (rowsConfig .localRss .max 0) [obs1 0 2, obs1 0 2] s = (.ok (), t) ∧
      GState.update quadDist (rowsMethod twoRows) (rowsConfig .localRss .max 0) [obs1 0 2] t = (.ok (), u) ∧
      GState.update quadDist (rowsMethod twoRows) (rowsConfig .localRss .max 0) [obs1 5 2] u = (.ok (), v) ∧
      GState.fit false quadDist (rowsMethod twoRows) (rowsConfig .localRss .max 0) [obs1 0 2, obs1 0 2, obs1 0 2, obs1 5 2] s = (.ok (), w) ∧
      v.coefPath 0 = some twoRows ∧ w.coefPath 0 = some twoRows ∧ v.coef 0 = some [Flt.fin 3] ∧ w.coef 0 = some [Flt.fin 0] := by
  obtain ⟨t, st, ht, a1, a2, a3, a4, a5, a6, hup⟩ := rows_fit (ic := .max) (f := 0) le_rfl one_pos (by simp)
    (data := [obs1 0 2, obs1 0 2]) (by simp) (by simp [obs1]) s
  obtain ⟨w, sw, hw, b1, b2, b3, b4, b5, b6, _⟩ := rows_fit (ic := .max) (f := 0) le_rfl one_pos (by simp)
    (data := [obs1 0 2, obs1 0 2, obs1 0 2, obs1 5 2]) (by simp) (by simp [obs1]) s
  obtain ⟨u, hu, gu⟩ := hup [obs1 0 2] (by simp)
  obtain ⟨v, hv, gv⟩ := rows_updates le_rfl one_pos (by simp) gu (batch := [obs1 5 2]) (by simp)
  have hst := rows_state_fit le_rfl one_pos (by simp) (by simp) ht
  have hsw := rows_state_fit le_rfl one_pos (by simp) (by simp) hw
  obtain ⟨_, _, nw, _⟩ := rows_settings (by simp) hw
  have eA : (ws [obs1 0 2, obs1 0 2]).sum = 4 := by norm_num [ws, obs1]
  have eW : (ws [obs1 0 2, obs1 0 2, obs1 0 2, obs1 5 2]).sum = 8 := by norm_num [ws, obs1]
  have eB : (ws [obs1 0 2]).sum = 2 := by norm_num [ws, obs1]
  have eC : (ws [obs1 5 2]).sum = 2 := by norm_num [ws, obs1]
  have eN : ∀ n, effectiveTrainingLength 0 n = n := fun n => by simp [effectiveTrainingLength]
  have hstep : ∀ a n : ℝ, 0 < n →
      onlineMeanLoopFlt 0 (n + 1) (Flt.fin a) ((List.replicate 1 (1 : ℝ)).map Flt.fin) = Flt.fin ((a * n + 1) / (n + 1)) := by
    intro a n hn
    have := onlineMeanLoopFlt_zero [1] a n hn
    simpa using this
  rw [eA] at a4 a5 hst
  have a5' : t.meanW 0 = some (.fin 2) := by rw [a5]; norm_num
  have hd : discSum 0 [obs1 0 2, obs1 0 2] Obs.w = 4 := by norm_num [discSum_cons, discSum_nil, obs1]
  have hd' : discSum 0 [obs1 0 2, obs1 0 2, obs1 0 2, obs1 5 2] Obs.w = 8 := by norm_num [discSum_cons, discSum_nil, obs1]
  rw [hd] at a6
  rw [hd'] at b6
  have t0 := a6 (by norm_num) 0 0 rfl
  have t1 := a6 (by norm_num) 1 3 rfl
  have w0 := b6 (by norm_num) 0 0 rfl
  have w1 := b6 (by norm_num) 1 3 rfl
  obtain ⟨path, hp, _⟩ := (gu.stored 0 Nat.one_pos).path rfl
  obtain ⟨hsu, su, c1, c2, c3, c4, c5, c6, c7⟩ := rows_update hst hu (by rw [hp]; simp) a1.stored a5' a4
  simp only [eN, eB] at c4 c5 c6 c7 hsu
  have c6' := c6 (by norm_num)
  norm_num only at c5 c6'
  have hq1 := hstep 2 5 (by norm_num)
  norm_num only at hq1
  have u0 := c7 (11 / 6) (by norm_num only; exact hq1) (by norm_num) 0 0 _ rfl t0
  have u1 := c7 (11 / 6) (by norm_num only; exact hq1) (by norm_num) 1 3 _ rfl t1
  obtain ⟨path', hp', _⟩ := (gv.stored 0 Nat.one_pos).path rfl
  obtain ⟨hsv, sv, d1, d2, d3, d4, d5, d6, d7⟩ := rows_update hsu hv (by rw [hp']; simp) c1.stored c6' c5
  simp only [eN, eC] at d4 d5 d6 d7 hsv
  have hq2 := hstep 1 7 (by norm_num)
  norm_num only at hq2
  have v0 := d7 1 (by norm_num only; exact hq2) one_ne_zero 0 0 _ rfl u0
  have v1 := d7 1 (by norm_num only; exact hq2) one_ne_zero 1 3 _ rfl u1
  simp only [discSSE, ones, obs1, List.map_cons, List.map_nil, discSum_cons, discSum_nil, linPred_one, List.length_cons, List.length_nil]
    at v0 v1 w0 w1
  norm_num at v0 v1 w0 w1 d4
  rw [eW, eN] at nw
  refine ⟨t, u, v, w, ht, hu, hv, hw, d3, b3, ?_, ?_⟩
  · exact (rows_pick hsv.ic d4 (by norm_num) (by rw [d2, c2, a2]; rfl) v0 v1 (by norm_num) (by norm_num) d1).2 (by norm_num)
  · exact (rows_pick hsw.ic nw (by norm_num) b2 w0 w1 (by norm_num) (by norm_num) b1).1 (by norm_num)

/-- The hypotheses of `C90_fit_partial` and `C90_update_partial` are met: after a fit of the responses 1 and 3 and an update with
the response 5, all with unit weight and without forgetting, the statistics of the rows 0 and 3 are their residual sums of
squares of all three responses. -/
example (s : GState Unit 1) :
    ∃ t u, GState.fit false quadDist (rowsMethod twoRows) (rowsConfig .localRss .aic 0) [obs1 1 1, obs1 3 1] s = (.ok (), t) ∧
      GState.update quadDist (rowsMethod twoRows) (rowsConfig .localRss .aic 0) [obs1 5 1] t = (.ok (), u) ∧
      PooledRss t 0 2 (fun j => if j = 0 then 10 else 4) 2 2 ∧ PooledRss u 0 2 (fun j => if j = 0 then 35 else 8) 3 3 := by
  obtain ⟨t, ht, g, hup⟩ := rows_runs (P := twoRows) (by simp [twoRows]) (by simp [twoRows]) (m := .localRss) (ic := .aic) (f := 0) le_rfl one_pos
    (by simp) (data := [obs1 1 1, obs1 3 1]) (by simp) (by simp [obs1]) s
  obtain ⟨u, hu, gu⟩ := hup [obs1 5 1] (by simp)
  obtain ⟨f1, f2, f3, f4, f5, f6, f7, f8⟩ := rows_settings (by simp) ht
  have hst := rows_state_fit le_rfl one_pos (by simp) (by simp) ht
  have eA : (ws [obs1 1 1, obs1 3 1]).sum = 2 := by norm_num [ws, obs1]
  rw [eA] at hst
  obtain ⟨_, st, ht', a1, a2, a3, a4, a5, a6, _⟩ := rows_fit (ic := .aic) (f := 0) le_rfl one_pos (by simp) (data := [obs1 1 1, obs1 3 1])
    (by simp) (by simp [obs1]) s
  obtain rfl := (Prod.mk.inj (ht'.symm.trans ht)).2
  have hS : twoRows = ([fun _ => 0, fun _ => 3] : List (Row 1)).map ofVec := by simp [twoRows, ofVec]
  obtain ⟨r1, r2, r3, r4, r5, r6⟩ := rows_arrays [obs1 1 1, obs1 3 1]
  obtain ⟨q1, q2, q3, q4, q5, q6⟩ := rows_arrays [obs1 5 1]
  have hones : ∀ d : List (Obs 1), (ones d).map (fun o => Flt.fin o.w) = (ws d).map Flt.fin := fun d => by simp [ones, ws, Function.comp_def]
  obtain ⟨X, fv, wk, sc, h1, h2, h3, h4, h5⟩ := C90_fit_partial quad_regular (fun h => by cases h) rfl (by simp [obs1]) ht
    (k := 0) (by rw [f1]; rfl) a3
  obtain ⟨w1, w2⟩ := quad_working (lo := fitClip) (by norm_num [fitClip]) (by simpa [ys] using h3) h4
  have p1 := h5 1 (ones [obs1 1 1, obs1 3 1]) [fun _ => 0, fun _ => 3] (fun j => if j = 0 then 10 else 4)
    ⟨by
      rw [f8] at h1
      rw [← Option.some.inj h1, rows_design f5 f6] at h2
      exact (Except.ok.inj h2).symm.trans r1, w2.trans r2, by rw [w1, hones]; simp [ys, ws, obs1]⟩ hS (by rw [r6, eA]; norm_num)
    (by
      intro j b hj
      match j, hj with
      | 0, hj => obtain rfl := Option.some.inj hj; norm_num [discSSE, ones, discSum_cons, discSum_nil, linPred_one, obs1]
      | 1, hj => obtain rfl := Option.some.inj hj; norm_num [discSSE, ones, discSum_cons, discSum_nil, linPred_one, obs1])
  rw [r6, eA] at p1
  obtain ⟨it, hit, hle⟩ := update_iterates hu (by rw [hst.paramOrder]; simp) hst.minIt le_rfl
  obtain ⟨path, hp, _⟩ := (gu.stored 0 Nat.one_pos).path rfl
  obtain ⟨hsu, su, c1, c2, c3, c4, c5, c6, c7⟩ := rows_update hst hu (by rw [hp]; simp) a1.stored a5 a4
  obtain ⟨X', fv', wk', sc', k1, k2, k3, k4, k5⟩ := C90_update_partial quad_regular rfl (by simp [obs1]) hu it hit hle (k := 0)
    (by rw [hst.paramOrder]; simp) (by rw [hst.forget]; rfl) c3 (N := 2) (W := 2) (by norm_num) (by norm_num) (by simpa using p1)
  obtain ⟨w1', w2'⟩ := quad_working (lo := updateClip) (by norm_num [updateClip]) (by simpa [ys] using k3) k4
  obtain ⟨n, hn⟩ := hsu.scaler
  have p2 := k5 1 (ones [obs1 5 1]) [fun _ => 0, fun _ => 3] (fun j => if j = 0 then 35 else 8)
    ⟨by
      rw [hn] at k1
      rw [← Option.some.inj k1, rows_design hsu.equation hsu.fitIntercept] at k2
      exact (Except.ok.inj k2).symm.trans q1, w2'.trans q2, by rw [w1', hones]; simp [ys, ws, obs1]⟩ hS (by rw [q6]; norm_num [ws, obs1])
    (by
      intro j b hj
      match j, hj with
      | 0, hj => obtain rfl := Option.some.inj hj; norm_num [discSSE, ones, discSum_cons, discSum_nil, linPred_one, obs1]
      | 1, hj => obtain rfl := Option.some.inj hj; norm_num [discSSE, ones, discSum_cons, discSum_nil, linPred_one, obs1])
  have eB : (ws [obs1 5 1]).sum = 1 := by norm_num [ws, obs1]
  rw [q6, eB] at p2
  norm_num at p1 p2
  exact ⟨_, u, ht, hu, p1, p2⟩

/-- The hypotheses of `C90_loglikelihood` are met, with forgetting and sample weights. -/
example (s : GState Unit 1) :
    ∃ t u it path, GState.fit false quadDist (rowsMethod twoRows) (rowsConfig .globalLL .bic (1 / 10)) weightedData s = (.ok (), t) ∧
      GState.update quadDist (rowsMethod twoRows) (rowsConfig .globalLL .bic (1 / 10)) weightedData t = (.ok (), u) ∧
      (rowsConfig .globalLL .bic (1 / 10)).modelSelection = .globalLL ∧ u.itOuter = some it ∧ 1 ≤ it ∧ 0 ∈ t.paramOrder ∧
      u.coefPath 0 = some path := by
  have ho := rows_options (m := .globalLL) (ic := .bic) (f := 1 / 10) (by norm_num) (by norm_num) (by simp)
  obtain ⟨t, ht, _, hu⟩ := rows_runs (P := twoRows) (by simp [twoRows]) (by simp [twoRows]) (m := .globalLL) (ic := .bic)
    (f := 1 / 10) (by norm_num) (by norm_num) (by simp) (data := weightedData) (by simp [weightedData]) (by simp [weightedData]) s
  obtain ⟨u, hu, g⟩ := hu weightedData (by simp [weightedData])
  obtain ⟨h1, h2⟩ := fit_settings ho ht
  have hmem := (h1 0 Nat.one_pos).1
  obtain ⟨it, hit, hle⟩ := update_iterates hu (List.ne_nil_of_mem hmem) h2 le_rfl
  obtain ⟨path, hp, _⟩ := (g.stored 0 Nat.one_pos).path rfl
  exact ⟨t, u, it, path, ht, hu, rfl, hit, hle, hmem, hp⟩

end Ondil
