import Verif.Lemmas.UpdateTrace
import Verif.Props.GamlssExamples

/-!
# C96: the iterations of a fit
-/

namespace Ondil

variable {μ : Type} {p : ℕ}

/-- The debug dictionaries hold what the pass `q` for parameter `k` in outer iteration `o` computed. -/
def GState.Holds (t : GState μ p) (k o : ℕ) (q : Pass) : Prop :=
  t.debugWeights (k, o, q.it) = some q.wk.wt ∧ t.debugWorking (k, o, q.it) = some q.wk.wv ∧
    t.debugEta (k, o, q.it) = some q.wk.eta ∧ t.debugFv (k, o, q.it) = some q.fv ∧ t.debugCoef (k, o, q.it) = some q.beta

theorem PrepareRun.methods {frames : Bool} {D : DistOps} {M : MethodOps μ} {c : GConfig μ p} {s t : GState μ p}
    (q : PrepareRun frames D M c s t) : t.method = fun k => (q.ms.get? k).bind id :=
  (congrArg GState.method q.ht).trans rfl

theorem UpdateRun.methods {D : DistOps} {M : MethodOps μ} {c : GConfig μ p} {data : List (Obs p)} {s t : GState μ p}
    (r : UpdateRun D M c data s t) : r.s1.method = s.method :=
  r.proj GState.method (fun _ => rfl) fun _ _ => rfl

/-- Every successful `fit` is a run of the damped algorithm of `Spec/FitTrace.lean`, from the initial values of the
distribution to the fitted values.  The number of outer iterations and the deviance are stored, the coefficients of a
parameter are those of the last treatment that was kept, and in debug mode every pass is recorded. -/
theorem C96_fit {frames : Bool} {D : DistOps} {M : MethodOps μ} {c : GConfig μ p} {data : List (Obs p)} {s t : GState μ p}
    {u : Unit} (h : GState.fit frames D M c data s = (.ok u, t)) (hnd : t.paramOrder.Nodup) :
    ∃ ms fv0 sc it d l, (c.method.process D.nParams (.value (some M.ols))).result = .ok ms ∧
      D.initialValues (ys data) = .ok fv0 ∧ t.scaler = some sc ∧ t.itOuter = some it ∧ t.globalDev = some (d it) ∧
      FitTrace D M c (fun k => (ms.get? k).bind id) (ys data) (ws data) (fun k => (designFor t sc (xs data) k).toOption) t.forget.get?
        t.isRegularized.get? (fun k => t.stepSize.values[k]?) t.paramOrder fv0 t.fv it d l ∧
      (1 ≤ it → ∀ k ∈ t.paramOrder, ∃ l1 a l2, l = l1 ++ a :: l2 ∧ a.param = k ∧ a.Keeps D (ys data) (ws data) ∧
        (∀ b ∈ l2, b.param = k → ¬ b.Keeps D (ys data) (ws data)) ∧ t.coef k = some a.last.beta) ∧
      (c.debug = true → ∀ a ∈ l, ∀ q ∈ a.passes, t.Holds a.param a.outer q) := by
  obtain ⟨r⟩ := fit_ok h
  obtain ⟨S, hS⟩ : ∃ S, S = fitStart c D.nParams (ws data).sum r.nt r.fv r.nf r.sc r.reg r.sP := ⟨_, rfl⟩
  have hloop := r.hloop
  rw [← hS] at hloop
  have hset : SameSetup S r.s2 := (outerFit_setup _ _ S).ok (SameSetup.refl S) hloop
  have tp : ∀ {β : Type} (f : GState μ p → β), (∀ s d i, f (s.setResult d i) = f s) → f t = f r.s2 :=
    fun f hf => (congrArg f r.ht).trans (hf _ _ _)
  have hord : t.paramOrder = S.paramOrder := (tp GState.paramOrder fun _ _ _ => rfl).trans hset.paramOrder
  rw [hord] at hnd
  have hfresh : ∀ o i k, S.scheduleStep o i k = none := by rw [hS]; unfold_start; simp
  have hmin : S.minIt = if 0 < c.prefitInitial then c.prefitInitial else c.minItOuter := by rw [hS]; unfold_start
  have hsch : S.scheduleIteration = fun i => if i < c.prefitInitial then 1 else c.maxInner := by rw [hS]; unfold_start
  have hfv : S.fv = r.fv := by rw [hS, fitStart_fv]
  obtain ⟨pr⟩ := prepare_ok r.hprepare
  have hmeth : S.method = fun k => (pr.ms.get? k).bind id := by rw [hS, fitStart_method, pr.methods]
  obtain ⟨d, l, h1, h2, h3, h4, h5, h6⟩ := outerFit_trace hnd hfresh hloop
  have hnodup : (l.map fun a => (a.outer, a.param)).Nodup := by
    rw [h5]
    refine List.nodup_flatMap.2 ⟨fun i _ => hnd.map fun a b hab => (Prod.mk.inj hab).2, ?_⟩
    refine List.nodup_range.imp ?_
    intro a b hab x hx hy
    obtain ⟨k, _, rfl⟩ := List.mem_map.1 hx
    obtain ⟨k', _, e⟩ := List.mem_map.1 hy
    have := (Prod.mk.inj e).1
    omega
  have houter : ∀ a ∈ l, 1 ≤ a.outer ∧ a.param ∈ S.paramOrder := by
    intro a ha
    have : (a.outer, a.param) ∈ l.map fun a => (a.outer, a.param) := List.mem_map.2 ⟨a, ha, rfl⟩
    rw [h5] at this
    obtain ⟨i, _, hi⟩ := List.mem_flatMap.1 this
    obtain ⟨k, hk, e⟩ := List.mem_map.1 hi
    obtain ⟨e1, e2⟩ := Prod.mk.inj e
    exact ⟨by omega, e2 ▸ hk⟩
  obtain ⟨v1, v2, v3, v4⟩ := h4.values
  have hdesign : ∀ k A, r.X.get? k = some A → (designFor t r.sc (xs data) k).toOption = some A := by
    intro k A hA
    have e1 := (forParams_get? r.hX hA).2
    have e2 : designFor t r.sc (xs data) k = designFor r.sP r.sc (xs data) k := by
      unfold designFor
      have e3 : t.equation = r.sP.equation := by
        exact (tp GState.equation fun _ _ _ => rfl).trans (hset.equation.trans (by rw [hS, fitStart_equation]))
      have e4 : t.fitIntercept = r.sP.fitIntercept := by
        exact (tp GState.fitIntercept fun _ _ _ => rfl).trans (hset.fitIntercept.trans (by rw [hS, fitStart_fitIntercept]))
      rw [e3, e4]
    rw [e2, e1]
    rfl
  refine ⟨pr.ms, r.fv, r.sc, r.it, d, l, pr.hms, r.hfv, ?_, (congrArg GState.itOuter r.ht).trans rfl, ?_, ?_, ?_, ?_⟩
  · exact (tp GState.scaler fun _ _ _ => rfl).trans (hset.scaler.trans (by rw [hS, fitStart_scaler]))
  · rw [h3]; exact (congrArg GState.globalDev r.ht).trans rfl
  · refine ⟨by rw [← hmin]; exact h1, by rw [h2, hfv], by rw [hord]; exact h5, by rw [hord]; exact h6, by rw [← hfv]; exact v2, v3,
      by rw [tp GState.fv fun _ _ _ => rfl]; exact v4, by rw [← hfv, tp GState.fv fun _ _ _ => rfl]; exact v1, ?_, ?_, ?_⟩
    · intro a ha
      obtain ⟨m0, X, forget, reg, step, s1, t1, g0, g1, g2, g3, g4, g5⟩ := h4.each a ha
      refine ⟨g5.getLast, m0, X, forget, reg, step, (congrFun hmeth _).symm.trans g0, hdesign _ _ g1, ?_, ?_, ?_, ?_⟩
      · rw [← g2, tp GState.forget fun _ _ _ => rfl, ← hset.forget]
      · rw [← g3, tp GState.isRegularized fun _ _ _ => rfl, ← hset.isRegularized]
      · rw [← g4, tp GState.stepSize fun _ _ _ => rfl, ← hset.stepSize]
      · have := g5.trace
        rw [hsch] at this
        have e : (if a.outer ≤ c.prefitInitial then 1 else c.maxInner) =
            if a.outer - 1 < c.prefitInitial then 1 else c.maxInner := by
          have := (houter a ha).1
          by_cases hc : a.outer ≤ c.prefitInitial
          · rw [if_pos hc, if_pos (by omega)]
          · rw [if_neg hc, if_neg (by omega)]
        rw [e]
        exact this
    · intro a ha hk
      obtain ⟨m0, X, forget, reg, step, s1, t1, g0, g1, g2, g3, g4, g5⟩ := h4.each a ha
      exact (g5.kept hk).1
    · intro a ha hk
      obtain ⟨m0, X, forget, reg, step, s1, t1, g0, g1, g2, g3, g4, g5⟩ := h4.each a ha
      exact (g5.refused hk).1
  · intro hit k hk
    rw [hord] at hk
    rcases h4.coef k with ⟨l1, a, l2, e1, e2, e3, e4, e5⟩ | ⟨e1, _⟩
    · exact ⟨l1, a, l2, e1, e2, e3, e4, (congrFun (tp GState.coef fun _ _ _ => rfl) k).trans e5⟩
    · exfalso
      have hmem : ((1, k) : ℕ × ℕ) ∈ l.map fun a => (a.outer, a.param) := by
        rw [h5]
        exact List.mem_flatMap.2 ⟨0, List.mem_range.2 (by omega), List.mem_map.2 ⟨k, hk, rfl⟩⟩
      obtain ⟨a, ha, e⟩ := List.mem_map.1 hmem
      obtain ⟨e2, e3⟩ := Prod.mk.inj e
      exact e1 a ha e3 (.inl e2)
  · intro hd a ha q hq
    have := h4.recorded hnodup hd a ha q hq
    exact this.of_same ⟨congrFun (tp GState.debugWeights fun _ _ _ => rfl) _, congrFun (tp GState.debugWorking fun _ _ _ => rfl) _,
      congrFun (tp GState.debugEta fun _ _ _ => rfl) _, congrFun (tp GState.debugFv fun _ _ _ => rfl) _,
      congrFun (tp GState.debugCoef fun _ _ _ => rfl) _⟩

/-- Every successful `update` is a run of the algorithm for new rows of `Spec/FitTrace.lean`, from the predictions for
these rows.  The required number of outer iterations and the schedule of passes are those of the options, four iterations
of one pass if a cautious update sees an outlier; without cautious updates and prefit iterations the required number is
the one left by the call before. -/
theorem C96_update {D : DistOps} {M : MethodOps μ} {c : GConfig μ p} {data : List (Obs p)} {s t : GState μ p}
    {u : Unit} (h : GState.update D M c data s = (.ok u, t)) (hnd : s.paramOrder.Nodup) :
    ∃ fv0 sc f0 old it d l required schedule, predictParams D s (xs data) .response = .ok fv0 ∧ t.scaler = some sc ∧
      s.forget.get? 0 = some f0 ∧ s.globalDev = some old ∧ t.itOuter = some it ∧ t.globalDev = some (d it) ∧
      UpdateTrace D M c s.method (ys data) (ws data)
        (fun fv => Flt.add (deviance D (ys data) (ws data) fv) (Flt.mul (.fin ((1 - f0) ^ data.length)) old))
        (fun k => (designFor s sc (xs data) k).toOption) s.forget.get? s.isRegularized.get? s.xGram s.yGram required schedule
        s.paramOrder fv0 t.fv it d l ∧
      (c.cautiousUpdates = false ∧ required = (if 0 < c.prefitUpdate then c.prefitUpdate else s.minIt) ∧
          schedule = (fun i => if i < c.prefitUpdate then 1 else c.maxInner) ∨
        c.cautiousUpdates = true ∧ required = 4 ∧
          schedule = (fun i => if i < 4 ∨ i < c.prefitUpdate then 1 else c.maxInner) ∨
        c.cautiousUpdates = true ∧ required = c.minItOuter ∧
          schedule = fun i => if i < c.prefitUpdate then 1 else c.maxInner) ∧
      (1 ≤ it → ∀ k ∈ s.paramOrder, ∃ l1 a l2, l = l1 ++ a :: l2 ∧ a.param = k ∧ (∀ b ∈ l2, b.param ≠ k) ∧
        t.coef k = some a.last.beta) ∧
      (c.debug = true → ∀ a ∈ l, ∀ q ∈ a.passes, t.Holds a.param a.outer q) := by
  obtain ⟨r⟩ := update_ok h
  obtain ⟨S, hS⟩ : ∃ S, S = r.s1 := ⟨_, rfl⟩
  have hloop := r.hloop
  rw [← hS] at hloop
  have hset : SameCommitted S r.s2 := (outerUpdate_committed _ _ S).ok (SameCommitted.refl S) hloop
  have tp : ∀ {β : Type} (f : GState μ p → β), (∀ s d i, f (s.setResult d i) = f s) →
      (∀ s : GState μ p, f s.commitStatistics = f s) → f t = f r.s2 :=
    fun f hf hf' => (congrArg f r.ht).trans ((hf' _).trans (hf _ _ _))
  have pr : ∀ {β : Type} (f : GState μ p → β), (∀ s, f s.outlierSchedule = f s) → (∀ s b, f (s.setMinIt b) = f s) →
      f S = f (updateStart c (r.nObs0 + (ws data).sum) r.nt r.fv r.sc s) := fun f h1 h2 => by rw [hS]; exact r.proj f h1 h2
  have hord : S.paramOrder = s.paramOrder := (pr GState.paramOrder (fun _ => rfl) fun _ _ => rfl).trans rfl
  have hforget : S.forget = s.forget := (pr GState.forget (fun _ => rfl) fun _ _ => rfl).trans rfl
  have hreg : S.isRegularized = s.isRegularized := (pr GState.isRegularized (fun _ => rfl) fun _ _ => rfl).trans rfl
  have hmeth : S.method = s.method := by rw [hS]; exact r.methods
  have hxg : S.xGram = s.xGram := (pr GState.xGram (fun _ => rfl) fun _ _ => rfl).trans rfl
  have hyg : S.yGram = s.yGram := (pr GState.yGram (fun _ => rfl) fun _ _ => rfl).trans rfl
  have hgd : S.globalDev = s.globalDev := (pr GState.globalDev (fun _ => rfl) fun _ _ => rfl).trans rfl
  have hfv : S.fv = r.fv := (pr GState.fv (fun _ => rfl) fun _ _ => rfl).trans rfl
  have hsc : S.scaler = some r.sc := (pr GState.scaler (fun _ => rfl) fun _ _ => rfl).trans rfl
  rw [← hord] at hnd
  obtain ⟨f0, old, d, l, hf0, hold, h1, h2, h3, h4, h5, h6⟩ := outerUpdate_trace hnd hloop
  have hnodup : (l.map fun a => (a.outer, a.param)).Nodup := by
    rw [h5]
    refine List.nodup_flatMap.2 ⟨fun i _ => hnd.map fun a b hab => (Prod.mk.inj hab).2, ?_⟩
    refine List.nodup_range.imp ?_
    intro a b hab x hx hy
    obtain ⟨k, _, rfl⟩ := List.mem_map.1 hx
    obtain ⟨k', _, e⟩ := List.mem_map.1 hy
    have := (Prod.mk.inj e).1
    omega
  obtain ⟨v1, v2, v3, v4⟩ := h4.values
  have hdev : updateDeviance ⟨D, M, c, r.X.get?, ys data, ws data⟩ f0 old =
      fun fv => Flt.add (deviance D (ys data) (ws data) fv) (Flt.mul (.fin ((1 - f0) ^ data.length)) old) := by
    funext fv
    simp only [updateDeviance, batchDiscount]
    rw [show (ys data).length = data.length from List.length_map ..]
  have hdesign : ∀ k A, r.X.get? k = some A → (designFor s r.sc (xs data) k).toOption = some A := by
    intro k A hA
    rw [(forParams_get? r.hX hA).2]
    rfl
  refine ⟨r.fv, r.sc, f0, old, r.it, d, l, S.minIt, S.scheduleIteration, ?_, ?_, by rw [← hforget]; exact hf0,
    by rw [← hgd]; exact hold, (congrArg GState.itOuter r.ht).trans rfl, ?_, ?_, ?_, ?_, ?_⟩
  · rw [← predictParams_setNObs r.hnObs0 r.nt]; exact r.hfv
  · exact (tp GState.scaler (fun _ _ _ => rfl) fun _ => rfl).trans (hset.setup.scaler.trans hsc)
  · rw [h3]; exact (congrArg GState.globalDev r.ht).trans rfl
  · refine ⟨h1, by rw [h2, hfv, hdev], by rw [← hord]; exact h5, by rw [← hord]; exact h6, by rw [← hfv]; exact v2, v3,
      by rw [tp GState.fv (fun _ _ _ => rfl) fun _ => rfl]; exact v4,
      by rw [← hfv, tp GState.fv (fun _ _ _ => rfl) fun _ => rfl]; exact v1, ?_, ?_⟩
    · intro a ha
      obtain ⟨m0, X, forget, reg, x0, y0, s1, t1, g1, g2⟩ := h4.each a ha
      exact ⟨g2.getLast, m0, X, forget, reg, x0, y0, by rw [← hmeth]; exact g1.method, hdesign _ _ g1.X, by rw [← hforget]; exact g1.forget,
        by rw [← hreg]; exact g1.reg, by rw [← hxg]; exact g1.x0, by rw [← hyg]; exact g1.y0,
        by rw [← hdev]; exact g2.trace⟩
    · intro a ha
      obtain ⟨m0, X, forget, reg, x0, y0, s1, t1, g1, g2⟩ := h4.each a ha
      exact g2.kept
  · have hc := cautious_ok r.hcautious
    rw [← hS] at hc
    rcases hc with ⟨hc, e⟩ | ⟨hc, e | e⟩
    · exact .inl ⟨hc, by rw [e]; rfl, by rw [e]; rfl⟩
    · refine .inr (.inl ⟨hc, by rw [e]; rfl, ?_⟩)
      rw [e]
      funext i
      change (if i < 4 then 1 else if i < c.prefitUpdate then 1 else c.maxInner) = _
      by_cases h4 : i < 4
      · simp [h4]
      · simp [h4]
    · exact .inr (.inr ⟨hc, by rw [e]; rfl, by rw [e]; rfl⟩)
  · intro hit k hk
    rw [← hord] at hk
    rcases h4.coef k with ⟨l1, a, l2, e1, e2, e3, e4⟩ | ⟨e1, _⟩
    · exact ⟨l1, a, l2, e1, e2, e3, (congrFun (tp GState.coef (fun _ _ _ => rfl) fun _ => rfl) k).trans e4⟩
    · exfalso
      have hmem : ((1, k) : ℕ × ℕ) ∈ l.map fun a => (a.outer, a.param) := by
        rw [h5]
        exact List.mem_flatMap.2 ⟨0, List.mem_range.2 (by omega), List.mem_map.2 ⟨k, hk, rfl⟩⟩
      obtain ⟨a, ha, e⟩ := List.mem_map.1 hmem
      exact e1 a ha (Prod.mk.inj e).2
  · intro hd a ha q hq
    have := h4.recorded hnodup hd a ha q hq
    exact this.of_same ⟨congrFun (tp GState.debugWeights (fun _ _ _ => rfl) fun _ => rfl) _,
      congrFun (tp GState.debugWorking (fun _ _ _ => rfl) fun _ => rfl) _,
      congrFun (tp GState.debugEta (fun _ _ _ => rfl) fun _ => rfl) _,
      congrFun (tp GState.debugFv (fun _ _ _ => rfl) fun _ => rfl) _,
      congrFun (tp GState.debugCoef (fun _ _ _ => rfl) fun _ => rfl) _⟩

/-! ### A fit without iterations -/

/-- The first test of the outer loop compares with a deviance that is a thousand higher than the initial one.  If no
iterations are required and the initial deviance is so large that a thousand is a small relative change, `fit` returns
without any iteration, and all coefficients are zero. -/
theorem C96_no_iteration {frames : Bool} {D : DistOps} {M : MethodOps μ} {c : GConfig μ p} {data : List (Obs p)}
    {s t : GState μ p} {u : Unit} (h : GState.fit frames D M c data s = (.ok u, t)) (hmin : c.minItOuter = 0)
    (hpre : c.prefitInitial = 0) {fv0 : Fv} {d0 : ℝ} (hfv : D.initialValues (ys data) = .ok fv0)
    (hd0 : deviance D (ys data) (ws data) fv0 = .fin d0) (hbig : 1000 < c.relTolOuter * |d0 + 1000|) :
    t.itOuter = some 0 ∧ t.globalDev = some (.fin d0) ∧ t.fv = fv0 ∧
      ∀ k < D.nParams, ∃ J, t.coef k = some (List.replicate J (.fin 0)) := by
  obtain ⟨r⟩ := fit_ok h
  have e1 : r.fv = fv0 := Except.ok.inj (r.hfv.symm.trans hfv)
  have hne : d0 + 1000 ≠ 0 := by
    intro h0
    rw [h0] at hbig
    norm_num at hbig
  have hstop : fitStops c 0 0 (.fin d0) (Flt.add (.fin d0) (.fin 1000)) := by
    refine ⟨le_rfl, .inl (.inl ?_)⟩
    have hpos : 0 < |d0 + 1000| := abs_pos.2 hne
    simp only [Flt.sub, Flt.neg, Flt.add, Flt.abs, Flt.div, abs_eq_zero, if_neg hne, Flt.lt]
    rw [show d0 + 1000 + -d0 = 1000 by ring, abs_of_pos (by norm_num : (0 : ℝ) < 1000), div_lt_iff₀ hpos]
    exact hbig
  have hloop := r.hloop
  unfold outerFit at hloop
  rw [Py.bind_self] at hloop
  have hm : (fitStart c D.nParams (ws data).sum r.nt r.fv r.nf r.sc r.reg r.sP).minIt = 0 := by
    unfold_start
    simp [hmin, hpre]
  rw [hm, fitStart_fv, e1] at hloop
  change outerLoop _ _ (max 0 c.maxOuter + 1 + 1) 0 _ _ _ = _ at hloop
  unfold outerLoop at hloop
  rw [hd0, if_pos hstop] at hloop
  obtain ⟨e2, e3⟩ := Py.pure_ok_iff.1 hloop
  obtain ⟨e4, e5⟩ := Prod.mk.inj (Option.some.inj e2)
  have tp : ∀ {β : Type} (f : GState μ p → β), (∀ s d i, f (s.setResult d i) = f s) → f t = f r.s2 :=
    fun f hf => (congrArg f r.ht).trans (hf _ _ _)
  refine ⟨((congrArg GState.itOuter r.ht).trans rfl).trans (congrArg some e5.symm),
    ((congrArg GState.globalDev r.ht).trans rfl).trans (congrArg some e4.symm), ?_, fun k hk => ?_⟩
  · rw [tp GState.fv fun _ _ _ => rfl, ← e3, fitStart_fv]
  · obtain ⟨J, hJ, _⟩ := forParams_mem r.hnf hk
    refine ⟨J, ?_⟩
    rw [tp GState.coef fun _ _ _ => rfl, ← e3]
    change (if k < D.nParams then (r.nf.get? k).map fun J => List.replicate J (Flt.fin 0) else none) = _
    rw [if_pos hk, hJ]
    rfl

/-- A fit from the parts of another one that differs in the options of the loops only. -/
theorem fit_of_loop {frames : Bool} {D : DistOps} {M : MethodOps μ} {c : GConfig μ p} {data : List (Obs p)}
    {s sP s2 : GState μ p} {nt : PyDict ℝ} {fv : Fv} {nf : PyDict ℕ} {forget0 : ℝ} {sc : Scaler p} {X : PyDict Arr2}
    {reg : PyDict (List Bool)} {dev : Flt} {it : ℕ} (valid : c.Valid) (nonempty : ¬ (data = [] ∨ p = 0))
    (support : ¬ OutOfSupport D (ys data)) (hprepare : prepare frames D M c s = (.ok (), sP))
    (hnt : trainingLengths D.nParams sP.forget (ws data).sum = .ok nt) (hfv : D.initialValues (ys data) = .ok fv)
    (hnf : (forParams D.nParams fun k =>
      match sP.equation.get? k, sP.fitIntercept.get? k with
      | some eq, some fi => getJ p fi eq
      | _, _ => .error .keyError) = .ok nf)
    (hforget0 : sP.forget.get? 0 = some forget0)
    (hsc : Scaler.fit c.scaleInputs forget0 (xs data) (ws data) = .ok sc)
    (hX : (forParams D.nParams fun k => designFor sP sc (xs data) k) = .ok X)
    (hreg : (forParams D.nParams fun k =>
      match nf.get? k, sP.fitIntercept.get? k, sP.regularizeIntercept.get? k, sP.equation.get? k with
      | some J, some fi, some ri, some eq => .ok (regularizedFlags J fi ri eq)
      | _, _, _, _ => .error .keyError) = .ok reg)
    (hloop : outerFit ⟨D, M, c, X.get?, ys data, ws data⟩
      (c.fuel (fitStart c D.nParams (ws data).sum nt fv nf sc reg sP).minIt)
      (fitStart c D.nParams (ws data).sum nt fv nf sc reg sP) = (.ok (some (dev, it)), s2)) :
    GState.fit frames D M c data s = (.ok (), s2.setResult dev it) := by
  unfold GState.fit
  rw [Py.bind_raiseIf_neg (not_not.2 valid), Py.bind_of_ok hprepare, Py.bind_raiseIf_neg nonempty, Py.bind_raiseIf_neg support,
    Py.bind_set, Py.bind_self]
  change (Py.call (trainingLengths D.nParams sP.forget (ws data).sum) >>= _) _ = _
  rw [hnt, Py.bind_call_ok, Py.bind_set, hfv, Py.bind_call_ok, Py.bind_set]
  refine (Py.bind_of_ok (a := nf) (s' := _) (by exact congrArg (fun e => Py.call e _) hnf)).trans ?_
  rw [Py.bind_set]
  refine (Py.bind_of_ok (a := forget0) (s' := _) (by exact congrArg (fun e => Py.attr e _ _) hforget0)).trans ?_
  refine (Py.bind_of_ok (a := sc) (s' := _) (by exact congrArg (fun e => Py.call e _) hsc)).trans ?_
  rw [Py.bind_set]
  refine (Py.bind_of_ok (a := X) (s' := _) (by exact congrArg (fun e => Py.call e _) hX)).trans ?_
  refine (Py.bind_of_ok (a := reg) (s' := _) (by exact congrArg (fun e => Py.call e _) hreg)).trans ?_
  rw [Py.bind_set, Py.bind_self]
  refine (Py.bind_of_ok (by exact hloop)).trans ?_
  rfl

/-- Options without required iterations. -/
noncomputable def walkNone : GConfig Unit 1 := { walkConfig 1 1 with minItOuter := 0, relTolOuter := 1 / 1000 }

open Classical in
example : ∃ t, GState.fit false (walkDist fun _ => .fin (-1000000)) firstMethod walkNone walkData (GState.new Unit 1) =
    (.ok (), t) ∧ t.itOuter = some 0 ∧ t.coef 0 = some [.fin 0] := by
  obtain ⟨t, ht⟩ := walk_fit (fun _ => .fin (-1000000)) 1 1 le_rfl (GState.new Unit 1)
  obtain ⟨r⟩ := fit_ok ht
  have hfv : r.fv = [fun _ => .fin 0, fun _ => .fin 0] := (Except.ok.inj r.hfv).symm
  have hd0 : deviance (walkDist fun _ => .fin (-1000000)) (ys walkData) (ws walkData) [fun _ => .fin 0, fun _ => .fin 0] =
      .fin 4000000 := by
    norm_num [deviance, walkDist, ws, walkData, wmul, asum, Dist.npSum, Flt.mul, Flt.add]
  have hbig : (1000 : ℝ) < walkNone.relTolOuter * |4000000 + 1000| := by
    norm_num [walkNone, abs_of_pos]
  have hstop : fitStops walkNone 0 0 (.fin 4000000) (Flt.add (.fin 4000000) (.fin 1000)) := by
    refine ⟨le_rfl, .inl (.inl ?_)⟩
    norm_num [Flt.sub, Flt.neg, Flt.add, Flt.abs, Flt.div, Flt.lt, walkNone, abs_of_pos]
  have hrun := fit_of_loop (c := walkNone) (s2 := fitStart walkNone 1 (ws walkData).sum r.nt r.fv r.nf r.sc r.reg r.sP)
    (dev := .fin 4000000) (it := 0) (by simp [GConfig.Valid, walkNone, walkConfig, OptArg.OnlyValue])
    r.nonempty r.support (by exact r.hprepare) r.hnt r.hfv r.hnf r.hforget0 r.hsc r.hX r.hreg (by
      unfold outerFit
      rw [Py.bind_self]
      change outerLoop (fitStops walkNone 0) _ (1 + 1 + 1) 0 _ _ _ = _
      rw [fitStart_fv, hfv]
      change outerLoop _ _ _ 0 (deviance (walkDist fun _ => .fin (-1000000)) (ys walkData) (ws walkData)
        [fun _ => .fin 0, fun _ => .fin 0]) (Flt.add (deviance (walkDist fun _ => .fin (-1000000)) (ys walkData)
        (ws walkData) [fun _ => .fin 0, fun _ => .fin 0]) _) _ = _
      unfold outerLoop
      rw [hd0, if_pos hstop]
      rfl)
  refine ⟨_, hrun, ?_, ?_⟩
  · exact (C96_no_iteration hrun rfl rfl (by exact r.hfv) (by rw [hfv]; exact hd0) hbig).1
  · change (if 0 < 1 then (r.nf.get? 0).map fun J => List.replicate J (Flt.fin 0) else none) = _
    have e : r.nf.get? 0 = some 1 := by
      obtain ⟨J, hJ, e⟩ := forParams_mem r.hnf (k := 0) Nat.one_pos
      rw [hJ]
      obtain ⟨q⟩ := prepare_ok r.hprepare
      have heq : q.eq = [(0, .str "intercept")] := (Except.ok.inj q.heq).symm
      have hfi : q.fi = [(0, true)] := (Except.ok.inj q.hfi).symm
      rw [q.ht] at e
      change (match q.eq.get? 0, q.fi.get? 0 with
        | some eq, some fi => getJ 1 fi eq
        | _, _ => Except.error PyErr.keyError) = _ at e
      rw [heq, hfi] at e
      exact congrArg some (Except.ok.inj e).symm
    rw [e]
    rfl

/-! ### The last proposal is kept, not the best -/

/-- One outer iteration with two passes. -/
noncomputable def walkTwice : GConfig Unit 1 := { walkConfig 1 1 with maxInner := 2 }

theorem walkTwice_options (g : ℝ → Flt) : GoodOptions false (walkDist g) walkTwice () true fun _ => 1 :=
  have h := walk_options g 1 1 le_rfl
  ⟨by simp [GConfig.Valid, walkTwice, walkConfig, OptArg.OnlyValue], h.method, h.intercept, h.columns, h.order, h.minIt, h.prefit⟩

/-- The design of a fit with these options. -/
theorem walkTwice_design {g : ℝ → Flt} {s t : GState Unit 1} {sc : Scaler 1}
    (h : GState.fit false (walkDist g) firstMethod walkTwice walkData s = (.ok (), t)) (hs : t.scaler = some sc) :
    designFor t sc (xs walkData) 0 = .ok [[.fin 1], [.fin 1]] := by
  obtain ⟨r⟩ := fit_ok h
  obtain ⟨q⟩ := prepare_ok r.hprepare
  have hset := (outerFit_setup _ _ _).ok (SameSetup.refl _) r.hloop
  have e1 : t.scaler = some r.sc := ((congrArg GState.scaler r.ht).trans rfl).trans (hset.scaler.trans (by unfold_start))
  have e2 : t.equation = r.sP.equation := ((congrArg GState.equation r.ht).trans rfl).trans (hset.equation.trans (by unfold_start))
  have e3 : t.fitIntercept = r.sP.fitIntercept :=
    ((congrArg GState.fitIntercept r.ht).trans rfl).trans (hset.fitIntercept.trans (by unfold_start))
  have e4 : sc = r.sc := Option.some.inj (hs.symm.trans e1)
  have heq : q.eq = [(0, .str "intercept")] := (Except.ok.inj q.heq).symm
  have hfi : q.fi = [(0, true)] := (Except.ok.inj q.hfi).symm
  have hsc : ∃ m, r.sc = .off m := by
    have h' : Scaler.fit walkTwice.scaleInputs r.forget0 (xs walkData) (ws walkData) = .ok (.off (ws walkData).sum) := by
      simp [Scaler.fit, ToScale.selection, walkTwice, walkConfig, xs, walkData]
    exact ⟨_, Except.ok.inj (r.hsc.symm.trans h')⟩
  obtain ⟨m, hm⟩ := hsc
  unfold designFor
  rw [e2, e3, e4, q.ht]
  change (match q.eq.get? 0, q.fi.get? 0 with
    | some eq, some fi => modelArray (Flt.fin 1) fi eq (r.sc.transformFlt (xs walkData))
    | _, _ => Except.error PyErr.keyError) = _
  rw [heq, hfi, hm]
  rfl

/-- One pass of the walk moves the parameter by one. -/
theorem walk_pass {g : ℝ → Flt} {v : ℝ} {q : Pass} {o : ℕ} {forget : ℝ} {reg : List Bool} (hfv : AtVal v q.fv) (hst : q.step = 1)
    (hwk : working (walkDist g) fitClip (ys walkData) q.fv 0 = .ok q.wk)
    (hsol : q.Solves firstMethod () (ws walkData) forget reg [[.fin 1], [.fin 1]] o)
    (hval : ∃ xb, matVec [[.fin 1], [.fin 1]] q.beta = .ok xb ∧ (walkDist g).linkInverse 0 (List.zipWith (fun u e =>
      Flt.add (Flt.mul (.fin q.step) u) (Flt.mul (.fin (1 - q.step)) e)) xb q.wk.eta) = .ok q.values) :
    q.values = [.fin (v + 1), .fin (v + 1)] := by
  have e1 := Except.ok.inj ((walk_working hfv).symm.trans hwk)
  obtain ⟨m, m', xg, yg, _, _, h2, h3, _⟩ := hsol
  have e2 : yg = [.fin (v + 1)] := by
    rw [← Except.ok.inj h2, ← e1]
    rfl
  have e3 : q.beta = [.fin (v + 1)] := by
    have := Except.ok.inj (h3 rfl)
    rw [← (Prod.mk.inj this).1, e2]
  obtain ⟨xb, h4, h5⟩ := hval
  rw [e3] at h4
  have e4 : xb = [.fin (v + 1), .fin (v + 1)] := by
    rw [← Except.ok.inj h4]
    simp [dot, asum, Dist.npSum, Flt.mul, Flt.add]
  rw [← Except.ok.inj h5, e4, ← e1, hst]
  simp [Flt.mul, Flt.add]

theorem AtVal.setCol {v a : ℝ} {fv : Fv} (h : AtVal v fv) : AtVal a (fv.setCol 0 [.fin a, .fin a]) := by
  obtain ⟨r1, r2, rfl, _, _⟩ := h
  exact ⟨_, _, rfl, by simp, by simp⟩

/-- The fit does not end at the best values it has seen.  Here the first pass takes the deviance from four to zero, the
second takes it back to four, and the second is kept. -/
theorem C96_best_fails : ∃ t : GState Unit 1, GState.fit false (walkDist fun v => .fin (-(v - 1) ^ 2)) firstMethod walkTwice
    walkData (GState.new Unit 1) = (.ok (), t) ∧ ∃ ms fv0 sc it d l,
      (walkDist fun v => .fin (-(v - 1) ^ 2)).initialValues (ys walkData) = .ok fv0 ∧ t.scaler = some sc ∧
      FitTrace (walkDist fun v => .fin (-(v - 1) ^ 2)) firstMethod walkTwice (fun k => (PyDict.get? ms k).bind id) (ys walkData) (ws walkData)
        (fun k => (designFor t sc (xs walkData) k).toOption) t.forget.get? t.isRegularized.get?
        (fun k => t.stepSize.values[k]?) t.paramOrder fv0 t.fv it d l ∧
      t.globalDev = some (.fin 4) ∧ ∃ a ∈ l, ∃ q ∈ a.passes, ¬ q.Raises ∧ q.dev = .fin 0 := by
  obtain ⟨g, hg⟩ : ∃ g : ℝ → Flt, g = fun v => .fin (-(v - 1) ^ 2) := ⟨_, rfl⟩
  rw [← hg]
  obtain ⟨t, _, ht, _, hord, _⟩ := walk_run g walkTwice (walkTwice_options g) rfl rfl walkData
    (walk_batch g _ rfl _ (by simp [walkData]))
  obtain ⟨ms, fv0, sc, it, d, l, _, h1, h2, h3, h4, h5, _, _⟩ := C96_fit ht (by rw [hord]; simp)
  have hit : it = 1 := by
    have e := h5.outer
    have h6 := e.ends.1
    change 1 ≤ it at h6
    by_contra hne
    exact e.continues 1 (by omega) ⟨le_rfl, .inr (.inl le_rfl)⟩
  subst hit
  have hcyc := h5.cycle
  rw [hord] at hcyc
  obtain ⟨a, rfl⟩ : ∃ a, l = [a] := by
    have := congrArg List.length hcyc
    simp at this
    exact List.length_eq_one_iff.1 this
  have hao : a.outer = 1 ∧ a.param = 0 := by simpa using hcyc
  obtain ⟨hlast, m0, A, f, rg, st, _, hA, _, _, hst, hin⟩ := h5.inner a (by simp)
  have hbefore := h5.first a rfl
  rw [hao.1, hao.2] at hin
  rw [hao.2] at hA hst
  rw [walkTwice_design ht h2] at hA
  obtain rfl : [[Flt.fin 1], [.fin 1]] = A := Option.some.inj hA
  have hst1 : st = 1 := by
    obtain ⟨r⟩ := fit_ok ht
    obtain ⟨q⟩ := prepare_ok r.hprepare
    have hset := (outerFit_setup _ _ _).ok (SameSetup.refl _) r.hloop
    have e2 : t.stepSize = [(0, 1)] := by
      refine ((congrArg GState.stepSize r.ht).trans rfl).trans (hset.stepSize.trans ?_)
      rw [fitStart_stepSize, q.ht]
      exact (Except.ok.inj q.hst).symm
    rw [e2] at hst
    exact (Option.some.inj hst).symm
  subst hst1
  have hfv0 : AtVal 0 fv0 := by
    rw [← Except.ok.inj h1]
    exact ⟨_, _, rfl, rfl, rfl⟩
  have hdev : ∀ {v : ℝ} {fv : Fv}, AtVal v fv → deviance (walkDist g) (ys walkData) (ws walkData) fv = .fin (4 * (v - 1) ^ 2) := by
    intro v fv h
    have := walk_deviance (g := g) h (ys walkData)
    refine Eq.trans this ?_
    rw [hg]
    simp only [walkDev, Flt.mul, Flt.add, Flt.fin.injEq]
    ring
  obtain ⟨q, hq, hq0, hqr, hqs, hqd, hqn, hqf⟩ := hin.first
  have hqf' : q.fv = fv0 := by
    rw [if_neg (by simp)] at hqf
    rw [hqf, hbefore]
  obtain ⟨ps, hps⟩ : ∃ ps, a.passes = q :: ps := by
    cases hp : a.passes with
    | nil => rw [hp] at hq; cases hq
    | cons b bs =>
      rw [hp] at hq
      exact ⟨bs, by rw [Option.some.inj hq]⟩
  rw [hps] at hin hlast
  have hv0 : q.values = [.fin (0 + 1), .fin (0 + 1)] := by
    obtain ⟨k1, k2, k3, _⟩ := hin.each q (by simp)
    exact walk_pass (by rw [hqf']; exact hfv0) hqs k1 k2 k3
  have hnew : AtVal 1 q.new := by
    rw [hqn, hbefore, hv0]
    simpa using hfv0.setCol (a := 1)
  have hqdev : q.dev = .fin 0 := by
    rw [(hin.each q (by simp)).2.2.2, hdev hnew]
    norm_num
  have hqnr : ¬ q.Raises := by
    unfold Pass.Raises
    rw [hqr, hqdev, hbefore, hdev hfv0]
    norm_num [Flt.lt]
  have hnoend : ¬ q.Ends walkTwice 1 2 := by
    rintro (⟨h6, _⟩ | ⟨h6, _⟩)
    · exact hqnr h6
    · exact h6 ⟨rfl, hq0⟩
  obtain ⟨q2, ps2, rfl⟩ : ∃ q2 ps2, ps = q2 :: ps2 := by
    cases ps with
    | nil =>
      rcases hin.ends q rfl with h6 | h6
      · exact absurd h6 hnoend
      · rw [hq0] at h6; cases h6
    | cons b bs => exact ⟨b, bs, rfl⟩
  obtain ⟨hnext, _⟩ := List.isChain_cons_cons.1 hin.next
  obtain ⟨k1, k2, k3, k4⟩ := hin.each q2 (by simp)
  obtain ⟨t1, t2, t3, t4⟩ := hnext.taken hqnr
  have hps2 : ps2 = [] := by
    cases ps2 with
    | nil => rfl
    | cons b bs =>
      exact absurd (.inr ⟨by rw [hnext.it]; omega, .inr (by rw [hnext.it, hq0]; rfl)⟩) (hin.continues q2 (by simp))
  subst hps2
  have hcol : q.new.col 0 = [.fin 1, .fin 1] := by
    obtain ⟨r1, r2, e, e1, e2⟩ := hnew
    rw [e]
    simp [Fv.col, e1, e2]
  have hv2 : AtVal 1 q2.fv := by
    rw [t1, hcol, hqf']
    exact hfv0.setCol
  have hval2 := walk_pass hv2 t3 k1 k2 k3
  have hd2 : q2.dev = .fin 4 := by
    rw [k4, hnext.new, hval2, hdev (hnew.setCol (a := 1 + 1))]
    norm_num
  have hal : a.last = q2 := (Option.some.inj hlast).symm
  refine ⟨t, ht, ms, fv0, sc, 1, d, [a], h1, h2, h5, ?_, a, by simp, q, by rw [hps]; simp, hqnr, hqdev⟩
  have := h5.devs a (by simp) (by rw [hord, hao.2]; rfl)
  rw [h4, ← hd2, ← hal, ← this, hao.1]

/-- An update with three outer iterations meets the hypotheses of `C96_update`; the iterations of the trace are recorded. -/
example : ∃ t u : GState Unit 1, GState.update (walkDist fun v => .fin (-v ^ 2)) firstMethod (walkDebug 3) walkData t = (.ok (), u) ∧
    t.paramOrder.Nodup ∧ u.itOuter = some 3 ∧ ∃ l : List Treatment, l.length = 3 ∧
      ∀ a ∈ l, ∀ q ∈ a.passes, u.Holds a.param a.outer q := by
  obtain ⟨t, u, _, hu, ho, _, hit⟩ := walkDebug_run (fun v => .fin (-v ^ 2)) 3 (by norm_num)
  have hnd : t.paramOrder.Nodup := by rw [ho]; simp
  obtain ⟨fv0, sc, f0, old, it, d, l, required, schedule, _, _, _, _, h1, _, h2, _, _, h3⟩ := C96_update hu hnd
  obtain rfl : 3 = it := Option.some.inj (hit.symm.trans h1)
  refine ⟨t, u, hu, hnd, hit, l, ?_, h3 rfl⟩
  have := congrArg List.length h2.cycle
  rw [ho] at this
  simpa using this

/-! ### C81: what can be looked up -/

/-- Options with debugging and two inner iterations. -/
noncomputable def walkTwiceDebug : GConfig Unit 1 := { walkTwice with debug := true }

/-- C81: the first treatment of a parameter has at least two passes, so the look-up for the first one returns a value; it
belongs to one computation of the working response. -/
example : ∃ t a fv wk, GState.fit false (walkDist fun _ => .fin 0) firstMethod walkTwiceDebug walkData (GState.new Unit 1) = (.ok (), t) ∧
    t.debugInformation walkTwiceDebug .weights 0 1 0 = .ok a ∧ working (walkDist fun _ => .fin 0) fitClip (ys walkData) fv 0 = .ok wk ∧
    t.debugInformation walkTwiceDebug .eta 0 1 0 = .ok (.array wk.eta) := by
  have ho : GoodOptions false (walkDist fun _ => .fin 0) walkTwiceDebug () true fun _ => 1 :=
    have h := walk_options (fun _ => .fin 0) 1 1 le_rfl
    ⟨by simp [GConfig.Valid, walkTwiceDebug, walkTwice, walkConfig, OptArg.OnlyValue], h.method, h.intercept, h.columns, h.order, h.minIt, h.prefit⟩
  obtain ⟨t, _, ht, _, hord, _⟩ := walk_run (fun _ => .fin 0) walkTwiceDebug ho rfl rfl walkData
    (walk_batch _ _ rfl _ (by simp [walkData]))
  obtain ⟨ms, fv0, sc, it, d, l, _, _, _, hit, _, htr, _, hdb⟩ := C96_fit ht (by rw [hord]; simp)
  have hit1 : 1 ≤ it := by
    by_contra h0
    have : it = 0 := by omega
    subst this
    have := htr.outer.ends.1
    simp [walkTwiceDebug, walkTwice, walkConfig] at this
  have hmem : ((1, 0) : ℕ × ℕ) ∈ l.map fun a => (a.outer, a.param) := by
    rw [htr.cycle, hord]
    exact List.mem_flatMap.2 ⟨0, List.mem_range.2 (by omega), by simp⟩
  obtain ⟨a, ha, e⟩ := List.mem_map.1 hmem
  obtain ⟨e1, e2⟩ := Prod.mk.inj e
  obtain ⟨_, m0, A, f, r, st, _, _, _, _, _, hin⟩ := htr.inner a ha
  rw [e1] at hin
  obtain ⟨q, hq, hq0, _, _, hq1, _⟩ := hin.first
  have hn : (if (1 : ℕ) ≤ walkTwiceDebug.prefitInitial then 1 else walkTwiceDebug.maxInner) = 2 := by simp [walkTwiceDebug, walkTwice, walkConfig]
  rw [hn] at hin
  obtain ⟨rest, hp⟩ : ∃ rest, a.passes = q :: rest := by
    cases hps : a.passes with
    | nil => rw [hps] at hq; cases hq
    | cons x xs => rw [hps] at hq; exact ⟨xs, by rw [Option.some.inj hq]⟩
  cases rest with
  | nil =>
    exfalso
    rcases hin.ends q (by rw [hp]; rfl) with (⟨_, h5, _⟩ | ⟨h5, _⟩) | h5
    · omega
    · exact h5 ⟨rfl, hq0⟩
    · omega
  | cons q' rest =>
    have hnext := hin.next
    rw [hp] at hnext
    have hq' : q'.it = 0 + 1 := by rw [(List.isChain_cons_cons.1 hnext).1.it, hq0]
    have hh := hdb rfl a ha q' (by rw [hp]; simp)
    rw [e1, e2] at hh
    unfold GState.Holds at hh
    rw [hq'] at hh
    have hw : t.debugInformation walkTwiceDebug .weights 0 1 0 = .ok (.array q'.wk.wt) := by
      unfold GState.debugInformation
      rw [if_pos (show walkTwiceDebug.debug = true from rfl)]
      simp [GState.debugEntry, hh.1]
    obtain ⟨fv, wk, h1, _, h2, _⟩ := C81_records_partial rfl (.inl ⟨rfl, ht⟩) (by simp) hw
    exact ⟨t, _, fv, wk, ht, hw, h1, h2⟩

end Ondil
