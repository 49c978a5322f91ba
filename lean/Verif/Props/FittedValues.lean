import Verif.Props.FitTrace

/-!
# C77 for `fit`: when the stored fitted values are the predictions
-/

namespace Ondil

variable {μ : Type} {p : ℕ} {D : DistOps} {M : MethodOps μ} {c : GConfig μ p}

theorem chain_all {α : Type} {R : α → α → Prop} {E P : α → Prop} (hstep : ∀ x y, R x y → E x → E y → P x → P y) (l : List α)
    (hc : l.IsChain R) (hE : ∀ x ∈ l, E x) (h0 : ∀ x, l.head? = some x → P x) : ∀ x ∈ l, P x := by
  induction l with
  | nil => simp
  | cons a l ih =>
    have ha : P a := h0 a rfl
    intro x hx
    rcases List.mem_cons.1 hx with rfl | hx
    · exact ha
    · refine ih hc.tail (fun x hx => hE x (List.mem_cons_of_mem _ hx)) (fun y hy => ?_) x hx
      cases l with
      | nil => cases hy
      | cons b l =>
        cases hy
        exact hstep a _ (List.isChain_cons_cons.1 hc).1 (hE a (by simp)) (hE _ (by simp)) ha

theorem one_step {u e : Arr1} (hl : e.length = u.length) (he : ∀ v ∈ e, v.IsFinite) :
    List.zipWith (fun u e => Flt.add (Flt.mul (.fin 1) u) (Flt.mul (.fin (1 - 1)) e)) u e = u := by
  induction u generalizing e with
  | nil => simp
  | cons a u ih =>
    cases e with
    | nil => cases hl
    | cons b e =>
      rw [List.zipWith_cons_cons, ih (by simpa using hl) fun v hv => he v (List.mem_cons_of_mem _ hv)]
      congr 1
      have hb := he b (by simp)
      cases b with
      | fin b => cases a <;> simp [Flt.mul, Flt.add, Flt.infSigned, Flt.neg]
      | pinf => cases hb
      | ninf => cases hb
      | nan => cases hb

/-- All passes of a treatment work with arrays of the length of the data. -/
theorem InnerTrace.lengths (hD : Regular D) (hcond : c.condStartVal = true → ConditionalRegular D) {y w : List ℝ} {X : Arr2} {forget : ℝ}
    {reg : List Bool} {step : ℝ} {k o n : ℕ} {m0 : μ} (hk : k < D.nParams) {fv : Fv} {passes : List Pass}
    (h : InnerTrace D M c m0 y w X forget reg step k o n fv passes) (hX : X.length = y.length) (hfv : fv.length = y.length) :
    ∀ q ∈ passes, q.fv.length = y.length ∧ q.new.length = y.length ∧ q.values.length = y.length ∧ q.wk.eta.length = y.length ∧
      q.new.col k = q.values := by
  have hv : ∀ q ∈ passes, q.fv.length = y.length → q.wk.eta.length = y.length ∧ q.values.length = y.length := by
    intro q hq hl
    obtain ⟨h1, _, ⟨xb, h3, h4⟩, _⟩ := h.each q hq
    obtain ⟨wk, e, he, _, _⟩ := working_ok (lo := fitClip) hD hk hl
    rw [e] at h1
    cases h1
    obtain ⟨r, e', hr⟩ := hD.linkInverse k hk (List.zipWith (fun u e =>
      Flt.add (Flt.mul (.fin q.step) u) (Flt.mul (.fin (1 - q.step)) e)) xb q.wk.eta)
    rw [h4] at e'
    cases e'
    refine ⟨he, ?_⟩
    rw [hr, List.length_zipWith, matVec_length h3, hX, he, min_self]
  have key := chain_all (R := Pass.Next k step) (E := fun q => q ∈ passes)
    (P := fun q => q.fv.length = y.length ∧ q.new.length = y.length ∧ q.new.col k = q.values) (fun q r hn hq hr hP => by
      have hrl : r.fv.length = y.length := by
        by_cases hc : q.Raises
        · rw [(hn.dropped hc).1, hP.1]
        · rw [(hn.taken hc).1, Fv.length_setCol (by simp [Fv.col, hP.1, hP.2.1]), hP.1]
      have hrv := (hv r hr hrl).2
      refine ⟨hrl, ?_, ?_⟩
      · rw [hn.new, Fv.length_setCol (by rw [hrv, hP.2.1]), hP.2.1]
      · rw [hn.new, Fv.col_setCol_self (by rw [hrv, hP.2.1])]) passes h.next (fun _ hq => hq) (fun q hq => by
    obtain ⟨q', hq', _, _, _, _, hn, hs⟩ := h.first
    obtain rfl := Option.some.inj (hq'.symm.trans hq)
    have hql : q'.fv.length = y.length := by
      split_ifs at hs with hc
      · obtain ⟨r, hr, hl⟩ := hcond hc.2.2 k hk y fv hfv
        rw [hs] at hr
        cases hr
        exact hl
      · rw [hs, hfv]
    have hqv := (hv q' (List.mem_of_mem_head? hq) hql).2
    refine ⟨hql, ?_, ?_⟩
    · rw [hn, Fv.length_setCol (by rw [hqv, hfv]), hfv]
    · rw [hn, Fv.col_setCol_self (by rw [hqv, hfv])])
  intro q hq
  obtain ⟨k1, k2, k3⟩ := key q hq
  exact ⟨k1, k2, (hv q hq k1).2, (hv q hq k1).1, k3⟩

/-- Without an increase of the deviance before the last pass the step size stays what it is. -/
theorem steps_same {k : ℕ} {step : ℝ} (passes : List Pass) (hc : passes.IsChain (Pass.Next k step))
    (hr : ∀ q ∈ passes.dropLast, ¬ q.Raises) (h0 : ∀ q, passes.head? = some q → q.step = step) : ∀ q ∈ passes, q.step = step := by
  induction passes with
  | nil => simp
  | cons a l ih =>
    intro q hq
    rcases List.mem_cons.1 hq with rfl | hq
    · exact h0 _ rfl
    · cases l with
      | nil => cases hq
      | cons b l =>
        refine ih hc.tail (fun q hq => hr q ?_) (fun q hq => ?_) q hq
        · rw [List.dropLast_cons_cons]
          exact List.mem_cons_of_mem _ hq
        · cases hq
          exact ((List.isChain_cons_cons.1 hc).1.taken (hr a (by rw [List.dropLast_cons_cons]; simp))).2.2.1

theorem treatment_tail {k : ℕ} (l : List Treatment) (a : Treatment) (hc : (a :: l).IsChain fun a b => b.before = a.after)
    (h : ∀ b ∈ l, b.after.col k = b.before.col k) : ∀ z, (a :: l).getLast? = some z → z.after.col k = a.after.col k := by
  induction l generalizing a with
  | nil =>
    intro z hz
    cases hz
    rfl
  | cons b l ih =>
    intro z hz
    rw [List.getLast?_cons_cons] at hz
    rw [ih b hc.tail (fun x hx => h x (List.mem_cons_of_mem _ hx)) z hz, h b (by simp), (List.isChain_cons_cons.1 hc).1]

/-- **C77 for `fit`, partial.**  With step size one, a fit that made at least one outer iteration, in which no pass but the last
one of a treatment raised the deviance and in which the linear predictors at the fitted values were finite, stores as fitted
values the predictions for its own rows.  Missing: smaller step sizes, also those a fit with step size one takes after a pass that
raised the deviance (`C77_step_size_fails`, `C77_halved_step_fails`). -/
theorem C77_fit_partial {frames : Bool} (hD : Regular D) (hcond : c.condStartVal = true → ConditionalRegular D) {data : List (Obs p)}
    {s t : GState μ p} {u : Unit} (h : GState.fit frames D M c data s = (.ok u, t)) (hstep : c.stepSize = .value 1)
    (hnd : t.paramOrder.Nodup) (hall : ∀ k, k ∈ t.paramOrder ↔ k < D.nParams) :
    ∃ ms fv0 sc it d l, (c.method.process D.nParams (.value (some M.ols))).result = .ok ms ∧
      D.initialValues (ys data) = .ok fv0 ∧ t.scaler = some sc ∧ t.itOuter = some it ∧
      FitTrace D M c (fun k => (ms.get? k).bind id) (ys data) (ws data) (fun k => (designFor t sc (xs data) k).toOption) t.forget.get?
        t.isRegularized.get? (fun k => t.stepSize.values[k]?) t.paramOrder fv0 t.fv it d l ∧
      (1 ≤ it → (∀ a ∈ l, (∀ q ∈ a.passes.dropLast, ¬ q.Raises) ∧ ∀ v ∈ a.last.wk.eta, v.IsFinite) →
        ∃ th, predictParams D t (xs data) .response = .ok th ∧ th.length = t.fv.length ∧ ∀ k < D.nParams, th.col k = t.fv.col k) := by
  obtain ⟨ms, fv0, sc, it, d, l, h0, h1, h2, h3, _, h5, h6, _⟩ := C96_fit h hnd
  refine ⟨ms, fv0, sc, it, d, l, h0, h1, h2, h3, h5, fun hit hl => ?_⟩
  have hne : data ≠ [] := by
    obtain ⟨r⟩ := fit_ok h
    exact fun e => r.nonempty (.inl e)
  have hys : (ys data) ≠ [] := by simpa [ys] using hne
  have hN : (ys data).length = (xs data).length := by simp [ys, xs]
  have hfv0 : fv0.length = (ys data).length := by
    obtain ⟨r, hr, hrl⟩ := hD.initialValues _ hys
    rw [h1] at hr
    cases hr
    exact hrl
  have hpar : ∀ a ∈ l, a.param ∈ t.paramOrder := by
    intro a ha
    have := List.mem_map_of_mem (f := fun a : Treatment => (a.outer, a.param)) ha
    rw [h5.cycle] at this
    obtain ⟨i, _, hi⟩ := List.mem_flatMap.1 this
    obtain ⟨k, hk, e⟩ := List.mem_map.1 hi
    rw [← (Prod.mk.inj e).2]
    exact hk
  have hpass : ∀ a ∈ l, a.before.length = (ys data).length → ∀ q ∈ a.passes, q.fv.length = (ys data).length ∧
      q.new.length = (ys data).length ∧ q.values.length = (ys data).length ∧ q.wk.eta.length = (ys data).length ∧
      q.new.col a.param = q.values := by
    intro a ha hb
    obtain ⟨_, m0, A, f, r, st, _, hA, _, _, _, hin⟩ := h5.inner a ha
    have hAl : A.length = (ys data).length := by
      cases hd : designFor t sc (xs data) a.param with
      | error x => rw [hd] at hA; cases hA
      | ok A' =>
        rw [hd] at hA
        cases hA
        rw [designFor_length hd, hN]
    exact hin.lengths hD hcond ((hall _).1 (hpar a ha)) hAl hb
  have hafter : ∀ a ∈ l, a.before.length = (ys data).length → a.after.length = (ys data).length := by
    intro a ha hb
    by_cases hk : a.Keeps D (ys data) (ws data)
    · have := (hpass a ha hb a.last (List.mem_of_mem_getLast? (h5.inner a ha).1)).2.1
      rw [h5.kept a ha hk, Fv.length_setCol (by simp [Fv.col, this, hb]), hb]
    · rw [h5.refused a ha hk, hb]
  have hbefore : ∀ a ∈ l, a.before.length = (ys data).length :=
    chain_all (E := fun a => a ∈ l) (fun a b hab ha _ hP => by rw [hab, hafter a ha hP]) l h5.next (fun _ ha => ha)
      fun a ha => by rw [h5.first a ha, hfv0]
  have hfvl : t.fv.length = (xs data).length := by
    rw [← hN]
    cases hlast : l.getLast? with
    | none => rw [h5.none (List.getLast?_eq_none_iff.1 hlast), hfv0]
    | some a =>
      have ha := List.mem_of_mem_getLast? hlast
      rw [← h5.last a hlast, hafter a ha (hbefore a ha)]
  refine predict_of_columns (fit_counters h).1 h2 (by simpa [xs] using hne) hfvl fun k hk => ?_
  obtain ⟨l1, a, l2, rfl, ha1, ha2, ha3, ha4⟩ := h6 hit k ((hall k).2 hk)
  have hal : a ∈ l1 ++ a :: l2 := by simp
  obtain ⟨hlast, m0, A, f, r, st, _, hA, _, _, hst, hin⟩ := h5.inner a hal
  have hst1 : st = 1 := by
    obtain ⟨r⟩ := fit_ok h
    obtain ⟨q⟩ := prepare_ok r.hprepare
    have hset := (outerFit_setup _ _ _).ok (SameSetup.refl _) r.hloop
    have e2 : t.stepSize = q.st := by
      refine ((congrArg GState.stepSize r.ht).trans rfl).trans (hset.stepSize.trans ?_)
      rw [fitStart_stepSize]
      exact congrArg GState.stepSize q.ht
    have e3 := q.hst
    rw [hstep] at e3
    have e4 : q.st = PyDict.ofRange D.nParams fun _ => 1 := (Except.ok.inj e3).symm
    rw [e2, e4] at hst
    have e5 : (PyDict.ofRange D.nParams fun _ => (1 : ℝ)).values[k]? = some 1 := by
      rw [PyDict.values_getElem? (n := D.nParams) (by simp [PyDict.keys, PyDict.ofRange, Function.comp_def]), PyDict.get?_ofRange, if_pos hk]
    rw [ha1] at hst
    exact Option.some.inj (hst.symm.trans e5)
  subst hst1
  obtain ⟨g1, g2⟩ := hl a hal
  have hone : a.last.step = 1 := steps_same a.passes hin.next g1 (fun q hq => by
    obtain ⟨q', hq', _, _, hs, _⟩ := hin.first
    rw [← Option.some.inj (hq'.symm.trans hq), hs]) _ (List.mem_of_mem_getLast? hlast)
  obtain ⟨p1, p2, p3, p4, p5⟩ := hpass a hal (hbefore a hal) a.last (List.mem_of_mem_getLast? hlast)
  obtain ⟨_, _, ⟨xb, hxb, hinv⟩, _⟩ := hin.each a.last (List.mem_of_mem_getLast? hlast)
  have hd : designFor t sc (xs data) k = .ok A := by
    rw [ha1] at hA
    cases hd : designFor t sc (xs data) k with
    | error x => rw [hd] at hA; cases hA
    | ok A' => rw [hd] at hA; cases hA; rfl
  have hcol : t.fv.col k = a.last.values := by
    have hz : (l1 ++ a :: l2).getLast? = (a :: l2).getLast? := by
      rw [List.getLast?_append]
      cases hq : (a :: l2).getLast? with
      | none => simp at hq
      | some z => rfl
    cases hlz : (a :: l2).getLast? with
    | none => simp at hlz
    | some z =>
      rw [← h5.last z (hz.trans hlz)]
      rw [treatment_tail (k := k) l2 a (List.isChain_append.1 h5.next).2.1 (fun b hb => ?_) z hlz, h5.kept a hal ha2, ha1,
        Fv.col_setCol_self (by simp [Fv.col, p2, hbefore a hal]), ← ha1, p5]
      have hbl : b ∈ l1 ++ a :: l2 := by simp [hb]
      by_cases hbk : b.Keeps D (ys data) (ws data)
      · have hne : k ≠ b.param := fun e => ha3 b hb e.symm hbk
        rw [h5.kept b hbl hbk, Fv.col_setCol_ne hne]
        have := (hpass b hbl (hbefore b hbl) b.last (List.mem_of_mem_getLast? (h5.inner b hbl).1)).2.1
        simp [Fv.col, this, hbefore b hbl]
      · rw [h5.refused b hbl hbk]
  refine ⟨A, a.last.beta, xb, hd, ha4, hxb, ?_⟩
  rw [hone, one_step (by rw [p4, matVec_length hxb, designFor_length hd, hN]) g2, ha1] at hinv
  rw [hinv, hcol]

/-! ### After a pass that raised the deviance -/

/-- A pass of the walk with any step size. -/
theorem walk_pass_step {g : ℝ → Flt} {v : ℝ} {q : Pass} {o : ℕ} {forget : ℝ} {reg : List Bool} (hfv : AtVal v q.fv)
    (hwk : working (walkDist g) fitClip (ys walkData) q.fv 0 = .ok q.wk)
    (hsol : q.Solves firstMethod () (ws walkData) forget reg [[.fin 1], [.fin 1]] o)
    (hval : ∃ xb, matVec [[.fin 1], [.fin 1]] q.beta = .ok xb ∧ (walkDist g).linkInverse 0 (List.zipWith (fun u e =>
      Flt.add (Flt.mul (.fin q.step) u) (Flt.mul (.fin (1 - q.step)) e)) xb q.wk.eta) = .ok q.values) :
    q.beta = [.fin (v + 1)] ∧ q.values = [.fin (v + q.step), .fin (v + q.step)] ∧ q.wk.eta = [.fin v, .fin v] := by
  have e1 := Except.ok.inj ((walk_working hfv).symm.trans hwk)
  obtain ⟨m, m', xg, yg, _, _, h2, h3, _⟩ := hsol
  have e2 : yg = [.fin (v + 1)] := by
    rw [← Except.ok.inj h2, ← e1]
    rfl
  have e3 : q.beta = [.fin (v + 1)] := by
    have := Except.ok.inj (h3 rfl)
    rw [← (Prod.mk.inj this).1, e2]
  refine ⟨e3, ?_, by rw [← e1]⟩
  obtain ⟨xb, h4, h5⟩ := hval
  rw [e3] at h4
  have e4 : xb = [.fin (v + 1), .fin (v + 1)] := by
    rw [← Except.ok.inj h4]
    simp [dot, asum, Dist.npSum, Flt.mul, Flt.add]
  have e5 : q.step * (v + 1) + (1 - q.step) * v = v + q.step := by ring
  rw [← Except.ok.inj h5, e4, ← e1]
  simp [Flt.mul, Flt.add, e5]

/-- The trace of the walk with at most two passes: one treatment, which starts at zero. -/
theorem walkTwice_trace (g : ℝ → Flt) : ∃ t : GState Unit 1, ∃ sc f rg, ∃ a : Treatment, ∃ fv0 : Fv,
    GState.fit false (walkDist g) firstMethod walkTwice walkData (GState.new Unit 1) = (.ok (), t) ∧
    t.scaler = some sc ∧ t.paramOrder = [0] ∧ AtVal 0 fv0 ∧ a.passes.getLast? = some a.last ∧
    InnerTrace (walkDist g) firstMethod walkTwice () (ys walkData) (ws walkData) [[.fin 1], [.fin 1]] f rg 1 0 1 2 fv0 a.passes ∧
    t.fv = fv0.setCol 0 (a.last.new.col 0) ∧ t.coef 0 = some a.last.beta := by
  obtain ⟨t, _, ht, _, hord, _⟩ := walk_run g walkTwice (walkTwice_options g) rfl rfl walkData
    (walk_batch g _ rfl _ (by simp [walkData]))
  obtain ⟨ms, fv0, sc, it, d, l, _, h1, h2, h3, h4, h5, h6, _⟩ := C96_fit ht (by rw [hord]; simp)
  have hit : it = 1 := by
    have e := h5.outer
    have h6 := e.ends.1
    change 1 ≤ it at h6
    by_contra hne
    exact e.continues 1 (by omega) ⟨le_rfl, .inr (.inl le_rfl)⟩
  subst hit
  have hcyc := h5.cycle
  rw [hord] at hcyc
  obtain ⟨a, rfl⟩ : ∃ a, l = [a] := by
    have := congrArg List.length hcyc
    simp at this
    exact List.length_eq_one_iff.1 this
  have hao : a.outer = 1 ∧ a.param = 0 := by simpa using hcyc
  obtain ⟨hlast, m0, A, f, rg, st, _, hA, _, _, hst, hin⟩ := h5.inner a (by simp)
  have hbefore := h5.first a rfl
  rw [hao.1, hao.2, hbefore] at hin
  rw [hao.2] at hA hst
  rw [walkTwice_design ht h2] at hA
  obtain rfl : [[Flt.fin 1], [.fin 1]] = A := Option.some.inj hA
  have hst1 : st = 1 := by
    obtain ⟨r⟩ := fit_ok ht
    obtain ⟨q⟩ := prepare_ok r.hprepare
    have hset := (outerFit_setup _ _ _).ok (SameSetup.refl _) r.hloop
    have e2 : t.stepSize = [(0, 1)] := by
      refine ((congrArg GState.stepSize r.ht).trans rfl).trans (hset.stepSize.trans ?_)
      rw [fitStart_stepSize, q.ht]
      exact (Except.ok.inj q.hst).symm
    rw [e2] at hst
    exact (Option.some.inj hst).symm
  subst hst1
  have hkeep := h5.kept a (by simp) (.inl hao.1)
  rw [h5.last a rfl, hao.2, hbefore] at hkeep
  obtain ⟨l1, b, l2, hl, _, _, _, hb⟩ := h6 le_rfl 0 (by rw [hord]; simp)
  have hba : b = a := by
    have : b ∈ [a] := by rw [hl]; simp
    simpa using this
  rw [hba] at hb
  refine ⟨t, sc, f, rg, a, fv0, ht, h2, hord, ?_, hlast, hin, hkeep, hb⟩
  rw [← Except.ok.inj h1]
  exact ⟨_, _, rfl, rfl, rfl⟩

/-- The prediction of the walk with at most two passes. -/
theorem walkTwice_predict {g : ℝ → Flt} {t : GState Unit 1} {b : ℝ} {sc : Scaler 1}
    (h : GState.fit false (walkDist g) firstMethod walkTwice walkData (GState.new Unit 1) = (.ok (), t))
    (hs : t.scaler = some sc) (hb : t.coef 0 = some [.fin b]) :
    ∃ th, predictParams (walkDist g) t (xs walkData) .response = .ok th ∧ AtVal b th := by
  have hd : designFor t sc (xs walkData) 0 = .ok [[.fin 1], [.fin 1]] := walkTwice_design h hs
  have hl : linearPredictors (walkDist g) t (xs walkData) = .ok [[.fin b, .fin b]] := by
    unfold linearPredictors
    rw [(fit_counters h).1, hs]
    change ([0].mapM fun k => do
      let A ← designFor t sc (xs walkData) k
      match t.coef k with
      | none => Except.error PyErr.attributeError
      | some b => matVec A b) = _
    rw [List.mapM_cons, hd, hb]
    simp [bind, Except.bind, matVec, dot, asum, Dist.npSum, Flt.mul, Flt.add, pure, Except.pure]
  refine ⟨_, by unfold predictParams; rw [hl]; rfl, _, _, rfl, rfl, rfl⟩

/-- A fit with step size one stores fitted values that are not the predictions for its own rows, if a pass raised the deviance and
the step of the next one was halved: the values are one half, the predictions one. -/
theorem C77_halved_step_fails : ∃ t : GState Unit 1, walkTwice.stepSize = .value 1 ∧
    GState.fit false (walkDist fun v => .fin (-v ^ 2)) firstMethod walkTwice walkData (GState.new Unit 1) = (.ok (), t) ∧
    t.fv.col 0 = [.fin (1 / 2), .fin (1 / 2)] ∧
    ∃ th, predictParams (walkDist fun v => .fin (-v ^ 2)) t (xs walkData) .response = .ok th ∧ th.col 0 = [.fin 1, .fin 1] := by
  obtain ⟨g, hg⟩ : ∃ g : ℝ → Flt, g = fun v => .fin (-v ^ 2) := ⟨_, rfl⟩
  rw [← hg]
  obtain ⟨t, sc, f, rg, a, fv0, ht, hs, hord, hfv0, hlast, hin, hfv, hco⟩ := walkTwice_trace g
  have hdev : ∀ {v : ℝ} {fv : Fv}, AtVal v fv → deviance (walkDist g) (ys walkData) (ws walkData) fv = .fin (4 * v ^ 2) := by
    intro v fv h
    have := walk_deviance (g := g) h (ys walkData)
    refine Eq.trans this ?_
    rw [hg]
    simp only [walkDev, Flt.mul, Flt.add, Flt.fin.injEq]
    ring
  obtain ⟨q, hq, hq0, hqr, hqs, hqd, hqn, hqf⟩ := hin.first
  rw [if_neg (by simp)] at hqf
  obtain ⟨ps, hps⟩ : ∃ ps, a.passes = q :: ps := by
    cases hp : a.passes with
    | nil => rw [hp] at hq; cases hq
    | cons b bs =>
      rw [hp] at hq
      exact ⟨bs, by rw [Option.some.inj hq]⟩
  rw [hps] at hin hlast
  have hv0 : q.values = [.fin 1, .fin 1] := by
    obtain ⟨k1, k2, k3, _⟩ := hin.each q (by simp)
    rw [(walk_pass_step (by rw [hqf]; exact hfv0) k1 k2 k3).2.1, hqs, zero_add]
  have hnew : AtVal 1 q.new := by
    rw [hqn, hv0]
    exact hfv0.setCol
  have hqdev : q.dev = .fin 4 := by
    rw [(hin.each q (by simp)).2.2.2, hdev hnew]
    norm_num
  have hraise : q.Raises := by
    unfold Pass.Raises
    rw [hqr, hqdev, hdev hfv0]
    norm_num [Flt.lt]
  have hnoend : ¬ q.Ends walkTwice 1 2 := by
    rintro (⟨_, h6, _⟩ | ⟨h6, _⟩)
    · rw [hqd] at h6; omega
    · exact h6 ⟨rfl, hq0⟩
  obtain ⟨q2, ps2, rfl⟩ : ∃ q2 ps2, ps = q2 :: ps2 := by
    cases ps with
    | nil =>
      rcases hin.ends q rfl with h6 | h6
      · exact absurd h6 hnoend
      · rw [hq0] at h6; cases h6
    | cons b bs => exact ⟨b, bs, rfl⟩
  obtain ⟨hnext, _⟩ := List.isChain_cons_cons.1 hin.next
  obtain ⟨k1, k2, k3, k4⟩ := hin.each q2 (by simp)
  obtain ⟨t1, t2, t3, t4⟩ := hnext.dropped hraise
  have hps2 : ps2 = [] := by
    cases ps2 with
    | nil => rfl
    | cons b bs =>
      exact absurd (.inr ⟨by rw [hnext.it]; omega, .inr (by rw [hnext.it, hq0]; rfl)⟩) (hin.continues q2 (by simp))
  subst hps2
  have hal : a.last = q2 := (Option.some.inj hlast).symm
  obtain ⟨b1, b2, _⟩ := walk_pass_step (v := 0) (by rw [t1, hqf]; exact hfv0) k1 k2 k3
  rw [t3, hqs, zero_add] at b2
  rw [zero_add] at b1
  rw [hal] at hfv hco
  have hcol : q2.new.col 0 = [.fin (1 / 2), .fin (1 / 2)] := by
    rw [hnext.new, b2]
    obtain ⟨r1, r2, e, e1, e2⟩ := hnew
    rw [e]
    simp [Fv.setCol, Fv.col]
  rw [b1] at hco
  obtain ⟨th, hth, r1, r2, rfl, e1, e2⟩ := walkTwice_predict ht hs hco
  refine ⟨t, rfl, ht, ?_, _, hth, by simp [Fv.col, e1, e2]⟩
  rw [hfv, hcol]
  obtain ⟨r1, r2, e, _⟩ := hfv0
  rw [e]
  simp [Fv.setCol, Fv.col]

/-- A fit with two passes that meets the hypotheses of `C77_fit_partial` and stores the predictions. -/
example : ∃ t : GState Unit 1, GState.fit false (walkDist .fin) firstMethod walkTwice walkData (GState.new Unit 1) =
    (.ok (), t) ∧ ∃ th, predictParams (walkDist .fin) t (xs walkData) .response = .ok th ∧ th.length = t.fv.length ∧
      ∀ k < 1, th.col k = t.fv.col k := by
  obtain ⟨t, _, ht, _, hord, _⟩ := walk_run .fin walkTwice (walkTwice_options _) rfl rfl walkData
    (walk_batch _ _ rfl _ (by simp [walkData]))
  refine ⟨t, ht, ?_⟩
  obtain ⟨ms, fv0, sc, it, d, l, _, h1, h2, h3, h5, h6⟩ := C77_fit_partial (walk_regular _) (fun e => by cases e) ht rfl (by rw [hord]; simp)
    (fun k => by rw [hord]; simp [walkDist])
  have hit : it = 1 := by
    have e := h5.outer
    have h6 := e.ends.1
    change 1 ≤ it at h6
    by_contra hne
    exact e.continues 1 (by omega) ⟨le_rfl, .inr (.inl le_rfl)⟩
  subst hit
  refine h6 le_rfl ?_
  have hcyc := h5.cycle
  rw [hord] at hcyc
  obtain ⟨a, rfl⟩ : ∃ a, l = [a] := by
    have := congrArg List.length hcyc
    simp at this
    exact List.length_eq_one_iff.1 this
  have hao : a.outer = 1 ∧ a.param = 0 := by simpa using hcyc
  obtain ⟨hlast, m0, A, f, rg, st, _, hA, _, _, hst, hin⟩ := h5.inner a (by simp)
  have hbefore := h5.first a rfl
  rw [hao.1, hao.2, hbefore] at hin
  rw [hao.2, walkTwice_design ht h2] at hA
  obtain rfl : [[Flt.fin 1], [.fin 1]] = A := Option.some.inj hA
  have hst1 : st = 1 := by
    obtain ⟨r⟩ := fit_ok ht
    obtain ⟨q⟩ := prepare_ok r.hprepare
    have hset := (outerFit_setup _ _ _).ok (SameSetup.refl _) r.hloop
    have e2 : t.stepSize = [(0, 1)] := by
      refine ((congrArg GState.stepSize r.ht).trans rfl).trans (hset.stepSize.trans ?_)
      rw [fitStart_stepSize, q.ht]
      exact (Except.ok.inj q.hst).symm
    rw [e2, hao.2] at hst
    exact (Option.some.inj hst).symm
  subst hst1
  have hfv0 : AtVal 0 fv0 := by
    rw [← Except.ok.inj h1]
    exact ⟨_, _, rfl, rfl, rfl⟩
  have hdev : ∀ {v : ℝ} {fv : Fv}, AtVal v fv → deviance (walkDist .fin) (ys walkData) (ws walkData) fv = .fin (-4 * v) := by
    intro v fv h
    have := walk_deviance (g := .fin) h (ys walkData)
    refine Eq.trans this ?_
    simp only [walkDev, Flt.mul, Flt.add, Flt.fin.injEq]
    ring
  obtain ⟨q, hq, hq0, hqr, hqs, hqd, hqn, hqf⟩ := hin.first
  rw [if_neg (by simp)] at hqf
  obtain ⟨ps, hps⟩ : ∃ ps, a.passes = q :: ps := by
    cases hp : a.passes with
    | nil => rw [hp] at hq; cases hq
    | cons b bs =>
      rw [hp] at hq
      exact ⟨bs, by rw [Option.some.inj hq]⟩
  rw [hps] at hin hlast
  obtain ⟨k1, k2, k3, k4⟩ := hin.each q (by simp)
  obtain ⟨_, hv0, he0⟩ := walk_pass_step (by rw [hqf]; exact hfv0) k1 k2 k3
  rw [hqs, zero_add] at hv0
  have hnew : AtVal 1 q.new := by
    rw [hqn, hv0]
    exact hfv0.setCol
  have hraise : ¬ q.Raises := by
    unfold Pass.Raises
    rw [hqr, k4, hdev hnew, hdev hfv0]
    norm_num [Flt.lt]
  intro b hb
  obtain rfl : b = a := by simpa using hb
  rw [hps]
  cases ps with
  | nil =>
    obtain rfl : q = b.last := Option.some.inj hlast
    refine ⟨by simp, fun v hv => ?_⟩
    rw [he0] at hv
    obtain rfl : v = .fin 0 := by simpa using hv
    trivial
  | cons q2 ps2 =>
    obtain ⟨hnext, _⟩ := List.isChain_cons_cons.1 hin.next
    obtain ⟨j1, j2, j3, j4⟩ := hin.each q2 (by simp)
    have hps2 : ps2 = [] := by
      cases ps2 with
      | nil => rfl
      | cons b bs =>
        exact absurd (.inr ⟨by rw [hnext.it]; omega, .inr (by rw [hnext.it, hq0]; rfl)⟩) (hin.continues q2 (by simp))
    subst hps2
    obtain rfl : q2 = b.last := Option.some.inj hlast
    refine ⟨by simpa using hraise, fun v hv => ?_⟩
    have hcol : q.new.col 0 = [.fin 1, .fin 1] := by
      obtain ⟨r1, r2, e, e1, e2⟩ := hnew
      rw [e]
      simp [Fv.col, e1, e2]
    rw [(walk_pass_step (v := 1) (by rw [(hnext.taken hraise).1, hcol, hqf]; exact hfv0.setCol) j1 j2 j3).2.2] at hv
    obtain rfl : v = .fin 1 := by simpa using hv
    trivial

end Ondil
