import Verif.Lemmas.Selection
import Verif.Props.GamlssNan

/-!
# Model selection through the loops of `fit` and `update` (for C89, C90)
-/

namespace Ondil

variable {μ : Type} {p : ℕ}

/-! ### Fit -/

/-- The result of an inner iteration of the fit. -/
def FitChoice (c : Call μ p) (s0 : GState μ p) (k : ℕ) (o : IterOut) : Prop :=
  (o.path = none ∧ o.selection = none ∧ o.bestIc = none) ∨
    ∃ path stats bi n ic, o.path = some path ∧ o.selection = some stats ∧ o.bestIc = some bi ∧ path[bi]? = some o.beta ∧
      s0.nTraining.get? k = some n ∧ s0.ic.get? k = some ic ∧
      (1 < n → Scorable c.cfg.modelSelection stats → BestRow c.cfg.modelSelection ic n path stats bi) ∧
      ∃ forget, s0.forget.get? k = some forget ∧ RowStatistics c k forget o.wt path stats

theorem fitIteration_fvLength (c : Call μ p) (k itO itI scheduled : ℕ) (a : Inner) (N : ℕ) :
    Py.Inv (fun s : GState μ p => s.fv.length = N) (fitIteration c k itO itI scheduled a) := by
  unfold fitIteration
  py_inv
  all_goals first
    | exact fitCoefs_keeps c k itO itI _ _ _ _ _ _ fun s m hs => hs
    | (intro s hs; unfold debugWork; split <;> exact hs)
    | (intro s hs; unfold debugBeta; split <;> exact hs)
    | (intro s hs; split <;> exact hs)

theorem fitInnerLoop_choice {c : Call μ p} {s0 : GState μ p} {k itO scheduled : ℕ}
    (hD : Regular c.D) (hcond : c.cfg.condStartVal = true → ConditionalRegular c.D)
    (hX : ∀ X, c.X k = some X → k < c.D.nParams ∧ X.length = c.y.length) (n itI : ℕ) {a a' : Inner} {s t : GState μ p}
    (h : fitInnerLoop c k itO scheduled n itI a s = (.ok a', t)) (hs : SameSetup s0 s) (hfv : s.fv.length = c.y.length)
    (ha1 : a.fvIt.length = c.y.length ∧ a.fvNew.length = c.y.length)
    (ha : ∀ o, a.out = some o → FitChoice c s0 k o) :
    a'.fvNew.length = c.y.length ∧ ∀ o, a'.out = some o → FitChoice c s0 k o := by
  induction n generalizing itI a s with
  | zero =>
    obtain ⟨rfl, rfl⟩ := Py.pure_ok_iff.1 h
    exact ⟨ha1.2, ha⟩
  | succ n ih =>
    unfold fitInnerLoop at h
    obtain ⟨r, s', hr, h⟩ := Py.bind_ok_iff.1 h
    obtain ⟨st⟩ := fitIteration_ok hr
    have hfv' : s'.fv.length = c.y.length :=
      Py.Triple.ok (fitIteration_fvLength c k itO itI scheduled a c.y.length) hfv hr
    have hk : k < c.D.nParams := (hX _ st.hX).1
    have hstart : st.fvIt.length = c.y.length := by
      have h1 := st.hfvIt
      unfold startValues at h1
      split at h1
      · rename_i hc
        obtain ⟨q, hq, hql⟩ := hcond hc.2.2.2 k hk c.y a.fvIt ha1.1
        rw [← Except.ok.inj (hq.symm.trans h1)]
        exact hql
      · rw [← Except.ok.inj h1]
        exact ha1.1
    obtain ⟨wk', hwk', hel, _⟩ := working_ok (lo := fitClip) hD hk hstart
    obtain rfl : wk' = st.wk := Except.ok.inj (hwk'.symm.trans st.hwk)
    have hvl : st.v.length = c.y.length := by
      obtain ⟨q, hq, hql⟩ := hD.linkInverse k hk
        (List.zipWith (fun u e => Flt.add (Flt.mul (.fin st.step) u) (Flt.mul (.fin (1 - st.step)) e)) st.xb st.wk.eta)
      rw [← Except.ok.inj (hq.symm.trans st.hv), hql, List.length_zipWith, matVec_length st.hxb, (hX _ st.hX).2, hel, min_self]
    have hnew : r.1.fvNew.length = c.y.length := by rw [st.fvNew]; exact setCol_length ha1.2 hvl
    have hit : r.1.fvIt.length = c.y.length := by
      rcases st.fvItNew with e | e
      · rw [e]; exact hstart
      · rw [e]; exact setCol_length hstart (col_length hnew)
    have hs' : SameSetup s0 s' := Py.Triple.ok (fitIteration_setup c k itO itI scheduled a s0) hs hr
    have hout : ∀ o, r.1.out = some o → FitChoice c s0 k o := by
      intro o ho
      rw [st.out] at ho
      simp only [Option.some.injEq] at ho
      subst ho
      have hd : SameSetup s0 (debugWork c.cfg.debug (k, itO, itI) st.wk st.fvIt s) := hs.trans (sameSetup_debugWork _ _ _ _ _)
      rcases fitCoefs_path st.hco with h0 | ⟨path, stats, bi, forget, n, ic, h1, h2, h3, h4, h5, h6, h7, m, reg, first, start, m', h8, h9⟩
      · exact .inl h0
      · obtain ⟨g1, g2, g3, g4, g5⟩ := fitSelectModel_stats h7
        have em : st.m = m := by
          have e : (debugWork c.cfg.debug (k, itO, itI) st.wk st.fvIt s).method = s.method := by unfold debugWork; split <;> rfl
          rw [e, st.hm] at h8
          exact Option.some.inj h8
        have ef : st.forget = forget := by
          rw [hd.forget, ← hs.forget, st.hf] at h4
          exact Option.some.inj h4
        have hxg := st.hxg
        have hyg := st.hyg
        rw [em, ef] at hxg hyg
        rw [hd.forget] at h4
        rw [hd.nTraining] at h5
        rw [hd.ic] at h6
        refine .inr ⟨path, stats, bi, n, ic, h1, h2, h3, g1, h5, h6, g3, forget, h4, g2, st.X, st.fvIt, st.wk, st.hX, hstart, st.hwk,
          rfl, ⟨m, st.xg, st.yg, reg, first, start, m', hxg, hyg, h9⟩,
          fun hm => g4 hm (hX _ st.hX).2, fun hm => ⟨_, ?_, g5 hm⟩⟩
        unfold debugWork
        split <;> exact hfv
    split at h
    · obtain ⟨rfl, rfl⟩ := Py.pure_ok_iff.1 h
      exact ⟨hnew, hout⟩
    · exact ih (itI + 1) h hs' hfv' ⟨hit, hnew⟩ hout

/-- The stored selection of parameter `k` during a fit. -/
def FitSelected (c : Call μ p) (k : ℕ) (t : GState μ p) : Prop :=
  ∀ path, t.coefPath k = some path → ∃ stats, SelectedRow c.cfg.modelSelection t k path stats ∧ FitStatistics c t k path stats

theorem FitSelected.congr {c : Call μ p} {k : ℕ} {s t : GState μ p} (h : FitSelected c k s) (hs : SameSetup s t)
    (h1 : t.coefPath k = s.coefPath k) (h2 : t.coef k = s.coef k) (h3 : t.selection k = s.selection k)
    (h4 : t.bestIc k = s.bestIc k) (h5 : t.sumW k = s.sumW k) (h6 : t.meanW k = s.meanW k) : FitSelected c k t := by
  intro path hp
  obtain ⟨stats, ⟨a1, a2, a3⟩, forget, wt, b1, b2, b3, b4⟩ := h path (h1.symm.trans hp)
  refine ⟨stats, ⟨h3.trans a1, ?_, ?_⟩, forget, wt, ?_, h5.trans b2, h6.trans b3, b4⟩
  · rw [h2, h4]; exact a2
  · rw [hs.nTraining, hs.ic, h4]; exact a3
  · rw [hs.forget]; exact b1

/-- The attributes of the selection are assigned behind the inner loop only. -/
structure SameSelection (s t : GState μ p) : Prop where
  coefPath : t.coefPath = s.coefPath
  coef : t.coef = s.coef
  selection : t.selection = s.selection
  bestIc : t.bestIc = s.bestIc
  sumW : t.sumW = s.sumW
  meanW : t.meanW = s.meanW

theorem fitIteration_selection (c : Call μ p) (k itO itI scheduled : ℕ) (a : Inner) (s0 : GState μ p) :
    Py.Inv (SameSelection s0) (fitIteration c k itO itI scheduled a) := by
  unfold fitIteration
  py_inv
  all_goals first
    | exact fitCoefs_keeps c k itO itI _ _ _ _ _ _ fun s m hs => ⟨hs.1, hs.2, hs.3, hs.4, hs.5, hs.6⟩
    | (intro s hs; unfold debugWork; split <;> exact ⟨hs.1, hs.2, hs.3, hs.4, hs.5, hs.6⟩)
    | (intro s hs; unfold debugBeta; split <;> exact ⟨hs.1, hs.2, hs.3, hs.4, hs.5, hs.6⟩)
    | (intro s hs; split <;> exact ⟨hs.1, hs.2, hs.3, hs.4, hs.5, hs.6⟩)

theorem innerFit_selected {c : Call μ p} {itO k : ℕ} (hD : Regular c.D)
    (hcond : c.cfg.condStartVal = true → ConditionalRegular c.D)
    (hX : ∀ X, c.X k = some X → k < c.D.nParams ∧ X.length = c.y.length) {s t : GState μ p} {d : Flt} (h : innerFit c itO k s = (.ok d, t))
    (hfv : s.fv.length = c.y.length) (hs : ∀ j, FitSelected c j s) : t.fv.length = c.y.length ∧ ∀ j, FitSelected c j t := by
  have hset : SameSetup s t := Py.Triple.ok (innerFit_setup c itO k s) (SameSetup.refl s) h
  unfold innerFit at h
  rw [Py.bind_self] at h
  obtain ⟨n, ss1, hh, h⟩ := Py.bind_ok_iff.1 h
  obtain ⟨_, e⟩ := Py.call_ok_iff.1 hh
  rw [e] at h
  clear e
  obtain ⟨a, s2, hloop, h⟩ := Py.bind_ok_iff.1 h
  obtain ⟨o, ss5, hh, h⟩ := Py.bind_ok_iff.1 h
  obtain ⟨ho, e⟩ := Py.attr_ok_iff.1 hh
  rw [e] at h
  clear e
  rw [Py.bind_set, Py.bind_set] at h
  obtain ⟨_, rfl⟩ := Py.pure_ok_iff.1 h
  have hsel := (fitInnerLoop_inv c k itO n (fun itI a => fitIteration_selection c k itO itI n a s) n 0 _).ok
    (⟨rfl, rfl, rfl, rfl, rfl, rfl⟩ : SameSelection s s) hloop
  obtain ⟨hnew, hc⟩ := fitInnerLoop_choice hD hcond hX n 0 hloop (SameSetup.refl s) hfv ⟨hfv, hfv⟩ (by simp)
  have hc := hc o ho
  have hfv2 := (fitInnerLoop_inv c k itO n (fun itI a => fitIteration_fvLength c k itO itI n a c.y.length) n 0 _).ok hfv hloop
  by_cases hacc : a.badState = false ∨ itO = 1
  · rw [if_pos hacc] at hset ⊢
    refine ⟨setCol_length hfv2 (col_length hnew), fun j => ?_⟩
    by_cases hj : j = k
    · subst hj
      intro path hp
      change Function.update s2.coefPath j o.path j = some path at hp
      rw [Function.update_self] at hp
      rcases hc with ⟨h0, _⟩ | ⟨path', stats, bi, n, ic, h1, h2, h3, h4, h5, h6, h7, forget, h8, h9⟩
      · rw [h0] at hp; cases hp
      · obtain rfl : path' = path := Option.some.inj (h1.symm.trans hp)
        have hb : (GState.setItInner (Function.update (commitFit c j a o s2).itInner j o.it) (commitFit c j a o s2)).bestIc j = bi := by
          change (match o.bestIc with
            | some b => Function.update s2.bestIc j b
            | none => s2.bestIc) j = bi
          rw [h3]
          exact Function.update_self _ _ _
        refine ⟨stats, ⟨?_, ⟨o.beta, Function.update_self _ _ _, by rw [hb]; exact h4⟩, n, ic, ?_, ?_, by rw [hb]; exact h7⟩, forget,
          o.wt, ?_, Function.update_self _ _ _, Function.update_self _ _ _, h9⟩
        · change (if o.selection.isSome then upd s2.selection j o.selection else s2.selection) j = some stats
          rw [h2]
          exact Function.update_self _ _ _
        · rw [hset.nTraining]; exact h5
        · rw [hset.ic]; exact h6
        · rw [hset.forget]; exact h8
    · refine (hs j).congr hset ?_ ?_ ?_ ?_ ?_ ?_
      · exact (Function.update_of_ne hj _ _).trans (by rw [hsel.coefPath])
      · exact (Function.update_of_ne hj _ _).trans (by rw [hsel.coef])
      · change (if o.selection.isSome then upd s2.selection k o.selection else s2.selection) j = _
        rw [← hsel.selection]
        split
        · exact Function.update_of_ne hj _ _
        · rfl
      · change (match o.bestIc with
            | some b => Function.update s2.bestIc k b
            | none => s2.bestIc) j = _
        rw [← hsel.bestIc]
        cases o.bestIc with
        | some b => exact Function.update_of_ne hj _ _
        | none => rfl
      · exact (Function.update_of_ne hj _ _).trans (by rw [hsel.sumW])
      · exact (Function.update_of_ne hj _ _).trans (by rw [hsel.meanW])
  · rw [if_neg hacc] at hset ⊢
    refine ⟨hfv2, fun j => ?_⟩
    exact (hs j).congr hset (by change s2.coefPath j = _; rw [hsel.coefPath]) (by change s2.coef j = _; rw [hsel.coef])
      (by change s2.selection j = _; rw [hsel.selection]) (by change s2.bestIc j = _; rw [hsel.bestIc])
      (by change s2.sumW j = _; rw [hsel.sumW]) (by change s2.meanW j = _; rw [hsel.meanW])

/-! ### Update -/

/-- The result of an inner iteration of the update, the position being an attribute already. -/
def UpdateChoice (c : Call μ p) (s0 : GState μ p) (k : ℕ) (o : IterOut) (bi : ℕ) : Prop :=
  o.path = none ∨ ∃ path stats n ic old, o.path = some path ∧ o.selection = some stats ∧ path[bi]? = some o.beta ∧
    s0.nTraining.get? k = some n ∧ s0.ic.get? k = some ic ∧ s0.selectionOld k = some old ∧
    (1 < n → Scorable c.cfg.modelSelection stats → BestRow c.cfg.modelSelection ic n path stats bi) ∧
    ∃ forget meanW nObs, s0.forget.get? k = some forget ∧ s0.meanW k = some meanW ∧ s0.nObs = some nObs ∧
      UpdatedRows c s0 k forget nObs meanW o.wt path old stats

theorem updateIteration_fvLength (c : Call μ p) (k itO itI : ℕ) (a : Inner) (N : ℕ) :
    Py.Inv (fun s : GState μ p => s.fv.length = N) (updateIteration c k itO itI a) := by
  have hc : ∀ X wk xg yg, Py.Inv (fun s : GState μ p => s.fv.length = N) (updateCoefs c k X wk xg yg) := by
    intro X wk xg yg
    unfold updateCoefs
    py_inv
    all_goals exact fun s hs => hs
  unfold updateIteration
  py_inv
  all_goals first
    | exact hc _ _ _ _
    | (intro s hs; unfold debugWork; split <;> exact hs)
    | (intro s hs; unfold debugBeta; split <;> exact hs)
    | (intro s hs; split <;> exact hs)

theorem updateInnerLoop_choice {c : Call μ p} {s0 : GState μ p} {k itO : ℕ} (hD : Regular c.D)
    (hX : ∀ X, c.X k = some X → k < c.D.nParams ∧ X.length = c.y.length) (n itI : ℕ) {a a' : Inner} {s t : GState μ p}
    (h : updateInnerLoop c k itO n itI a s = (.ok a', t)) (hs : SameCommitted s0 s) (hfv : s.fv.length = c.y.length)
    (ha1 : a.fvIt.length = c.y.length ∧ a.fvNew.length = c.y.length)
    (ha : ∀ o, a.out = some o → UpdateChoice c s0 k o (s.bestIc k)) :
    a'.fvNew.length = c.y.length ∧ ∀ o, a'.out = some o → UpdateChoice c s0 k o (t.bestIc k) := by
  induction n generalizing itI a s with
  | zero =>
    obtain ⟨rfl, rfl⟩ := Py.pure_ok_iff.1 h
    exact ⟨ha1.2, ha⟩
  | succ n ih =>
    unfold updateInnerLoop at h
    obtain ⟨r, s', hr, h⟩ := Py.bind_ok_iff.1 h
    obtain ⟨st⟩ := updateIteration_ok hr
    have hfv' : s'.fv.length = c.y.length :=
      Py.Triple.ok (updateIteration_fvLength c k itO itI a c.y.length) hfv hr
    have hk : k < c.D.nParams := (hX _ st.hX).1
    have hvl : st.v.length = c.y.length := by
      obtain ⟨q, hq, hql⟩ := hD.linkInverse k hk st.pred
      rw [← Except.ok.inj (hq.symm.trans st.hv), hql, matVec_length st.hpred, (hX _ st.hX).2]
    have hnew : r.1.fvNew.length = c.y.length := by rw [st.fvNew]; exact setCol_length ha1.2 hvl
    have hit : r.1.fvIt.length = c.y.length := by
      rcases st.fvIt with e | e
      · rw [e]; exact ha1.1
      · rw [e]; exact setCol_length ha1.1 (col_length hnew)
    have hs' : SameCommitted s0 s' := Py.Triple.ok (updateIteration_committed c k itO itI a s0) hs hr
    have hout : ∀ o, r.1.out = some o → UpdateChoice c s0 k o (s'.bestIc k) := by
      intro o ho
      rw [st.out] at ho
      simp only [Option.some.injEq] at ho
      subst ho
      have hd : SameCommitted s0 (debugWork c.cfg.debug (k, itO, itI) st.wk a.fvIt s) :=
        hs.trans (sameCommitted_debugWork _ _ _ _ _)
      rcases updateCoefs_path st.hco with h0 | ⟨path, stats, bi, forget, n, ic, old, mw, no, h1, h2, h3, h4, h5, h6, h7, h8, h9, h10, m, start,
          reg, m', h11, h12⟩
      · exact .inl h0
      · obtain ⟨g1, g2, g3, g4, g5⟩ := updateSelectModel_stats h10
        have em : st.m = m := by
          have e : (debugWork c.cfg.debug (k, itO, itI) st.wk a.fvIt s).method = s.method := by unfold debugWork; split <;> rfl
          rw [e, st.hm] at h11
          exact Option.some.inj h11
        have ef : st.forget = forget := by
          rw [hd.setup.forget, ← hs.setup.forget, st.hf] at h4
          exact Option.some.inj h4
        have hxg := st.hxg
        have hyg := st.hyg
        rw [em, ef] at hxg hyg
        have hx0 := st.hx0
        have hy0 := st.hy0
        rw [hs.xGram] at hx0
        rw [hs.yGram] at hy0
        rw [hd.setup.forget] at h4
        rw [hd.meanW] at h8
        rw [hd.setup.nObs] at h9
        rw [hd.setup.nTraining] at h5
        rw [hd.setup.ic] at h6
        rw [hd.selectionOld] at h7
        rw [st.bestIc, h3]
        refine .inr ⟨path, stats, n, ic, old, h1, h2, g1, h5, h6, h7, g3, forget, mw, no, h4, h8, h9, g2, st.X, a.fvIt, st.wk, st.hX, ha1.1,
          st.hwk, rfl, ⟨m, st.x0, st.xg, st.y0, st.yg, start, reg, m', hx0, hy0, hxg, hyg, h12⟩, fun hm => g4 hm (hX _ st.hX).2,
          fun hm => ⟨_, ?_, g5 hm⟩⟩
        unfold debugWork
        split <;> exact hfv
    split at h
    · obtain ⟨rfl, rfl⟩ := Py.pure_ok_iff.1 h
      exact ⟨hnew, hout⟩
    · exact ih (itI + 1) h hs' hfv' ⟨hit, hnew⟩ hout

/-- The stored selection of parameter `k` after its treatment in an update. -/
def UpdateSelected (c : Call μ p) (s0 : GState μ p) (k : ℕ) (t : GState μ p) : Prop :=
  ∀ path, t.coefPath k = some path → ∃ stats forget old meanW sumW nObs nTraining wt, SelectedRow c.cfg.modelSelection t k path stats ∧
    s0.forget.get? k = some forget ∧ s0.selectionOld k = some old ∧ s0.meanW k = some meanW ∧ s0.sumW k = some sumW ∧
    s0.nObs = some nObs ∧ s0.nTraining.get? k = some nTraining ∧
    t.sumWNew k = some (Flt.add (asum (wmul c.w wt)) (Flt.mul (Flt.sub (.fin 1) (.fin forget)) sumW)) ∧
    t.meanWNew k = some (Flt.div (Flt.add (asum (wmul c.w wt)) (Flt.mul (Flt.sub (.fin 1) (.fin forget)) sumW)) (.fin nTraining)) ∧
    UpdatedRows c s0 k forget nObs meanW wt path old stats

/-- The attributes of the selection of parameter `j` are the same. -/
structure SameSelectionOf (j : ℕ) (s t : GState μ p) : Prop where
  coefPath : t.coefPath j = s.coefPath j
  coef : t.coef j = s.coef j
  selection : t.selection j = s.selection j
  bestIc : t.bestIc j = s.bestIc j
  sumW : t.sumWNew j = s.sumWNew j
  meanW : t.meanWNew j = s.meanWNew j

theorem updateIteration_selectionOf (c : Call μ p) (k itO itI : ℕ) (a : Inner) (s0 : GState μ p) (j : ℕ) (hj : j ≠ k) :
    Py.Inv (SameSelectionOf j s0) (updateIteration c k itO itI a) := by
  have hc : ∀ X wk xg yg, Py.Inv (SameSelectionOf j s0) (updateCoefs c k X wk xg yg) := by
    intro X wk xg yg
    unfold updateCoefs
    py_inv
    all_goals first
      | exact fun s hs => ⟨hs.1, hs.2, hs.3, hs.4, hs.5, hs.6⟩
      | exact fun s hs => ⟨hs.1, hs.2, hs.3, (Function.update_of_ne hj _ _).trans hs.4, hs.5, hs.6⟩
  unfold updateIteration
  py_inv
  all_goals first
    | exact hc _ _ _ _
    | (intro s hs; unfold debugWork; split <;> exact ⟨hs.1, hs.2, hs.3, hs.4, hs.5, hs.6⟩)
    | (intro s hs; unfold debugBeta; split <;> exact ⟨hs.1, hs.2, hs.3, hs.4, hs.5, hs.6⟩)
    | (intro s hs; split <;> exact ⟨hs.1, hs.2, hs.3, hs.4, hs.5, hs.6⟩)

theorem innerUpdate_selectionOf (c : Call μ p) (itO k : ℕ) (s0 : GState μ p) (j : ℕ) (hj : j ≠ k) :
    Py.Inv (SameSelectionOf j s0) (innerUpdate c itO k) := by
  unfold innerUpdate
  py_inv
  all_goals first
    | exact updateInnerLoop_inv c k itO (fun itI a => updateIteration_selectionOf c k itO itI a s0 j hj) _ _ _
    | exact fun s hs => ⟨(Function.update_of_ne hj _ _).trans hs.1, (Function.update_of_ne hj _ _).trans hs.2,
        (Function.update_of_ne hj _ _).trans hs.3, hs.4, (Function.update_of_ne hj _ _).trans hs.5,
        (Function.update_of_ne hj _ _).trans hs.6⟩

theorem UpdateSelected.congr {c : Call μ p} {s0 : GState μ p} {k : ℕ} {s t : GState μ p} (h : UpdateSelected c s0 k s)
    (h0 : t.nTraining = s.nTraining) (h0' : t.ic = s.ic) (hs : SameSelectionOf k s t) : UpdateSelected c s0 k t := by
  intro path hp
  obtain ⟨stats, forget, old, meanW, sumW, nObs, nTr, wt, ⟨a1, a2, a3⟩, b1, b2, b3, b4, b5, b6, b7, b8, b9⟩ :=
    h path (hs.coefPath.symm.trans hp)
  refine ⟨stats, forget, old, meanW, sumW, nObs, nTr, wt, ⟨hs.selection.trans a1, ?_, ?_⟩, b1, b2, b3, b4, b5, b6, hs.sumW.trans b7,
    hs.meanW.trans b8, b9⟩
  · rw [hs.coef, hs.bestIc]; exact a2
  · rw [h0, h0', hs.bestIc]; exact a3

theorem innerUpdate_selected {c : Call μ p} {itO k : ℕ} (hD : Regular c.D)
    (hX : ∀ X, c.X k = some X → k < c.D.nParams ∧ X.length = c.y.length) {s0 s t : GState μ p} {d : Flt} (hs : SameCommitted s0 s)
    (hfv : s.fv.length = c.y.length) (h : innerUpdate c itO k s = (.ok d, t)) :
    t.fv.length = c.y.length ∧ UpdateSelected c s0 k t := by
  have hset : SameCommitted s0 t := Py.Triple.ok (innerUpdate_committed c itO k s0) hs h
  unfold innerUpdate at h
  rw [Py.bind_self] at h
  obtain ⟨forget0, ss2, hh2, h⟩ := Py.bind_ok_iff.1 h
  obtain ⟨_, ee1⟩ := Py.attr_ok_iff.1 hh2
  rw [ee1] at h
  clear ee1
  obtain ⟨old, ss3, hh3, h⟩ := Py.bind_ok_iff.1 h
  obtain ⟨_, ee2⟩ := Py.attr_ok_iff.1 hh3
  rw [ee2] at h
  clear ee2
  obtain ⟨n, ss4, hh4, h⟩ := Py.bind_ok_iff.1 h
  obtain ⟨_, ee3⟩ := Py.call_ok_iff.1 hh4
  rw [ee3] at h
  clear ee3
  obtain ⟨a, s2, hloop, h⟩ := Py.bind_ok_iff.1 h
  obtain ⟨o, ss5, hh5, h⟩ := Py.bind_ok_iff.1 h
  obtain ⟨ho, ee4⟩ := Py.attr_ok_iff.1 hh5
  rw [ee4] at h
  clear ee4
  obtain ⟨forget, ss6, hh6, h⟩ := Py.bind_ok_iff.1 h
  obtain ⟨hforget, ee5⟩ := Py.attr_ok_iff.1 hh6
  rw [ee5] at h
  clear ee5
  obtain ⟨sumW, ss7, hh7, h⟩ := Py.bind_ok_iff.1 h
  obtain ⟨hsumW, ee6⟩ := Py.attr_ok_iff.1 hh7
  rw [ee6] at h
  clear ee6
  obtain ⟨nTr, ss8, hh8, h⟩ := Py.bind_ok_iff.1 h
  obtain ⟨hnTr, ee7⟩ := Py.attr_ok_iff.1 hh8
  rw [ee7] at h
  clear ee7
  rw [Py.bind_set] at h
  obtain ⟨_, rfl⟩ := Py.pure_ok_iff.1 h
  have hfv2 := (updateInnerLoop_inv c k itO (fun itI a => updateIteration_fvLength c k itO itI a c.y.length) n 0 _).ok hfv hloop
  obtain ⟨hnew, hc⟩ := updateInnerLoop_choice hD hX n 0 hloop hs hfv ⟨hfv, hfv⟩ (by simp)
  refine ⟨setCol_length hfv2 (col_length hnew), fun path hp => ?_⟩
  change Function.update s2.coefPath k o.path k = some path at hp
  rw [Function.update_self] at hp
  rcases hc o ho with h0 | ⟨path', stats, n, ic, old, h1, h2, h3, h4, h5, h6, h7, forget', mw, no, h8, h9, h10, h11⟩
  · rw [h0] at hp; cases hp
  · obtain rfl : path' = path := Option.some.inj (h1.symm.trans hp)
    rw [hs.setup.forget] at hforget
    rw [hs.sumW] at hsumW
    rw [hs.setup.nTraining] at hnTr
    obtain rfl : forget' = forget := Option.some.inj (h8.symm.trans hforget)
    refine ⟨stats, forget', old, mw, sumW, no, nTr, o.wt,
      ⟨(Function.update_self _ _ _).trans h2, ⟨o.beta, Function.update_self _ _ _, h3⟩, n, ic, ?_, ?_, h7⟩, h8, h6, h9, hsumW, h10, hnTr,
      Function.update_self _ _ _, Function.update_self _ _ _, h11⟩
    · rw [hset.setup.nTraining]; exact h4
    · rw [hset.setup.ic]; exact h5

set_option maxHeartbeats 1000000 in
/-- What a successful update with at least one outer iteration stores for a parameter with a coefficient path. -/
theorem update_selected {D : DistOps} (hD : Regular D) {M : MethodOps μ} {c : GConfig μ p} {data : List (Obs p)} {s t : GState μ p}
    {u : Unit} (h : GState.update D M c data s = (.ok u, t)) (it : ℕ) (hit : t.itOuter = some it) (h1 : 1 ≤ it) {k : ℕ}
    (hk : k ∈ s.paramOrder) {path : Arr2} (hp : t.coefPath k = some path) :
    ∃ stats X sc, SelectedRow c.modelSelection t k path stats ∧ UpdateStatistics ⟨D, M, c, X, ys data, ws data⟩ s t k path stats ∧
      t.scaler = some sc ∧ ∀ j A, X j = some A → designFor t sc (xs data) j = .ok A := by
  obtain ⟨r⟩ := update_ok h
  have e : it = r.it := by
    rw [r.once.2.1] at hit; exact (Option.some.inj hit).symm
  set C : Call μ p := ⟨D, M, c, r.X.get?, ys data, ws data⟩ with hC
  have hloop := r.hloop
  unfold outerUpdate at hloop
  rw [Py.bind_self] at hloop
  obtain ⟨f0, ss1, hh1, hloop⟩ := Py.bind_ok_iff.1 hloop
  obtain ⟨_, e1⟩ := Py.attr_ok_iff.1 hh1
  rw [e1] at hloop
  obtain ⟨old, ss2, hh2, hloop⟩ := Py.bind_ok_iff.1 hloop
  obtain ⟨_, e2⟩ := Py.attr_ok_iff.1 hh2
  rw [e2] at hloop
  have eor : r.s1.paramOrder = s.paramOrder := r.proj GState.paramOrder (fun _ => rfl) fun _ _ => rfl
  have eso : r.s1.selectionOld = s.selection := r.proj GState.selectionOld (fun _ => rfl) fun _ _ => rfl
  have emw : r.s1.meanW = s.meanW := r.proj GState.meanW (fun _ => rfl) fun _ _ => rfl
  have esw : r.s1.sumW = s.sumW := r.proj GState.sumW (fun _ => rfl) fun _ _ => rfl
  have efo : r.s1.forget = s.forget := r.proj GState.forget (fun _ => rfl) fun _ _ => rfl
  have exg : r.s1.xGram = s.xGram := r.proj GState.xGram (fun _ => rfl) fun _ _ => rfl
  have eyg : r.s1.yGram = s.yGram := r.proj GState.yGram (fun _ => rfl) fun _ _ => rfl
  have eeq : r.s1.equation = s.equation := r.proj GState.equation (fun _ => rfl) fun _ _ => rfl
  have efi : r.s1.fitIntercept = s.fitIntercept := r.proj GState.fitIntercept (fun _ => rfl) fun _ _ => rfl
  have esc : r.s1.scaler = some r.sc := r.proj GState.scaler (fun _ => rfl) fun _ _ => rfl
  have efv : r.s1.fv = r.fv := r.proj GState.fv (fun _ => rfl) fun _ _ => rfl
  have hX : ∀ k X, C.X k = some X → k < C.D.nParams ∧ X.length = C.y.length := by
    intro k X hk
    have := designFor_length (forParams_get? r.hX hk).2
    exact ⟨(forParams_get? r.hX hk).1, by simpa [xs, ys, hC] using this⟩
  have hset := (outerUpdate_committed _ _ _).ok (SameCommitted.refl _) r.hloop
  let I : GState μ p → Prop := fun u => SameCommitted r.s1 u ∧ u.fv.length = C.y.length
  have hpl : ∀ it d (u v : GState μ p) d', I u → paramLoop (innerUpdate C it) r.s1.paramOrder d u = (.ok d', v) →
      I v ∧ ∀ j, (j ∈ r.s1.paramOrder ∨ UpdateSelected C r.s1 j u) →
        UpdateSelected C r.s1 j v :=
    fun it d u v d' hu hr => paramLoop_all_ok (I := I) (Q := UpdateSelected C r.s1) _
      (fun j _ s t d hs hr => ⟨Py.Triple.ok (innerUpdate_committed C it j r.s1) hs.1 hr, (innerUpdate_selected hD (hX j) hs.1 hs.2 hr).1⟩)
      (fun j _ s t d hs hr => (innerUpdate_selected hD (hX j) hs.1 hs.2 hr).2)
      (fun j _ i hij s t d hs hq hr => by
        have ht : SameCommitted s t := Py.Triple.ok (innerUpdate_committed C it j s) (SameCommitted.refl s) hr
        exact hq.congr ht.setup.nTraining ht.setup.ic
          (Py.Triple.ok (innerUpdate_selectionOf C it j s i hij) ⟨rfl, rfl, rfl, rfl, rfl, rfl⟩ hr)) hu hr
  rcases outerLoop_last_ok (I := I) _ 0 (fun it _ d u v d' hu hr => (hpl it d u v d' hu hr).1) hloop
      ⟨SameCommitted.refl _, by rw [efv, predictParams_length r.hfv]; simp [hC, xs, ys]⟩ with
    ⟨h2, _⟩ | ⟨_, d0, s', hs', hb⟩
  · omega
  · have hsel := (hpl r.it d0 s' _ _ hs' hb).2 k (.inl (eor ▸ hk))
    have e1 : t.coefPath = r.s2.coefPath := (congrArg GState.coefPath r.ht).trans rfl
    obtain ⟨stats, forget, old, meanW, sumW, nObs, nTr, wt, ⟨a1, a2, a3⟩, b1, b2, b3, b4, b5, b6, b7, b8, b9, X, fv, wk, b10, b11, b12, b13,
      ⟨m, x0, xg, y0, yg, start, reg, m', b14, b15, b16⟩, b17⟩ := hsel path ((congrFun e1 k).symm.trans hp)
    have e2 : t.selection = r.s2.selection := (congrArg GState.selection r.ht).trans rfl
    have e3 : t.coef = r.s2.coef := (congrArg GState.coef r.ht).trans rfl
    have e4 : t.bestIc = r.s2.bestIc := (congrArg GState.bestIc r.ht).trans rfl
    have e5 : t.nTraining = r.s2.nTraining := (congrArg GState.nTraining r.ht).trans rfl
    have e6 : t.ic = r.s2.ic := (congrArg GState.ic r.ht).trans rfl
    have e7 : t.sumW = r.s2.sumWNew := (congrArg GState.sumW r.ht).trans rfl
    have e8 : t.meanW = r.s2.meanWNew := (congrArg GState.meanW r.ht).trans rfl
    have e9 : t.nObs = r.s2.nObs := (congrArg GState.nObs r.ht).trans rfl
    have e10 : t.scaler = r.s2.scaler := (congrArg GState.scaler r.ht).trans rfl
    have e11 : t.equation = r.s2.equation := (congrArg GState.equation r.ht).trans rfl
    have e12 : t.fitIntercept = r.s2.fitIntercept := (congrArg GState.fitIntercept r.ht).trans rfl
    refine ⟨stats, r.X.get?, r.sc, ⟨by rw [e2]; exact a1, by rw [e3, e4]; exact a2, by rw [e4, e5, e6]; exact a3⟩,
      ⟨forget, old, meanW, sumW, nObs, nTr, wt, by rw [← efo]; exact b1, by rw [← eso]; exact b2, by rw [← emw]; exact b3,
        by rw [← esw]; exact b4, by rw [e9, hset.setup.nObs]; exact b5, by rw [e5, hset.setup.nTraining]; exact b6, by rw [e7]; exact b7,
        by rw [e8]; exact b8, b9, X, fv, wk, b10, b11, b12, b13,
        ⟨m, x0, xg, y0, yg, start, reg, m', by rw [← exg]; exact b14, by rw [← eyg]; exact b15, b16⟩, b17⟩, ?_, fun j A hA => ?_⟩
    · rw [e10, hset.setup.scaler]; exact esc
    · have := (forParams_get? r.hX hA).2
      unfold designFor at this ⊢
      rw [e11, e12, hset.setup.equation, hset.setup.fitIntercept, eeq, efi]
      exact this

end Ondil
