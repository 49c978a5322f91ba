import Verif.Lemmas.FitTrace

/-!
# The passes of an update, as a trace
-/

namespace Ondil

variable {μ : Type} {p : ℕ}

theorem updateCoefs_stepped {c : Call μ p} {k : ℕ} {X : Arr2} {wk : Working} {xg : Arr2} {yg : Arr1}
    {s t : GState μ p} {co : Coefs} (h : updateCoefs c k X wk xg yg s = (.ok co, t)) : Stepped c.M s t := by
  unfold updateCoefs at h
  rw [Py.bind_self] at h
  obtain ⟨m, u1, k1, h1⟩ := Py.bind_ok_iff.1 h
  obtain ⟨hm, rfl⟩ := Py.attr_ok_iff.1 k1
  obtain ⟨reg, u2, k2, h2⟩ := Py.bind_ok_iff.1 h1
  obtain ⟨_, rfl⟩ := Py.attr_ok_iff.1 k2
  obtain ⟨f, u3, k3, h3⟩ := Py.bind_ok_iff.1 h2
  obtain ⟨_, rfl⟩ := Py.attr_ok_iff.1 k3
  split at h3
  · rename_i hp
    obtain ⟨start, u4, k4, h4⟩ := Py.bind_ok_iff.1 h3
    obtain ⟨_, rfl⟩ := Py.attr_ok_iff.1 k4
    obtain ⟨r, u5, k5, h5⟩ := Py.bind_ok_iff.1 h4
    obtain ⟨hr, rfl⟩ := Py.call_ok_iff.1 k5
    rw [Py.bind_set] at h5
    obtain ⟨_, u6, k6, h6⟩ := Py.bind_ok_iff.1 h5
    obtain ⟨_, rfl⟩ := Py.attr_ok_iff.1 k6
    obtain ⟨_, u7, k7, h7⟩ := Py.bind_ok_iff.1 h6
    obtain ⟨_, rfl⟩ := Py.attr_ok_iff.1 k7
    obtain ⟨_, u8, k8, h8⟩ := Py.bind_ok_iff.1 h7
    obtain ⟨_, rfl⟩ := Py.attr_ok_iff.1 k8
    obtain ⟨_, u9, k9, h9⟩ := Py.bind_ok_iff.1 h8
    obtain ⟨_, rfl⟩ := Py.attr_ok_iff.1 k9
    obtain ⟨_, u10, k10, h10⟩ := Py.bind_ok_iff.1 h9
    obtain ⟨_, rfl⟩ := Py.attr_ok_iff.1 k10
    obtain ⟨_, u11, k11, h11⟩ := Py.bind_ok_iff.1 h10
    obtain ⟨_, rfl⟩ := Py.call_ok_iff.1 k11
    rw [Py.bind_set] at h11
    obtain ⟨_, rfl⟩ := Py.pure_ok_iff.1 h11
    exact Stepped.upd (m := m) (m' := r.2) (k := k) rfl hm (.updatePath .start hp hr)
  · rename_i hp
    obtain ⟨b, u4, k4, h4⟩ := Py.bind_ok_iff.1 h3
    obtain ⟨_, rfl⟩ := Py.attr_ok_iff.1 k4
    obtain ⟨r, u5, k5, h5⟩ := Py.bind_ok_iff.1 h4
    obtain ⟨hr, rfl⟩ := Py.call_ok_iff.1 k5
    rw [Py.bind_set] at h5
    obtain ⟨_, rfl⟩ := Py.pure_ok_iff.1 h5
    exact Stepped.upd (m := m) (m' := r.2) (k := k) rfl hm (.updateBeta .start (by simpa using hp) hr)

theorem updateSelectModel_mem {c : Call μ p} {s : GState μ p} {k : ℕ} {X : Arr2} {wv wt : Arr1} {path : Arr2} {old : Arr1}
    {meanW : Flt} {forget nObs n : ℝ} {ic : Criterion} {r : Arr1 × Arr1 × ℕ}
    (h : updateSelectModel c s k X wv wt path old meanW forget nObs n ic = .ok r) : r.1 ∈ path := by
  unfold updateSelectModel at h
  obtain ⟨preds, _, h⟩ := bind_ok.1 h
  simp only at h
  split at h
  · obtain ⟨ics, _, h⟩ := bind_ok.1 h
    obtain ⟨bi, hbi, h⟩ := bind_ok.1 h
    obtain rfl := Except.ok.inj h
    exact selectModel_mem hbi
  · obtain ⟨ll, _, h⟩ := bind_ok.1 h
    obtain ⟨ics, _, h⟩ := bind_ok.1 h
    obtain ⟨bi, hbi, h⟩ := bind_ok.1 h
    obtain rfl := Except.ok.inj h
    exact selectModel_mem hbi

/-- The coefficients of one pass: of the method, or a row of its path. -/
theorem updateCoefs_solves {c : Call μ p} {k : ℕ} {X : Arr2} {wk : Working} {xg : Arr2} {yg : Arr1} {s t : GState μ p} {co : Coefs}
    {m : μ} (hm : s.method k = some m) (h : updateCoefs c k X wk xg yg s = (.ok co, t)) :
    ∃ reg m' b, s.isRegularized.get? k = some reg ∧ (c.M.pathBased m = false → c.M.updateBeta m xg yg b reg = .ok (co.beta, m')) ∧
      (c.M.pathBased m = true → ∃ path b, co.beta ∈ path ∧ c.M.updatePath m xg yg b reg = .ok (path, m')) := by
  unfold updateCoefs at h
  rw [Py.bind_self] at h
  obtain ⟨m2, u1, k1, h1⟩ := Py.bind_ok_iff.1 h
  obtain ⟨hm2, rfl⟩ := Py.attr_ok_iff.1 k1
  obtain rfl := Option.some.inj (hm.symm.trans hm2)
  obtain ⟨reg, u2, k2, h2⟩ := Py.bind_ok_iff.1 h1
  obtain ⟨hreg, rfl⟩ := Py.attr_ok_iff.1 k2
  obtain ⟨f2, u3, k3, h3⟩ := Py.bind_ok_iff.1 h2
  obtain ⟨_, rfl⟩ := Py.attr_ok_iff.1 k3
  split at h3
  · rename_i hp
    obtain ⟨b, u4, k4, h4⟩ := Py.bind_ok_iff.1 h3
    obtain ⟨_, rfl⟩ := Py.attr_ok_iff.1 k4
    obtain ⟨r, u5, k5, h5⟩ := Py.bind_ok_iff.1 h4
    obtain ⟨hr, rfl⟩ := Py.call_ok_iff.1 k5
    rw [Py.bind_set] at h5
    obtain ⟨_, u6, k6, h6⟩ := Py.bind_ok_iff.1 h5
    obtain ⟨_, rfl⟩ := Py.attr_ok_iff.1 k6
    obtain ⟨_, u7, k7, h7⟩ := Py.bind_ok_iff.1 h6
    obtain ⟨_, rfl⟩ := Py.attr_ok_iff.1 k7
    obtain ⟨_, u8, k8, h8⟩ := Py.bind_ok_iff.1 h7
    obtain ⟨_, rfl⟩ := Py.attr_ok_iff.1 k8
    obtain ⟨_, u9, k9, h9⟩ := Py.bind_ok_iff.1 h8
    obtain ⟨_, rfl⟩ := Py.attr_ok_iff.1 k9
    obtain ⟨_, u10, k10, h10⟩ := Py.bind_ok_iff.1 h9
    obtain ⟨_, rfl⟩ := Py.attr_ok_iff.1 k10
    obtain ⟨sel, u11, k11, h11⟩ := Py.bind_ok_iff.1 h10
    obtain ⟨hsel, rfl⟩ := Py.call_ok_iff.1 k11
    rw [Py.bind_set] at h11
    obtain ⟨rfl, _⟩ := Py.pure_ok_iff.1 h11
    exact ⟨reg, r.2, [], hreg, fun h => absurd hp (by simp [h]), fun _ => ⟨r.1, b, updateSelectModel_mem hsel, hr⟩⟩
  · rename_i hp
    obtain ⟨b, u4, k4, h4⟩ := Py.bind_ok_iff.1 h3
    obtain ⟨_, rfl⟩ := Py.attr_ok_iff.1 k4
    obtain ⟨r, u5, k5, h5⟩ := Py.bind_ok_iff.1 h4
    obtain ⟨hr, rfl⟩ := Py.call_ok_iff.1 k5
    rw [Py.bind_set] at h5
    obtain ⟨rfl, _⟩ := Py.pure_ok_iff.1 h5
    exact ⟨reg, r.2, b, hreg, fun _ => hr, fun h => absurd h hp⟩

/-- What one pass of the inner loop of the update does, as a record. -/
structure PassUpd (c : Call μ p) (k o i : ℕ) (a : Inner) (s t : GState μ p) (r : Inner × Bool) (q : Pass) : Prop where
  it : q.it = i
  small : i < c.cfg.maxInner
  start : q.fv = a.fvIt
  work : working c.D updateClip c.y q.fv k = .ok q.wk
  solves : ∃ m X forget reg x0 y0, s.method k = some m ∧ c.X k = some X ∧ s.forget.get? k = some forget ∧
    s.isRegularized.get? k = some reg ∧ s.xGram k = some x0 ∧ s.yGram k = some y0 ∧
    q.SolvesUpdate c.M m c.w forget reg X x0 y0 ∧
    ∃ xb, matVec X q.beta = .ok xb ∧ c.D.linkInverse k xb = .ok q.values
  new : q.new = a.fvNew.setCol k q.values
  reference : q.reference = a.dvOld
  dev : ∃ forget0 old, s.forget.get? 0 = some forget0 ∧ s.globalDev = some old ∧ q.dev = updateDeviance c forget0 old q.new
  raised : q.raised = a.stepDecrease
  out : ∃ u, r.1.out = some u ∧ u.it = i ∧ u.dv = q.dev ∧ u.beta = q.beta
  fvNew : r.1.fvNew = q.new
  leaves : r.2 = true ↔ (q.Raises ∧ 5 < a.stepDecrease + 1) ∨
    ((¬ q.Raises ∨ i < c.cfg.maxInner - 1) ∧ innerConverged c.cfg i a.dvOld q.dev)
  dropped : r.2 = false → q.Raises → r.1.fvIt = q.fv ∧ r.1.dvOld = a.dvOld
  taken : r.2 = false → ¬ q.Raises → r.1.fvIt = q.fv.setCol k (q.new.col k) ∧ r.1.dvOld = q.dev
  counted : q.Raises → r.1.stepDecrease = a.stepDecrease + 1
  uncounted : ¬ q.Raises → r.1.stepDecrease = a.stepDecrease
  recorded : c.cfg.debug = true → Recorded t k o q
  others : ∀ key, key ≠ (k, o, i) → SameKey s t key
  setup : SameCommitted s t
  fv : t.fv = s.fv
  coef : t.coef = s.coef
  itInner : t.itInner = s.itInner
  stepped : Stepped c.M s t

open Classical in
theorem updateIteration_pass {c : Call μ p} {k o i : ℕ} {a : Inner} {s t : GState μ p} {r : Inner × Bool}
    (h : updateIteration c k o i a s = (.ok r, t)) : ∃ q, PassUpd c k o i a s t r q := by
  have hsetup : SameCommitted s t := (updateIteration_committed c k o i a s).ok (SameCommitted.refl s) h
  unfold updateIteration at h
  obtain ⟨x1, ss1, hh1, h⟩ := Py.bind_ok_iff.1 h
  obtain ⟨dd1, ee1⟩ := Py.self_ok_iff.1 hh1
  rw [ee1, dd1] at h
  clear hh1 ee1 dd1
  obtain ⟨step, ss2, hh2, h⟩ := Py.bind_ok_iff.1 h
  obtain ⟨hstep, ee2⟩ := Py.call_ok_iff.1 hh2
  rw [ee2] at h
  clear hh2 ee2
  obtain ⟨wk, ss3, hh3, h⟩ := Py.bind_ok_iff.1 h
  obtain ⟨hwk, ee3⟩ := Py.call_ok_iff.1 hh3
  rw [ee3] at h
  clear hh3 ee3
  obtain ⟨x4, ss4, hh4, h⟩ := Py.bind_ok_iff.1 h
  have ee4 := Py.set_ok_iff.1 hh4
  rw [ee4] at h
  clear hh4 ee4
  obtain ⟨X, ss5, hh5, h⟩ := Py.bind_ok_iff.1 h
  obtain ⟨hX, ee5⟩ := Py.attr_ok_iff.1 hh5
  rw [ee5] at h
  clear hh5 ee5
  obtain ⟨m, ss6, hh6, h⟩ := Py.bind_ok_iff.1 h
  obtain ⟨hm, ee6⟩ := Py.attr_ok_iff.1 hh6
  rw [ee6] at h
  clear hh6 ee6
  obtain ⟨forget, ss7, hh7, h⟩ := Py.bind_ok_iff.1 h
  obtain ⟨hf, ee7⟩ := Py.attr_ok_iff.1 hh7
  rw [ee7] at h
  clear hh7 ee7
  obtain ⟨x0, ss8, hh8, h⟩ := Py.bind_ok_iff.1 h
  obtain ⟨hx0, ee8⟩ := Py.attr_ok_iff.1 hh8
  rw [ee8] at h
  clear hh8 ee8
  obtain ⟨xg, ss9, hh9, h⟩ := Py.bind_ok_iff.1 h
  obtain ⟨hxg, ee9⟩ := Py.call_ok_iff.1 hh9
  rw [ee9] at h
  clear hh9 ee9
  obtain ⟨y0, ss10, hh10, h⟩ := Py.bind_ok_iff.1 h
  obtain ⟨hy0, ee10⟩ := Py.attr_ok_iff.1 hh10
  rw [ee10] at h
  clear hh10 ee10
  obtain ⟨yg, ss11, hh11, h⟩ := Py.bind_ok_iff.1 h
  obtain ⟨hyg, ee11⟩ := Py.call_ok_iff.1 hh11
  rw [ee11] at h
  clear hh11 ee11
  obtain ⟨co, s1, hco, h⟩ := Py.bind_ok_iff.1 h
  obtain ⟨x13, ss13, hh13, h⟩ := Py.bind_ok_iff.1 h
  have ee13 := Py.set_ok_iff.1 hh13
  rw [ee13] at h
  clear hh13 ee13
  obtain ⟨pred, ss14, hh14, h⟩ := Py.bind_ok_iff.1 h
  obtain ⟨hpred, ee14⟩ := Py.call_ok_iff.1 hh14
  rw [ee14] at h
  clear hh14 ee14
  obtain ⟨mw, ss15, hh15, h⟩ := Py.bind_ok_iff.1 h
  obtain ⟨hmw, ee15⟩ := Py.attr_ok_iff.1 hh15
  rw [ee15] at h
  clear hh15 ee15
  obtain ⟨no, ss16, hh16, h⟩ := Py.bind_ok_iff.1 h
  obtain ⟨hno, ee16⟩ := Py.attr_ok_iff.1 hh16
  rw [ee16] at h
  clear hh16 ee16
  obtain ⟨v, ss17, hh17, h⟩ := Py.bind_ok_iff.1 h
  obtain ⟨hv, ee17⟩ := Py.call_ok_iff.1 hh17
  rw [ee17] at h
  clear hh17 ee17
  obtain ⟨forget0, ss18, hh18, h⟩ := Py.bind_ok_iff.1 h
  obtain ⟨hf0, ee18⟩ := Py.attr_ok_iff.1 hh18
  rw [ee18] at h
  clear hh18 ee18
  obtain ⟨old, ss19, hh19, h⟩ := Py.bind_ok_iff.1 h
  obtain ⟨hold, ee19⟩ := Py.attr_ok_iff.1 hh19
  rw [ee19] at h
  clear hh19 ee19
  obtain ⟨x20, ss20, hh20, h⟩ := Py.bind_ok_iff.1 h
  have ee20 := Py.set_ok_iff.1 hh20
  rw [ee20] at h
  clear hh20 ee20
  obtain ⟨hr, ht⟩ := Py.pure_ok_iff.1 h
  have hi := stepAt_lt hstep
  obtain ⟨S, hS⟩ : ∃ S, S = debugWork c.cfg.debug (k, o, i) wk a.fvIt s := ⟨_, rfl⟩
  rw [← hS] at hco
  have hSm : S.method = s.method := by rw [hS]; unfold debugWork; split <;> rfl
  have hSr : S.isRegularized = s.isRegularized := by rw [hS]; unfold debugWork; split <;> rfl
  have hSc : S.coef = s.coef := by rw [hS]; unfold debugWork; split <;> rfl
  have hSv : S.fv = s.fv := by rw [hS]; unfold debugWork; split <;> rfl
  have hSi : S.itInner = s.itInner := by rw [hS]; unfold debugWork; split <;> rfl
  have hSd : S.debugCoef = s.debugCoef := by rw [hS]; unfold debugWork; split <;> rfl
  have keep : ∀ {β : Type} (f : GState μ p → β), (∀ s m, f (s.setMethod m) = f s) → (∀ s m, f (s.setBestIc m) = f s) →
      f s1 = f S := fun f hf hf' =>
    (updateCoefs_keeps c k X wk xg yg (fun s => f s = f S) (fun s m hs => (hf s m).trans hs)
      fun s m hs => (hf' s m).trans hs).ok rfl hco
  obtain ⟨reg, m', b, hreg, hbeta, hpath⟩ := updateCoefs_solves (by rw [hSm, hm]) hco
  rw [hSr] at hreg
  have hsol : ∃ m1 m' xg yg b, Derived c.M m m1 ∧ c.M.updateX m1 x0 X (wmul c.w wk.wt) forget = .ok xg ∧
      c.M.updateY m1 y0 X wk.wv (wmul c.w wk.wt) forget = .ok yg ∧
      (c.M.pathBased m1 = false → c.M.updateBeta m1 xg yg b reg = .ok (co.beta, m')) ∧
      (c.M.pathBased m1 = true → ∃ path b, co.beta ∈ path ∧ c.M.updatePath m1 xg yg b reg = .ok (path, m')) :=
    ⟨m, m', xg, yg, b, .start, hxg, hyg, hbeta, hpath⟩
  have e : ∀ {β : Type} (f : GState μ p → β), (∀ s g, f (s.setScheduleStep g) = f s) →
      f t = f (debugBeta c.cfg.debug (k, o, i) co.beta s1) := by
    intro β f hf
    rw [← ht]
    split
    · exact hf _ _
    · rfl
  have hd' : ∀ {β : Type} (f : GState μ p → β), (∀ s b, f (debugBeta c.cfg.debug (k, o, i) b s) = f s) →
      f (debugBeta c.cfg.debug (k, o, i) co.beta s1) = f s1 := fun f hf => hf _ _
  refine ⟨⟨i, a.fvIt, 1, wk, co.beta, v, a.fvNew.setCol k v, a.dvOld, updateDeviance c forget0 old (a.fvNew.setCol k v),
    a.stepDecrease⟩, ?_⟩
  refine ⟨rfl, hi, rfl, hwk, ⟨m, X, forget, reg, x0, y0, hm, hX, hf, hreg, hx0, hy0, hsol, pred, hpred, hv⟩, rfl, rfl,
    ⟨forget0, old, hf0, hold, rfl⟩, rfl, ?_, ?_, ?_, ?_, ?_, ?_, ?_, ?_, ?_, hsetup, ?_, ?_, ?_, ?_⟩
  · rw [← hr]; exact ⟨_, rfl, rfl, rfl, rfl⟩
  · rw [← hr]
  · rw [← hr]
    by_cases hra : Flt.lt a.dvOld (updateDeviance c forget0 old (a.fvNew.setCol k v))
    · simp [Pass.Raises, hra]
    · simp [Pass.Raises, hra]
  · rw [← hr]
    intro hl hra
    simp only [Pass.Raises] at hra
    simp [hra]
  · rw [← hr]
    intro hl hra
    simp only [Pass.Raises] at hra
    simp only at hl
    rw [hl]
    simp [hra]
  · rw [← hr]
    intro hra
    simp only [Pass.Raises] at hra
    simp [hra]
  · rw [← hr]
    intro hra
    simp only [Pass.Raises] at hra
    simp [hra]
  · intro hd
    refine ⟨?_, ?_, ?_, ?_, ?_⟩
    · rw [e GState.debugWeights fun _ _ => rfl, hd' GState.debugWeights fun _ _ => by unfold debugBeta; split <;> rfl,
        keep GState.debugWeights (fun _ _ => rfl) fun _ _ => rfl, hS]
      simp [debugWork, hd]
    · rw [e GState.debugWorking fun _ _ => rfl, hd' GState.debugWorking fun _ _ => by unfold debugBeta; split <;> rfl,
        keep GState.debugWorking (fun _ _ => rfl) fun _ _ => rfl, hS]
      simp [debugWork, hd]
    · rw [e GState.debugEta fun _ _ => rfl, hd' GState.debugEta fun _ _ => by unfold debugBeta; split <;> rfl,
        keep GState.debugEta (fun _ _ => rfl) fun _ _ => rfl, hS]
      simp [debugWork, hd]
    · rw [e GState.debugFv fun _ _ => rfl, hd' GState.debugFv fun _ _ => by unfold debugBeta; split <;> rfl,
        keep GState.debugFv (fun _ _ => rfl) fun _ _ => rfl, hS]
      simp [debugWork, hd]
    · rw [e GState.debugCoef fun _ _ => rfl]
      simp [debugBeta, hd]
  · intro key hkey
    refine ⟨?_, ?_, ?_, ?_, ?_⟩
    · rw [e GState.debugWeights fun _ _ => rfl, hd' GState.debugWeights fun _ _ => by unfold debugBeta; split <;> rfl,
        keep GState.debugWeights (fun _ _ => rfl) fun _ _ => rfl, hS]
      unfold debugWork; split <;> simp [hkey]
    · rw [e GState.debugWorking fun _ _ => rfl, hd' GState.debugWorking fun _ _ => by unfold debugBeta; split <;> rfl,
        keep GState.debugWorking (fun _ _ => rfl) fun _ _ => rfl, hS]
      unfold debugWork; split <;> simp [hkey]
    · rw [e GState.debugEta fun _ _ => rfl, hd' GState.debugEta fun _ _ => by unfold debugBeta; split <;> rfl,
        keep GState.debugEta (fun _ _ => rfl) fun _ _ => rfl, hS]
      unfold debugWork; split <;> simp [hkey]
    · rw [e GState.debugFv fun _ _ => rfl, hd' GState.debugFv fun _ _ => by unfold debugBeta; split <;> rfl,
        keep GState.debugFv (fun _ _ => rfl) fun _ _ => rfl, hS]
      unfold debugWork; split <;> simp [hkey]
    · rw [e GState.debugCoef fun _ _ => rfl]
      have : (debugBeta c.cfg.debug (k, o, i) co.beta s1).debugCoef key = s1.debugCoef key := by
        unfold debugBeta; split <;> simp [hkey]
      rw [this, keep GState.debugCoef (fun _ _ => rfl) fun _ _ => rfl, hSd]
  · rw [e GState.fv fun _ _ => rfl, hd' GState.fv fun _ _ => by unfold debugBeta; split <;> rfl,
      keep GState.fv (fun _ _ => rfl) fun _ _ => rfl, hSv]
  · rw [e GState.coef fun _ _ => rfl, hd' GState.coef fun _ _ => by unfold debugBeta; split <;> rfl,
      keep GState.coef (fun _ _ => rfl) fun _ _ => rfl, hSc]
  · rw [e GState.itInner fun _ _ => rfl, hd' GState.itInner fun _ _ => by unfold debugBeta; split <;> rfl,
      keep GState.itInner (fun _ _ => rfl) fun _ _ => rfl, hSi]
  · refine (Stepped.of_eq hSm).trans ((updateCoefs_stepped hco).trans (Stepped.of_eq ?_))
    rw [e GState.method fun _ _ => rfl, hd' GState.method fun _ _ => by unfold debugBeta; split <;> rfl]

theorem PassUpd.ends_iff {c : Call μ p} {k o i : ℕ} {a : Inner} {s t : GState μ p} {r : Inner × Bool} {q : Pass}
    (h : PassUpd c k o i a s t r q) : r.2 = true ↔ q.EndsUpdate c.cfg := by
  have hi := h.small
  rw [h.leaves]
  unfold Pass.EndsUpdate innerConverged CloseTo
  rw [h.raised, h.it, h.reference]
  constructor
  · rintro (⟨h1, h3⟩ | ⟨h1, h2⟩)
    · exact .inl ⟨h1, by omega⟩
    · refine .inr ⟨h1.imp_right fun h => by omega, ?_⟩
      rcases h2 with h2 | h2 | h2
      · exact .inl (.inl h2)
      · exact .inl (.inr h2)
      · exact .inr (by omega)
  · rintro (⟨h1, h3⟩ | ⟨h1, h2⟩)
    · exact .inl ⟨h1, by omega⟩
    · refine .inr ⟨h1.imp_right fun h => by omega, ?_⟩
      rcases h2 with (h2 | h2) | h2
      · exact .inl h2
      · exact .inr (.inl h2)
      · exact .inr (.inr (by omega))

/-- What an update reads for parameter `k`. -/
structure UpdEnv (c : Call μ p) (S : GState μ p) (k : ℕ) (m0 : μ) (X : Arr2) (forget : ℝ) (reg : List Bool) (x0 : Arr2)
    (y0 : Arr1) : Prop where
  method : S.method k = some m0
  X : c.X k = some X
  forget : S.forget.get? k = some forget
  reg : S.isRegularized.get? k = some reg
  x0 : S.xGram k = some x0
  y0 : S.yGram k = some y0

/-- The deviance in an update. -/
def IsDev (c : Call μ p) (S : GState μ p) (dev : Fv → Flt) : Prop :=
  ∀ forget0 old, S.forget.get? 0 = some forget0 → S.globalDev = some old → dev = updateDeviance c forget0 old

/-- What holds of every pass of an update. -/
def Pass.GoodUpd (D : DistOps) (M : MethodOps μ) (m0 : μ) (y w : List ℝ) (dev : Fv → Flt) (X : Arr2) (forget : ℝ) (reg : List Bool)
    (x0 : Arr2) (y0 : Arr1) (k : ℕ) (q : Pass) : Prop :=
  working D updateClip y q.fv k = .ok q.wk ∧ q.SolvesUpdate M m0 w forget reg X x0 y0 ∧
    (∃ xb, matVec X q.beta = .ok xb ∧ D.linkInverse k xb = .ok q.values) ∧ q.dev = dev q.new

/-- The inner loop of the update from pass `i` on. -/
structure LoopUpd (c : Call μ p) (m0 : μ) (dev : Fv → Flt) (X : Arr2) (forget : ℝ) (reg : List Bool) (x0 : Arr2) (y0 : Arr1)
    (k o n i : ℕ) (a a' : Inner) (s t : GState μ p) (passes : List Pass) (q last : Pass) : Prop where
  head : passes.head? = some q
  getLast : passes.getLast? = some last
  it : q.it = i
  start : q.fv = a.fvIt
  reference : q.reference = a.dvOld
  raised : q.raised = a.stepDecrease
  new : q.new = a.fvNew.setCol k q.values
  chain : passes.IsChain (Pass.NextUpdate k)
  each : ∀ q ∈ passes, q.GoodUpd c.D c.M m0 c.y c.w dev X forget reg x0 y0 k
  continues : ∀ q ∈ passes.dropLast, ¬ q.EndsUpdate c.cfg
  ends : last.EndsUpdate c.cfg ∨ last.it + 1 = n
  fvNew : a'.fvNew = last.new
  out : ∃ u, a'.out = some u ∧ u.it = last.it ∧ u.dv = last.dev ∧ u.beta = last.beta
  recorded : c.cfg.debug = true → ∀ q ∈ passes, Recorded t k o q
  others : ∀ key, (∀ j ≥ i, key ≠ (k, o, j)) → SameKey s t key
  setup : SameCommitted s t
  fv : t.fv = s.fv
  coef : t.coef = s.coef
  itInner : t.itInner = s.itInner
  stepped : Stepped c.M s t

theorem PassUpd.good {c : Call μ p} {k o i : ℕ} {a : Inner} {S s t : GState μ p} {r : Inner × Bool} {q : Pass}
    {m0 : μ} {X : Arr2} {forget : ℝ} {reg : List Bool} {x0 : Arr2} {y0 : Arr1} {dev : Fv → Flt}
    (h : PassUpd c k o i a s t r q) (he : UpdEnv c S k m0 X forget reg x0 y0) (hs : SameCommitted S s) (hsm : Stepped c.M S s) (hd : IsDev c S dev) :
    q.GoodUpd c.D c.M m0 c.y c.w dev X forget reg x0 y0 k := by
  obtain ⟨m, X', f', r', x', y', e0, e1, e2, e3, e4, e5, h4, h5⟩ := h.solves
  obtain ⟨m1, e6, e7⟩ := hsm k m e0
  rw [he.method] at e6
  obtain rfl := Option.some.inj e6
  rw [he.X] at e1
  rw [hs.setup.forget, he.forget] at e2
  rw [hs.setup.isRegularized, he.reg] at e3
  rw [hs.xGram, he.x0] at e4
  rw [hs.yGram, he.y0] at e5
  obtain rfl := Option.some.inj e1
  obtain rfl := Option.some.inj e2
  obtain rfl := Option.some.inj e3
  obtain rfl := Option.some.inj e4
  obtain rfl := Option.some.inj e5
  obtain ⟨f0, old, g1, g2, g3⟩ := h.dev
  rw [hs.setup.forget] at g1
  rw [hs.setup.globalDev] at g2
  obtain ⟨m2, m3, xg, yg, b, j1, j2, j3, j4⟩ := h4
  exact ⟨h.work, ⟨m2, m3, xg, yg, b, e7.trans j1, j2, j3, j4⟩, h5, by rw [hd f0 old g1 g2]; exact g3⟩

theorem updateInnerLoop_trace {c : Call μ p} {S : GState μ p} {m0 : μ} {X : Arr2} {forget : ℝ} {reg : List Bool} {x0 : Arr2} {y0 : Arr1}
    {dev : Fv → Flt} {k o n : ℕ} (he : UpdEnv c S k m0 X forget reg x0 y0) (hd : IsDev c S dev)
    (rem i : ℕ) (hn : i + rem = n) (hrem : rem ≠ 0) {a a' : Inner} {s t : GState μ p} (hs : SameCommitted S s) (hsm : Stepped c.M S s)
    (h : updateInnerLoop c k o rem i a s = (.ok a', t)) :
    ∃ passes q last, LoopUpd c m0 dev X forget reg x0 y0 k o n i a a' s t passes q last := by
  induction rem generalizing i a s with
  | zero => exact absurd rfl hrem
  | succ rem ih =>
    unfold updateInnerLoop at h
    obtain ⟨r, s1, hr, h⟩ := Py.bind_ok_iff.1 h
    obtain ⟨q, hq⟩ := updateIteration_pass hr
    have hgood := hq.good he hs hsm hd
    by_cases hleave : r.2 = true ∨ rem = 0
    · have h' : (r.1, s1) = (a', t) := by
        rcases hleave with hl | hl
        · rw [if_pos hl] at h
          obtain ⟨h1, h2⟩ := Py.pure_ok_iff.1 h
          rw [h1, h2]
        · subst hl
          split at h
          · obtain ⟨h1, h2⟩ := Py.pure_ok_iff.1 h
            rw [h1, h2]
          · unfold updateInnerLoop at h
            obtain ⟨h1, h2⟩ := Py.pure_ok_iff.1 h
            rw [h1, h2]
      obtain ⟨rfl, rfl⟩ := Prod.mk.inj h'
      refine ⟨[q], q, q, rfl, rfl, hq.it, hq.start, hq.reference, hq.raised, hq.new, by simp, by simpa using hgood,
        by simp, ?_, hq.fvNew, ?_, fun hd => by simpa using hq.recorded hd, fun key hk => hq.others key (hk i le_rfl),
        hq.setup, hq.fv, hq.coef, hq.itInner, hq.stepped⟩
      · rcases hleave with hl | hl
        · exact .inl (hq.ends_iff.1 hl)
        · exact .inr (by rw [hq.it]; omega)
      · obtain ⟨u, h1, h2, h3, h4⟩ := hq.out
        exact ⟨u, h1, h2.trans hq.it.symm, h3, h4⟩
    · rw [not_or] at hleave
      obtain ⟨hl, hrem'⟩ := hleave
      rw [if_neg hl] at h
      have hl' : r.2 = false := by simpa using hl
      obtain ⟨passes, q', last, L⟩ := ih (i + 1) (by omega) hrem' (hs.trans hq.setup) (hsm.trans hq.stepped) h
      have hnext : Pass.NextUpdate k q q' := by
        refine ⟨by rw [L.it, hq.it], fun hr => ?_, fun hr => ?_, by rw [L.new, hq.fvNew]⟩
        · obtain ⟨h1, h2⟩ := hq.dropped hl' hr
          exact ⟨by rw [L.start, h1], by rw [L.reference, h2, hq.reference], by rw [L.raised, hq.counted hr, hq.raised]⟩
        · obtain ⟨h1, h2⟩ := hq.taken hl' hr
          exact ⟨by rw [L.start, h1], by rw [L.reference, h2], by rw [L.raised, hq.uncounted hr, hq.raised]⟩
      obtain ⟨b, bs, rfl⟩ : ∃ b bs, passes = b :: bs := by
        cases passes with
        | nil => exact absurd L.head (by simp)
        | cons b bs => exact ⟨b, bs, rfl⟩
      obtain rfl : b = q' := by simpa using L.head
      refine ⟨q :: b :: bs, q, last, rfl, ?_, hq.it, hq.start, hq.reference, hq.raised, hq.new, ?_, ?_, ?_, L.ends,
        L.fvNew, L.out, ?_, ?_, hq.setup.trans L.setup, L.fv.trans hq.fv, L.coef.trans hq.coef, L.itInner.trans hq.itInner,
        hq.stepped.trans L.stepped⟩
      · rw [List.getLast?_cons_cons]; exact L.getLast
      · exact List.isChain_cons_cons.2 ⟨hnext, L.chain⟩
      · intro x hx
        rcases List.mem_cons.1 hx with rfl | hx
        · exact hgood
        · exact L.each x hx
      · intro x hx
        rw [List.dropLast_cons_cons] at hx
        rcases List.mem_cons.1 hx with rfl | hx
        · exact fun he => hl (hq.ends_iff.2 he)
        · exact L.continues x hx
      · intro hd x hx
        rcases List.mem_cons.1 hx with rfl | hx
        · refine (hq.recorded hd).of_same (L.others _ fun j hj => ?_)
          rw [hq.it]
          intro he
          have := (Prod.mk.inj (Prod.mk.inj he).2).2
          omega
        · exact L.recorded hd x hx
      · intro key hk
        exact (hq.others key (hk i le_rfl)).trans (L.others key fun j hj => hk j (by omega))

/-- The treatment of one parameter in an update, with what it does to the attributes. -/
structure TreatUpd (c : Call μ p) (m0 : μ) (dev : Fv → Flt) (X : Arr2) (forget : ℝ) (reg : List Bool) (x0 : Arr2) (y0 : Arr1) (n : ℕ)
    (s t : GState μ p) (d : Flt) (a : Treatment) : Prop where
  trace : InnerUpdateTrace c.D c.M c.cfg m0 c.y c.w dev X forget reg x0 y0 a.param n a.before a.passes
  getLast : a.passes.getLast? = some a.last
  before : a.before = s.fv
  after : a.after = t.fv
  dev : d = a.last.dev
  kept : a.after = a.before.setCol a.param (a.last.new.col a.param)
  coef : t.coef = upd s.coef a.param (some a.last.beta)
  itInner : t.itInner = Function.update s.itInner a.param a.last.it
  recorded : c.cfg.debug = true → ∀ q ∈ a.passes, Recorded t a.param a.outer q
  others : ∀ key, (∀ j, key ≠ (a.param, a.outer, j)) → SameKey s t key
  setup : SameCommitted s t
  stepped : Stepped c.M s t

theorem innerUpdate_trace {c : Call μ p} {S : GState μ p} {dev : Fv → Flt} {k o : ℕ} (hd : IsDev c S dev) {s t : GState μ p}
    {d : Flt} (hs : SameCommitted S s) (hsm : Stepped c.M S s) (h : innerUpdate c o k s = (.ok d, t)) :
    ∃ m0 X forget reg x0 y0, ∃ a : Treatment, a.outer = o ∧ a.param = k ∧ UpdEnv c S k m0 X forget reg x0 y0 ∧
      TreatUpd c m0 dev X forget reg x0 y0 (S.scheduleIteration (o - 1)) s t d a := by
  unfold innerUpdate at h
  rw [Py.bind_self] at h
  obtain ⟨forget0, s1, hf0, h1⟩ := Py.bind_ok_iff.1 h
  obtain ⟨hf0, e1⟩ := Py.attr_ok_iff.1 hf0
  rw [e1] at h1
  obtain ⟨old, s2, hold, h2⟩ := Py.bind_ok_iff.1 h1
  obtain ⟨hold, e2⟩ := Py.attr_ok_iff.1 hold
  rw [e2] at h2
  obtain ⟨n, s3, hn, h3⟩ := Py.bind_ok_iff.1 h2
  obtain ⟨hn, e3⟩ := Py.call_ok_iff.1 hn
  rw [e3] at h3
  obtain ⟨a, s4, hl, h4⟩ := Py.bind_ok_iff.1 h3
  obtain ⟨u, s5, hu, h5⟩ := Py.bind_ok_iff.1 h4
  obtain ⟨hu, e5⟩ := Py.attr_ok_iff.1 hu
  rw [e5] at h5
  obtain ⟨fk, s6, hfk, h6⟩ := Py.bind_ok_iff.1 h5
  obtain ⟨hfk, e6⟩ := Py.attr_ok_iff.1 hfk
  rw [e6] at h6
  obtain ⟨sw, s7, hsw, h7⟩ := Py.bind_ok_iff.1 h6
  obtain ⟨hsw, e7⟩ := Py.attr_ok_iff.1 hsw
  rw [e7] at h7
  obtain ⟨nt, s8, hnt, h8⟩ := Py.bind_ok_iff.1 h7
  obtain ⟨hnt, e8⟩ := Py.attr_ok_iff.1 hnt
  rw [e8] at h8
  rw [Py.bind_set] at h8
  obtain ⟨hdv, ht⟩ := Py.pure_ok_iff.1 h8
  have hn0 : n ≠ 0 := by
    rintro rfl
    unfold updateInnerLoop at hl
    obtain ⟨rfl, _⟩ := Py.pure_ok_iff.1 hl
    cases hu
  have henv : ∃ m0 X forget reg x0 y0, UpdEnv c S k m0 X forget reg x0 y0 := by
    obtain ⟨n, rfl⟩ : ∃ m, n = m + 1 := ⟨n - 1, by omega⟩
    unfold updateInnerLoop at hl
    obtain ⟨r, s9, hr, _⟩ := Py.bind_ok_iff.1 hl
    obtain ⟨q, hq⟩ := updateIteration_pass hr
    obtain ⟨m, X, forget, reg, x0, y0, g0, g1, g2, g3, g4, g5, _⟩ := hq.solves
    obtain ⟨m0, g6, _⟩ := hsm k m g0
    exact ⟨m0, X, forget, reg, x0, y0, g6, g1, by rw [← hs.setup.forget]; exact g2, by rw [← hs.setup.isRegularized]; exact g3,
      by rw [← hs.xGram]; exact g4, by rw [← hs.yGram]; exact g5⟩
  obtain ⟨m0, X, forget, reg, x0, y0, henv⟩ := henv
  obtain ⟨passes, q, last, L⟩ := updateInnerLoop_trace (o := o) (n := n) henv hd n 0 (by omega) hn0 hs hsm hl
  obtain ⟨u', hu', hit, hdev, hbeta⟩ := L.out
  rw [hu] at hu'
  obtain rfl := Option.some.inj hu'
  have hn' : n = S.scheduleIteration (o - 1) := by rw [iterationsAt_ok hn, hs.setup.scheduleIteration]
  rw [← hn']
  have hdv0 : updateDeviance c forget0 old = dev :=
    (hd forget0 old (by rw [← hs.setup.forget]; exact hf0) (by rw [← hs.setup.globalDev]; exact hold)).symm
  refine ⟨m0, X, forget, reg, x0, y0, ⟨o, k, s.fv, t.fv, passes, last⟩, rfl, rfl, henv, ?_⟩
  refine ⟨⟨⟨q, L.head, L.it, ?_, L.raised, L.new, L.start⟩, L.chain, L.each, L.continues, ?_⟩, L.getLast, rfl, rfl,
    hdv.symm.trans hdev, ?_, ?_, ?_, ?_, ?_, ?_, ?_⟩
  · rw [L.reference, ← hdv0]
  · intro x hx
    rw [L.getLast] at hx
    obtain rfl := Option.some.inj hx
    exact L.ends
  · subst ht
    change s4.fv.setCol k (a.fvNew.col k) = _
    rw [L.fv, L.fvNew]
  · subst ht
    change upd s4.coef k (some u.beta) = _
    rw [L.coef, hbeta]
  · subst ht
    change Function.update s4.itInner k u.it = _
    rw [L.itInner, hit]
  · intro hdb x hx
    have := L.recorded hdb x hx
    subst ht
    exact this.of_same ⟨rfl, rfl, rfl, rfl, rfl⟩
  · intro key hk
    have := L.others key fun j _ => hk j
    subst ht
    exact this.trans ⟨rfl, rfl, rfl, rfl, rfl⟩
  · subst ht
    exact L.setup.trans (commitUpdate_committed _ _ _ _ _ _ _ _)
  · subst ht
    exact L.stepped.trans (Stepped.of_eq rfl)

/-- A succession of treatments in an update. -/
inductive RanUpd (c : Call μ p) (dev : Fv → Flt) (S : GState μ p) : GState μ p → GState μ p → List Treatment → Prop
  | nil (s : GState μ p) : RanUpd c dev S s s []
  | cons {s s1 t : GState μ p} {a : Treatment} {l : List Treatment} {m0 : μ} {X : Arr2} {forget : ℝ} {reg : List Bool}
      {x0 : Arr2} {y0 : Arr1} : UpdEnv c S a.param m0 X forget reg x0 y0 →
      TreatUpd c m0 dev X forget reg x0 y0 (S.scheduleIteration (a.outer - 1)) s s1 a.last.dev a → RanUpd c dev S s1 t l →
      RanUpd c dev S s t (a :: l)

theorem RanUpd.append {c : Call μ p} {dev : Fv → Flt} {S s t u : GState μ p} {l l' : List Treatment}
    (h : RanUpd c dev S s t l) (h' : RanUpd c dev S t u l') : RanUpd c dev S s u (l ++ l') := by
  induction h with
  | nil => exact h'
  | cons h1 h2 _ ih => exact .cons h1 h2 (ih h')

theorem paramLoop_ranUpd {c : Call μ p} {S : GState μ p} {dev : Fv → Flt} (hd : IsDev c S dev) {o : ℕ} (ks : List ℕ)
    {d d' : Flt} {s t : GState μ p} (hs : SameCommitted S s) (hsm : Stepped c.M S s) (h : paramLoop (innerUpdate c o) ks d s = (.ok d', t)) :
    ∃ l, RanUpd c dev S s t l ∧ l.map (fun a => (a.outer, a.param)) = ks.map (fun k => (o, k)) ∧ SameCommitted S t ∧
      Stepped c.M S t ∧
      (∀ a, l.getLast? = some a → d' = a.last.dev) ∧ (l = [] → d' = d) := by
  induction ks generalizing d s with
  | nil =>
    unfold paramLoop at h
    obtain ⟨rfl, rfl⟩ := Py.pure_ok_iff.1 h
    exact ⟨[], .nil _, rfl, hs, hsm, by simp, fun _ => rfl⟩
  | cons k ks ih =>
    unfold paramLoop at h
    obtain ⟨d1, s1, hk, hrest⟩ := Py.bind_ok_iff.1 h
    obtain ⟨m0, X, forget, reg, x0, y0, a, rfl, rfl, he, ha⟩ := innerUpdate_trace hd hs hsm hk
    obtain ⟨l, h1, h2, h3, h3', h5, h6⟩ := ih (hs.trans ha.setup) (hsm.trans ha.stepped) hrest
    have ha' := ha
    rw [ha.dev] at ha'
    refine ⟨a :: l, .cons he ha' h1, by rw [List.map_cons, h2, List.map_cons], h3, h3', ?_, by simp⟩
    intro b hb
    cases l with
    | nil =>
      obtain rfl : a = b := by simpa using hb
      rw [h6 rfl, ha.dev]
    | cons b' l =>
      rw [List.getLast?_cons_cons] at hb
      exact h5 b hb

/-- The whole of the outer loop of the update. -/
theorem outerUpdate_trace {c : Call μ p} {fuel : ℕ} {S t : GState μ p} {d' : Flt} {it : ℕ} (hnd : S.paramOrder.Nodup)
    (h : outerUpdate c fuel S = (.ok (some (d', it)), t)) :
    ∃ (forget0 : ℝ) (old : Flt) (d : ℕ → Flt) (l : List Treatment), S.forget.get? 0 = some forget0 ∧ S.globalDev = some old ∧
      OuterTrace c.cfg S.minIt False d it ∧ d 0 = updateDeviance c forget0 old S.fv ∧ d it = d' ∧
      RanUpd c (updateDeviance c forget0 old) S S t l ∧
      l.map (fun a => (a.outer, a.param)) = (List.range it).flatMap (fun i => S.paramOrder.map fun k => (i + 1, k)) ∧
      ∀ a ∈ l, S.paramOrder.getLast? = some a.param → d a.outer = a.last.dev := by
  unfold outerUpdate at h
  rw [Py.bind_self] at h
  obtain ⟨forget0, u1, hf0, hh1⟩ := Py.bind_ok_iff.1 h
  obtain ⟨hf0, e1⟩ := Py.attr_ok_iff.1 hf0
  rw [e1] at hh1
  obtain ⟨old, u2, hold, hh2⟩ := Py.bind_ok_iff.1 hh1
  obtain ⟨hold, e2⟩ := Py.attr_ok_iff.1 hold
  rw [e2] at hh2
  have hd : IsDev c S (updateDeviance c forget0 old) := by
    intro f o hf ho
    rw [hf0] at hf
    rw [hold] at ho
    rw [Option.some.inj hf, Option.some.inj ho]
  obtain ⟨_, d, ss, h1, h2, h3, h4, h5, h6⟩ := outerLoop_trace _ 0 hh2
  have key : ∀ j ≤ it, ∃ l, RanUpd c (updateDeviance c forget0 old) S S (ss j) l ∧ SameCommitted S (ss j) ∧
      Stepped c.M S (ss j) ∧
      l.map (fun a => (a.outer, a.param)) = (List.range j).flatMap (fun i => S.paramOrder.map fun k => (i + 1, k)) ∧
      ∀ a ∈ l, S.paramOrder.getLast? = some a.param → d a.outer = a.last.dev := by
    intro j
    induction j with
    | zero => exact fun _ => ⟨[], by rw [h2]; exact .nil _, by rw [h2]; exact SameCommitted.refl _, by
        rw [h2]; exact Stepped.of_eq rfl, rfl, by simp⟩
    | succ j ih =>
      intro hj
      obtain ⟨l, k1, k2, k2', k4, k5⟩ := ih (by omega)
      obtain ⟨l', g1, g2, g3, g3', g5, g6⟩ := paramLoop_ranUpd hd S.paramOrder k2 k2' (h5 j (by omega) (by omega)).2
      refine ⟨l ++ l', k1.append g1, g3, g3', ?_, ?_⟩
      · rw [List.map_append, k4, g2, List.range_succ, List.flatMap_append]
        simp
      · intro a ha hlast
        rcases List.mem_append.1 ha with ha | ha
        · exact k5 a ha hlast
        · have hmem : (a.outer, a.param) ∈ S.paramOrder.map (fun k => (j + 1, k)) := by
            rw [← g2]
            exact List.mem_map.2 ⟨a, ha, rfl⟩
          obtain ⟨k, _, hk⟩ := List.mem_map.1 hmem
          obtain ⟨e1, e2⟩ := Prod.mk.inj hk
          rw [← e1]
          refine g5 a ?_
          obtain ⟨b, hb⟩ : ∃ b, l'.getLast? = some b := by
            have hne : l' ≠ [] := List.ne_nil_of_mem ha
            exact ⟨_, List.getLast?_eq_some_getLast hne⟩
          have hb' : b.param = a.param := by
            have e3 : (l'.map (fun a => (a.outer, a.param))).getLast? = some (b.outer, b.param) := by
              rw [List.getLast?_map, hb]; rfl
            rw [g2, List.getLast?_map, hlast] at e3
            exact (Prod.mk.inj (Option.some.inj e3)).2.symm
          have hnd' : (l'.map fun a => a.param).Nodup := by
            have : (l'.map fun a => a.param) = S.paramOrder := by
              have := congrArg (List.map Prod.snd) g2
              rw [List.map_map, List.map_map] at this
              simpa [Function.comp_def] using this
            rw [this]
            exact hnd
          rw [hb, List.inj_on_of_nodup_map hnd' (List.mem_of_getLast? hb) ha hb']
  obtain ⟨l, k1, k2, _, k4, k5⟩ := key it le_rfl
  refine ⟨forget0, old, d, l, hf0, hold, ⟨fun i hi => ?_, ?_⟩, h1, h3, by rw [← h4]; exact k1, k4, k5⟩
  · have := (h5 i (by omega) hi).1
    rw [← outerEnds_update, ← lastOuter_eq, h1]
    exact this
  · rw [← outerEnds_update, ← lastOuter_eq, h1]
    exact h6

theorem RanUpd.values {c : Call μ p} {dev : Fv → Flt} {S s t : GState μ p} {l : List Treatment} (h : RanUpd c dev S s t l) :
    (l = [] → t.fv = s.fv) ∧ (∀ a, l.head? = some a → a.before = s.fv) ∧ l.IsChain (fun a b => b.before = a.after) ∧
      ∀ a, l.getLast? = some a → a.after = t.fv := by
  induction h with
  | nil => simp
  | cons h1 h5 h6 ih =>
    rename_i s s1 t a l m0 X forget reg x0 y0
    refine ⟨by simp, fun b hb => ?_, ?_, fun b hb => ?_⟩
    · obtain rfl : a = b := by simpa using hb
      exact h5.before
    · cases l with
      | nil => simp
      | cons b l => exact List.isChain_cons_cons.2 ⟨by rw [ih.2.1 b rfl, h5.after], ih.2.2.1⟩
    · cases l with
      | nil =>
        obtain rfl : a = b := by simpa using hb
        rw [h5.after, ih.1 rfl]
      | cons b' l =>
        rw [List.getLast?_cons_cons] at hb
        exact ih.2.2.2 b hb

theorem RanUpd.each {c : Call μ p} {dev : Fv → Flt} {S s t : GState μ p} {l : List Treatment} (h : RanUpd c dev S s t l) :
    ∀ a ∈ l, ∃ m0 X forget reg x0 y0 s1 t1, UpdEnv c S a.param m0 X forget reg x0 y0 ∧
      TreatUpd c m0 dev X forget reg x0 y0 (S.scheduleIteration (a.outer - 1)) s1 t1 a.last.dev a := by
  induction h with
  | nil => simp
  | cons h1 h5 h6 ih =>
    intro b hb
    rcases List.mem_cons.1 hb with rfl | hb
    · exact ⟨_, _, _, _, _, _, _, _, h1, h5⟩
    · exact ih b hb

theorem RanUpd.others {c : Call μ p} {dev : Fv → Flt} {S s t : GState μ p} {l : List Treatment} (h : RanUpd c dev S s t l)
    (key : DebugKey) (hk : ∀ a ∈ l, ∀ j, key ≠ (a.param, a.outer, j)) : SameKey s t key := by
  induction h with
  | nil => exact SameKey.refl _ _
  | cons h1 h5 h6 ih =>
    exact (h5.others key (hk _ (by simp))).trans (ih fun a ha => hk a (by simp [ha]))

theorem RanUpd.recorded {c : Call μ p} {dev : Fv → Flt} {S s t : GState μ p} {l : List Treatment} (h : RanUpd c dev S s t l)
    (hnd : (l.map fun a => (a.outer, a.param)).Nodup) (hd : c.cfg.debug = true) :
    ∀ a ∈ l, ∀ q ∈ a.passes, Recorded t a.param a.outer q := by
  induction h with
  | nil => simp
  | cons h1 h5 h6 ih =>
    rename_i s s1 t a l m0 X forget reg x0 y0
    rw [List.map_cons, List.nodup_cons] at hnd
    intro b hb q hq
    rcases List.mem_cons.1 hb with rfl | hb
    · refine (h5.recorded hd q hq).of_same (h6.others _ fun a ha j he => ?_)
      obtain ⟨e1, e2⟩ := Prod.mk.inj he
      obtain ⟨e2, _⟩ := Prod.mk.inj e2
      exact hnd.1 (List.mem_map.2 ⟨a, ha, by rw [e1, e2]⟩)
    · exact ih hnd.2 b hb q hq

theorem RanUpd.coef {c : Call μ p} {dev : Fv → Flt} {S s t : GState μ p} {l : List Treatment} (h : RanUpd c dev S s t l)
    (k : ℕ) :
    (∃ l1 a l2, l = l1 ++ a :: l2 ∧ a.param = k ∧ (∀ b ∈ l2, b.param ≠ k) ∧ t.coef k = some a.last.beta) ∨
      (∀ b ∈ l, b.param ≠ k) ∧ t.coef k = s.coef k := by
  induction h with
  | nil => exact .inr ⟨by simp, rfl⟩
  | cons h1 h5 h6 ih =>
    rename_i s s1 t a l m0 X forget reg x0 y0
    rcases ih with ⟨l1, b, l2, rfl, e1, e3, e4⟩ | ⟨e1, e2⟩
    · exact .inl ⟨a :: l1, b, l2, rfl, e1, e3, e4⟩
    · by_cases hk : a.param = k
      · refine .inl ⟨[], a, l, rfl, hk, e1, ?_⟩
        rw [e2, h5.coef, ← hk]
        exact Function.update_self _ _ _
      · refine .inr ⟨?_, ?_⟩
        · intro b hb
          rcases List.mem_cons.1 hb with rfl | hb
          · exact hk
          · exact e1 b hb
        · rw [e2, h5.coef]
          exact Function.update_of_ne (fun h => hk h.symm) _ _

end Ondil
