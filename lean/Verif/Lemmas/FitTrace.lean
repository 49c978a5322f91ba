import Verif.Lemmas.GamlssLoops
import Verif.Spec.FitTrace
import Verif.Lemmas.Methods

/-!
# The passes of a fit, as a trace
-/

namespace Ondil

variable {μ : Type} {p : ℕ}

/-- The debug entries of one pass are those of the record. -/
def Recorded (t : GState μ p) (k o : ℕ) (q : Pass) : Prop :=
  t.debugWeights (k, o, q.it) = some q.wk.wt ∧ t.debugWorking (k, o, q.it) = some q.wk.wv ∧
    t.debugEta (k, o, q.it) = some q.wk.eta ∧ t.debugFv (k, o, q.it) = some q.fv ∧ t.debugCoef (k, o, q.it) = some q.beta

/-- The debug entries with the key are the same. -/
def SameKey (s t : GState μ p) (key : DebugKey) : Prop :=
  t.debugWeights key = s.debugWeights key ∧ t.debugWorking key = s.debugWorking key ∧
    t.debugEta key = s.debugEta key ∧ t.debugFv key = s.debugFv key ∧ t.debugCoef key = s.debugCoef key

theorem SameKey.refl (s : GState μ p) (key : DebugKey) : SameKey s s key := ⟨rfl, rfl, rfl, rfl, rfl⟩

theorem SameKey.trans {s t u : GState μ p} {key : DebugKey} (h : SameKey s t key) (h' : SameKey t u key) :
    SameKey s u key :=
  ⟨h'.1.trans h.1, h'.2.1.trans h.2.1, h'.2.2.1.trans h.2.2.1, h'.2.2.2.1.trans h.2.2.2.1, h'.2.2.2.2.trans h.2.2.2.2⟩

theorem Recorded.of_same {s t : GState μ p} {k o : ℕ} {q : Pass} (h : Recorded s k o q) (h' : SameKey s t (k, o, q.it)) :
    Recorded t k o q :=
  ⟨h'.1.trans h.1, h'.2.1.trans h.2.1, h'.2.2.1.trans h.2.2.1, h'.2.2.2.1.trans h.2.2.2.1, h'.2.2.2.2.trans h.2.2.2.2⟩

/-- The methods of `t` are those of `s` after some calls. -/
def Stepped (M : MethodOps μ) (s t : GState μ p) : Prop :=
  ∀ k m, t.method k = some m → ∃ m0, s.method k = some m0 ∧ Derived M m0 m

theorem Derived.trans {M : MethodOps μ} {m0 m1 m2 : μ} (h : Derived M m0 m1) (h' : Derived M m1 m2) : Derived M m0 m2 := by
  induction h' with
  | start => exact h
  | fitBeta _ hp e ih => exact ih.fitBeta hp e
  | updateBeta _ hp e ih => exact ih.updateBeta hp e
  | fitPath _ hp e ih => exact ih.fitPath hp e
  | updatePath _ hp e ih => exact ih.updatePath hp e

theorem Stepped.of_eq {M : MethodOps μ} {s t : GState μ p} (h : t.method = s.method) : Stepped M s t := fun k m hm =>
  ⟨m, by rw [← h]; exact hm, .start⟩

theorem Stepped.trans {M : MethodOps μ} {s t u : GState μ p} (h : Stepped M s t) (h' : Stepped M t u) : Stepped M s u := by
  intro k m hm
  obtain ⟨m1, h1, h2⟩ := h' k m hm
  obtain ⟨m0, h3, h4⟩ := h k m1 h1
  exact ⟨m0, h3, h4.trans h2⟩

/-- A call of the method of one parameter. -/
theorem Stepped.upd {M : MethodOps μ} {s t : GState μ p} {k : ℕ} {m m' : μ} (h : t.method = Ondil.upd s.method k (some m'))
    (hm : s.method k = some m) (hd : Derived M m m') : Stepped M s t := by
  intro j x hx
  rw [h] at hx
  by_cases hj : j = k
  · subst hj
    have : some m' = some x := by simpa [Ondil.upd] using hx
    obtain rfl := Option.some.inj this
    exact ⟨m, hm, hd⟩
  · have : s.method j = some x := by simpa [Ondil.upd, hj] using hx
    exact ⟨x, this, .start⟩

theorem fitCoefs_stepped {c : Call μ p} {k o i : ℕ} {prev : Option Arr2} {X : Arr2} {wk : Working} {xg : Arr2} {yg : Arr1}
    {s t : GState μ p} {co : Coefs} (h : fitCoefs c k o i prev X wk xg yg s = (.ok co, t)) : Stepped c.M s t := by
  unfold fitCoefs at h
  rw [Py.bind_self] at h
  obtain ⟨m, u1, k1, h1⟩ := Py.bind_ok_iff.1 h
  obtain ⟨hm, rfl⟩ := Py.attr_ok_iff.1 k1
  obtain ⟨reg, u2, k2, h2⟩ := Py.bind_ok_iff.1 h1
  obtain ⟨_, rfl⟩ := Py.attr_ok_iff.1 k2
  obtain ⟨f, u3, k3, h3⟩ := Py.bind_ok_iff.1 h2
  obtain ⟨_, rfl⟩ := Py.attr_ok_iff.1 k3
  split at h3
  · rename_i hp
    obtain ⟨r, u4, k4, h4⟩ := Py.bind_ok_iff.1 h3
    obtain ⟨hr, rfl⟩ := Py.call_ok_iff.1 k4
    rw [Py.bind_set] at h4
    obtain ⟨_, u5, k5, h5⟩ := Py.bind_ok_iff.1 h4
    obtain ⟨_, rfl⟩ := Py.attr_ok_iff.1 k5
    obtain ⟨_, u6, k6, h6⟩ := Py.bind_ok_iff.1 h5
    obtain ⟨_, rfl⟩ := Py.attr_ok_iff.1 k6
    obtain ⟨_, u7, k7, h7⟩ := Py.bind_ok_iff.1 h6
    obtain ⟨_, rfl⟩ := Py.call_ok_iff.1 k7
    obtain ⟨_, rfl⟩ := Py.pure_ok_iff.1 h7
    refine Stepped.upd (m := m) (m' := r.2) (k := k) rfl hm ?_
    unfold fitPathFrom at hr
    split at hr
    · exact .fitPath .start hp hr
    · split at hr
      · exact .updatePath .start hp hr
      · cases hr
  · rename_i hp
    obtain ⟨r, u4, k4, h4⟩ := Py.bind_ok_iff.1 h3
    obtain ⟨hr, rfl⟩ := Py.call_ok_iff.1 k4
    rw [Py.bind_set] at h4
    obtain ⟨_, rfl⟩ := Py.pure_ok_iff.1 h4
    exact Stepped.upd (m := m) (m' := r.2) (k := k) rfl hm (.fitBeta .start (by simpa using hp) hr)

theorem selectModel_mem {ics : Arr1} {path : Arr2} {r : Arr1 × ℕ} (h : selectModel ics path = .ok r) : r.1 ∈ path := by
  unfold selectModel at h
  obtain ⟨i, _, h⟩ := bind_ok.1 h
  cases e : path[i]? with
  | none => rw [e] at h; cases h
  | some b =>
    rw [e] at h
    obtain rfl := Except.ok.inj h
    exact List.mem_of_getElem? e

theorem fitSelectModel_mem {c : Call μ p} {s : GState μ p} {k : ℕ} {X : Arr2} {wv wt : Arr1} {path : Arr2} {forget n : ℝ}
    {ic : Criterion} {r : Arr1 × Arr1 × ℕ} (h : fitSelectModel c s k X wv wt path forget n ic = .ok r) : r.1 ∈ path := by
  unfold fitSelectModel at h
  obtain ⟨preds, _, h⟩ := bind_ok.1 h
  split at h
  · obtain ⟨ics, _, h⟩ := bind_ok.1 h
    obtain ⟨bi, hbi, h⟩ := bind_ok.1 h
    obtain rfl := Except.ok.inj h
    exact selectModel_mem hbi
  · obtain ⟨ll, _, h⟩ := bind_ok.1 h
    obtain ⟨ics, _, h⟩ := bind_ok.1 h
    obtain ⟨bi, hbi, h⟩ := bind_ok.1 h
    obtain rfl := Except.ok.inj h
    exact selectModel_mem hbi

/-- The coefficients of one pass: of the method, or a row of its path. -/
theorem fitCoefs_solves {c : Call μ p} {k o i : ℕ} {prev : Option Arr2} {X : Arr2} {wk : Working} {xg : Arr2} {yg : Arr1}
    {s t : GState μ p} {co : Coefs} {m : μ} (hm : s.method k = some m)
    (h : fitCoefs c k o i prev X wk xg yg s = (.ok co, t)) :
    ∃ reg m', s.isRegularized.get? k = some reg ∧ (c.M.pathBased m = false → c.M.fitBeta m xg yg reg = .ok (co.beta, m')) ∧
      (c.M.pathBased m = true → ∃ path, co.beta ∈ path ∧
        (if o = 1 ∧ i = 0 then c.M.fitPath m xg yg reg = .ok (path, m')
          else ∃ b, c.M.updatePath m xg yg b reg = .ok (path, m'))) := by
  unfold fitCoefs at h
  rw [Py.bind_self] at h
  obtain ⟨m2, u1, k1, h1⟩ := Py.bind_ok_iff.1 h
  obtain ⟨hm2, rfl⟩ := Py.attr_ok_iff.1 k1
  obtain rfl := Option.some.inj (hm.symm.trans hm2)
  obtain ⟨reg, u2, k2, h2⟩ := Py.bind_ok_iff.1 h1
  obtain ⟨hreg, rfl⟩ := Py.attr_ok_iff.1 k2
  obtain ⟨f2, u3, k3, h3⟩ := Py.bind_ok_iff.1 h2
  obtain ⟨_, rfl⟩ := Py.attr_ok_iff.1 k3
  split at h3
  · rename_i hp
    obtain ⟨r, u4, k4, h4⟩ := Py.bind_ok_iff.1 h3
    obtain ⟨hr, rfl⟩ := Py.call_ok_iff.1 k4
    rw [Py.bind_set] at h4
    obtain ⟨_, u5, k5, h5⟩ := Py.bind_ok_iff.1 h4
    obtain ⟨_, rfl⟩ := Py.attr_ok_iff.1 k5
    obtain ⟨_, u6, k6, h6⟩ := Py.bind_ok_iff.1 h5
    obtain ⟨_, rfl⟩ := Py.attr_ok_iff.1 k6
    obtain ⟨sel, u7, k7, h7⟩ := Py.bind_ok_iff.1 h6
    obtain ⟨hsel, rfl⟩ := Py.call_ok_iff.1 k7
    obtain ⟨rfl, _⟩ := Py.pure_ok_iff.1 h7
    refine ⟨reg, r.2, hreg, fun h => absurd hp (by simp [h]), fun _ => ⟨r.1, fitSelectModel_mem hsel, ?_⟩⟩
    unfold fitPathFrom at hr
    by_cases hoi : o = 1 ∧ i = 0
    · rw [if_pos hoi]
      rw [if_pos (by simp [hoi.1, hoi.2])] at hr
      exact hr
    · rw [if_neg hoi]
      rw [if_neg (by simpa [and_comm] using hoi)] at hr
      split at hr
      · exact ⟨_, hr⟩
      · cases hr
  · rename_i hp
    obtain ⟨r, u4, k4, h4⟩ := Py.bind_ok_iff.1 h3
    obtain ⟨hr, rfl⟩ := Py.call_ok_iff.1 k4
    rw [Py.bind_set] at h4
    obtain ⟨rfl, _⟩ := Py.pure_ok_iff.1 h4
    exact ⟨reg, r.2, hreg, fun _ => hr, fun h => absurd h hp⟩

/-- What one pass of the inner loop does, as a record. -/
structure PassRun (c : Call μ p) (k o i n : ℕ) (a : Inner) (s t : GState μ p) (r : Inner × Bool) (q : Pass) : Prop where
  it : q.it = i
  step : stepAt c.cfg s o i k = .ok q.step
  start : startValues c k o i a.fvIt = .ok q.fv
  work : working c.D fitClip c.y q.fv k = .ok q.wk
  solves : ∃ m X forget reg, s.method k = some m ∧ c.X k = some X ∧ s.forget.get? k = some forget ∧
    s.isRegularized.get? k = some reg ∧ q.Solves c.M m c.w forget reg X o ∧
    ∃ xb, matVec X q.beta = .ok xb ∧ c.D.linkInverse k (List.zipWith (fun u e =>
      Flt.add (Flt.mul (.fin q.step) u) (Flt.mul (.fin (1 - q.step)) e)) xb q.wk.eta) = .ok q.values
  new : q.new = a.fvNew.setCol k q.values
  reference : q.reference = a.dvOld
  dev : q.dev = deviance c.D c.y c.w q.new
  raised : q.raised = a.stepDecrease
  out : ∃ u, r.1.out = some u ∧ u.it = i ∧ u.dv = q.dev ∧ u.beta = q.beta
  fvNew : r.1.fvNew = q.new
  dvStart : r.1.dvStart = a.dvStart
  bad : r.1.badState = true ↔ Flt.lt a.dvStart q.dev
  leaves : r.2 = true ↔ (q.Raises ∧ i < n - 1 ∧ 5 < a.stepDecrease + 1) ∨
    ((o = 1 ∧ 1 ≤ i ∨ 2 ≤ o) ∧ innerConverged c.cfg i a.dvOld q.dev)
  dropped : r.2 = false → q.Raises → r.1.fvIt = q.fv ∧ r.1.dvOld = a.dvOld
  taken : r.2 = false → ¬ q.Raises → r.1.fvIt = q.fv.setCol k (q.new.col k) ∧ r.1.dvOld = q.dev
  counted : q.Raises → i < n - 1 → r.1.stepDecrease = a.stepDecrease + 1 ∧
    ∀ o' i' j, t.scheduleStep o' i' j = if o' = o - 1 ∧ i' = i + 1 ∧ j = k then some (q.step / 2) else s.scheduleStep o' i' j
  uncounted : ¬ (q.Raises ∧ i < n - 1) → r.1.stepDecrease = a.stepDecrease ∧ t.scheduleStep = s.scheduleStep
  recorded : c.cfg.debug = true → Recorded t k o q
  others : ∀ key, key ≠ (k, o, i) → SameKey s t key
  setup : SameSetup s t
  fv : t.fv = s.fv
  coef : t.coef = s.coef
  stepped : Stepped c.M s t

open Classical in
theorem fitIteration_pass {c : Call μ p} {k o i n : ℕ} {a : Inner} {s t : GState μ p} {r : Inner × Bool}
    (h : fitIteration c k o i n a s = (.ok r, t)) : ∃ q, PassRun c k o i n a s t r q := by
  have hsetup : SameSetup s t := (fitIteration_setup c k o i n a s).ok (SameSetup.refl s) h
  have hfvT : t.fv = s.fv := (fitIteration_fv c k o i n a s.fv).ok rfl h
  unfold fitIteration at h
  obtain ⟨x1, ss1, hh1, h⟩ := Py.bind_ok_iff.1 h
  obtain ⟨dd1, ee1⟩ := Py.self_ok_iff.1 hh1
  rw [ee1, dd1] at h
  clear hh1 ee1 dd1
  obtain ⟨step, ss2, hh2, h⟩ := Py.bind_ok_iff.1 h
  obtain ⟨hstep, ee2⟩ := Py.call_ok_iff.1 hh2
  rw [ee2] at h
  clear hh2 ee2
  obtain ⟨fvIt, ss3, hh3, h⟩ := Py.bind_ok_iff.1 h
  obtain ⟨hfv, ee3⟩ := Py.call_ok_iff.1 hh3
  rw [ee3] at h
  clear hh3 ee3
  obtain ⟨wk, ss4, hh4, h⟩ := Py.bind_ok_iff.1 h
  obtain ⟨hwk, ee4⟩ := Py.call_ok_iff.1 hh4
  rw [ee4] at h
  clear hh4 ee4
  obtain ⟨x5, ss5, hh5, h⟩ := Py.bind_ok_iff.1 h
  have ee5 := Py.set_ok_iff.1 hh5
  rw [ee5] at h
  clear hh5 ee5
  obtain ⟨X, ss6, hh6, h⟩ := Py.bind_ok_iff.1 h
  obtain ⟨hX, ee6⟩ := Py.attr_ok_iff.1 hh6
  rw [ee6] at h
  clear hh6 ee6
  obtain ⟨m, ss7, hh7, h⟩ := Py.bind_ok_iff.1 h
  obtain ⟨hm, ee7⟩ := Py.attr_ok_iff.1 hh7
  rw [ee7] at h
  clear hh7 ee7
  obtain ⟨forget, ss8, hh8, h⟩ := Py.bind_ok_iff.1 h
  obtain ⟨hf, ee8⟩ := Py.attr_ok_iff.1 hh8
  rw [ee8] at h
  clear hh8 ee8
  obtain ⟨xg, ss9, hh9, h⟩ := Py.bind_ok_iff.1 h
  obtain ⟨hxg, ee9⟩ := Py.call_ok_iff.1 hh9
  rw [ee9] at h
  clear hh9 ee9
  obtain ⟨yg, ss10, hh10, h⟩ := Py.bind_ok_iff.1 h
  obtain ⟨hyg, ee10⟩ := Py.call_ok_iff.1 hh10
  rw [ee10] at h
  clear hh10 ee10
  obtain ⟨co, s1, hco, h⟩ := Py.bind_ok_iff.1 h
  obtain ⟨x12, ss12, hh12, h⟩ := Py.bind_ok_iff.1 h
  have ee12 := Py.set_ok_iff.1 hh12
  rw [ee12] at h
  clear hh12 ee12
  obtain ⟨xb, ss13, hh13, h⟩ := Py.bind_ok_iff.1 h
  obtain ⟨hxb, ee13⟩ := Py.call_ok_iff.1 hh13
  rw [ee13] at h
  clear hh13 ee13
  obtain ⟨v, ss14, hh14, h⟩ := Py.bind_ok_iff.1 h
  obtain ⟨hv, ee14⟩ := Py.call_ok_iff.1 hh14
  rw [ee14] at h
  clear hh14 ee14
  obtain ⟨x15, ss15, hh15, h⟩ := Py.bind_ok_iff.1 h
  have ee15 := Py.set_ok_iff.1 hh15
  rw [ee15] at h
  clear hh15 ee15
  obtain ⟨hr, ht⟩ := Py.pure_ok_iff.1 h
  have hdw : debugWork c.cfg.debug (k, o, i) wk fvIt s = debugWork c.cfg.debug (k, o, i) wk fvIt s := rfl
  obtain ⟨S, hS⟩ : ∃ S, S = debugWork c.cfg.debug (k, o, i) wk fvIt s := ⟨_, rfl⟩
  rw [← hS] at hco
  have hSm : S.method = s.method := by rw [hS]; unfold debugWork; split <;> rfl
  have hSf : S.forget = s.forget := by rw [hS]; unfold debugWork; split <;> rfl
  have hSr : S.isRegularized = s.isRegularized := by rw [hS]; unfold debugWork; split <;> rfl
  have hSs : S.scheduleStep = s.scheduleStep := by rw [hS]; unfold debugWork; split <;> rfl
  have hSc : S.coef = s.coef := by rw [hS]; unfold debugWork; split <;> rfl
  have hSd : S.debugCoef = s.debugCoef := by rw [hS]; unfold debugWork; split <;> rfl
  have keep : ∀ {β : Type} (f : GState μ p → β), (∀ s m, f (s.setMethod m) = f s) → f s1 = f S := fun f hf =>
    (fitCoefs_keeps c k o i _ X wk xg yg (fun s => f s = f S) fun s m hs => (hf s m).trans hs).ok rfl hco
  obtain ⟨reg, m', hreg, hbeta, hpath⟩ := fitCoefs_solves (by rw [hSm, hm]) hco
  rw [hSr] at hreg
  have hsol : ∃ m1 m' xg yg, Derived c.M m m1 ∧ c.M.initX m1 X (wmul c.w wk.wt) forget = .ok xg ∧
      c.M.initY m1 X wk.wv (wmul c.w wk.wt) forget = .ok yg ∧
      (c.M.pathBased m1 = false → c.M.fitBeta m1 xg yg reg = .ok (co.beta, m')) ∧
      (c.M.pathBased m1 = true → ∃ path, co.beta ∈ path ∧
        (if o = 1 ∧ i = 0 then c.M.fitPath m1 xg yg reg = .ok (path, m')
          else ∃ b, c.M.updatePath m1 xg yg b reg = .ok (path, m'))) :=
    ⟨m, m', xg, yg, .start, hxg, hyg, hbeta, hpath⟩
  refine ⟨⟨i, fvIt, step, wk, co.beta, v, a.fvNew.setCol k v, a.dvOld, deviance c.D c.y c.w (a.fvNew.setCol k v),
    a.stepDecrease⟩, ?_⟩
  refine ⟨rfl, hstep, hfv, hwk, ⟨m, X, forget, reg, hm, hX, hf, hreg, hsol, xb, hxb, hv⟩, rfl, rfl, rfl, rfl, ?_, ?_, ?_, ?_, ?_,
    ?_, ?_, ?_, ?_, ?_, ?_, hsetup, hfvT, ?_, ?_⟩
  · rw [← hr]; exact ⟨_, rfl, rfl, rfl, rfl⟩
  · rw [← hr]
  · rw [← hr]
  · rw [← hr]; simp
  · rw [← hr]
    simp only [Pass.Raises, Bool.or_eq_true, Bool.and_eq_true, decide_eq_true_eq]
    constructor
    · rintro (⟨⟨h1, h2⟩, h3⟩ | h)
      · refine .inl ⟨h1, h2, ?_⟩
        simpa [h1, h2] using h3
      · exact .inr h
    · rintro (⟨h1, h2, h3⟩ | h)
      · refine .inl ⟨⟨h1, h2⟩, ?_⟩
        simpa [h1, h2] using h3
      · exact .inr h
  · rw [← hr]
    intro hl hra
    simp only [Pass.Raises] at hra
    simp [hra]
  · rw [← hr]
    intro hl hra
    simp only [Pass.Raises] at hra
    simp only at hl
    rw [hl]
    simp [hra]
  · rw [← hr, ← ht]
    intro hra hi
    simp only [Pass.Raises] at hra
    refine ⟨by simp [hra, hi], fun o' i' j => ?_⟩
    simp only [hra, hi, decide_true, Bool.and_self, if_true]
    have e : (debugBeta c.cfg.debug (k, o, i) co.beta s1).scheduleStep = s.scheduleStep := by
      have : (debugBeta c.cfg.debug (k, o, i) co.beta s1).scheduleStep = s1.scheduleStep := by
        unfold debugBeta; split <;> rfl
      rw [this, keep GState.scheduleStep fun _ _ => rfl, hSs]
    simp only [GState.setScheduleStep, e]
  · rw [← hr, ← ht]
    intro hra
    simp only [Pass.Raises] at hra
    have e : (debugBeta c.cfg.debug (k, o, i) co.beta s1).scheduleStep = s.scheduleStep := by
      have : (debugBeta c.cfg.debug (k, o, i) co.beta s1).scheduleStep = s1.scheduleStep := by
        unfold debugBeta; split <;> rfl
      rw [this, keep GState.scheduleStep fun _ _ => rfl, hSs]
    have hb : (decide (Flt.lt a.dvOld (deviance c.D c.y c.w (a.fvNew.setCol k v))) && decide (i < n - 1)) = false := by
      rw [Bool.eq_false_iff]
      simpa using hra
    constructor
    · simp only [hb]; rfl
    · simp only [hb]; exact e
  · intro hd
    have e : ∀ {β : Type} (f : GState μ p → β), (∀ s g, f (s.setScheduleStep g) = f s) →
        f t = f (debugBeta c.cfg.debug (k, o, i) co.beta s1) := by
      intro β f hf
      rw [← ht]
      split
      · exact hf _ _
      · rfl
    have hd' : ∀ {β : Type} (f : GState μ p → β), (∀ s b, f (debugBeta c.cfg.debug (k, o, i) b s) = f s) →
        f (debugBeta c.cfg.debug (k, o, i) co.beta s1) = f s1 := fun f hf => hf _ _
    refine ⟨?_, ?_, ?_, ?_, ?_⟩
    · rw [e GState.debugWeights fun _ _ => rfl, hd' GState.debugWeights fun _ _ => by unfold debugBeta; split <;> rfl,
        keep GState.debugWeights fun _ _ => rfl, hS]
      simp [debugWork, hd]
    · rw [e GState.debugWorking fun _ _ => rfl, hd' GState.debugWorking fun _ _ => by unfold debugBeta; split <;> rfl,
        keep GState.debugWorking fun _ _ => rfl, hS]
      simp [debugWork, hd]
    · rw [e GState.debugEta fun _ _ => rfl, hd' GState.debugEta fun _ _ => by unfold debugBeta; split <;> rfl,
        keep GState.debugEta fun _ _ => rfl, hS]
      simp [debugWork, hd]
    · rw [e GState.debugFv fun _ _ => rfl, hd' GState.debugFv fun _ _ => by unfold debugBeta; split <;> rfl,
        keep GState.debugFv fun _ _ => rfl, hS]
      simp [debugWork, hd]
    · rw [e GState.debugCoef fun _ _ => rfl]
      simp [debugBeta, hd]
  · intro key hkey
    have e : ∀ {β : Type} (f : GState μ p → β), (∀ s g, f (s.setScheduleStep g) = f s) →
        f t = f (debugBeta c.cfg.debug (k, o, i) co.beta s1) := by
      intro β f hf
      rw [← ht]
      split
      · exact hf _ _
      · rfl
    have hd' : ∀ {β : Type} (f : GState μ p → β), (∀ s b, f (debugBeta c.cfg.debug (k, o, i) b s) = f s) →
        f (debugBeta c.cfg.debug (k, o, i) co.beta s1) = f s1 := fun f hf => hf _ _
    refine ⟨?_, ?_, ?_, ?_, ?_⟩
    · rw [e GState.debugWeights fun _ _ => rfl, hd' GState.debugWeights fun _ _ => by unfold debugBeta; split <;> rfl,
        keep GState.debugWeights fun _ _ => rfl, hS]
      unfold debugWork; split <;> simp [hkey]
    · rw [e GState.debugWorking fun _ _ => rfl, hd' GState.debugWorking fun _ _ => by unfold debugBeta; split <;> rfl,
        keep GState.debugWorking fun _ _ => rfl, hS]
      unfold debugWork; split <;> simp [hkey]
    · rw [e GState.debugEta fun _ _ => rfl, hd' GState.debugEta fun _ _ => by unfold debugBeta; split <;> rfl,
        keep GState.debugEta fun _ _ => rfl, hS]
      unfold debugWork; split <;> simp [hkey]
    · rw [e GState.debugFv fun _ _ => rfl, hd' GState.debugFv fun _ _ => by unfold debugBeta; split <;> rfl,
        keep GState.debugFv fun _ _ => rfl, hS]
      unfold debugWork; split <;> simp [hkey]
    · rw [e GState.debugCoef fun _ _ => rfl]
      have : (debugBeta c.cfg.debug (k, o, i) co.beta s1).debugCoef key = s1.debugCoef key := by
        unfold debugBeta; split <;> simp [hkey]
      rw [this, keep GState.debugCoef fun _ _ => rfl, hSd]
  · have e : t.coef = s1.coef := by
      rw [← ht]
      split <;> unfold debugBeta <;> split <;> rfl
    rw [e, keep GState.coef fun _ _ => rfl, hSc]
  · refine (Stepped.of_eq hSm).trans ((fitCoefs_stepped hco).trans (Stepped.of_eq ?_))
    rw [← ht]
    split <;> unfold debugBeta <;> split <;> rfl

theorem stepAt_lt {c : GConfig μ p} {s : GState μ p} {o i k : ℕ} {x : ℝ} (h : stepAt c s o i k = .ok x) : i < c.maxInner := by
  by_contra hc
  unfold stepAt stepSchedule at h
  rw [if_neg (by omega)] at h
  cases h

theorem PassRun.ends_iff {c : Call μ p} {k o i n : ℕ} {a : Inner} {s t : GState μ p} {r : Inner × Bool} {q : Pass}
    (h : PassRun c k o i n a s t r q) (ho : 1 ≤ o) : r.2 = true ↔ q.Ends c.cfg o n := by
  have hi := stepAt_lt h.step
  rw [h.leaves]
  unfold Pass.Ends innerConverged CloseTo
  rw [h.raised, h.it, h.reference]
  constructor
  · rintro (⟨h1, h2, h3⟩ | ⟨h1, h2⟩)
    · exact .inl ⟨h1, by omega, by omega⟩
    · refine .inr ⟨by omega, ?_⟩
      rcases h2 with h2 | h2 | h2
      · exact .inl (.inl h2)
      · exact .inl (.inr h2)
      · exact .inr (by omega)
  · rintro (⟨h1, h2, h3⟩ | ⟨h1, h2⟩)
    · exact .inl ⟨h1, by omega, by omega⟩
    · refine .inr ⟨by omega, ?_⟩
      rcases h2 with (h2 | h2) | h2
      · exact .inl h2
      · exact .inr (.inl h2)
      · exact .inr (.inr (by omega))

/-- What holds of every pass. -/
def Pass.Good (D : DistOps) (M : MethodOps μ) (m0 : μ) (y w : List ℝ) (X : Arr2) (forget : ℝ) (reg : List Bool) (k o : ℕ) (q : Pass) :
    Prop :=
  working D fitClip y q.fv k = .ok q.wk ∧ q.Solves M m0 w forget reg X o ∧
    (∃ xb, matVec X q.beta = .ok xb ∧ D.linkInverse k (List.zipWith (fun u e =>
      Flt.add (Flt.mul (.fin q.step) u) (Flt.mul (.fin (1 - q.step)) e)) xb q.wk.eta) = .ok q.values) ∧
    q.dev = deviance D y w q.new

/-- The inner loop from pass `i` on. -/
structure LoopRun (c : Call μ p) (m0 : μ) (X : Arr2) (forget : ℝ) (reg : List Bool) (step : ℝ) (k o n i : ℕ) (a a' : Inner)
    (s t : GState μ p) (passes : List Pass) (q last : Pass) : Prop where
  head : passes.head? = some q
  getLast : passes.getLast? = some last
  it : q.it = i
  start : startValues c k o i a.fvIt = .ok q.fv
  reference : q.reference = a.dvOld
  raised : q.raised = a.stepDecrease
  new : q.new = a.fvNew.setCol k q.values
  stepOk : stepAt c.cfg s o i k = .ok q.step
  chain : passes.IsChain (Pass.Next k step)
  each : ∀ q ∈ passes, q.Good c.D c.M m0 c.y c.w X forget reg k o
  continues : ∀ q ∈ passes.dropLast, ¬ q.Ends c.cfg o n
  ends : last.Ends c.cfg o n ∨ last.it + 1 = n
  fvNew : a'.fvNew = last.new
  bad : a'.badState = true ↔ Flt.lt a.dvStart last.dev
  out : ∃ u, a'.out = some u ∧ u.it = last.it ∧ u.dv = last.dev ∧ u.beta = last.beta
  recorded : c.cfg.debug = true → ∀ q ∈ passes, Recorded t k o q
  others : ∀ key, (∀ j ≥ i, key ≠ (k, o, j)) → SameKey s t key
  setup : SameSetup s t
  fv : t.fv = s.fv
  coef : t.coef = s.coef
  stepped : Stepped c.M s t
  steps : ∀ o' i' j, ¬ (o' = o - 1 ∧ j = k) → t.scheduleStep o' i' j = s.scheduleStep o' i' j

theorem stepAt_congr {c : GConfig μ p} {s t : GState μ p} {o i k : ℕ} (h1 : t.stepSize = s.stepSize)
    (h2 : t.scheduleStep (o - 1) i k = s.scheduleStep (o - 1) i k) : stepAt c t o i k = stepAt c s o i k := by
  unfold stepAt
  rw [h1, h2]

theorem stepAt_some {c : GConfig μ p} {s : GState μ p} {o i k : ℕ} {x y : ℝ} (h1 : s.scheduleStep (o - 1) i k = some y)
    (h : stepAt c s o i k = .ok x) : x = y := by
  unfold stepAt at h
  rw [h1] at h
  cases hh : stepSchedule s.stepSize c.maxOuter c.maxInner (o - 1) i k with
  | error e => rw [hh] at h; cases h
  | ok z =>
    rw [hh] at h
    cases h
    rfl

theorem fitInnerLoop_trace {c : Call μ p} {S : GState μ p} {m0 : μ} {X : Arr2} {forget : ℝ} {reg : List Bool} {step : ℝ} {k o n : ℕ} (ho : 1 ≤ o)
    (hX : c.X k = some X) (rem i : ℕ) (hn : i + rem = n) (hrem : rem ≠ 0) {a a' : Inner} {s t : GState μ p}
    (hf : s.forget.get? k = some forget) (hreg : s.isRegularized.get? k = some reg)
    (hst : ∀ j > i, ∀ x, stepAt c.cfg s o j k = .ok x → x = step) (hm0 : S.method k = some m0) (hsm : Stepped c.M S s)
    (h : fitInnerLoop c k o n rem i a s = (.ok a', t)) :
    ∃ passes q last, LoopRun c m0 X forget reg step k o n i a a' s t passes q last := by
  induction rem generalizing i a s with
  | zero => exact absurd rfl hrem
  | succ rem ih =>
    unfold fitInnerLoop at h
    obtain ⟨r, s1, hr, h⟩ := Py.bind_ok_iff.1 h
    obtain ⟨q, hq⟩ := fitIteration_pass hr
    have hgood : q.Good c.D c.M m0 c.y c.w X forget reg k o := by
      obtain ⟨m, X', f', r', e0, e1, e2, e3, h4, h5⟩ := hq.solves
      obtain ⟨m1, e4, e5⟩ := hsm k m e0
      rw [hm0] at e4
      obtain rfl := Option.some.inj e4
      rw [hX] at e1
      rw [hf] at e2
      rw [hreg] at e3
      obtain rfl := Option.some.inj e1
      obtain rfl := Option.some.inj e2
      obtain rfl := Option.some.inj e3
      obtain ⟨m2, m3, xg, yg, g1, g2, g3, g4⟩ := h4
      exact ⟨hq.work, ⟨m2, m3, xg, yg, e5.trans g1, g2, g3, g4⟩, h5, hq.dev⟩
    have hsteps : ∀ o' i' j, ¬ (o' = o - 1 ∧ j = k) → s1.scheduleStep o' i' j = s.scheduleStep o' i' j := by
      intro o' i' j hne
      by_cases hr : q.Raises ∧ i < n - 1
      · rw [(hq.counted hr.1 hr.2).2, if_neg (by tauto)]
      · rw [(hq.uncounted hr).2]
    by_cases hleave : r.2 = true ∨ rem = 0
    · have h' : (r.1, s1) = (a', t) := by
        rcases hleave with hl | hl
        · rw [if_pos hl] at h
          obtain ⟨h1, h2⟩ := Py.pure_ok_iff.1 h
          rw [h1, h2]
        · subst hl
          split at h
          · obtain ⟨h1, h2⟩ := Py.pure_ok_iff.1 h
            rw [h1, h2]
          · unfold fitInnerLoop at h
            obtain ⟨h1, h2⟩ := Py.pure_ok_iff.1 h
            rw [h1, h2]
      obtain ⟨rfl, rfl⟩ := Prod.mk.inj h'
      refine ⟨[q], q, q, rfl, rfl, hq.it, hq.start, hq.reference, hq.raised, hq.new, hq.step, by simp, by simpa using hgood,
        by simp, ?_, hq.fvNew, hq.bad, ?_, fun hd => by simpa using hq.recorded hd, fun key hk => hq.others key (hk i le_rfl),
        hq.setup, hq.fv, hq.coef, hq.stepped, hsteps⟩
      · rcases hleave with hl | hl
        · exact .inl ((hq.ends_iff ho).1 hl)
        · exact .inr (by rw [hq.it]; omega)
      · obtain ⟨u, h1, h2, h3, h4⟩ := hq.out
        exact ⟨u, h1, h2.trans hq.it.symm, h3, h4⟩
    · rw [not_or] at hleave
      obtain ⟨hl, hrem'⟩ := hleave
      rw [if_neg hl] at h
      have hl' : r.2 = false := by simpa using hl
      have hi : i < n - 1 := by omega
      have hst1 : ∀ j > i + 1, ∀ x, stepAt c.cfg s1 o j k = .ok x → x = step := by
        intro j hj x hx
        refine hst j (by omega) x ?_
        rw [← stepAt_congr hq.setup.stepSize (?_ : s1.scheduleStep (o - 1) j k = s.scheduleStep (o - 1) j k)]
        · exact hx
        · by_cases hr : q.Raises
          · rw [(hq.counted hr hi).2, if_neg (by omega)]
          · rw [(hq.uncounted (by tauto)).2]
      obtain ⟨passes, q', last, L⟩ := ih (i + 1) (by omega) hrem' (by rw [hq.setup.forget]; exact hf)
        (by rw [hq.setup.isRegularized]; exact hreg) hst1 (hsm.trans hq.stepped) h
      have hfv' : q'.fv = r.1.fvIt := by
        have := L.start
        unfold startValues at this
        rw [if_neg (by omega)] at this
        exact (Except.ok.inj this).symm
      have hnext : Pass.Next k step q q' := by
        refine ⟨by rw [L.it, hq.it], fun hr => ?_, fun hr => ?_, by rw [L.new, hq.fvNew]⟩
        · obtain ⟨h1, h2⟩ := hq.dropped hl' hr
          obtain ⟨h3, h4⟩ := hq.counted hr hi
          refine ⟨by rw [hfv', h1], by rw [L.reference, h2, hq.reference], ?_, by rw [L.raised, h3, hq.raised]⟩
          exact stepAt_some (by rw [h4, if_pos ⟨rfl, rfl, rfl⟩]) L.stepOk
        · obtain ⟨h1, h2⟩ := hq.taken hl' hr
          obtain ⟨h3, h4⟩ := hq.uncounted (fun h => hr h.1)
          refine ⟨by rw [hfv', h1], by rw [L.reference, h2], ?_, by rw [L.raised, h3, hq.raised]⟩
          refine hst (i + 1) (by omega) _ ?_
          rw [← stepAt_congr hq.setup.stepSize (by rw [h4])]
          exact L.stepOk
      obtain ⟨b, bs, rfl⟩ : ∃ b bs, passes = b :: bs := by
        cases passes with
        | nil => exact absurd L.head (by simp)
        | cons b bs => exact ⟨b, bs, rfl⟩
      obtain rfl : b = q' := by simpa using L.head
      refine ⟨q :: b :: bs, q, last, rfl, ?_, hq.it, hq.start, hq.reference, hq.raised, hq.new, hq.step, ?_, ?_, ?_, L.ends,
        L.fvNew, ?_, L.out, ?_, ?_, hq.setup.trans L.setup, L.fv.trans hq.fv, L.coef.trans hq.coef,
        hq.stepped.trans L.stepped, ?_⟩
      · rw [List.getLast?_cons_cons]; exact L.getLast
      · exact List.isChain_cons_cons.2 ⟨hnext, L.chain⟩
      · intro x hx
        rcases List.mem_cons.1 hx with rfl | hx
        · exact hgood
        · exact L.each x hx
      · intro x hx
        rw [List.dropLast_cons_cons] at hx
        rcases List.mem_cons.1 hx with rfl | hx
        · exact fun he => hl ((hq.ends_iff ho).2 he)
        · exact L.continues x hx
      · rw [L.bad, hq.dvStart]
      · intro hd x hx
        rcases List.mem_cons.1 hx with rfl | hx
        · refine (hq.recorded hd).of_same (L.others _ fun j hj => ?_)
          rw [hq.it]
          intro he
          have := (Prod.mk.inj (Prod.mk.inj he).2).2
          omega
        · exact L.recorded hd x hx
      · intro key hk
        exact (hq.others key (hk i le_rfl)).trans (L.others key fun j hj => hk j (by omega))
      · intro o' i' j hne
        rw [L.steps o' i' j hne, hsteps o' i' j hne]

/-- The treatment of one parameter, with what it does to the attributes. -/
structure TreatRun (c : Call μ p) (m0 : μ) (X : Arr2) (forget : ℝ) (reg : List Bool) (step : ℝ) (n : ℕ) (s t : GState μ p) (d : Flt)
    (a : Treatment) : Prop where
  trace : InnerTrace c.D c.M c.cfg m0 c.y c.w X forget reg step a.param a.outer n a.before a.passes
  getLast : a.passes.getLast? = some a.last
  before : a.before = s.fv
  after : a.after = t.fv
  dev : d = a.last.dev
  kept : a.Keeps c.D c.y c.w → a.after = a.before.setCol a.param (a.last.new.col a.param) ∧
    t.coef = upd s.coef a.param (some a.last.beta)
  refused : ¬ a.Keeps c.D c.y c.w → a.after = a.before ∧ t.coef = s.coef
  itInner : t.itInner = Function.update s.itInner a.param a.last.it
  recorded : c.cfg.debug = true → ∀ q ∈ a.passes, Recorded t a.param a.outer q
  others : ∀ key, (∀ j, key ≠ (a.param, a.outer, j)) → SameKey s t key
  setup : SameSetup s t
  stepped : Stepped c.M s t
  steps : ∀ o' i' j, ¬ (o' = a.outer - 1 ∧ j = a.param) → t.scheduleStep o' i' j = s.scheduleStep o' i' j

theorem innerFit_trace {c : Call μ p} {S : GState μ p} {m0 : μ} {X : Arr2} {forget : ℝ} {reg : List Bool} {step : ℝ} {k o n : ℕ} (ho : 1 ≤ o)
    (hX : c.X k = some X) {s t : GState μ p} {d : Flt}
    (hf : s.forget.get? k = some forget) (hreg : s.isRegularized.get? k = some reg)
    (hst : ∀ j, ∀ x, stepAt c.cfg s o j k = .ok x → x = step) (hm0 : S.method k = some m0) (hsm : Stepped c.M S s) (hn : iterationsAt c.cfg s o = .ok n)
    (h : innerFit c o k s = (.ok d, t)) :
    ∃ a : Treatment, a.outer = o ∧ a.param = k ∧ TreatRun c m0 X forget reg step n s t d a := by
  unfold innerFit at h
  rw [Py.bind_self] at h
  rw [hn, Py.bind_call_ok] at h
  obtain ⟨a, s2, hl, h⟩ := Py.bind_ok_iff.1 h
  obtain ⟨u, s3, hu, h⟩ := Py.bind_ok_iff.1 h
  obtain ⟨hu, e3⟩ := Py.attr_ok_iff.1 hu
  rw [e3] at h
  rw [Py.bind_set, Py.bind_set] at h
  obtain ⟨hd, ht⟩ := Py.pure_ok_iff.1 h
  have hn0 : n ≠ 0 := by
    rintro rfl
    unfold fitInnerLoop at hl
    obtain ⟨rfl, _⟩ := Py.pure_ok_iff.1 hl
    cases hu
  obtain ⟨passes, q, last, L⟩ := fitInnerLoop_trace (step := step) ho hX n 0 (by omega) hn0 hf hreg
    (fun j _ x hx => hst j x hx) hm0 hsm hl
  obtain ⟨u', hu', hit, hdv, hbeta⟩ := L.out
  rw [hu] at hu'
  obtain rfl := Option.some.inj hu'
  have hbad : (a.badState = false ∨ o = 1) ↔ (o = 1 ∨ ¬ Flt.lt (deviance c.D c.y c.w s.fv) last.dev) := by
    rw [← L.bad]
    simp [or_comm]
  refine ⟨⟨o, k, s.fv, t.fv, passes, last⟩, rfl, rfl, ?_⟩
  refine ⟨⟨⟨q, L.head, L.it, L.reference, ?_, L.raised, L.new, ?_⟩, L.chain, L.each, L.continues, ?_⟩, L.getLast, rfl, rfl,
    hd.symm.trans hdv, ?_, ?_, ?_, ?_, ?_, ?_, ?_, ?_⟩
  · exact hst 0 _ L.stepOk
  · have := L.start
    unfold startValues at this
    split
    · rename_i hc
      rwa [if_pos ⟨rfl, hc⟩] at this
    · rename_i hc
      rw [if_neg (fun h => hc h.2)] at this
      exact (Except.ok.inj this).symm
  · intro x hx
    rw [L.getLast] at hx
    obtain rfl := Option.some.inj hx
    exact L.ends
  · intro hk
    have hk' := hbad.2 hk
    rw [if_pos hk'] at ht
    subst ht
    refine ⟨?_, ?_⟩
    · change s2.fv.setCol k (a.fvNew.col k) = _
      rw [L.fv, L.fvNew]
    · change upd s2.coef k (some u.beta) = _
      rw [L.coef, hbeta]
  · intro hk
    have hk' : ¬ (a.badState = false ∨ o = 1) := fun h => hk (hbad.1 h)
    rw [if_neg hk'] at ht
    subst ht
    exact ⟨L.fv, L.coef⟩
  · subst ht
    have e : ∀ g : GState μ p, (GState.setItInner (Function.update g.itInner k u.it) g).itInner = Function.update g.itInner k u.it :=
      fun _ => rfl
    rw [e, hit]
    have e2 : (if a.badState = false ∨ o = 1 then commitFit c k a u s2 else s2).itInner = s2.itInner := by
      split <;> rfl
    rw [e2]
    have : s2.itInner = s.itInner := by
      refine (fitInnerLoop_inv (I := fun g => g.itInner = s.itInner) c k o n (fun itI b => ?_) n 0 _).ok rfl hl
      unfold fitIteration
      py_inv
      all_goals first
        | exact fitCoefs_keeps c k o itI _ _ _ _ _ _ fun s m hs => hs
        | (intro s hs; unfold debugWork; split <;> exact hs)
        | (intro s hs; unfold debugBeta; split <;> exact hs)
        | (intro s hs; split <;> exact hs)
    rw [this]
  · intro hdb x hx
    have := L.recorded hdb x hx
    subst ht
    refine this.of_same ?_
    split <;> exact ⟨rfl, rfl, rfl, rfl, rfl⟩
  · intro key hk
    have := L.others key fun j _ => hk j
    subst ht
    refine this.trans ?_
    split <;> exact ⟨rfl, rfl, rfl, rfl, rfl⟩
  · subst ht
    refine L.setup.trans ?_
    split <;> constructor <;> rfl
  · subst ht
    refine L.stepped.trans (Stepped.of_eq ?_)
    split <;> rfl
  · intro o' i' j hne
    have := L.steps o' i' j hne
    subst ht
    rw [← this]
    split <;> rfl

/-- What a successful treatment has read. -/
theorem innerFit_needs {c : Call μ p} {k o : ℕ} {s t : GState μ p} {d : Flt} (h : innerFit c o k s = (.ok d, t)) :
    ∃ n m X forget reg step, iterationsAt c.cfg s o = .ok n ∧ s.method k = some m ∧ c.X k = some X ∧ s.forget.get? k = some forget ∧
      s.isRegularized.get? k = some reg ∧ s.stepSize.values[k]? = some step := by
  unfold innerFit at h
  rw [Py.bind_self] at h
  obtain ⟨n, s1, hn, h⟩ := Py.bind_ok_iff.1 h
  obtain ⟨hn, e1⟩ := Py.call_ok_iff.1 hn
  rw [e1] at h
  obtain ⟨a, s2, hl, h⟩ := Py.bind_ok_iff.1 h
  obtain ⟨u, s3, hu, h⟩ := Py.bind_ok_iff.1 h
  obtain ⟨hu, e3⟩ := Py.attr_ok_iff.1 hu
  cases n with
  | zero =>
    unfold fitInnerLoop at hl
    obtain ⟨rfl, _⟩ := Py.pure_ok_iff.1 hl
    cases hu
  | succ n =>
    unfold fitInnerLoop at hl
    obtain ⟨r, s4, hr, _⟩ := Py.bind_ok_iff.1 hl
    obtain ⟨q, hq⟩ := fitIteration_pass hr
    obtain ⟨m, X, forget, reg, h0, h1, h2, h3, _⟩ := hq.solves
    have hs := hq.step
    unfold stepAt stepSchedule at hs
    split at hs
    · cases hv : s.stepSize.values[k]? with
      | none => rw [hv] at hs; cases hs
      | some st => exact ⟨n + 1, m, X, forget, reg, st, hn, h0, h1, h2, h3, rfl⟩
    · cases hs

/-- With a fresh schedule the step size is the one of the options. -/
theorem stepAt_fresh {c : GConfig μ p} {s : GState μ p} {o k : ℕ} {step : ℝ} (hv : s.stepSize.values[k]? = some step) {j : ℕ}
    (hs : s.scheduleStep (o - 1) j k = none) {x : ℝ} (h : stepAt c s o j k = .ok x) : x = step := by
  unfold stepAt stepSchedule at h
  rw [hs, hv] at h
  split at h
  · cases h
    rfl
  · cases h

/-- A succession of treatments, from the attributes `s` to the attributes `t`. -/
inductive Ran (c : Call μ p) (S : GState μ p) : GState μ p → GState μ p → List Treatment → Prop
  | nil (s : GState μ p) : Ran c S s s []
  | cons {s s1 t : GState μ p} {a : Treatment} {l : List Treatment} {m0 : μ} {X : Arr2} {forget : ℝ} {reg : List Bool} {step : ℝ} :
      S.method a.param = some m0 → c.X a.param = some X → S.forget.get? a.param = some forget → S.isRegularized.get? a.param = some reg →
      S.stepSize.values[a.param]? = some step →
      TreatRun c m0 X forget reg step (S.scheduleIteration (a.outer - 1)) s s1 a.last.dev a → Ran c S s1 t l → Ran c S s t (a :: l)

theorem Ran.append {c : Call μ p} {S s t u : GState μ p} {l l' : List Treatment} (h : Ran c S s t l) (h' : Ran c S t u l') :
    Ran c S s u (l ++ l') := by
  induction h with
  | nil => exact h'
  | cons h0 h1 h2 h3 h4 h5 _ ih => exact .cons h0 h1 h2 h3 h4 h5 (ih h')

theorem iterationsAt_ok {c : GConfig μ p} {s : GState μ p} {o n : ℕ} (h : iterationsAt c s o = .ok n) :
    n = s.scheduleIteration (o - 1) := by
  unfold iterationsAt at h
  split at h
  · exact (Except.ok.inj h).symm
  · cases h

theorem paramLoop_ran {c : Call μ p} {S : GState μ p} {o : ℕ} (ho : 1 ≤ o) (ks : List ℕ) (hnd : ks.Nodup) {d d' : Flt}
    {s t : GState μ p} (hs : SameSetup S s) (hsm : Stepped c.M S s) (hfresh : ∀ k ∈ ks, ∀ i, s.scheduleStep (o - 1) i k = none)
    (h : paramLoop (innerFit c o) ks d s = (.ok d', t)) :
    ∃ l, Ran c S s t l ∧ l.map (fun a => (a.outer, a.param)) = ks.map (fun k => (o, k)) ∧ SameSetup S t ∧ Stepped c.M S t ∧
      (∀ o' i k, o' ≠ o - 1 → t.scheduleStep o' i k = s.scheduleStep o' i k) ∧
      (∀ a, l.getLast? = some a → d' = a.last.dev) ∧ (l = [] → d' = d) := by
  induction ks generalizing d s with
  | nil =>
    unfold paramLoop at h
    obtain ⟨rfl, rfl⟩ := Py.pure_ok_iff.1 h
    exact ⟨[], .nil _, rfl, hs, hsm, fun _ _ _ _ => rfl, by simp, fun _ => rfl⟩
  | cons k ks ih =>
    unfold paramLoop at h
    obtain ⟨d1, s1, hk, hrest⟩ := Py.bind_ok_iff.1 h
    obtain ⟨n, m, X, forget, reg, step, hn, hm, hX, hf, hr, hst⟩ := innerFit_needs hk
    obtain ⟨m0, hm0, _⟩ := hsm k m hm
    obtain ⟨a, rfl, rfl, ha⟩ := innerFit_trace ho hX hf hr
      (fun j x hx => stepAt_fresh hst (hfresh k (by simp) j) hx) hm0 hsm hn hk
    rw [iterationsAt_ok hn, hs.scheduleIteration] at ha
    rw [hs.forget] at hf
    rw [hs.isRegularized] at hr
    rw [hs.stepSize] at hst
    obtain ⟨hk', hnd⟩ := List.nodup_cons.1 hnd
    obtain ⟨l, h1, h2, h3, h3', h4, h5, h6⟩ := ih hnd (hs.trans ha.setup) (hsm.trans ha.stepped) (fun j hj i => by
      rw [ha.steps _ _ _ (fun h => hk' (h.2 ▸ hj))]
      exact hfresh j (by simp [hj]) i) hrest
    have ha' := ha
    rw [ha.dev] at ha'
    refine ⟨a :: l, .cons hm0 hX hf hr hst ha' h1, by rw [List.map_cons, h2, List.map_cons], h3, h3', fun o' i k hne => ?_, ?_, by simp⟩
    · rw [h4 o' i k hne, ha.steps _ _ _ (fun h => hne h.1)]
    · intro b hb
      cases l with
      | nil =>
        obtain rfl : a = b := by simpa using hb
        rw [h6 rfl, ha.dev]
      | cons b' l =>
        rw [List.getLast?_cons_cons] at hb
        exact h5 b hb

/-- The outer loop, iteration by iteration. -/
theorem outerLoop_trace {σ : Type} {stops : ℕ → Flt → Flt → Prop} {body : ℕ → Flt → Py σ Flt} (n i : ℕ) {d e : Flt} {s t : σ}
    {d' : Flt} {it : ℕ} (h : outerLoop stops body n i d e s = (.ok (some (d', it)), t)) :
    i ≤ it ∧ ∃ (ds : ℕ → Flt) (ss : ℕ → σ), ds i = d ∧ ss i = s ∧ ds it = d' ∧ ss it = t ∧
      (∀ j, i ≤ j → j < it → ¬ stops j (ds j) (if j = i then e else ds (j - 1)) ∧
        body (j + 1) (ds j) (ss j) = (.ok (ds (j + 1)), ss (j + 1))) ∧
      stops it (ds it) (if it = i then e else ds (it - 1)) := by
  induction n generalizing i d e s with
  | zero =>
    have := (Py.pure_ok_iff.1 h).1
    cases this
  | succ n ih =>
    unfold outerLoop at h
    split at h
    · rename_i hst
      obtain ⟨h1, h2⟩ := Py.pure_ok_iff.1 h
      simp only [Option.some.injEq, Prod.mk.injEq] at h1
      obtain ⟨rfl, rfl⟩ := h1
      exact ⟨le_rfl, fun _ => d, fun _ => s, rfl, rfl, rfl, h2, fun j h1 h2 => by omega, by simpa using hst⟩
    · rename_i hst
      obtain ⟨d1, s1, hb, h⟩ := Py.bind_ok_iff.1 h
      obtain ⟨hle, ds, ss, h1, h2, h3, h4, h5, h6⟩ := ih (i + 1) h
      refine ⟨by omega, Function.update ds i d, Function.update ss i s, by simp, by simp, ?_, ?_, ?_, ?_⟩
      · rw [Function.update_of_ne (by omega)]; exact h3
      · rw [Function.update_of_ne (by omega)]; exact h4
      · intro j hij hjt
        by_cases hj : j = i
        · subst hj
          rw [if_pos rfl, Function.update_self, Function.update_self, Function.update_of_ne (by omega),
            Function.update_of_ne (by omega), h1, h2]
          exact ⟨hst, hb⟩
        · rw [if_neg hj, Function.update_of_ne hj, Function.update_of_ne hj, Function.update_of_ne (by omega : j + 1 ≠ i),
            Function.update_of_ne (by omega : j + 1 ≠ i)]
          obtain ⟨h7, h8⟩ := h5 j (by omega) hjt
          refine ⟨?_, h8⟩
          by_cases hj1 : j = i + 1
          · subst hj1
            rw [if_pos rfl] at h7
            rw [show i + 1 - 1 = i by omega, Function.update_self]
            exact h7
          · rw [if_neg hj1] at h7
            rw [Function.update_of_ne (by omega)]
            exact h7
      · rw [if_neg (by omega), Function.update_of_ne (by omega)]
        by_cases hj1 : it = i + 1
        · subst hj1
          rw [if_pos rfl] at h6
          rw [show i + 1 - 1 = i by omega, Function.update_self]
          exact h6
        · rw [if_neg hj1] at h6
          rw [Function.update_of_ne (by omega)]
          exact h6

theorem outerEnds_fit {c : GConfig μ p} {minIt i : ℕ} {dev old : Flt} :
    fitStops c minIt i dev old ↔ OuterEnds c minIt True i old dev := by
  unfold fitStops OuterEnds outerConverged CloseTo
  tauto

theorem outerEnds_update {c : GConfig μ p} {minIt i : ℕ} {dev old : Flt} :
    updateStops c minIt i dev old ↔ OuterEnds c minIt False i old dev := by
  unfold updateStops OuterEnds outerConverged CloseTo
  tauto

theorem lastOuter_eq (d : ℕ → Flt) (i : ℕ) :
    (if i = 0 then Flt.add (d 0) (.fin 1000) else d (i - 1)) = lastOuter d i := by
  cases i <;> simp [lastOuter]

/-- The whole of the outer loop of the fit. -/
theorem outerFit_trace {c : Call μ p} {fuel : ℕ} {S t : GState μ p} {dev : Flt} {it : ℕ} (hnd : S.paramOrder.Nodup)
    (hfresh : ∀ o i k, S.scheduleStep o i k = none) (h : outerFit c fuel S = (.ok (some (dev, it)), t)) :
    ∃ (d : ℕ → Flt) (l : List Treatment), OuterTrace c.cfg S.minIt True d it ∧ d 0 = deviance c.D c.y c.w S.fv ∧ d it = dev ∧
      Ran c S S t l ∧
      l.map (fun a => (a.outer, a.param)) = (List.range it).flatMap (fun i => S.paramOrder.map fun k => (i + 1, k)) ∧
      ∀ a ∈ l, S.paramOrder.getLast? = some a.param → d a.outer = a.last.dev := by
  unfold outerFit at h
  rw [Py.bind_self] at h
  obtain ⟨_, d, ss, h1, h2, h3, h4, h5, h6⟩ := outerLoop_trace _ 0 h
  have key : ∀ j ≤ it, ∃ l, Ran c S S (ss j) l ∧ SameSetup S (ss j) ∧ Stepped c.M S (ss j) ∧ (∀ o ≥ j, ∀ i k, (ss j).scheduleStep o i k = none) ∧
      l.map (fun a => (a.outer, a.param)) = (List.range j).flatMap (fun i => S.paramOrder.map fun k => (i + 1, k)) ∧
      ∀ a ∈ l, S.paramOrder.getLast? = some a.param → d a.outer = a.last.dev := by
    intro j
    induction j with
    | zero => exact fun _ => ⟨[], by rw [h2]; exact .nil _, by rw [h2]; exact SameSetup.refl _, by
        rw [h2]; exact Stepped.of_eq rfl, fun o _ i k => by
        rw [h2]; exact hfresh o i k, rfl, by simp⟩
    | succ j ih =>
      intro hj
      obtain ⟨l, k1, k2, k2', k3, k4, k5⟩ := ih (by omega)
      obtain ⟨l', g1, g2, g3, g3', g4, g5, g6⟩ := paramLoop_ran (S := S) (by omega : 1 ≤ j + 1) S.paramOrder hnd k2 k2'
        (fun k _ i => k3 _ (by omega) i k) (h5 j (by omega) (by omega)).2
      refine ⟨l ++ l', k1.append g1, g3, g3', fun o ho i k => ?_, ?_, ?_⟩
      · rw [g4 o i k (by omega)]
        exact k3 o (by omega) i k
      · rw [List.map_append, k4, g2, List.range_succ, List.flatMap_append]
        simp
      · intro a ha hlast
        rcases List.mem_append.1 ha with ha | ha
        · exact k5 a ha hlast
        · have hmem : (a.outer, a.param) ∈ S.paramOrder.map (fun k => (j + 1, k)) := by
            rw [← g2]
            exact List.mem_map.2 ⟨a, ha, rfl⟩
          obtain ⟨k, _, hk⟩ := List.mem_map.1 hmem
          obtain ⟨e1, e2⟩ := Prod.mk.inj hk
          rw [← e1]
          refine g5 a ?_
          obtain ⟨b, hb⟩ : ∃ b, l'.getLast? = some b := by
            have hne : l' ≠ [] := List.ne_nil_of_mem ha
            exact ⟨_, List.getLast?_eq_some_getLast hne⟩
          have hb' : b.param = a.param := by
            have e3 : (l'.map (fun a => (a.outer, a.param))).getLast? = some (b.outer, b.param) := by
              rw [List.getLast?_map, hb]; rfl
            rw [g2, List.getLast?_map, hlast] at e3
            exact (Prod.mk.inj (Option.some.inj e3)).2.symm
          have hnd' : (l'.map fun a => a.param).Nodup := by
            have : (l'.map fun a => a.param) = S.paramOrder := by
              have := congrArg (List.map Prod.snd) g2
              rw [List.map_map, List.map_map] at this
              simpa [Function.comp_def] using this
            rw [this]
            exact hnd
          rw [hb, List.inj_on_of_nodup_map hnd' (List.mem_of_getLast? hb) ha hb']
  obtain ⟨l, k1, k2, _, k3, k4, k5⟩ := key it le_rfl
  refine ⟨d, l, ⟨fun i hi => ?_, ?_⟩, h1, h3, by rw [← h4]; exact k1, k4, k5⟩
  · have := (h5 i (by omega) hi).1
    rw [← outerEnds_fit, ← lastOuter_eq, h1]
    exact this
  · rw [← outerEnds_fit, ← lastOuter_eq, h1]
    exact h6

/-! ### What a succession of treatments does -/

theorem Ran.values {c : Call μ p} {S s t : GState μ p} {l : List Treatment} (h : Ran c S s t l) :
    (l = [] → t.fv = s.fv) ∧ (∀ a, l.head? = some a → a.before = s.fv) ∧ l.IsChain (fun a b => b.before = a.after) ∧
      ∀ a, l.getLast? = some a → a.after = t.fv := by
  induction h with
  | nil => simp
  | cons h0 h1 h2 h3 h4 h5 h6 ih =>
    rename_i s s1 t a l m0 X forget reg step
    refine ⟨by simp, fun b hb => ?_, ?_, fun b hb => ?_⟩
    · obtain rfl : a = b := by simpa using hb
      exact h5.before
    · cases l with
      | nil => simp
      | cons b l => exact List.isChain_cons_cons.2 ⟨by rw [ih.2.1 b rfl, h5.after], ih.2.2.1⟩
    · cases l with
      | nil =>
        obtain rfl : a = b := by simpa using hb
        rw [h5.after, ih.1 rfl]
      | cons b' l =>
        rw [List.getLast?_cons_cons] at hb
        exact ih.2.2.2 b hb

theorem Ran.each {c : Call μ p} {S s t : GState μ p} {l : List Treatment} (h : Ran c S s t l) : ∀ a ∈ l,
    ∃ m0 X forget reg step s1 t1, S.method a.param = some m0 ∧ c.X a.param = some X ∧ S.forget.get? a.param = some forget ∧
      S.isRegularized.get? a.param = some reg ∧ S.stepSize.values[a.param]? = some step ∧
      TreatRun c m0 X forget reg step (S.scheduleIteration (a.outer - 1)) s1 t1 a.last.dev a := by
  induction h with
  | nil => simp
  | cons h0 h1 h2 h3 h4 h5 h6 ih =>
    intro b hb
    rcases List.mem_cons.1 hb with rfl | hb
    · exact ⟨_, _, _, _, _, _, _, h0, h1, h2, h3, h4, h5⟩
    · exact ih b hb

theorem Ran.others {c : Call μ p} {S s t : GState μ p} {l : List Treatment} (h : Ran c S s t l) (key : DebugKey)
    (hk : ∀ a ∈ l, ∀ j, key ≠ (a.param, a.outer, j)) : SameKey s t key := by
  induction h with
  | nil => exact SameKey.refl _ _
  | cons h0 h1 h2 h3 h4 h5 h6 ih =>
    exact (h5.others key (hk _ (by simp))).trans (ih fun a ha => hk a (by simp [ha]))

theorem Ran.recorded {c : Call μ p} {S s t : GState μ p} {l : List Treatment} (h : Ran c S s t l)
    (hnd : (l.map fun a => (a.outer, a.param)).Nodup) (hd : c.cfg.debug = true) :
    ∀ a ∈ l, ∀ q ∈ a.passes, Recorded t a.param a.outer q := by
  induction h with
  | nil => simp
  | cons h0 h1 h2 h3 h4 h5 h6 ih =>
    rename_i s s1 t a l m0 X forget reg step
    rw [List.map_cons, List.nodup_cons] at hnd
    intro b hb q hq
    rcases List.mem_cons.1 hb with rfl | hb
    · refine (h5.recorded hd q hq).of_same (h6.others _ fun a ha j he => ?_)
      obtain ⟨e1, e2⟩ := Prod.mk.inj he
      obtain ⟨e2, _⟩ := Prod.mk.inj e2
      exact hnd.1 (List.mem_map.2 ⟨a, ha, by rw [e1, e2]⟩)
    · exact ih hnd.2 b hb q hq

theorem Ran.coef {c : Call μ p} {S s t : GState μ p} {l : List Treatment} (h : Ran c S s t l) (k : ℕ) :
    (∃ l1 a l2, l = l1 ++ a :: l2 ∧ a.param = k ∧ a.Keeps c.D c.y c.w ∧
        (∀ b ∈ l2, b.param = k → ¬ b.Keeps c.D c.y c.w) ∧ t.coef k = some a.last.beta) ∨
      (∀ b ∈ l, b.param = k → ¬ b.Keeps c.D c.y c.w) ∧ t.coef k = s.coef k := by
  induction h with
  | nil => exact .inr ⟨by simp, rfl⟩
  | cons h0 h1 h2 h3 h4 h5 h6 ih =>
    rename_i s s1 t a l m0 X forget reg step
    rcases ih with ⟨l1, b, l2, rfl, e1, e2, e3, e4⟩ | ⟨e1, e2⟩
    · exact .inl ⟨a :: l1, b, l2, rfl, e1, e2, e3, e4⟩
    · by_cases hk : a.param = k ∧ a.Keeps c.D c.y c.w
      · refine .inl ⟨[], a, l, rfl, hk.1, hk.2, e1, ?_⟩
        rw [e2, (h5.kept hk.2).2, ← hk.1]
        exact Function.update_self _ _ _
      · refine .inr ⟨?_, ?_⟩
        · intro b hb hbk
          rcases List.mem_cons.1 hb with rfl | hb
          · exact fun h => hk ⟨hbk, h⟩
          · exact e1 b hb hbk
        · rw [e2]
          by_cases hK : a.Keeps c.D c.y c.w
          · rw [(h5.kept hK).2]
            exact Function.update_of_ne (fun h => hk ⟨h.symm, hK⟩) _ _
          · rw [(h5.refused hK).2]

end Ondil
