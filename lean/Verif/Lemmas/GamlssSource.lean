import Verif.Lemmas.SelectionLoops

/-!
# Where the statistics and the coefficients of a distribution parameter come from

Method objects change when they are used: `Ridge` stores its penalty.  This file follows the objects through the loops of
`fit` and `update`.
-/

namespace Ondil

variable {μ : Type} {p : ℕ}

/-- One use of a method object, which turns it from `m` into `m'`. -/
def MethodStep (M : MethodOps μ) (m m' : μ) : Prop :=
  ∃ G h reg, (∃ b, M.fitBeta m G h reg = .ok (b, m')) ∨ (∃ b0 b, M.updateBeta m G h b0 reg = .ok (b, m')) ∨
    (∃ path, M.fitPath m G h reg = .ok (path, m')) ∨ ∃ start path, M.updatePath m G h start reg = .ok (path, m')

/-- The object `m` after some uses. -/
abbrev Later (M : MethodOps μ) : μ → μ → Prop := Relation.ReflTransGen (MethodStep M)

/-- Statistics and coefficients of one weighted regression of `fit`, with an object that was `m0` at the beginning of the
call and is `mt` now. -/
def FitSource (c : Call μ p) (k : ℕ) (m0 mt : μ) (forget : ℝ) (reg : List Bool) (xg : Arr2) (yg b : Arr1)
    (path : Option Arr2) : Prop :=
  ∃ fv wk X m m', working c.D fitClip c.y fv k = .ok wk ∧ c.X k = some X ∧ Later c.M m0 m ∧ MethodStep c.M m m' ∧
    Later c.M m' mt ∧
    c.M.initX m X (wmul c.w wk.wt) forget = .ok xg ∧ c.M.initY m X wk.wv (wmul c.w wk.wt) forget = .ok yg ∧
    ((c.M.pathBased m = false ∧ path = none ∧ c.M.fitBeta m xg yg reg = .ok (b, m')) ∨
      (c.M.pathBased m = true ∧ ∃ rows, path = some rows ∧ b ∈ rows ∧
        (c.M.fitPath m xg yg reg = .ok (rows, m') ∨ ∃ start, c.M.updatePath m xg yg start reg = .ok (rows, m'))))

/-- The same for `update`, with the statistics `x0` and `y0` of the calls before.  `b0` and `start` are the coefficients
and the path from which the method starts. -/
def UpdateSource (c : Call μ p) (k : ℕ) (m0 mt : μ) (forget : ℝ) (reg : List Bool) (x0 : Arr2) (y0 : Arr1)
    (b0 : Option Arr1) (start : Option Arr2) (xg : Arr2) (yg b : Arr1) (path : Option Arr2) : Prop :=
  ∃ fv wk X m m', working c.D updateClip c.y fv k = .ok wk ∧ c.X k = some X ∧ Later c.M m0 m ∧ MethodStep c.M m m' ∧
    Later c.M m' mt ∧
    c.M.updateX m x0 X (wmul c.w wk.wt) forget = .ok xg ∧ c.M.updateY m y0 X wk.wv (wmul c.w wk.wt) forget = .ok yg ∧
    ((c.M.pathBased m = false ∧ path = none ∧ ∃ v, b0 = some v ∧ c.M.updateBeta m xg yg v reg = .ok (b, m')) ∨
      (c.M.pathBased m = true ∧ ∃ rows v, path = some rows ∧ b ∈ rows ∧ start = some v ∧
        c.M.updatePath m xg yg v reg = .ok (rows, m')))

theorem FitSource.later {c : Call μ p} {k : ℕ} {m0 mt mt' : μ} {forget : ℝ} {reg : List Bool} {xg : Arr2} {yg b : Arr1}
    {path : Option Arr2} (h : FitSource c k m0 mt forget reg xg yg b path) (h' : Later c.M mt mt') :
    FitSource c k m0 mt' forget reg xg yg b path := by
  obtain ⟨fv, wk, X, m, m', h1, h2, h3, h4, h5, h6⟩ := h
  exact ⟨fv, wk, X, m, m', h1, h2, h3, h4, h5.trans h', h6⟩

theorem UpdateSource.later {c : Call μ p} {k : ℕ} {m0 mt mt' : μ} {forget : ℝ} {reg : List Bool} {x0 xg : Arr2}
    {y0 yg b : Arr1} {b0 : Option Arr1} {start path : Option Arr2}
    (h : UpdateSource c k m0 mt forget reg x0 y0 b0 start xg yg b path) (h' : Later c.M mt mt') :
    UpdateSource c k m0 mt' forget reg x0 y0 b0 start xg yg b path := by
  obtain ⟨fv, wk, X, m, m', h1, h2, h3, h4, h5, h6⟩ := h
  exact ⟨fv, wk, X, m, m', h1, h2, h3, h4, h5.trans h', h6⟩

/-! ### One weighted regression -/

theorem fitCoefs_source {c : Call μ p} {k itO itI : ℕ} {prev : Option Arr2} {X : Arr2} {wk : Working} {xg : Arr2}
    {yg : Arr1} {s t : GState μ p} {co : Coefs} (h : fitCoefs c k itO itI prev X wk xg yg s = (.ok co, t)) :
    ∃ m m' reg, s.method k = some m ∧ s.isRegularized.get? k = some reg ∧ t.method = upd s.method k (some m') ∧
      MethodStep c.M m m' ∧
      ((c.M.pathBased m = false ∧ co.path = none ∧ c.M.fitBeta m xg yg reg = .ok (co.beta, m')) ∨
      (c.M.pathBased m = true ∧ ∃ rows, co.path = some rows ∧ co.beta ∈ rows ∧
        (c.M.fitPath m xg yg reg = .ok (rows, m') ∨ ∃ start, c.M.updatePath m xg yg start reg = .ok (rows, m')))) := by
  unfold fitCoefs at h
  rw [Py.bind_self] at h
  obtain ⟨m, ss1, hh, h⟩ := Py.bind_ok_iff.1 h
  obtain ⟨hme, e⟩ := Py.attr_ok_iff.1 hh
  rw [e] at h
  clear e
  obtain ⟨reg, ss2, hh, h⟩ := Py.bind_ok_iff.1 h
  obtain ⟨hreg, e⟩ := Py.attr_ok_iff.1 hh
  rw [e] at h
  clear e
  obtain ⟨forget, ss3, hh, h⟩ := Py.bind_ok_iff.1 h
  obtain ⟨hf, e⟩ := Py.attr_ok_iff.1 hh
  rw [e] at h
  clear e
  split at h
  · rename_i hpb
    obtain ⟨r, ss4, hh, h⟩ := Py.bind_ok_iff.1 h
    obtain ⟨hr, e⟩ := Py.call_ok_iff.1 hh
    rw [e] at h
    clear e
    rw [Py.bind_set] at h
    obtain ⟨n, ss5, hh, h⟩ := Py.bind_ok_iff.1 h
    obtain ⟨_, e⟩ := Py.attr_ok_iff.1 hh
    rw [e] at h
    clear e
    obtain ⟨ic, ss6, hh, h⟩ := Py.bind_ok_iff.1 h
    obtain ⟨_, e⟩ := Py.attr_ok_iff.1 hh
    rw [e] at h
    clear e
    obtain ⟨sel, ss7, hh, h⟩ := Py.bind_ok_iff.1 h
    obtain ⟨hsel, e⟩ := Py.call_ok_iff.1 hh
    rw [e] at h
    clear e
    obtain ⟨hco, ht⟩ := Py.pure_ok_iff.1 h
    have hmem : sel.1 ∈ r.1 := List.mem_of_getElem? (fitSelectModel_stats hsel).1
    have hcall : c.M.fitPath m xg yg reg = .ok (r.1, r.2) ∨ ∃ start, c.M.updatePath m xg yg start reg = .ok (r.1, r.2) := by
      unfold fitPathFrom at hr
      split at hr
      · exact .inl hr
      · split at hr
        · exact .inr ⟨_, hr⟩
        · cases hr
    refine ⟨m, r.2, reg, hme, hreg, by rw [← ht]; rfl, ?_, .inr ⟨hpb, r.1, by rw [← hco], by rw [← hco]; exact hmem, hcall⟩⟩
    rcases hcall with h1 | ⟨start, h1⟩
    · exact ⟨xg, yg, reg, .inr (.inr (.inl ⟨_, h1⟩))⟩
    · exact ⟨xg, yg, reg, .inr (.inr (.inr ⟨_, _, h1⟩))⟩
  · rename_i hpb
    obtain ⟨r, ss4, hh, h⟩ := Py.bind_ok_iff.1 h
    obtain ⟨hr, e⟩ := Py.call_ok_iff.1 hh
    rw [e] at h
    clear e
    rw [Py.bind_set] at h
    obtain ⟨hco, ht⟩ := Py.pure_ok_iff.1 h
    exact ⟨m, r.2, reg, hme, hreg, by rw [← ht]; rfl, ⟨xg, yg, reg, .inl ⟨_, hr⟩⟩,
      .inl ⟨by simpa using hpb, by rw [← hco], by rw [← hco]; exact hr⟩⟩

theorem updateCoefs_source {c : Call μ p} {k : ℕ} {X : Arr2} {wk : Working} {xg : Arr2} {yg : Arr1} {s t : GState μ p}
    {co : Coefs} (h : updateCoefs c k X wk xg yg s = (.ok co, t)) :
    ∃ m m' reg, s.method k = some m ∧ s.isRegularized.get? k = some reg ∧ t.method = upd s.method k (some m') ∧
      MethodStep c.M m m' ∧
      ((c.M.pathBased m = false ∧ co.path = none ∧ ∃ v, s.coef k = some v ∧ c.M.updateBeta m xg yg v reg = .ok (co.beta, m')) ∨
      (c.M.pathBased m = true ∧ ∃ rows v, co.path = some rows ∧ co.beta ∈ rows ∧ s.coefPath k = some v ∧
        c.M.updatePath m xg yg v reg = .ok (rows, m'))) := by
  unfold updateCoefs at h
  rw [Py.bind_self] at h
  obtain ⟨m, ss1, hh, h⟩ := Py.bind_ok_iff.1 h
  obtain ⟨hme, e⟩ := Py.attr_ok_iff.1 hh
  rw [e] at h
  clear e
  obtain ⟨reg, ss2, hh, h⟩ := Py.bind_ok_iff.1 h
  obtain ⟨hreg, e⟩ := Py.attr_ok_iff.1 hh
  rw [e] at h
  clear e
  obtain ⟨forget, ss3, hh, h⟩ := Py.bind_ok_iff.1 h
  obtain ⟨hf, e⟩ := Py.attr_ok_iff.1 hh
  rw [e] at h
  clear e
  split at h
  · rename_i hpb
    obtain ⟨start, ss4, hh, h⟩ := Py.bind_ok_iff.1 h
    obtain ⟨hst, e⟩ := Py.attr_ok_iff.1 hh
    rw [e] at h
    clear e
    obtain ⟨r, ss4, hh, h⟩ := Py.bind_ok_iff.1 h
    obtain ⟨hr, e⟩ := Py.call_ok_iff.1 hh
    rw [e] at h
    clear e
    rw [Py.bind_set] at h
    obtain ⟨_, ss5, hh, h⟩ := Py.bind_ok_iff.1 h
    obtain ⟨_, e⟩ := Py.attr_ok_iff.1 hh
    rw [e] at h
    clear e
    obtain ⟨_, ss5, hh, h⟩ := Py.bind_ok_iff.1 h
    obtain ⟨_, e⟩ := Py.attr_ok_iff.1 hh
    rw [e] at h
    clear e
    obtain ⟨_, ss5, hh, h⟩ := Py.bind_ok_iff.1 h
    obtain ⟨_, e⟩ := Py.attr_ok_iff.1 hh
    rw [e] at h
    clear e
    obtain ⟨_, ss5, hh, h⟩ := Py.bind_ok_iff.1 h
    obtain ⟨_, e⟩ := Py.attr_ok_iff.1 hh
    rw [e] at h
    clear e
    obtain ⟨_, ss5, hh, h⟩ := Py.bind_ok_iff.1 h
    obtain ⟨_, e⟩ := Py.attr_ok_iff.1 hh
    rw [e] at h
    clear e
    obtain ⟨sel, ss7, hh, h⟩ := Py.bind_ok_iff.1 h
    obtain ⟨hsel, e⟩ := Py.call_ok_iff.1 hh
    rw [e] at h
    clear e
    rw [Py.bind_set] at h
    obtain ⟨hco, ht⟩ := Py.pure_ok_iff.1 h
    have hmem : sel.1 ∈ r.1 := List.mem_of_getElem? (updateSelectModel_stats hsel).1
    exact ⟨m, r.2, reg, hme, hreg, by rw [← ht]; rfl, ⟨xg, yg, reg, .inr (.inr (.inr ⟨_, _, hr⟩))⟩,
      .inr ⟨hpb, r.1, start, by rw [← hco], by rw [← hco]; exact hmem, hst, hr⟩⟩
  · rename_i hpb
    obtain ⟨b, ss4, hh, h⟩ := Py.bind_ok_iff.1 h
    obtain ⟨hb, e⟩ := Py.attr_ok_iff.1 hh
    rw [e] at h
    clear e
    obtain ⟨r, ss4, hh, h⟩ := Py.bind_ok_iff.1 h
    obtain ⟨hr, e⟩ := Py.call_ok_iff.1 hh
    rw [e] at h
    clear e
    rw [Py.bind_set] at h
    obtain ⟨hco, ht⟩ := Py.pure_ok_iff.1 h
    exact ⟨m, r.2, reg, hme, hreg, by rw [← ht]; rfl, ⟨xg, yg, reg, .inr (.inl ⟨_, _, hr⟩)⟩,
      .inl ⟨by simpa using hpb, by rw [← hco], b, hb, by rw [← hco]; exact hr⟩⟩

/-! ### The loops of `fit` -/

theorem debugWork_method (debug : Bool) (key : DebugKey) (wk : Working) (fv : Fv) (s : GState μ p) :
    (debugWork debug key wk fv s).method = s.method := by
  unfold debugWork; split <;> rfl

theorem fitInnerLoop_source {c : Call μ p} {s0 : GState μ p} {k itO scheduled : ℕ} {m0 : μ} {forget : ℝ} {reg : List Bool}
    (hf : s0.forget.get? k = some forget) (hreg : s0.isRegularized.get? k = some reg) (n itI : ℕ) {a a' : Inner}
    {s t : GState μ p} (h : fitInnerLoop c k itO scheduled n itI a s = (.ok a', t)) (hs : SameSetup s0 s) {mk : μ}
    (hmk : s.method k = some mk) (hlater : Later c.M m0 mk)
    (ha : ∀ o, a.out = some o → FitSource c k m0 mk forget reg o.xGram o.yGram o.beta o.path) :
    ∃ mt, t.method = upd s.method k (some mt) ∧ Later c.M mk mt ∧
      ∀ o, a'.out = some o → FitSource c k m0 mt forget reg o.xGram o.yGram o.beta o.path := by
  induction n generalizing itI a s mk with
  | zero =>
    obtain ⟨rfl, rfl⟩ := Py.pure_ok_iff.1 h
    exact ⟨mk, by unfold upd; rw [← hmk, Function.update_eq_self], .refl, ha⟩
  | succ n ih =>
    unfold fitInnerLoop at h
    obtain ⟨r, s', hr, h⟩ := Py.bind_ok_iff.1 h
    obtain ⟨st⟩ := fitIteration_ok hr
    have hs' : SameSetup s0 s' := Py.Triple.ok (fitIteration_setup c k itO itI scheduled a s0) hs hr
    obtain ⟨m, m', reg', h1, h2, h3, h4, h5⟩ := fitCoefs_source st.hco
    rw [debugWork_method] at h1 h3
    have hd : SameSetup s0 (debugWork c.cfg.debug (k, itO, itI) st.wk st.fvIt s) := hs.trans (sameSetup_debugWork _ _ _ _ _)
    rw [hd.isRegularized, hreg] at h2
    obtain rfl := Option.some.inj h2
    obtain rfl : mk = m := Option.some.inj (hmk.symm.trans h1)
    obtain rfl : st.m = mk := Option.some.inj (st.hm.symm.trans hmk)
    have ef : st.forget = forget := by
      have := st.hf
      rw [hs.forget, hf] at this
      exact (Option.some.inj this).symm
    have hm' : s'.method = upd s.method k (some m') := st.method.trans h3
    have hxg := st.hxg
    have hyg := st.hyg
    rw [ef] at hxg hyg
    have hout : ∀ o, r.1.out = some o → FitSource c k m0 m' forget reg o.xGram o.yGram o.beta o.path := by
      intro o ho
      rw [st.out] at ho
      obtain rfl := Option.some.inj ho
      exact ⟨st.fvIt, st.wk, st.X, st.m, m', st.hwk, st.hX, hlater, h4, .refl, hxg, hyg, h5⟩
    split at h
    · obtain ⟨rfl, rfl⟩ := Py.pure_ok_iff.1 h
      exact ⟨m', hm', .single h4, hout⟩
    · obtain ⟨mt, g1, g2, g3⟩ := ih (itI + 1) h hs' (mk := m') (by rw [hm']; exact Function.update_self _ _ _)
        (hlater.tail h4) hout
      refine ⟨mt, ?_, .head h4 g2, g3⟩
      rw [g1, hm']
      exact Function.update_idem _ _ _

/-- What holds for parameter `j` between the treatments of the parameters in a fit; `m0` are the objects at the
beginning. -/
structure FitSourced (c : Call μ p) (m0 : ℕ → Option μ) (j : ℕ) (s : GState μ p) : Prop where
  method : ∀ mt, s.method j = some mt → ∃ m, m0 j = some m ∧ Later c.M m mt
  source : s.xGram j ≠ none → ∃ m mt forget reg xg yg b, m0 j = some m ∧ s.method j = some mt ∧
    s.forget.get? j = some forget ∧ s.isRegularized.get? j = some reg ∧ s.xGram j = some xg ∧ s.yGram j = some yg ∧
    s.coef j = some b ∧ FitSource c j m mt forget reg xg yg b (s.coefPath j)

theorem FitSourced.congr {c : Call μ p} {m0 : ℕ → Option μ} {j : ℕ} {s t : GState μ p} (h : FitSourced c m0 j s)
    (hs : SameSetup s t) (h1 : t.method j = s.method j) (h2 : t.xGram j = s.xGram j) (h3 : t.yGram j = s.yGram j)
    (h4 : t.coef j = s.coef j) (h5 : t.coefPath j = s.coefPath j) : FitSourced c m0 j t := by
  refine ⟨fun mt h0 => h.method mt (h1 ▸ h0), fun h0 => ?_⟩
  rw [h2] at h0
  obtain ⟨m, mt, forget, reg, xg, yg, b, a1, a2, a3, a4, a5, a6, a7, a8⟩ := h.source h0
  exact ⟨m, mt, forget, reg, xg, yg, b, a1, h1.trans a2, by rw [hs.forget]; exact a3, by rw [hs.isRegularized]; exact a4,
    h2.trans a5, h3.trans a6, h4.trans a7, by rw [h5]; exact a8⟩

/-- The statistics are assigned behind the inner loop only. -/
structure SameStats (s t : GState μ p) : Prop where
  xGram : t.xGram = s.xGram
  yGram : t.yGram = s.yGram
  coef : t.coef = s.coef
  coefPath : t.coefPath = s.coefPath

theorem fitIteration_stats (c : Call μ p) (k itO itI scheduled : ℕ) (a : Inner) (s0 : GState μ p) :
    Py.Inv (SameStats s0) (fitIteration c k itO itI scheduled a) := by
  unfold fitIteration
  py_inv
  all_goals first
    | exact fitCoefs_keeps c k itO itI _ _ _ _ _ _ fun s m hs => ⟨hs.1, hs.2, hs.3, hs.4⟩
    | (intro s hs; unfold debugWork; split <;> exact ⟨hs.1, hs.2, hs.3, hs.4⟩)
    | (intro s hs; unfold debugBeta; split <;> exact ⟨hs.1, hs.2, hs.3, hs.4⟩)
    | (intro s hs; split <;> exact ⟨hs.1, hs.2, hs.3, hs.4⟩)

/-- An inner loop of `fit` that was left with a result made a pass. -/
theorem fitInnerLoop_first {c : Call μ p} {k itO scheduled : ℕ} (n itI : ℕ) {a a' : Inner} {s t : GState μ p}
    (h : fitInnerLoop c k itO scheduled n itI a s = (.ok a', t)) (ha : a.out = none) {o : IterOut} (ho : a'.out = some o) :
    ∃ m reg forget, s.method k = some m ∧ s.isRegularized.get? k = some reg ∧ s.forget.get? k = some forget := by
  cases n with
  | zero =>
    obtain ⟨rfl, rfl⟩ := Py.pure_ok_iff.1 h
    rw [ha] at ho
    cases ho
  | succ n =>
    unfold fitInnerLoop at h
    obtain ⟨r, s', hr, h⟩ := Py.bind_ok_iff.1 h
    obtain ⟨st⟩ := fitIteration_ok hr
    obtain ⟨m, m', reg', h1, h2, h3, h4, h5⟩ := fitCoefs_source st.hco
    refine ⟨st.m, reg', st.forget, st.hm, ?_, st.hf⟩
    rw [← h2, (sameSetup_debugWork _ _ _ _ _).isRegularized]

theorem innerFit_source {c : Call μ p} {m0 : ℕ → Option μ} {itO k : ℕ} {s t : GState μ p} {d : Flt}
    (h : innerFit c itO k s = (.ok d, t)) (hs : ∀ j, FitSourced c m0 j s) :
    (∀ j, FitSourced c m0 j t) ∧ (∀ j, s.xGram j ≠ none → t.xGram j ≠ none) ∧ (itO = 1 → t.xGram k ≠ none) := by
  have hset : SameSetup s t := Py.Triple.ok (innerFit_setup c itO k s) (SameSetup.refl s) h
  unfold innerFit at h
  rw [Py.bind_self] at h
  obtain ⟨n, ss1, hh, h⟩ := Py.bind_ok_iff.1 h
  obtain ⟨_, e⟩ := Py.call_ok_iff.1 hh
  rw [e] at h
  clear e
  obtain ⟨a, s2, hloop, h⟩ := Py.bind_ok_iff.1 h
  obtain ⟨o, ss5, hh, h⟩ := Py.bind_ok_iff.1 h
  obtain ⟨ho, e⟩ := Py.attr_ok_iff.1 hh
  rw [e] at h
  clear e
  rw [Py.bind_set, Py.bind_set] at h
  obtain ⟨_, rfl⟩ := Py.pure_ok_iff.1 h
  obtain ⟨mk, reg, forget, hmk, hreg, hf⟩ := fitInnerLoop_first n 0 hloop rfl ho
  obtain ⟨m, hm, hl⟩ := (hs k).method mk hmk
  have hst := (fitInnerLoop_inv c k itO n (fun itI a => fitIteration_stats c k itO itI n a s) n 0 _).ok
    (⟨rfl, rfl, rfl, rfl⟩ : SameStats s s) hloop
  have hs2 : SameSetup s s2 := (fitInnerLoop_inv c k itO n (fun itI a => fitIteration_setup c k itO itI n a s) n 0 _).ok
    (SameSetup.refl s) hloop
  obtain ⟨mt, g1, g2, g3⟩ := fitInnerLoop_source hf hreg n 0 hloop (SameSetup.refl s) hmk hl (by simp)
  have g3 := g3 o ho
  have hother : ∀ j ≠ k, s2.method j = s.method j := fun j hj => by rw [g1]; exact Function.update_of_ne hj _ _
  have hself : s2.method k = some mt := by rw [g1]; exact Function.update_self _ _ _
  by_cases hacc : a.badState = false ∨ itO = 1
  · rw [if_pos hacc] at hset ⊢
    refine ⟨fun j => ?_, fun j hj => ?_, fun _ => ?_⟩
    · by_cases hj : j = k
      · subst hj
        refine ⟨fun mt' h0 => ?_, fun _ => ⟨m, mt, forget, reg, o.xGram, o.yGram, o.beta, hm, hself, ?_, ?_,
          Function.update_self _ _ _, Function.update_self _ _ _, Function.update_self _ _ _, ?_⟩⟩
        · obtain rfl : mt = mt' := Option.some.inj (hself.symm.trans h0)
          exact ⟨m, hm, hl.trans g2⟩
        · rw [hset.forget]; exact hf
        · rw [hset.isRegularized]; exact hreg
        · rw [show (GState.setItInner (Function.update (commitFit c j a o s2).itInner j o.it) (commitFit c j a o s2)).coefPath j = o.path
            from Function.update_self _ _ _]
          exact g3
      · refine (hs j).congr hset (hother j hj) ?_ ?_ ?_ ?_
        · exact (Function.update_of_ne hj _ _).trans (by rw [hst.xGram])
        · exact (Function.update_of_ne hj _ _).trans (by rw [hst.yGram])
        · exact (Function.update_of_ne hj _ _).trans (by rw [hst.coef])
        · exact (Function.update_of_ne hj _ _).trans (by rw [hst.coefPath])
    · change Function.update s2.xGram k (some o.xGram) j ≠ none
      by_cases hjk : j = k
      · subst hjk; simp
      · rw [Function.update_of_ne hjk, hst.xGram]; exact hj
    · change Function.update s2.xGram k (some o.xGram) k ≠ none
      simp
  · rw [if_neg hacc] at hset ⊢
    refine ⟨fun j => ?_, fun j hj => ?_, fun h1 => absurd (.inr h1) hacc⟩
    · by_cases hj : j = k
      · subst hj
        refine ⟨fun mt' h0 => ?_, fun hx => ?_⟩
        · obtain rfl : mt = mt' := Option.some.inj (hself.symm.trans h0)
          exact ⟨m, hm, hl.trans g2⟩
        · have hx' : s.xGram j ≠ none := by rw [← hst.xGram]; exact hx
          obtain ⟨m', mt', f', r', xg, yg, b, a1, a2, a3, a4, a5, a6, a7, a8⟩ := (hs j).source hx'
          obtain rfl : mk = mt' := Option.some.inj (hmk.symm.trans a2)
          refine ⟨m', mt, f', r', xg, yg, b, a1, hself, by rw [hset.forget]; exact a3, by rw [hset.isRegularized]; exact a4, ?_, ?_, ?_,
            ?_⟩
          · change s2.xGram j = _; rw [hst.xGram]; exact a5
          · change s2.yGram j = _; rw [hst.yGram]; exact a6
          · change s2.coef j = _; rw [hst.coef]; exact a7
          · change FitSource c j m' mt f' r' xg yg b (s2.coefPath j)
            rw [hst.coefPath]
            exact a8.later g2
      · exact (hs j).congr hset (hother j hj) (by change s2.xGram j = _; rw [hst.xGram])
          (by change s2.yGram j = _; rw [hst.yGram]) (by change s2.coef j = _; rw [hst.coef])
          (by change s2.coefPath j = _; rw [hst.coefPath])
    · change s2.xGram j ≠ none
      rw [hst.xGram]; exact hj

/-- What a successful fit with at least one outer iteration stores for a parameter. -/
theorem fit_source {frames : Bool} {D : DistOps} {M : MethodOps μ} {c : GConfig μ p} {data : List (Obs p)} {s t : GState μ p}
    {u : Unit} (h : GState.fit frames D M c data s = (.ok u, t)) (it : ℕ) (hit : t.itOuter = some it) (h1 : 1 ≤ it) {k : ℕ}
    (hk : k ∈ t.paramOrder) :
    ∃ X sc ms m mt J fi ri eq forget xg yg b, t.scaler = some sc ∧ (∀ j A, X j = some A → designFor t sc (xs data) j = .ok A) ∧
      (c.method.process D.nParams (.value (some M.ols))).result = .ok ms ∧ ms.get? k = some (some m) ∧ t.method k = some mt ∧
      getJ p fi eq = .ok J ∧ t.fitIntercept.get? k = some fi ∧ t.regularizeIntercept.get? k = some ri ∧
      t.equation.get? k = some eq ∧ t.isRegularized.get? k = some (regularizedFlags J fi ri eq) ∧
      t.forget.get? k = some forget ∧ t.xGram k = some xg ∧ t.yGram k = some yg ∧ t.coef k = some b ∧
      FitSource ⟨D, M, c, X, ys data, ws data⟩ k m mt forget (regularizedFlags J fi ri eq) xg yg b (t.coefPath k) := by
  obtain ⟨r⟩ := fit_ok h
  obtain ⟨q⟩ := prepare_ok r.hprepare
  set C : Call μ p := ⟨D, M, c, r.X.get?, ys data, ws data⟩ with hC
  obtain ⟨S, hS⟩ : ∃ S, S = fitStart c D.nParams (ws data).sum r.nt r.fv r.nf r.sc r.reg r.sP := ⟨_, rfl⟩
  have hloop := r.hloop
  rw [← hS] at hloop
  have hset : SameSetup S r.s2 := (outerFit_setup _ _ S).ok (SameSetup.refl S) hloop
  unfold outerFit at hloop
  rw [Py.bind_self] at hloop
  have hSm : S.method = r.sP.method := by rw [hS, fitStart_method]
  have hSx : ∀ j, S.xGram j = none := by intro j; rw [hS]; unfold_start
  let I : GState μ p → Prop := fun u => ∀ j, FitSourced C r.sP.method j u
  have h0 : I S := fun j => ⟨fun mt h => ⟨mt, by rw [← hSm]; exact h, .refl⟩, fun h => absurd (hSx j) h⟩
  have hpl : ∀ it d (u v : GState μ p) d', I u → paramLoop (innerFit C it) S.paramOrder d u = (.ok d', v) →
      I v ∧ ∀ j, (it = 1 ∧ j ∈ S.paramOrder ∨ u.xGram j ≠ none) → v.xGram j ≠ none := by
    intro it d u v d' hu hr
    have := paramLoop_all_ok (I := I) (Q := fun j u => it = 1 → u.xGram j ≠ none) _
      (fun j _ s t d hs hr => (innerFit_source hr hs).1) (fun j _ s t d hs hr => (innerFit_source hr hs).2.2)
      (fun j _ i hij s t d hs hq hr h1 => (innerFit_source hr hs).2.1 i (hq h1)) hu hr
    have h2 : ∀ j, u.xGram j ≠ none → v.xGram j ≠ none := by
      intro j hj
      exact (paramLoop_all_ok (I := fun u => I u ∧ u.xGram j ≠ none) (Q := fun _ _ => True) _
        (fun i _ s t d hs hr => ⟨(innerFit_source hr hs.1).1, (innerFit_source hr hs.1).2.1 j hs.2⟩)
        (fun _ _ _ _ _ _ _ => trivial) (fun _ _ _ _ _ _ _ _ _ _ => trivial) ⟨hu, hj⟩ hr).1.2
    exact ⟨this.1, fun j hj => hj.elim (fun hj => this.2 j (.inl hj.2) hj.1) (h2 j)⟩
  have hloop' : ∀ (n itO : ℕ) (d e : Flt) (u v : GState μ p) (d' : Flt) (it : ℕ), I u →
      (0 < itO → ∀ j ∈ S.paramOrder, u.xGram j ≠ none) →
      outerLoop (fitStops C.cfg S.minIt) (fun itO dev => paramLoop (innerFit C itO) S.paramOrder dev) n itO d e u =
        (.ok (some (d', it)), v) → I v ∧ (0 < it → ∀ j ∈ S.paramOrder, v.xGram j ≠ none) := by
    intro n
    induction n with
    | zero =>
      intro itO d e u v d' it _ _ h
      have := (Py.pure_ok_iff.1 h).1
      cases this
    | succ n ih =>
      intro itO d e u v d' it hu hx h
      unfold outerLoop at h
      split at h
      · obtain ⟨h1, h2⟩ := Py.pure_ok_iff.1 h
        simp only [Option.some.injEq, Prod.mk.injEq] at h1
        obtain ⟨rfl, rfl⟩ := h1
        subst h2
        exact ⟨hu, hx⟩
      · obtain ⟨d1, s1, hb, h⟩ := Py.bind_ok_iff.1 h
        obtain ⟨g1, g2⟩ := hpl _ _ _ _ _ hu hb
        refine ih (itO + 1) _ _ s1 v d' it g1 (fun _ j hj => g2 j ?_) h
        rcases Nat.eq_zero_or_pos itO with h0 | h0
        · exact .inl ⟨by omega, hj⟩
        · exact .inr (hx h0 j hj)
  obtain ⟨g1, g2⟩ := hloop' _ 0 _ _ S r.s2 r.dev r.it h0 (by omega) hloop
  have hit' : t.itOuter = some r.it := (congrArg GState.itOuter r.ht).trans rfl
  obtain rfl : it = r.it := Option.some.inj (hit.symm.trans hit')
  have tp : ∀ {β : Type} (f : GState μ p → β), (∀ s d i, f (s.setResult d i) = f s) → f t = f r.s2 :=
    fun f hf => (congrArg f r.ht).trans (hf _ _ _)
  have hord : t.paramOrder = S.paramOrder := (tp GState.paramOrder fun _ _ _ => rfl).trans hset.paramOrder
  have hx := g2 h1 k (hord ▸ hk)
  obtain ⟨m, mt, forget, reg, xg, yg, b, a1, a2, a3, a4, a5, a6, a7, a8⟩ := (g1 k).source hx
  have e1 : t.equation = r.sP.equation := (tp GState.equation fun _ _ _ => rfl).trans (hset.equation.trans (by rw [hS]; unfold_start))
  have e2 : t.fitIntercept = r.sP.fitIntercept :=
    (tp GState.fitIntercept fun _ _ _ => rfl).trans (hset.fitIntercept.trans (by rw [hS]; unfold_start))
  have e3 : t.scaler = some r.sc := (tp GState.scaler fun _ _ _ => rfl).trans (hset.scaler.trans (by rw [hS]; unfold_start))
  have e4 : t.regularizeIntercept = r.sP.regularizeIntercept :=
    (tp GState.regularizeIntercept fun _ _ _ => rfl).trans (hset.regularizeIntercept.trans (by rw [hS]; unfold_start))
  have e5 : S.isRegularized = r.reg := by rw [hS]; unfold_start
  have hreg := a4
  rw [hset.isRegularized, e5] at hreg
  have hreg := (forParams_get? r.hreg hreg).2
  split at hreg
  · rename_i J fi ri eq f1 f2 f3 f4
    obtain rfl := Except.ok.inj hreg
    have hnf := (forParams_get? r.hnf f1).2
    simp only [f4, f2] at hnf
    refine ⟨r.X.get?, r.sc, q.ms, m, mt, J, fi, ri, eq, forget, xg, yg, b, e3, fun j A hA => ?_, q.hms, ?_, ?_, hnf, by rw [e2]; exact f2,
      by rw [e4]; exact f3, by rw [e1]; exact f4, ?_, ?_, ?_, ?_, ?_, ?_⟩
    · have := (forParams_get? r.hX hA).2
      unfold designFor at this ⊢
      rw [e1, e2]
      exact this
    · rw [q.ht] at a1
      change (q.ms.get? k).bind id = some m at a1
      obtain ⟨v, hv, hv'⟩ := Option.bind_eq_some_iff.1 a1
      rw [hv]
      exact congrArg some hv'
    · rw [tp GState.method fun _ _ _ => rfl]; exact a2
    · rw [tp GState.isRegularized fun _ _ _ => rfl]; exact a4
    · rw [tp GState.forget fun _ _ _ => rfl]; exact a3
    · rw [tp GState.xGram fun _ _ _ => rfl]; exact a5
    · rw [tp GState.yGram fun _ _ _ => rfl]; exact a6
    · rw [tp GState.coef fun _ _ _ => rfl]; exact a7
    · rw [tp GState.coefPath fun _ _ _ => rfl]; exact a8
  · cases hreg

/-! ### The loops of `update` -/

theorem updateIteration_coefs (c : Call μ p) (k itO itI : ℕ) (a : Inner) (s0 : GState μ p) :
    Py.Inv (fun s => s.coef = s0.coef ∧ s.coefPath = s0.coefPath ∧ s.xGramNew = s0.xGramNew ∧ s.yGramNew = s0.yGramNew)
      (updateIteration c k itO itI a) := by
  have hc : ∀ X wk xg yg, Py.Inv (fun s => s.coef = s0.coef ∧ s.coefPath = s0.coefPath ∧ s.xGramNew = s0.xGramNew ∧
      s.yGramNew = s0.yGramNew) (updateCoefs c k X wk xg yg) := by
    intro X wk xg yg
    unfold updateCoefs
    py_inv
    all_goals exact fun s hs => hs
  unfold updateIteration
  py_inv
  all_goals first
    | exact hc _ _ _ _
    | (intro s hs; unfold debugWork; split <;> exact hs)
    | (intro s hs; unfold debugBeta; split <;> exact hs)
    | (intro s hs; split <;> exact hs)

theorem updateInnerLoop_source {c : Call μ p} {s0 : GState μ p} {k itO : ℕ} {m0 : μ} {b0 : Option Arr1} {start : Option Arr2} (n itI : ℕ)
    {a a' : Inner} {s t : GState μ p} (h : updateInnerLoop c k itO n itI a s = (.ok a', t)) (hs : SameCommitted s0 s)
    (hb : s.coef k = b0 ∧ s.coefPath k = start) {mk : μ} (hmk : s.method k = some mk) (hlater : Later c.M m0 mk)
    (ha : ∀ o, a.out = some o → ∃ forget reg x0 y0, s0.forget.get? k = some forget ∧ s0.isRegularized.get? k = some reg ∧
      s0.xGram k = some x0 ∧ s0.yGram k = some y0 ∧
      UpdateSource c k m0 mk forget reg x0 y0 b0 start o.xGram o.yGram o.beta o.path) :
    ∃ mt, t.method = upd s.method k (some mt) ∧ Later c.M mk mt ∧
      ∀ o, a'.out = some o → ∃ forget reg x0 y0, s0.forget.get? k = some forget ∧ s0.isRegularized.get? k = some reg ∧
        s0.xGram k = some x0 ∧ s0.yGram k = some y0 ∧
        UpdateSource c k m0 mt forget reg x0 y0 b0 start o.xGram o.yGram o.beta o.path := by
  induction n generalizing itI a s mk with
  | zero =>
    obtain ⟨rfl, rfl⟩ := Py.pure_ok_iff.1 h
    exact ⟨mk, by unfold upd; rw [← hmk, Function.update_eq_self], .refl, ha⟩
  | succ n ih =>
    unfold updateInnerLoop at h
    obtain ⟨r, s', hr, h⟩ := Py.bind_ok_iff.1 h
    obtain ⟨st⟩ := updateIteration_ok hr
    have hs' : SameCommitted s0 s' := Py.Triple.ok (updateIteration_committed c k itO itI a s0) hs hr
    have hc' := Py.Triple.ok (updateIteration_coefs c k itO itI a s) ⟨rfl, rfl, rfl, rfl⟩ hr
    have hb' : s'.coef k = b0 ∧ s'.coefPath k = start := by rw [hc'.1, hc'.2.1]; exact hb
    obtain ⟨m, m', reg, h1, h2, h3, h4, h5⟩ := updateCoefs_source st.hco
    rw [debugWork_method] at h1 h3
    have hd : SameCommitted s0 (debugWork c.cfg.debug (k, itO, itI) st.wk a.fvIt s) := hs.trans (sameCommitted_debugWork _ _ _ _ _)
    rw [hd.setup.isRegularized] at h2
    have ec : (debugWork c.cfg.debug (k, itO, itI) st.wk a.fvIt s).coef = s.coef := by unfold debugWork; split <;> rfl
    have ep : (debugWork c.cfg.debug (k, itO, itI) st.wk a.fvIt s).coefPath = s.coefPath := by unfold debugWork; split <;> rfl
    rw [ec, ep, hb.1, hb.2] at h5
    obtain rfl : mk = m := Option.some.inj (hmk.symm.trans h1)
    obtain rfl : st.m = mk := Option.some.inj (st.hm.symm.trans hmk)
    have hf := st.hf
    rw [hs.setup.forget] at hf
    have hx0 := st.hx0
    rw [hs.xGram] at hx0
    have hy0 := st.hy0
    rw [hs.yGram] at hy0
    have hm' : s'.method = upd s.method k (some m') := st.method.trans h3
    have hout : ∀ o, r.1.out = some o → ∃ forget reg x0 y0, s0.forget.get? k = some forget ∧ s0.isRegularized.get? k = some reg ∧
        s0.xGram k = some x0 ∧ s0.yGram k = some y0 ∧
        UpdateSource c k m0 m' forget reg x0 y0 b0 start o.xGram o.yGram o.beta o.path := by
      intro o ho
      rw [st.out] at ho
      obtain rfl := Option.some.inj ho
      exact ⟨st.forget, reg, st.x0, st.y0, hf, h2, hx0, hy0, a.fvIt, st.wk, st.X, st.m, m', st.hwk, st.hX, hlater, h4, .refl, st.hxg,
        st.hyg, h5⟩
    split at h
    · obtain ⟨rfl, rfl⟩ := Py.pure_ok_iff.1 h
      exact ⟨m', hm', .single h4, hout⟩
    · obtain ⟨mt, g1, g2, g3⟩ := ih (itI + 1) h hs' hb' (mk := m') (by rw [hm']; exact Function.update_self _ _ _)
        (hlater.tail h4) hout
      refine ⟨mt, ?_, .head h4 g2, g3⟩
      rw [g1, hm']
      exact Function.update_idem _ _ _

theorem updateInnerLoop_first {c : Call μ p} {k itO : ℕ} (n itI : ℕ) {a a' : Inner} {s t : GState μ p}
    (h : updateInnerLoop c k itO n itI a s = (.ok a', t)) (ha : a.out = none) {o : IterOut} (ho : a'.out = some o) :
    ∃ m, s.method k = some m := by
  cases n with
  | zero =>
    obtain ⟨rfl, rfl⟩ := Py.pure_ok_iff.1 h
    rw [ha] at ho
    cases ho
  | succ n =>
    unfold updateInnerLoop at h
    obtain ⟨r, s', hr, h⟩ := Py.bind_ok_iff.1 h
    obtain ⟨st⟩ := updateIteration_ok hr
    exact ⟨st.m, st.hm⟩

/-- What holds for parameter `j` behind its treatment in an update that began at `s0`, when the coefficients before the
treatment were `b0`, `start`. -/
def UpdateSourced (c : Call μ p) (s0 : GState μ p) (b0 : Option Arr1) (start : Option Arr2) (j : ℕ) (s : GState μ p) : Prop :=
  ∃ m mt forget reg x0 y0 xg yg b, s0.method j = some m ∧ s.method j = some mt ∧
    s0.forget.get? j = some forget ∧ s0.isRegularized.get? j = some reg ∧ s0.xGram j = some x0 ∧ s0.yGram j = some y0 ∧
    s.xGramNew j = some xg ∧ s.yGramNew j = some yg ∧ s.coef j = some b ∧
    UpdateSource c j m mt forget reg x0 y0 b0 start xg yg b (s.coefPath j)

/-- What one treatment of parameter `k` in an update does. -/
theorem innerUpdate_source {c : Call μ p} {itO k : ℕ} {s0 s t : GState μ p} {d : Flt} (hs : SameCommitted s0 s)
    (hm : ∀ j mt, s.method j = some mt → ∃ m, s0.method j = some m ∧ Later c.M m mt) (h : innerUpdate c itO k s = (.ok d, t)) :
    (∀ j mt, t.method j = some mt → ∃ m, s0.method j = some m ∧ Later c.M m mt) ∧
    UpdateSourced c s0 (s.coef k) (s.coefPath k) k t ∧
    ∀ j ≠ k, t.method j = s.method j ∧ t.xGramNew j = s.xGramNew j ∧ t.yGramNew j = s.yGramNew j ∧ t.coef j = s.coef j ∧
      t.coefPath j = s.coefPath j := by
  unfold innerUpdate at h
  rw [Py.bind_self] at h
  obtain ⟨forget0, ss2, hh2, h⟩ := Py.bind_ok_iff.1 h
  obtain ⟨_, ee1⟩ := Py.attr_ok_iff.1 hh2
  rw [ee1] at h
  clear ee1
  obtain ⟨old, ss3, hh3, h⟩ := Py.bind_ok_iff.1 h
  obtain ⟨_, ee2⟩ := Py.attr_ok_iff.1 hh3
  rw [ee2] at h
  clear ee2
  obtain ⟨n, ss4, hh4, h⟩ := Py.bind_ok_iff.1 h
  obtain ⟨_, ee3⟩ := Py.call_ok_iff.1 hh4
  rw [ee3] at h
  clear ee3
  obtain ⟨a, s2, hloop, h⟩ := Py.bind_ok_iff.1 h
  obtain ⟨o, ss5, hh5, h⟩ := Py.bind_ok_iff.1 h
  obtain ⟨ho, ee4⟩ := Py.attr_ok_iff.1 hh5
  rw [ee4] at h
  clear ee4
  obtain ⟨forget, ss6, hh6, h⟩ := Py.bind_ok_iff.1 h
  obtain ⟨hforget, ee5⟩ := Py.attr_ok_iff.1 hh6
  rw [ee5] at h
  clear ee5
  obtain ⟨sumW, ss7, hh7, h⟩ := Py.bind_ok_iff.1 h
  obtain ⟨hsumW, ee6⟩ := Py.attr_ok_iff.1 hh7
  rw [ee6] at h
  clear ee6
  obtain ⟨nTr, ss8, hh8, h⟩ := Py.bind_ok_iff.1 h
  obtain ⟨hnTr, ee7⟩ := Py.attr_ok_iff.1 hh8
  rw [ee7] at h
  clear ee7
  rw [Py.bind_set] at h
  obtain ⟨_, rfl⟩ := Py.pure_ok_iff.1 h
  obtain ⟨mk, hmk⟩ := updateInnerLoop_first n 0 hloop rfl ho
  obtain ⟨m, hm0, hl⟩ := hm k mk hmk
  obtain ⟨mt, g1, g2, g3⟩ := updateInnerLoop_source n 0 hloop hs ⟨rfl, rfl⟩ hmk hl (by simp)
  obtain ⟨f, reg, x0, y0, a1, a2, a3, a4, a5⟩ := g3 o ho
  obtain ⟨e1, e2, e3, e4⟩ := (updateInnerLoop_inv c k itO (fun itI a => updateIteration_coefs c k itO itI a s) n 0 _).ok
    ⟨rfl, rfl, rfl, rfl⟩ hloop
  have hself : s2.method k = some mt := by rw [g1]; exact Function.update_self _ _ _
  have hother : ∀ j ≠ k, s2.method j = s.method j := fun j hj => by rw [g1]; exact Function.update_of_ne hj _ _
  refine ⟨fun j mt' hj => ?_, ⟨m, mt, f, reg, x0, y0, o.xGram, o.yGram, o.beta, hm0, hself, a1, a2, a3, a4,
    Function.update_self _ _ _, Function.update_self _ _ _, Function.update_self _ _ _, ?_⟩, fun j hj => ⟨hother j hj, ?_, ?_, ?_, ?_⟩⟩
  · change s2.method j = some mt' at hj
    by_cases hjk : j = k
    · subst hjk
      obtain rfl : mt = mt' := Option.some.inj (hself.symm.trans hj)
      exact ⟨m, hm0, hl.trans g2⟩
    · rw [hother j hjk] at hj
      exact hm j mt' hj
  · rw [show (commitUpdate c k a o (.fin forget) sumW (.fin nTr) s2).coefPath k = o.path from Function.update_self _ _ _]
    exact a5
  · exact (Function.update_of_ne hj _ _).trans (by rw [e3])
  · exact (Function.update_of_ne hj _ _).trans (by rw [e4])
  · exact (Function.update_of_ne hj _ _).trans (by rw [e1])
  · exact (Function.update_of_ne hj _ _).trans (by rw [e2])

theorem UpdateSourced.congr {c : Call μ p} {s0 : GState μ p} {b0 : Option Arr1} {start : Option Arr2} {j : ℕ} {s t : GState μ p}
    (h : UpdateSourced c s0 b0 start j s)
    (he : t.method j = s.method j ∧ t.xGramNew j = s.xGramNew j ∧ t.yGramNew j = s.yGramNew j ∧ t.coef j = s.coef j ∧
      t.coefPath j = s.coefPath j) : UpdateSourced c s0 b0 start j t := by
  obtain ⟨m, mt, forget, reg, x0, y0, xg, yg, b, a1, a2, a3, a4, a5, a6, a7, a8, a9, a10⟩ := h
  obtain ⟨e1, e2, e3, e4, e5⟩ := he
  exact ⟨m, mt, forget, reg, x0, y0, xg, yg, b, a1, e1.trans a2, a3, a4, a5, a6, e2.trans a7, e3.trans a8, e4.trans a9, by rw [e5]; exact a10⟩

/-- A pass over distinct parameters: what holds for a parameter before the pass and is kept by the treatment of the
others holds when its turn comes. -/
theorem paramLoop_turn {σ : Type} {I : σ → Prop} {P Q : ℕ → σ → Prop} {f : ℕ → Py σ Flt} (ks : List ℕ) (hnd : ks.Nodup)
    (hI : ∀ k s t d, I s → f k s = (.ok d, t) → I t) (hP : ∀ k j, j ≠ k → ∀ s t d, I s → P j s → f k s = (.ok d, t) → P j t)
    (hQ : ∀ k s t d, I s → P k s → f k s = (.ok d, t) → Q k t)
    (hkeep : ∀ k j, j ≠ k → ∀ s t d, I s → Q j s → f k s = (.ok d, t) → Q j t)
    {d d' : Flt} {s t : σ} (hs : I s) (hp : ∀ j, P j s ∨ Q j s) (hks : ∀ j ∈ ks, P j s) (h : paramLoop f ks d s = (.ok d', t)) :
    ∀ j, j ∈ ks ∨ Q j s → Q j t := by
  induction ks generalizing d s with
  | nil =>
    obtain ⟨_, rfl⟩ := Py.pure_ok_iff.1 h
    exact fun j hj => hj.resolve_left (by simp)
  | cons k ks ih =>
    unfold paramLoop at h
    obtain ⟨d1, s1, hk, h⟩ := Py.bind_ok_iff.1 h
    have hs1 := hI k s s1 d1 hs hk
    have hq := hQ k s s1 d1 hs (hks k (by simp)) hk
    have hne : ∀ j ∈ ks, j ≠ k := fun j hj e => (List.nodup_cons.1 hnd).1 (e ▸ hj)
    have := ih (List.nodup_cons.1 hnd).2 hs1 (fun j => ?_) (fun j hj => hP k j (hne j hj) s s1 d1 hs (hks j (by simp [hj])) hk) h
    · intro j hj
      by_cases hjk : j = k
      · subst hjk; exact this j (.inr hq)
      · rcases hj with hj | hj
        · exact this j (.inl ((List.mem_cons.1 hj).resolve_left hjk))
        · exact this j (.inr (hkeep k j hjk s s1 d1 hs hj hk))
    · by_cases hjk : j = k
      · subst hjk; exact .inr hq
      · exact (hp j).imp (fun h => hP k j hjk s s1 d1 hs h hk) (fun h => hkeep k j hjk s s1 d1 hs h hk)

set_option maxHeartbeats 1000000 in
/-- What a successful update with at least one outer iteration stores for a parameter.  `b0` and `start` are the
coefficients and the path before the last treatment of the parameter. -/
theorem update_source {D : DistOps} {M : MethodOps μ} {c : GConfig μ p} {data : List (Obs p)} {s t : GState μ p}
    {u : Unit} (h : GState.update D M c data s = (.ok u, t)) (it : ℕ) (hit : t.itOuter = some it) (h1 : 1 ≤ it) {k : ℕ}
    (hk : k ∈ s.paramOrder) :
    ∃ X sc m mt forget reg x0 y0 b0 start xg yg b, t.scaler = some sc ∧
      (∀ j A, X j = some A → designFor s sc (xs data) j = .ok A) ∧
      s.method k = some m ∧ t.method k = some mt ∧ s.forget.get? k = some forget ∧ s.isRegularized.get? k = some reg ∧
      s.xGram k = some x0 ∧ s.yGram k = some y0 ∧ t.xGram k = some xg ∧ t.yGram k = some yg ∧ t.coef k = some b ∧
      UpdateSource ⟨D, M, c, X, ys data, ws data⟩ k m mt forget reg x0 y0 b0 start xg yg b (t.coefPath k) ∧
      (it = 1 → s.paramOrder.Nodup → b0 = s.coef k ∧ start = s.coefPath k) := by
  obtain ⟨r⟩ := update_ok h
  have e : it = r.it := by
    rw [r.once.2.1] at hit; exact (Option.some.inj hit).symm
  set C : Call μ p := ⟨D, M, c, r.X.get?, ys data, ws data⟩ with hC
  have hloop := r.hloop
  unfold outerUpdate at hloop
  rw [Py.bind_self] at hloop
  obtain ⟨f0, ss1, hh1, hloop⟩ := Py.bind_ok_iff.1 hloop
  obtain ⟨_, e1⟩ := Py.attr_ok_iff.1 hh1
  rw [e1] at hloop
  obtain ⟨old, ss2, hh2, hloop⟩ := Py.bind_ok_iff.1 hloop
  obtain ⟨_, e2⟩ := Py.attr_ok_iff.1 hh2
  rw [e2] at hloop
  have eor : r.s1.paramOrder = s.paramOrder := r.proj GState.paramOrder (fun _ => rfl) fun _ _ => rfl
  have efo : r.s1.forget = s.forget := r.proj GState.forget (fun _ => rfl) fun _ _ => rfl
  have ere : r.s1.isRegularized = s.isRegularized := r.proj GState.isRegularized (fun _ => rfl) fun _ _ => rfl
  have exg : r.s1.xGram = s.xGram := r.proj GState.xGram (fun _ => rfl) fun _ _ => rfl
  have eyg : r.s1.yGram = s.yGram := r.proj GState.yGram (fun _ => rfl) fun _ _ => rfl
  have eco : r.s1.coef = s.coef := r.proj GState.coef (fun _ => rfl) fun _ _ => rfl
  have epa : r.s1.coefPath = s.coefPath := r.proj GState.coefPath (fun _ => rfl) fun _ _ => rfl
  have eme : r.s1.method = s.method := r.proj GState.method (fun _ => rfl) fun _ _ => rfl
  have esc : r.s1.scaler = some r.sc := r.proj GState.scaler (fun _ => rfl) fun _ _ => rfl
  have hset := (outerUpdate_committed _ _ _).ok (SameCommitted.refl _) r.hloop
  let I : GState μ p → Prop := fun u => SameCommitted r.s1 u ∧
    ∀ j mt, u.method j = some mt → ∃ m, r.s1.method j = some m ∧ Later C.M m mt
  have hI0 : I r.s1 := ⟨SameCommitted.refl _, fun j mt hj => ⟨mt, hj, .refl⟩⟩
  have hIstep : ∀ it k (u v : GState μ p) d, I u → innerUpdate C it k u = (.ok d, v) → I v := fun it k u v d hu hr =>
    ⟨Py.Triple.ok (innerUpdate_committed C it k r.s1) hu.1 hr, (innerUpdate_source hu.1 hu.2 hr).1⟩
  have hpl : ∀ it d (u v : GState μ p) d', I u → paramLoop (innerUpdate C it) r.s1.paramOrder d u = (.ok d', v) →
      I v ∧ ∀ j, (j ∈ r.s1.paramOrder ∨ ∃ b0 start, UpdateSourced C r.s1 b0 start j u) →
        ∃ b0 start, UpdateSourced C r.s1 b0 start j v :=
    fun it d u v d' hu hr => paramLoop_all_ok (I := I) (Q := fun j u => ∃ b0 start, UpdateSourced C r.s1 b0 start j u) _
      (fun j _ s t d hs hr => hIstep it j s t d hs hr)
      (fun j _ s t d hs hr => ⟨_, _, (innerUpdate_source hs.1 hs.2 hr).2.1⟩)
      (fun j _ i hij s t d hs hq hr => by
        obtain ⟨b0, start, hq⟩ := hq
        exact ⟨b0, start, hq.congr ((innerUpdate_source hs.1 hs.2 hr).2.2 i hij)⟩) hu hr
  have key : ∃ b0 start, UpdateSourced C r.s1 b0 start k r.s2 ∧
      (it = 1 → s.paramOrder.Nodup → b0 = s.coef k ∧ start = s.coefPath k) := by
    by_cases hone : it = 1 ∧ s.paramOrder.Nodup
    · -- the only pass over the parameters starts at the coefficients of the state
      have hfirst : ∃ d0 s', s' = r.s1 ∧ paramLoop (innerUpdate C 1) r.s1.paramOrder d0 s' = (.ok r.dev, r.s2) := by
        rw [e] at hone
        generalize hn : c.fuel r.s1.minIt = n at hloop
        cases n with
        | zero =>
          have := (Py.pure_ok_iff.1 hloop).1
          cases this
        | succ n =>
          unfold outerLoop at hloop
          split at hloop
          · obtain ⟨h1, _⟩ := Py.pure_ok_iff.1 hloop
            simp only [Option.some.injEq, Prod.mk.injEq] at h1
            omega
          · obtain ⟨d1, s1', hb, hrest⟩ := Py.bind_ok_iff.1 hloop
            rcases outerLoop_last_ok (I := fun _ => True) _ 1 (fun _ _ _ _ _ _ _ _ => trivial) hrest trivial with ⟨_, rfl, h3⟩ | ⟨h2, _⟩
            · exact ⟨_, _, rfl, h3 ▸ hb⟩
            · omega
      obtain ⟨d0, s', rfl, hb⟩ := hfirst
      have := paramLoop_turn (I := I) (P := fun j u => u.coef j = s.coef j ∧ u.coefPath j = s.coefPath j)
        (Q := fun j u => UpdateSourced C r.s1 (s.coef j) (s.coefPath j) j u) r.s1.paramOrder (eor ▸ hone.2)
        (fun k u v d hu hr => hIstep 1 k u v d hu hr)
        (fun k j hj u v d hu hp hr => by
          obtain ⟨_, _, _, q1, q2⟩ := (innerUpdate_source hu.1 hu.2 hr).2.2 j hj
          exact ⟨q1.trans hp.1, q2.trans hp.2⟩)
        (fun k u v d hu hp hr => by
          have := (innerUpdate_source hu.1 hu.2 hr).2.1
          rw [hp.1, hp.2] at this
          exact this)
        (fun k j hj u v d hu hq hr => hq.congr ((innerUpdate_source hu.1 hu.2 hr).2.2 j hj)) hI0
        (fun j => .inl ⟨by rw [eco], by rw [epa]⟩) (fun j _ => ⟨by rw [eco], by rw [epa]⟩) hb k (.inl (eor ▸ hk))
      exact ⟨_, _, this, fun _ _ => ⟨rfl, rfl⟩⟩
    · rcases outerLoop_last_ok (I := I) _ 0 (fun it _ d u v d' hu hr => (hpl it d u v d' hu hr).1) hloop hI0 with ⟨h2, _⟩ | ⟨_, d0, s', hs', hb⟩
      · omega
      · obtain ⟨b0, start, hq⟩ := (hpl r.it d0 s' _ _ hs' hb).2 k (.inl (eor ▸ hk))
        exact ⟨b0, start, hq, fun h1 h2 => absurd ⟨h1, h2⟩ hone⟩
  obtain ⟨b0, start, ⟨m, mt, forget, reg, x0, y0, xg, yg, b, a1, a2, a3, a4, a5, a6, a7, a8, a9, a10⟩, hb⟩ := key
  refine ⟨r.X.get?, r.sc, m, mt, forget, reg, x0, y0, b0, start, xg, yg, b, ?_, fun j A hA => (forParams_get? r.hX hA).2, by rw [← eme]; exact a1,
    ?_, by rw [← efo]; exact a3, by rw [← ere]; exact a4, by rw [← exg]; exact a5, by rw [← eyg]; exact a6, ?_, ?_, ?_, ?_, hb⟩
  · rw [(congrArg GState.scaler r.ht).trans rfl, show (r.s2.setResult r.dev r.it).commitStatistics.scaler = r.s2.scaler from rfl,
      hset.setup.scaler]
    exact esc
  · exact (congrFun (congrArg GState.method r.ht) k).trans a2
  · exact (congrFun (congrArg GState.xGram r.ht) k).trans a7
  · exact (congrFun (congrArg GState.yGram r.ht) k).trans a8
  · exact (congrFun (congrArg GState.coef r.ht) k).trans a9
  · rw [show t.coefPath k = r.s2.coefPath k from congrFun (congrArg GState.coefPath r.ht) k]
    exact a10

end Ondil
