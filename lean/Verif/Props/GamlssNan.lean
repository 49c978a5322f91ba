import Verif.Lemmas.Nan
import Verif.Props.GamlssWorking
import Verif.Lemmas.GamlssToy

/-!
# Inflated responses in an update: C88
-/

namespace Ondil

variable {μ : Type} {p : ℕ}

/-- The points with positive probability of the inflated distributions. -/
def Dist.InflatedAt : Dist → ℝ → Prop
  | .betaInflated, y => y = 0 ∨ y = 1
  | .betaInflatedZero, y => y = 0
  | .zeroAdjustedGamma, y => y = 0
  | _, _ => False

/-- The coefficients and the Gramian of the response of parameter `k` are NaN. -/
structure Broken (m : μ) (k : ℕ) (s : GState μ p) : Prop where
  method : s.method k = some m
  yGram : ∃ h, s.yGram k = some h ∧ h ≠ [] ∧ AllNan h
  coef : ∃ b, s.coef k = some b ∧ b ≠ [] ∧ AllNan b

/-! ### Loops -/

theorem updateCoefs_beta {c : Call μ p} {k : ℕ} {X : Arr2} {wk : Working} {xg : Arr2} {yg : Arr1} {s t : GState μ p} {co : Coefs}
    {m : μ} (hm : s.method k = some m) (hp : c.M.pathBased m = false)
    (h : updateCoefs c k X wk xg yg s = (.ok co, t)) :
    ∃ b reg r, c.M.updateBeta m xg yg b reg = .ok r ∧ co.beta = r.1 ∧ t.method k = some r.2 := by
  unfold updateCoefs at h
  rw [Py.bind_self] at h
  obtain ⟨m', ss1, hh, h⟩ := Py.bind_ok_iff.1 h
  obtain ⟨hm', e⟩ := Py.attr_ok_iff.1 hh
  rw [e] at h
  clear e
  obtain rfl : m' = m := Option.some.inj (hm'.symm.trans hm)
  obtain ⟨reg, ss2, hh, h⟩ := Py.bind_ok_iff.1 h
  obtain ⟨_, e⟩ := Py.attr_ok_iff.1 hh
  rw [e] at h
  clear e
  obtain ⟨f, ss3, hh, h⟩ := Py.bind_ok_iff.1 h
  obtain ⟨_, e⟩ := Py.attr_ok_iff.1 hh
  rw [e] at h
  clear e
  rw [hp] at h
  simp only [Bool.false_eq_true, if_false] at h
  obtain ⟨b, ss4, hh, h⟩ := Py.bind_ok_iff.1 h
  obtain ⟨_, e⟩ := Py.attr_ok_iff.1 hh
  rw [e] at h
  clear e
  obtain ⟨r, ss5, hh, h⟩ := Py.bind_ok_iff.1 h
  obtain ⟨hr, e⟩ := Py.call_ok_iff.1 hh
  rw [e] at h
  clear e
  rw [Py.bind_set] at h
  obtain ⟨rfl, rfl⟩ := Py.pure_ok_iff.1 h
  exact ⟨b, reg, r, hr, rfl, Function.update_self _ _ _⟩

/-- What makes the Gramian of the response NaN: it is NaN already, or a working response is. -/
def Poisoned (c : Call μ p) (k N : ℕ) (y0 : Arr1) : Prop :=
  AllNan y0 ∨ ∀ fv wk, fv.length = N → working c.D updateClip c.y fv k = .ok wk →
    Flt.nan ∈ wk.wv ∧ wk.wv.length = N ∧ wk.wt.length = N

theorem updateInnerLoop_nan {c : Call μ p} {m : μ} (hM : NanThrough c.M m) (hD : KeepsLength c.D) {s1 : GState μ p}
    {k itO N : ℕ} (hX : ∀ X, c.X k = some X → X.length = N ∧ ∃ x ∈ X, x ≠ []) (hw : c.w.length = N) {y0 : Arr1}
    (hy : s1.yGram k = some y0) (h0 : y0 ≠ []) (hn : Poisoned c k N y0) (n itI : ℕ) {a a' : Inner} {s t : GState μ p}
    (h : updateInnerLoop c k itO n itI a s = (.ok a', t)) (hs : SameCommitted s1 s) (hm : s.method k = some m)
    (ha : a.fvIt.length = N ∧ a.fvNew.length = N)
    (ho : ∀ o, a.out = some o → (o.yGram ≠ [] ∧ AllNan o.yGram) ∧ o.beta ≠ [] ∧ AllNan o.beta) :
    t.method k = some m ∧ ∀ o, a'.out = some o → (o.yGram ≠ [] ∧ AllNan o.yGram) ∧ o.beta ≠ [] ∧ AllNan o.beta := by
  induction n generalizing itI a s with
  | zero =>
    obtain ⟨rfl, rfl⟩ := Py.pure_ok_iff.1 h
    exact ⟨hm, ho⟩
  | succ n ih =>
    unfold updateInnerLoop at h
    obtain ⟨r, s', hr, h⟩ := Py.bind_ok_iff.1 h
    obtain ⟨st⟩ := updateIteration_ok hr
    have hs' : SameCommitted s1 s' := Py.Triple.ok (updateIteration_committed c k itO itI a s1) hs hr
    have em : st.m = m := Option.some.inj (st.hm.symm.trans hm)
    have ey : st.y0 = y0 := Option.some.inj (st.hy0.symm.trans (by rw [hs.yGram]; exact hy))
    obtain ⟨hXl, x, hx, hx0⟩ := hX _ st.hX
    have hyg := st.hyg
    rw [em, ey] at hyg
    obtain ⟨g1, g2⟩ := hM.y _ _ _ _ _ _ hyg h0 (hn.symm.imp (fun hn => by
      obtain ⟨q1, q2, q3⟩ := hn _ _ ha.1 st.hwk
      exact ⟨q1, q2.trans hXl.symm, (wmul_length hw q3).trans hXl.symm⟩) id)
    have hmd : (debugWork c.cfg.debug (k, itO, itI) st.wk a.fvIt s).method k = some m := by
      unfold debugWork
      split <;> exact hm
    obtain ⟨b, reg, q, hq, hb, hm1⟩ := updateCoefs_beta hmd hM.notPath st.hco
    obtain ⟨b1, b2⟩ := hM.beta _ _ _ _ _ hq g2 g1
    have hb0 : st.co.beta ≠ [] := by
      intro e
      have hp := st.hpred
      unfold matVec at hp
      split at hp
      · rename_i hl
        have := hl x hx
        rw [e] at this
        exact hx0 (List.length_eq_zero_iff.1 this)
      · cases hp
    have hv : st.v.length = N := by rw [hD _ _ _ st.hv, matVec_length st.hpred, hXl]
    have hm' : s'.method k = some m := by rw [st.method, hm1, b2]
    have hout : ∀ o, r.1.out = some o → (o.yGram ≠ [] ∧ AllNan o.yGram) ∧ o.beta ≠ [] ∧ AllNan o.beta := by
      intro o ho
      rw [st.out] at ho
      simp only [Option.some.injEq] at ho
      subst ho
      exact ⟨⟨g2, g1⟩, hb0, by rw [hb]; exact b1⟩
    have hfn : r.1.fvNew.length = N := by rw [st.fvNew]; exact setCol_length ha.2 hv
    have hfi : r.1.fvIt.length = N := by
      rcases st.fvIt with e | e
      · rw [e]; exact ha.1
      · rw [e]; exact setCol_length ha.1 (col_length hfn)
    split at h
    · obtain ⟨rfl, rfl⟩ := Py.pure_ok_iff.1 h
      exact ⟨hm', hout⟩
    · exact ih (itI + 1) h hs' hm' ⟨hfi, hfn⟩ hout

/-- Parameter `k` after its treatment in an update. -/
structure BrokenNew (m : μ) (k : ℕ) (s : GState μ p) : Prop where
  method : s.method k = some m
  yGram : ∃ h, s.yGramNew k = some h ∧ h ≠ [] ∧ AllNan h
  coef : ∃ b, s.coef k = some b ∧ b ≠ [] ∧ AllNan b

theorem innerUpdate_nan {c : Call μ p} {m : μ} (hM : NanThrough c.M m) (hD : KeepsLength c.D) {s1 : GState μ p}
    {k itO N : ℕ} (hX : ∀ X, c.X k = some X → X.length = N ∧ ∃ x ∈ X, x ≠ []) (hw : c.w.length = N) {y0 : Arr1}
    (hy : s1.yGram k = some y0) (h0 : y0 ≠ []) (hn : Poisoned c k N y0) {s t : GState μ p} {dv : Flt}
    (h : innerUpdate c itO k s = (.ok dv, t)) (hs : SameCommitted s1 s) (hm : s.method k = some m) (hfv : s.fv.length = N) :
    BrokenNew m k t := by
  unfold innerUpdate at h
  rw [Py.bind_self] at h
  obtain ⟨forget0, ss2, hh2, h⟩ := Py.bind_ok_iff.1 h
  obtain ⟨hf0, ee1⟩ := Py.attr_ok_iff.1 hh2
  rw [ee1] at h
  clear ee1
  obtain ⟨old, ss3, hh3, h⟩ := Py.bind_ok_iff.1 h
  obtain ⟨hold, ee2⟩ := Py.attr_ok_iff.1 hh3
  rw [ee2] at h
  clear ee2
  obtain ⟨n, ss4, hh4, h⟩ := Py.bind_ok_iff.1 h
  obtain ⟨_, ee3⟩ := Py.call_ok_iff.1 hh4
  rw [ee3] at h
  clear ee3
  obtain ⟨a, s2, hloop, h⟩ := Py.bind_ok_iff.1 h
  obtain ⟨o, ss5, hh5, h⟩ := Py.bind_ok_iff.1 h
  obtain ⟨ho, ee4⟩ := Py.attr_ok_iff.1 hh5
  rw [ee4] at h
  clear ee4
  obtain ⟨forget, ss6, hh6, h⟩ := Py.bind_ok_iff.1 h
  obtain ⟨_, ee5⟩ := Py.attr_ok_iff.1 hh6
  rw [ee5] at h
  clear ee5
  obtain ⟨sumW, ss7, hh7, h⟩ := Py.bind_ok_iff.1 h
  obtain ⟨_, ee6⟩ := Py.attr_ok_iff.1 hh7
  rw [ee6] at h
  clear ee6
  obtain ⟨nTr, ss8, hh8, h⟩ := Py.bind_ok_iff.1 h
  obtain ⟨_, ee7⟩ := Py.attr_ok_iff.1 hh8
  rw [ee7] at h
  clear ee7
  rw [Py.bind_set] at h
  obtain ⟨_, rfl⟩ := Py.pure_ok_iff.1 h
  obtain ⟨h1, h2⟩ := updateInnerLoop_nan hM hD hX hw hy h0 hn n 0 hloop hs hm ⟨hfv, hfv⟩ (by simp)
  obtain ⟨⟨g1, g2⟩, g3, g4⟩ := h2 o ho
  exact ⟨h1, ⟨_, Function.update_self _ _ _, g1, g2⟩, ⟨_, Function.update_self _ _ _, g3, g4⟩⟩

theorem updateIteration_other (c : Call μ p) (k itO itI : ℕ) (a : Inner) (m : μ) (j : ℕ) (hj : j ≠ k) :
    Py.Inv (fun s : GState μ p => s.method j = some m) (updateIteration c k itO itI a) := by
  have hc : ∀ X wk xg yg, Py.Inv (fun s : GState μ p => s.method j = some m) (updateCoefs c k X wk xg yg) := by
    intro X wk xg yg
    unfold updateCoefs
    py_inv
    all_goals first
      | exact fun s hs => (Function.update_of_ne hj _ _).trans hs
      | exact fun s hs => hs
  unfold updateIteration
  py_inv
  all_goals first
    | exact hc _ _ _ _
    | (intro s hs; unfold debugWork; split <;> exact hs)
    | (intro s hs; unfold debugBeta; split <;> exact hs)
    | (intro s hs; split <;> exact hs)

theorem innerUpdate_other (c : Call μ p) (itO k : ℕ) (m : μ) (j : ℕ) (hj : j ≠ k) :
    Py.Inv (fun s : GState μ p => s.method j = some m) (innerUpdate c itO k) := by
  unfold innerUpdate
  py_inv
  all_goals first
    | exact updateInnerLoop_inv c k itO (fun itI a => updateIteration_other c k itO itI a m j hj) _ _ _
    | exact fun s hs => hs

/-- With an intercept every row of the design has an entry. -/
theorem designFor_ne_nil {s : GState μ p} {sc : Scaler p} {X : List (Row p)} {k : ℕ} {A : Arr2}
    (hfi : s.fitIntercept.get? k = some true) (h : designFor s sc X k = .ok A) : ∀ x ∈ A, x ≠ [] := by
  unfold designFor at h
  rw [hfi] at h
  split at h
  · rename_i eq fi he hf
    obtain rfl : true = fi := Option.some.inj hf
    obtain ⟨h1, h2⟩ := mapM_ok_get h
    intro x hx
    obtain ⟨i, hi, rfl⟩ := List.getElem_of_mem hx
    have := h2 i (by omega) hi
    unfold modelRow at this
    split at this
    · rw [← Except.ok.inj this]; simp
    · obtain ⟨out, _, this⟩ := bind_ok.1 this
      rw [← Except.ok.inj this]; simp
  · cases h

/-- A successful update from a state in which the Gramian of the response of `k` is poisoned. -/
theorem UpdateRun.broken {D : DistOps} (hD : KeepsLength D) {M : MethodOps μ} {m : μ} (hM : NanThrough M m) {c : GConfig μ p}
    {data : List (Obs p)} {s t : GState μ p} (r : UpdateRun D M c data s t) {k : ℕ} (hk : k ∈ s.paramOrder)
    (hm : s.method k = some m) {y0 : Arr1} (hy : s.yGram k = some y0) (h0 : y0 ≠ []) (hfi : s.fitIntercept.get? k = some true)
    (hn : Poisoned ⟨D, M, c, r.X.get?, ys data, ws data⟩ k data.length y0) (h : 1 ≤ r.it ∨ Broken m k s) : Broken m k t := by
  set C : Call μ p := ⟨D, M, c, r.X.get?, ys data, ws data⟩ with hC
  have hloop := r.hloop
  unfold outerUpdate at hloop
  rw [Py.bind_self] at hloop
  obtain ⟨f0, ss1, hh1, hloop⟩ := Py.bind_ok_iff.1 hloop
  obtain ⟨hf0, e1⟩ := Py.attr_ok_iff.1 hh1
  rw [e1] at hloop
  obtain ⟨old, ss2, hh2, hloop⟩ := Py.bind_ok_iff.1 hloop
  obtain ⟨hold, e2⟩ := Py.attr_ok_iff.1 hh2
  rw [e2] at hloop
  have eor : r.s1.paramOrder = s.paramOrder := r.proj GState.paramOrder (fun _ => rfl) fun _ _ => rfl
  have efv : r.s1.fv = r.fv := r.proj GState.fv (fun _ => rfl) fun _ _ => rfl
  have eme : r.s1.method = s.method := r.proj GState.method (fun _ => rfl) fun _ _ => rfl
  have eyg : r.s1.yGram = s.yGram := r.proj GState.yGram (fun _ => rfl) fun _ _ => rfl
  have eygn : r.s1.yGramNew = s.yGram := r.proj GState.yGramNew (fun _ => rfl) fun _ _ => rfl
  have eco : r.s1.coef = s.coef := r.proj GState.coef (fun _ => rfl) fun _ _ => rfl
  have hnl : r.fv.length = data.length := by
    have := r.hfv
    unfold predictParams at this
    obtain ⟨etas, _, this⟩ := bind_ok.1 this
    obtain ⟨cols, _, this⟩ := bind_ok.1 this
    rw [← Except.ok.inj this]
    simp [Fv.stack, xs]
  have hX : ∀ k X, C.X k = some X → X.length = data.length := by
    intro k X hk
    have := designFor_length (forParams_get? r.hX hk).2
    simpa [xs] using this
  have hXk : ∀ X, C.X k = some X → X.length = data.length ∧ ∃ x ∈ X, x ≠ [] := by
    intro X hX1
    have hl := hX k X hX1
    have hpos : 0 < X.length := by
      rw [hl]
      exact List.length_pos_iff_ne_nil.2 fun e => r.nonempty (.inl e)
    exact ⟨hl, X[0], List.getElem_mem hpos, designFor_ne_nil hfi (forParams_get? r.hX hX1).2 _ (List.getElem_mem hpos)⟩
  let I : GState μ p → Prop := fun u => u.fv.length = data.length ∧ SameCommitted r.s1 u ∧ u.method k = some m
  have hy1 : r.s1.yGram k = some y0 := by rw [eyg]; exact hy
  have hwl : C.w.length = data.length := by simp [hC, ws]
  have hbr : ∀ it (u v : GState μ p) d, I u → innerUpdate C it k u = (.ok d, v) → BrokenNew m k v :=
    fun it u v d hu hr => innerUpdate_nan hM hD hXk hwl hy1 h0 hn hr hu.2.1 hu.2.2 hu.1
  have hstep : ∀ it j (u v : GState μ p) d, I u → innerUpdate C it j u = (.ok d, v) → I v := by
    intro it j u v d hu hr
    refine ⟨(innerUpdate_fitted hD (hX j) hu.1 hr).1, Py.Triple.ok (innerUpdate_committed C it j r.s1) hu.2.1 hr, ?_⟩
    by_cases hj : k = j
    · subst hj
      exact (hbr it u v d hu hr).method
    · exact Py.Triple.ok (innerUpdate_other C it j m k hj) hu.2.2 hr
  have hkeep : ∀ it j i, i ≠ j → ∀ (u v : GState μ p) d, I u → (i = k → BrokenNew m k u) → innerUpdate C it j u = (.ok d, v) →
      (i = k → BrokenNew m k v) := by
    intro it j i hij u v d hu hb hr hik
    subst hik
    obtain ⟨b1, b2, b3⟩ := hb rfl
    have hsame := Py.Triple.ok (innerUpdate_sameFor C it j u i hij) (SameFor.refl i u) hr
    refine ⟨Py.Triple.ok (innerUpdate_other C it j m i hij) b1 hr, ?_, ?_⟩
    · rw [hsame.2.1]; exact b2
    · rw [((innerUpdate_fitted hD (hX j) hu.1 hr).2.2.1 i hij).2]; exact b3
  have hs1 : I r.s1 := ⟨by rw [efv]; exact hnl, SameCommitted.refl _, by rw [eme]; exact hm⟩
  have hpl : ∀ it d (u v : GState μ p) d', I u → paramLoop (innerUpdate C it) r.s1.paramOrder d u = (.ok d', v) →
      I v ∧ ∀ j, (j ∈ r.s1.paramOrder ∨ (j = k → BrokenNew m k u)) → j = k → BrokenNew m k v :=
    fun it d u v d' hu hr => paramLoop_all_ok (I := I) (Q := fun j u => j = k → BrokenNew m k u) _
      (fun j _ s t d hs hr => hstep it j s t d hs hr) (fun j _ s t d hs hr hjk => by subst hjk; exact hbr it s t d hs hr)
      (fun j _ i hij s t d hs hq hr => hkeep it j i hij s t d hs hq hr) hu hr
  have t1 : t.method = r.s2.method := (congrArg GState.method r.ht).trans rfl
  have t2 : t.coef = r.s2.coef := (congrArg GState.coef r.ht).trans rfl
  have t3 : t.yGram = r.s2.yGramNew := (congrArg GState.yGram r.ht).trans rfl
  rcases outerLoop_last_ok (I := I) _ 0 (fun it _ d u v d' hu hr => (hpl it d u v d' hu hr).1) hloop hs1 with
    ⟨h1, h2, h3⟩ | ⟨_, d0, s', hs', hb⟩
  · rcases h with h | h
    · omega
    · refine ⟨?_, ?_, ?_⟩
      · rw [t1, h3, eme]; exact hm
      · rw [t3, h3, eygn]; exact h.yGram
      · rw [t2, h3, eco]; exact h.coef
  · obtain ⟨b1, b2, b3⟩ := (hpl r.it d0 s' _ _ hs' hb).2 k (.inl (eor ▸ hk)) rfl
    exact ⟨by rw [t1]; exact b1, by rw [t3]; exact b2, by rw [t2]; exact b3⟩

/-! ### C88 -/

/-- **C88 fails for `update`.**  For every inflated distribution, every choice of links, every state and every batch with an
observation at an inflated point: a successful update with at least one outer iteration makes all coefficients of mu and sigma
NaN, and the statistics they are computed from, if the method hands NaN on (`package_nanThrough`: `OrdinaryLeastSquares` does). -/
theorem C88_update_nan_fails {tiny ulp : ℝ} {o : ScipyOracles} {e : Elsewhere} {d : Dist} {links : List LinkClass}
    {M : MethodOps μ} {m : μ} (hM : NanThrough M m) {c : GConfig μ p} {data : List (Obs p)} {s t : GState μ p} {u : Unit}
    (h : GState.update (d.ops tiny ulp o e links) M c data s = (.ok u, t)) (it : ℕ) (hit : t.itOuter = some it) (h1 : 1 ≤ it)
    {k : ℕ} (hk : k ∈ s.paramOrder) (h2 : k < 2) (hm : s.method k = some m) {y0 : Arr1} (hy : s.yGram k = some y0)
    (h0 : y0 ≠ []) (hfi : s.fitIntercept.get? k = some true) {a : ℝ} (ha : a ∈ ys data) (hz : d.InflatedAt a) : Broken m k t := by
  obtain ⟨r⟩ := update_ok h
  have e1 : it = r.it := by
    rw [r.once.2.1] at hit; exact (Option.some.inj hit).symm
  have hz' : d.WhereZero a k := by
    cases d <;> first | exact ⟨hz, h2⟩ | exact hz.elim
  refine r.broken (ops_keepsLength tiny ulp o e d links) hM hk hm hy h0 hfi (.inr fun fv wk hl hw => ?_) (.inl (e1 ▸ h1))
  obtain ⟨g1, g2, g3⟩ := working_nan hw (by rw [hl]; simp [ys]) ha hz'
  exact ⟨g1, g2.trans (by simp [ys]), g3.trans (by simp [ys])⟩

/-- Coefficients that are NaN stay NaN: no further update, whatever its data, repairs them.  Only `fit` does. -/
theorem C88_stays_nan_fails {D : DistOps} (hD : KeepsLength D) {M : MethodOps μ} {m : μ} (hM : NanThrough M m)
    {c : GConfig μ p} {k : ℕ} (bs : List (List (Obs p))) {s t : GState μ p} {u : Unit} (hb : Broken m k s) (hk : k ∈ s.paramOrder)
    (hfi : s.fitIntercept.get? k = some true) (h : GState.updates D M c bs s = (.ok u, t)) : Broken m k t := by
  induction bs generalizing s with
  | nil =>
    obtain ⟨_, rfl⟩ := Py.pure_ok_iff.1 h
    exact hb
  | cons b bs ih =>
    unfold GState.updates at h
    obtain ⟨_, s', h1, h⟩ := Py.bind_ok_iff.1 h
    obtain ⟨r⟩ := update_ok h1
    obtain ⟨y0, hy, h0, hn⟩ := hb.yGram
    have hs2 : SameSetup r.s1 r.s2 := (Py.Triple.ok (outerUpdate_committed _ _ r.s1) (SameCommitted.refl _) r.hloop).setup
    have eor : r.s1.paramOrder = s.paramOrder := r.proj GState.paramOrder (fun _ => rfl) fun _ _ => rfl
    have efi : r.s1.fitIntercept = s.fitIntercept := r.proj GState.fitIntercept (fun _ => rfl) fun _ _ => rfl
    have t1 : s'.paramOrder = s.paramOrder := ((congrArg GState.paramOrder r.ht).trans rfl).trans (hs2.paramOrder.trans eor)
    have t2 : s'.fitIntercept = s.fitIntercept :=
      ((congrArg GState.fitIntercept r.ht).trans rfl).trans (hs2.fitIntercept.trans efi)
    exact ih (r.broken hD hM hk hb.method hy h0 hfi (.inl hn) (.inr hb)) (by rw [t1]; exact hk) (by rw [t2]; exact hfi) h

/-- What does hold.  In an inner iteration of `update` in which no row is at an inflated point (and nothing is clipped): if the
statistics of ordinary least squares, the design matrix and the inverse Gramian are finite, the new Gramian of the response
and the new coefficients are finite.  Missing from the full claim: the rows at inflated points, for which it is false, and the
inverse Gramian, which stays finite only while the update of the inverse does not divide by zero. -/
theorem C88_update_finite_partial {tiny ulp : ℝ} {o : ScipyOracles} {e : Elsewhere} {d : Dist} {links : List LinkClass}
    {L : LinkClass} {k : ℕ} (ht : 0 < tiny) (hu : 0 < ulp) (hk : k < d.nParams) (hL : links[k]? = some L)
    (data : List (ℝ × (ℕ → Flt)))
    (h : ∀ q ∈ data, q.1 ∈ d.Responses ∧ d.WorkRow tiny ulp L k q.2 ∧ ¬ d.Degenerate q.1 k)
    {X : Arr2} {y0 : Arr1} (hX : ∀ j < y0.length, AllFin (colOf X j)) (hX0 : X ≠ []) (hXl : X.length = data.length) {w : List ℝ} (hw : ∀ v ∈ w, 0 ≤ v)
    (hwl : w.length = data.length) {forget : ℝ} (hf : forget < 1) {G : Arr2} (hG : ∀ r ∈ G, AllFin r)
    (hy0 : AllFin y0) (base : MethodOps MethodState) (b : Arr1) (reg : List Bool) :
    ∃ wk y1, working (d.ops tiny ulp o e links) updateClip (data.map Prod.fst) (data.map Prod.snd) k = .ok wk ∧
      (fltOls base).updateY .ols y0 X wk.wv (wmul w wk.wt) forget = .ok y1 ∧ AllFin y1 ∧
      ∀ r, (fltOls base).updateBeta .ols G y1 b reg = .ok r → AllFin r.1 := by
  obtain ⟨W, Z, hwk, hWZ⟩ := Dist.C87_update_partial (o := o) (e := e) ht hu hk hL data h
  have hwn : AllNonneg (wmul w (data.map fun q => .fin (W q))) := AllNonneg.wmul hw fun v hv => by
    obtain ⟨q, hq, rfl⟩ := List.mem_map.1 hv
    exact ⟨W q, (hWZ q hq).1.le, rfl⟩
  have hy1 := updateYGramFlt_fin (forget := forget) hy0 hX hX0 (AllFin.map data Z) (by simp [hXl]) hwn
    (by simp [wmul, hwl, hXl]) hf
  refine ⟨_, _, hwk, rfl, hy1, fun r hr => ?_⟩
  change (matVec G _).map _ = _ at hr
  cases hm : matVec G (updateYGramFlt y0 X (data.map fun q => .fin (Z q)) (wmul w (data.map fun q => .fin (W q))) forget) with
  | error _ => rw [hm] at hr; cases hr
  | ok v =>
    rw [hm] at hr
    obtain rfl := Except.ok.inj hr
    exact matVec_fin hG hy1 hm

/-- In `fit` the weights are at least 1e-10, so that the working vectors are finite at inflated points as well. -/
theorem C88_fit_finite_partial {tiny ulp : ℝ} {o : ScipyOracles} {e : Elsewhere} {d : Dist} {links : List LinkClass}
    {L : LinkClass} {k : ℕ} (ht : 0 < tiny) (hu : 0 < ulp) (hk : k < d.nParams) (hL : links[k]? = some L)
    (data : List (ℝ × (ℕ → Flt))) (h : ∀ q ∈ data, q.1 ∈ d.Responses ∧ d.WorkRow tiny ulp L k q.2) :
    ∃ wk, working (d.ops tiny ulp o e links) fitClip (data.map Prod.fst) (data.map Prod.snd) k = .ok wk ∧
      AllFin wk.eta ∧ AllNonneg wk.wt ∧ AllFin wk.wv := by
  obtain ⟨W, Z, hwk, hWZ⟩ := Dist.C87_fit (o := o) (e := e) ht hu hk hL data h
  refine ⟨_, hwk, AllFin.map data _, fun v hv => ?_, AllFin.map data Z⟩
  obtain ⟨q, hq, rfl⟩ := List.mem_map.1 hv
  exact ⟨W q, le_trans (by norm_num) (hWZ q hq).1, rfl⟩

/-- The hypotheses are met by a gamma regression with default links at mean 1 and sigma 1, two responses and an intercept. -/
example (o : ScipyOracles) (e : Elsewhere) (base : MethodOps MethodState) :
    ∃ wk y1, working (Dist.gamma.ops (1 / 10) (1 / 10) o e Dist.gamma.defaultLinks) updateClip [1, 2]
        [fun _ => .fin 1, fun _ => .fin 1] 1 = .ok wk ∧
      (fltOls base).updateY .ols [.fin 3] [[.fin 1], [.fin 1]] wk.wv (wmul [1, 2] wk.wt) (1 / 2) = .ok y1 ∧ AllFin y1 ∧
      ∀ r, (fltOls base).updateBeta .ols [[.fin 2]] y1 [.fin 7] [false] = .ok r → AllFin r.1 := by
  have h1 : ∀ a : ℝ, AllFin [.fin a] := fun a v hv => ⟨a, by simpa using hv⟩
  refine C88_update_finite_partial (d := .gamma) (L := .log) (k := 1) (by norm_num) (by norm_num) (by decide) rfl
    [(1, fun _ => .fin 1), (2, fun _ => .fin 1)] (fun q hq => ?_) (fun j hj => ?_) (by simp) rfl (w := [1, 2]) (by simp) rfl
    (by norm_num) (fun r hr => ?_) (h1 3) base _ _
  · simp only [List.mem_cons, List.not_mem_nil, or_false] at hq
    rcases hq with rfl | rfl <;> exact ⟨by simp [Dist.Responses], Dist.gamma_row (by norm_num) 1 (by norm_num), id⟩
  · obtain rfl : j = 0 := by simpa using hj
    intro v hv
    exact ⟨1, by simpa [colOf] using hv⟩
  · obtain rfl : r = [.fin 2] := by simpa using hr
    exact h1 2

/-- What a successful `fit` with these options leaves as settings. -/
theorem fit_settings {frames : Bool} {D : DistOps} {M : MethodOps μ} {c : GConfig μ p} {m : μ} {fi : Bool} {J : ℕ → ℕ}
    (h : GoodOptions frames D c m fi J) {data : List (Obs p)} {s t : GState μ p} {u : Unit}
    (hf : GState.fit frames D M c data s = (.ok u, t)) :
    (∀ k < D.nParams, k ∈ t.paramOrder ∧ t.fitIntercept.get? k = some fi) ∧ 1 ≤ t.minIt := by
  obtain ⟨r⟩ := fit_ok hf
  have hP : Prepared D c m fi r.sP := by
    obtain ⟨_, s', h1, h2⟩ := prepare_total (M := M) h s trivial
    have := h1.symm.trans r.hprepare
    rw [← (Prod.mk.inj this).2]
    exact h2
  have hset := (outerFit_setup _ _ _).ok (SameSetup.refl _) r.hloop
  have e1 : t.paramOrder = r.sP.paramOrder :=
    ((congrArg GState.paramOrder r.ht).trans rfl).trans (hset.paramOrder.trans (by unfold_start))
  have e2 : t.fitIntercept = r.sP.fitIntercept :=
    ((congrArg GState.fitIntercept r.ht).trans rfl).trans (hset.fitIntercept.trans (by unfold_start))
  have e3 : t.minIt = if 0 < c.prefitInitial then c.prefitInitial else c.minItOuter :=
    ((congrArg GState.minIt r.ht).trans rfl).trans (hset.minIt.trans (by unfold_start))
  refine ⟨fun k hk => ⟨by rw [e1]; exact (hP.order k).2 hk, by rw [e2]; exact hP.fitIntercept k hk⟩, ?_⟩
  rw [e3]
  have := h.minIt.1
  split <;> omega

/-- An update after such a fit iterates at least once. -/
theorem update_iterates {D : DistOps} {M : MethodOps μ} {c : GConfig μ p} {data : List (Obs p)} {s t : GState μ p} {u : Unit}
    (h : GState.update D M c data s = (.ok u, t)) (hp : s.paramOrder ≠ []) (h1 : 1 ≤ s.minIt) (h2 : 1 ≤ c.minItOuter) :
    ∃ it, t.itOuter = some it ∧ 1 ≤ it := by
  obtain ⟨it, e, _, hle⟩ := C58_update_outer h hp
  refine ⟨it, e, le_trans ?_ hle⟩
  obtain ⟨r⟩ := update_ok h
  have hs2 : SameSetup r.s1 r.s2 := (Py.Triple.ok (outerUpdate_committed _ _ r.s1) (SameCommitted.refl _) r.hloop).setup
  have hmin : t.minIt = r.s1.minIt := ((congrArg GState.minIt r.ht).trans rfl).trans hs2.minIt
  rw [hmin]
  have h0 : 1 ≤ (updateStart c (r.nObs0 + (ws data).sum) r.nt r.fv r.sc s).minIt := by
    change 1 ≤ if 0 < c.prefitUpdate then c.prefitUpdate else s.minIt
    split <;> omega
  rcases cautious_ok r.hcautious with ⟨_, e⟩ | ⟨_, e | e⟩
  · rw [e]; exact h0
  · rw [e]; change 1 ≤ 4; omega
  · rw [e]; exact h2

/-- The whole story: for every inflated distribution, every choice of links, options, training data and oracles, with an
intercept and an estimation method that propagates NaN (such as ordinary least squares), the `fit` succeeds, the `update`
with a batch containing an inflated response in the support succeeds as well, and then the coefficients of location and
scale are NaN. -/
theorem C88_fit_then_update_fails {tiny ulp : ℝ} {o : ScipyOracles} {e : Elsewhere} {d : Dist} {links : List LinkClass}
    (hl : d.nParams ≤ links.length) {frames : Bool} {M : MethodOps μ} {m : μ} (hM : NanThrough M m) {c : GConfig μ p}
    (hcond : c.condStartVal = false) {J : ℕ → ℕ} (K : ∀ k, MethodContract M (J k))
    (hK : ∀ k < d.nParams, ∀ m', (K k).Ok m' ↔ m' = m) (hG : ∀ k < d.nParams, ∀ g, (K k).Gy g → g ≠ [])
    (h : GoodOptions frames (d.ops tiny ulp o e links) c m true J) (hp : p ≠ 0) {data : List (Obs p)} (h2 : 2 ≤ data.length)
    (hw : ∀ o ∈ data, 0 < o.w) (hy : ¬ OutOfSupport (d.ops tiny ulp o e links) (ys data)) {batch : List (Obs p)}
    (hb : GoodBatch (d.ops tiny ulp o e links) c batch) (hF : TakesFirst (d.ops tiny ulp o e links) c K data)
    (hU : TakesLater (d.ops tiny ulp o e links) c K batch) (hR : TakesFlags (d.ops tiny ulp o e links) c K true) {a : ℝ} (ha : a ∈ ys batch) (hz : d.InflatedAt a) (s : GState μ p) :
    ∃ t1 t2, GState.fit frames (d.ops tiny ulp o e links) M c data s = (.ok (), t1) ∧
      GState.update (d.ops tiny ulp o e links) M c batch t1 = (.ok (), t2) ∧ Broken m 0 t2 ∧ Broken m 1 t2 := by
  have hD := regular_ops tiny ulp o e d links hl
  have hn : 2 ≤ d.nParams := by cases d <;> first | exact hz.elim | simp [Dist.nParams]
  have hn' : (d.ops tiny ulp o e links).nParams = d.nParams := rfl
  obtain ⟨⟨⟩, t1, e1, g1⟩ := fit_total hD (by simp [hcond]) K (fun k hk => (hK k hk m).2 rfl) h hp h2 hw hy hF hR s trivial
  obtain ⟨⟨⟩, t2, e2, _⟩ := update_total hD (by simp [hcond]) K h.valid h.minIt.2 h.prefit.2 hp hb hU t1 g1
  obtain ⟨hset, hmin⟩ := fit_settings h e1
  obtain ⟨it, hit, hit1⟩ := update_iterates e2 (List.ne_nil_of_mem (hset 0 (by omega)).1) hmin h.minIt.1
  have main : ∀ k < 2, Broken m k t2 := fun k hk => by
    have hkn : k < d.nParams := by omega
    obtain ⟨m', hm', hok⟩ := g1.setup.method k hkn
    obtain rfl := (hK k hkn m').1 hok
    obtain ⟨g, hg, hg'⟩ := (g1.stored k hkn).yGram
    exact C88_update_nan_fails hM e2 it hit hit1 (hset k hkn).1 hk hm' hg (hG k hkn g hg') (hset k hkn).2 ha hz
  exact ⟨t1, t2, e1, e2, main 0 (by omega), main 1 (by omega)⟩

/-! ### A concrete case -/

/-- A method object on which the two functions of `OrdinaryLeastSquares` can be put: it keeps the identity as inverse Gramian
and zero as Gramian of the response. -/
def unitBase : MethodOps MethodState where
  ols := .ols
  pathBased := fun _ => false
  initX := fun _ X _ _ => .ok (List.replicate (width X) (List.replicate (width X) (.fin 1)))
  initY := fun _ X _ _ _ => .ok (List.replicate (width X) (.fin 0))
  updateX := fun _ G _ _ _ => .ok G
  updateY := fun _ h _ _ _ _ => .ok h
  fitBeta := fun m _ h _ => .ok (h, m)
  updateBeta := fun m _ h _ _ => .ok (h, m)
  fitPath := fun _ _ _ _ => .error .notImplemented
  updatePath := fun _ _ _ _ _ => .error .notImplemented

/-- It behaves as the estimator expects. -/
noncomputable def unitContract (J : ℕ) : MethodContract (fltOls unitBase) J where
  Ok := fun m => m = .ols
  Gx := fun G => G.length = J ∧ ∀ r ∈ G, r.length = J
  Gy := fun h => h.length = J
  L := 1
  isPath := false
  pos := Nat.one_pos
  path := fun _ _ => rfl
  initX := fun _ _ X hX hJ' _ _ _ _ _ _ => ⟨_, rfl, by simp [width_of hX hJ']⟩
  initY := fun _ _ X hX hJ' y _ _ _ _ _ _ _ => ⟨_, rfl, by simp [width_of hX hJ']⟩
  updateX := fun _ _ g hg _ _ _ _ _ _ _ _ _ => ⟨g, rfl, hg⟩
  updateY := by
    rintro _ rfl g hg X _ _ y w _ _ _ f _ _
    exact ⟨_, rfl, by rw [updateYGramFlt_length]; exact hg⟩
  fitBeta := by
    rintro _ _ rfl G h _ hh _ _ _
    exact ⟨h, .ols, rfl, hh, rfl⟩
  updateBeta := by
    rintro _ _ rfl G h hG hh b _ reg _ _
    have hall : ∀ x ∈ G, x.length = h.length := fun x hx => by rw [hG.2 x hx, hh]
    refine ⟨G.map fun x => dot x h, .ols, ?_, by simp [hG.1], rfl⟩
    change (matVec G h).map _ = _
    unfold matVec
    rw [if_pos hall]
    rfl
  fitPath := fun h => by cases h
  updatePath := fun h => by cases h

/-- The options: intercepts only and ordinary least squares, with the default numbers of iterations and tolerances. -/
noncomputable def nanConfig : GConfig MethodState 1 where
  equation := some [(0, .str "intercept")]
  forget := .value 0
  method := .value (some .ols)
  scaleInputs := .off
  fitIntercept := .value true
  regularizeIntercept := .value false
  ic := .value .aic
  modelSelection := .localRss
  prefitInitial := 0
  prefitUpdate := 0
  stepSize := .value 1
  debug := false
  paramOrder := none
  cautiousUpdates := false
  condStartVal := false
  maxOuter := 30
  maxInner := 30
  absTolOuter := 1 / 1000
  absTolInner := 1 / 1000
  relTolOuter := 1 / 100000
  relTolInner := 1 / 100000
  minItOuter := 1

/-- Two positive responses. -/
def nanData : List (Obs 1) := [⟨fun _ => 0, 1, 1⟩, ⟨fun _ => 0, 2, 1⟩]

/-- A zero. -/
def nanBatch : List (Obs 1) := [⟨fun _ => 0, 0, 1⟩]

/-- A zero adjusted gamma regression with intercepts, fitted to two positive responses and updated with a zero. -/
example (tiny ulp : ℝ) (o : ScipyOracles) (e : Elsewhere) (s : GState MethodState 1) :
    ∃ t1 t2, GState.fit false (Dist.zeroAdjustedGamma.ops tiny ulp o e Dist.zeroAdjustedGamma.defaultLinks) (fltOls unitBase)
        nanConfig nanData s = (.ok (), t1) ∧
      GState.update (Dist.zeroAdjustedGamma.ops tiny ulp o e Dist.zeroAdjustedGamma.defaultLinks) (fltOls unitBase)
        nanConfig nanBatch t1 = (.ok (), t2) ∧ Broken .ols 0 t2 ∧ Broken .ols 1 t2 := by
  have hsup : ∀ y : List ℝ, (∀ v ∈ y, 0 ≤ v) →
      ¬ OutOfSupport (Dist.zeroAdjustedGamma.ops tiny ulp o e Dist.zeroAdjustedGamma.defaultLinks) y := by
    rintro y hy (⟨v, hv, h⟩ | ⟨v, _, h⟩)
    · exact absurd h (not_lt.2 (EReal.coe_nonneg.2 (hy v hv)))
    · exact absurd h not_top_lt
  refine C88_fit_then_update_fails (by decide) (fltOls_nanThrough rfl) rfl (fun _ => unitContract 1) (fun _ _ _ => Iff.rfl)
    (fun k _ g hg => ?_) ⟨?_, rfl, rfl, fun k hk => ?_, fun o h => (by cases h), by decide, by decide⟩ one_ne_zero (by decide) ?_
    (hsup _ ?_) ⟨by decide, hsup _ ?_, fun h => by cases h⟩ (fun _ _ _ _ _ _ _ _ => trivial) (fun _ _ _ _ _ _ _ _ => trivial) (fun _ _ _ => trivial) (a := 0) (by simp [ys, nanBatch]) rfl s
  · rintro rfl
    cases hg
  · simp [GConfig.Valid, nanConfig, OptArg.OnlyValue]
  · have e : nanConfig.equationFor k = .str "intercept" := by
      cases k <;> rfl
    rw [e]
    exact ⟨rfl, by simp, fun _ => rfl, [], .intercept, rfl⟩
  · simp [nanData]
  · simp [ys, nanData]
  · simp [ys, nanBatch]

end Ondil
