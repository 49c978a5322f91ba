import Verif.Lemmas.GamlssToy
import Verif.Props.GamlssPredict
import Verif.Props.GamlssLoops

/-!
# The stored fitted values and the stored deviance: C59 (negative part), C77, C83
-/

namespace Ondil

variable {μ : Type} {p : ℕ}

/-! ### Columns of the fitted values -/

theorem Fv.length_setCol {fv : Fv} {k : ℕ} {a : Arr1} (h : a.length = fv.length) : (fv.setCol k a).length = fv.length := by
  simp [Fv.setCol, h]

theorem Fv.col_setCol_self {fv : Fv} {k : ℕ} {a : Arr1} (h : a.length = fv.length) : (fv.setCol k a).col k = a := by
  unfold Fv.setCol Fv.col
  induction fv generalizing a with
  | nil => simpa using h
  | cons r fv ih =>
    cases a with
    | nil => simp at h
    | cons u a =>
      simp only [List.length_cons, Nat.add_right_cancel_iff] at h
      simp [ih h]

theorem Fv.col_setCol_ne {fv : Fv} {k j : ℕ} (hj : j ≠ k) {a : Arr1} (h : a.length = fv.length) :
    (fv.setCol k a).col j = fv.col j := by
  unfold Fv.setCol Fv.col
  induction fv generalizing a with
  | nil => simp
  | cons r fv ih =>
    cases a with
    | nil => simp at h
    | cons u a =>
      simp only [List.length_cons, Nat.add_right_cancel_iff] at h
      simp [ih h, Function.update_of_ne hj]

theorem matVec_length {X : Arr2} {b a : Arr1} (h : matVec X b = .ok a) : a.length = X.length := by
  unfold matVec at h
  split at h
  · rw [← Except.ok.inj h, List.length_map]
  · cases h

theorem exists_mapM {β γ : Type} {f : β → Except PyErr γ} {l : List β} (h : ∀ a ∈ l, ∃ b, f a = .ok b) :
    ∃ r, l.mapM f = .ok r := by
  obtain ⟨r, hr, _⟩ := mapM_ok_of_forall (Q := fun _ => True) fun a ha => by
    obtain ⟨b, hb⟩ := h a ha
    exact ⟨b, hb, trivial⟩
  exact ⟨r, hr⟩

/-! ### Loops, successful runs only -/

theorem paramLoop_all_ok {σ : Type} {I : σ → Prop} {Q : ℕ → σ → Prop} {f : ℕ → Py σ Flt} (ks : List ℕ)
    (hI : ∀ k ∈ ks, ∀ s t d, I s → f k s = (.ok d, t) → I t) (hQ : ∀ k ∈ ks, ∀ s t d, I s → f k s = (.ok d, t) → Q k t)
    (hkeep : ∀ k ∈ ks, ∀ j, j ≠ k → ∀ s t d, I s → Q j s → f k s = (.ok d, t) → Q j t)
    {d d' : Flt} {s t : σ} (hs : I s) (h : paramLoop f ks d s = (.ok d', t)) :
    I t ∧ ∀ j, (j ∈ ks ∨ Q j s) → Q j t := by
  induction ks generalizing d s with
  | nil =>
    obtain ⟨_, rfl⟩ := Py.pure_ok_iff.1 h
    exact ⟨hs, fun j hj => hj.resolve_left (by simp)⟩
  | cons k ks ih =>
    unfold paramLoop at h
    obtain ⟨d1, s1, hk, h⟩ := Py.bind_ok_iff.1 h
    have hs1 : I s1 := hI k (by simp) _ _ _ hs hk
    obtain ⟨h1, h2⟩ := ih (fun k hk => hI k (by simp [hk])) (fun k hk => hQ k (by simp [hk])) (fun k hk => hkeep k (by simp [hk])) hs1 h
    refine ⟨h1, fun j hj => h2 j ?_⟩
    by_cases hjk : j = k
    · subst hjk
      exact .inr (hQ j (by simp) s s1 d1 hs hk)
    · rcases hj with hj | hj
      · rcases List.mem_cons.1 hj with rfl | hj
        · exact absurd rfl hjk
        · exact .inl hj
      · exact .inr (hkeep k (by simp) j hjk s s1 d1 hs hj hk)

/-- A pass over the parameters ends with the treatment of one of them. -/
theorem paramLoop_final {σ : Type} {I : σ → Prop} {f : ℕ → Py σ Flt} (ks : List ℕ) (hks : ks ≠ [])
    (hI : ∀ k ∈ ks, ∀ s t d, I s → f k s = (.ok d, t) → I t)
    {d d' : Flt} {s t : σ} (hs : I s) (h : paramLoop f ks d s = (.ok d', t)) :
    ∃ k ∈ ks, ∃ s', I s' ∧ f k s' = (.ok d', t) := by
  induction ks generalizing d s with
  | nil => exact absurd rfl hks
  | cons k ks ih =>
    unfold paramLoop at h
    obtain ⟨d1, s1, hk, h⟩ := Py.bind_ok_iff.1 h
    cases ks with
    | nil =>
      obtain ⟨rfl, rfl⟩ := Py.pure_ok_iff.1 h
      exact ⟨k, by simp, s, hs, hk⟩
    | cons j ks =>
      obtain ⟨i, hi, h'⟩ := ih (by simp) (fun k hk => hI k (by simp [List.mem_cons.1 hk])) (hI k (by simp) _ _ _ hs hk) h
      exact ⟨i, List.mem_cons_of_mem _ hi, h'⟩

theorem outerLoop_last_ok {σ : Type} {I : σ → Prop} {stops : ℕ → Flt → Flt → Prop} {body : ℕ → Flt → Py σ Flt}
    (n itO : ℕ) (hI : ∀ it > itO, ∀ d s t d', I s → body it d s = (.ok d', t) → I t) {d e : Flt} {s t : σ} {d' : Flt} {it : ℕ}
    (h : outerLoop stops body n itO d e s = (.ok (some (d', it)), t)) (hs : I s) :
    it = itO ∧ d' = d ∧ t = s ∨ itO < it ∧ ∃ d0 s', I s' ∧ body it d0 s' = (.ok d', t) := by
  induction n generalizing itO d e s with
  | zero =>
    have := (Py.pure_ok_iff.1 h).1
    cases this
  | succ n ih =>
    unfold outerLoop at h
    split at h
    · obtain ⟨h1, h2⟩ := Py.pure_ok_iff.1 h
      simp only [Option.some.injEq, Prod.mk.injEq] at h1
      obtain ⟨rfl, rfl⟩ := h1
      exact .inl ⟨rfl, rfl, h2.symm⟩
    · obtain ⟨d1, s1, hb, h⟩ := Py.bind_ok_iff.1 h
      have hs1 : I s1 := hI (itO + 1) (by omega) d _ _ _ hs hb
      rcases ih (itO + 1) (fun it hit => hI it (by omega)) h hs1 with ⟨rfl, rfl, rfl⟩ | ⟨hlt, h2⟩
      · exact .inr ⟨by omega, d, s, hs, hb⟩
      · exact .inr ⟨by omega, h2⟩

/-! ### One inner loop of the update -/

theorem updateIteration_fvCoef (c : Call μ p) (k itO itI : ℕ) (a : Inner) (fv : Fv) (co : ℕ → Option Arr1) :
    Py.Inv (fun s => s.fv = fv ∧ s.coef = co) (updateIteration c k itO itI a) := by
  unfold updateIteration
  py_inv
  all_goals first
    | exact updateCoefs_keeps c k _ _ _ _ _ (fun s m hs => hs) (fun s m hs => hs)
    | (intro s hs; unfold debugWork; split <;> exact hs)
    | (intro s hs; unfold debugBeta; split <;> exact hs)
    | (intro s hs; split <;> exact hs)

/-- What an inner loop of the update leaves: the last coefficients, the values they give, and their deviance. -/
theorem updateInnerLoop_fitted {c : Call μ p} (hD : KeepsLength c.D) {k itO N : ℕ} (hX : ∀ X, c.X k = some X → X.length = N)
    {fv : Fv} {forget0 : ℝ} {old : Flt} (hfv : fv.length = N) (n itI : ℕ) {a a' : Inner} {s t : GState μ p}
    (h : updateInnerLoop c k itO n itI a s = (.ok a', t)) (hs1 : s.forget.get? 0 = some forget0) (hs2 : s.globalDev = some old)
    (ha : a.fvNew = fv ∨ ∃ v : Arr1, v.length = N ∧ a.fvNew = fv.setCol k v)
    (ho : ∀ o, a.out = some o → ∃ X pred v, c.X k = some X ∧ matVec X o.beta = .ok pred ∧ c.D.linkInverse k pred = .ok v ∧
      v.length = N ∧ a.fvNew = fv.setCol k v ∧ o.dv = updateDeviance c forget0 old a.fvNew) :
    ∀ o, a'.out = some o → ∃ X pred v, c.X k = some X ∧ matVec X o.beta = .ok pred ∧ c.D.linkInverse k pred = .ok v ∧
      v.length = N ∧ a'.fvNew = fv.setCol k v ∧ o.dv = updateDeviance c forget0 old a'.fvNew := by
  induction n generalizing itI a s with
  | zero =>
    obtain ⟨rfl, rfl⟩ := Py.pure_ok_iff.1 h
    exact ho
  | succ n ih =>
    unfold updateInnerLoop at h
    obtain ⟨r, s', hr, h⟩ := Py.bind_ok_iff.1 h
    obtain ⟨st⟩ := updateIteration_ok hr
    have hset : SameSetup s s' := Py.Triple.ok (updateIteration_setup c k itO itI a s) (SameSetup.refl s) hr
    have hlen : st.v.length = N := by
      rw [hD _ _ _ st.hv, matVec_length st.hpred, hX _ st.hX]
    have hcol : r.1.fvNew = fv.setCol k st.v := by
      rw [st.fvNew]
      rcases ha with h1 | ⟨v, h1, h2⟩
      · rw [h1]
      · rw [h2, Fv.setCol_setCol, h1, ← hlen, List.take_length]
    have e1 : st.forget0 = forget0 := Option.some.inj (st.hf0.symm.trans hs1)
    have e2 : st.old = old := Option.some.inj (st.hold.symm.trans hs2)
    have hout : ∀ o, r.1.out = some o → ∃ X pred v, c.X k = some X ∧ matVec X o.beta = .ok pred ∧
        c.D.linkInverse k pred = .ok v ∧ v.length = N ∧ r.1.fvNew = fv.setCol k v ∧
        o.dv = updateDeviance c forget0 old r.1.fvNew := by
      intro o ho
      rw [st.out] at ho
      simp only [Option.some.injEq] at ho
      subst ho
      exact ⟨st.X, st.pred, st.v, st.hX, st.hpred, st.hv, hlen, hcol, by rw [st.fvNew, e1, e2]⟩
    split at h
    · obtain ⟨rfl, rfl⟩ := Py.pure_ok_iff.1 h
      exact hout
    · exact ih (itI + 1) h (by rw [hset.forget]; exact hs1) (by rw [hset.globalDev]; exact hs2) (.inr ⟨_, hlen, hcol⟩) hout

/-- The stored values of parameter `k` are those of the stored coefficients. -/
def FittedBy (c : Call μ p) (k : ℕ) (t : GState μ p) : Prop :=
  ∃ X b pred, c.X k = some X ∧ t.coef k = some b ∧ matVec X b = .ok pred ∧ c.D.linkInverse k pred = .ok (t.fv.col k)

/-- One inner loop of the update: the parameter gets the values of its new coefficients, nothing else changes, and the
deviance returned is the one of the stored values. -/
theorem innerUpdate_fitted {c : Call μ p} (hD : KeepsLength c.D) {itO k N : ℕ} (hX : ∀ X, c.X k = some X → X.length = N)
    {s t : GState μ p} {d : Flt} (hfv : s.fv.length = N) (h : innerUpdate c itO k s = (.ok d, t)) :
    t.fv.length = N ∧ FittedBy c k t ∧ (∀ j, j ≠ k → t.fv.col j = s.fv.col j ∧ t.coef j = s.coef j) ∧
      ∃ forget0 old, s.forget.get? 0 = some forget0 ∧ s.globalDev = some old ∧ d = updateDeviance c forget0 old t.fv := by
  unfold innerUpdate at h
  rw [Py.bind_self] at h
  obtain ⟨forget0, ss2, hh2, h⟩ := Py.bind_ok_iff.1 h
  obtain ⟨hf0, ee1⟩ := Py.attr_ok_iff.1 hh2
  rw [ee1] at h
  clear ee1
  obtain ⟨old, ss3, hh3, h⟩ := Py.bind_ok_iff.1 h
  obtain ⟨hold, ee2⟩ := Py.attr_ok_iff.1 hh3
  rw [ee2] at h
  clear ee2
  obtain ⟨n, ss4, hh4, h⟩ := Py.bind_ok_iff.1 h
  obtain ⟨hn, ee3⟩ := Py.call_ok_iff.1 hh4
  rw [ee3] at h
  clear ee3
  obtain ⟨a, s2, hloop, h⟩ := Py.bind_ok_iff.1 h
  obtain ⟨o, ss5, hh5, h⟩ := Py.bind_ok_iff.1 h
  obtain ⟨ho, ee4⟩ := Py.attr_ok_iff.1 hh5
  rw [ee4] at h
  clear ee4
  obtain ⟨forget, ss6, hh6, h⟩ := Py.bind_ok_iff.1 h
  obtain ⟨hf, ee5⟩ := Py.attr_ok_iff.1 hh6
  rw [ee5] at h
  clear ee5
  obtain ⟨sumW, ss7, hh7, h⟩ := Py.bind_ok_iff.1 h
  obtain ⟨hsw, ee6⟩ := Py.attr_ok_iff.1 hh7
  rw [ee6] at h
  clear ee6
  obtain ⟨nTr, ss8, hh8, h⟩ := Py.bind_ok_iff.1 h
  obtain ⟨hnt, ee7⟩ := Py.attr_ok_iff.1 hh8
  rw [ee7] at h
  clear ee7
  obtain ⟨_, s3, hh9, h⟩ := Py.bind_ok_iff.1 h
  have ht := Py.set_ok_iff.1 hh9
  obtain ⟨rfl, rfl⟩ := Py.pure_ok_iff.1 h
  obtain ⟨X, pred, v, hX1, hp, hv, hlen, hfvn, hdv⟩ := updateInnerLoop_fitted hD hX hfv n 0 hloop hf0 hold (.inl rfl)
    (by simp) o ho
  have hkeep := (updateInnerLoop_inv c k itO (fun itI a => updateIteration_fvCoef c k itO itI a s.fv s.coef) n 0 _).ok
    ⟨rfl, rfl⟩ hloop
  have efv : s3.fv = s.fv.setCol k v := by
    rw [ht]
    change s2.fv.setCol k (a.fvNew.col k) = _
    rw [hkeep.1, hfvn, Fv.setCol_col]
  have eco : s3.coef = Function.update s.coef k (some o.beta) := by
    rw [ht]
    change Function.update s2.coef k (some o.beta) = _
    rw [hkeep.2]
  have hlen' : v.length = s.fv.length := hlen.trans hfv.symm
  refine ⟨?_, ⟨X, o.beta, pred, hX1, ?_, hp, ?_⟩, fun j hj => ⟨?_, ?_⟩, forget0, old, hf0, hold, ?_⟩
  · rw [efv, Fv.length_setCol hlen', hfv]
  · rw [eco, Function.update_self]
  · rw [efv, Fv.col_setCol_self hlen', hv]
  · rw [efv, Fv.col_setCol_ne hj hlen']
  · rw [eco, Function.update_of_ne hj]
  · rw [hdv, hfvn, efv]

/-- The loops of a successful update that made at least one outer iteration: every parameter is fitted by the stored
coefficients, and the stored deviance is the one of the stored values. -/
theorem UpdateRun.fitted {D : DistOps} (hD : KeepsLength D) {M : MethodOps μ} {c : GConfig μ p} {data : List (Obs p)}
    {s t : GState μ p} (r : UpdateRun D M c data s t) (hp : s.paramOrder ≠ []) :
    t.fv.length = data.length ∧ (1 ≤ r.it → ∀ k ∈ s.paramOrder, FittedBy ⟨D, M, c, r.X.get?, ys data, ws data⟩ k t) ∧
      ∃ old, s.globalDev = some old ∧
        t.globalDev = some (updateDeviance ⟨D, M, c, r.X.get?, ys data, ws data⟩ r.forget0 old t.fv) := by
  set C : Call μ p := ⟨D, M, c, r.X.get?, ys data, ws data⟩ with hC
  have hloop := r.hloop
  unfold outerUpdate at hloop
  rw [Py.bind_self] at hloop
  obtain ⟨f0, ss1, hh1, hloop⟩ := Py.bind_ok_iff.1 hloop
  obtain ⟨hf0, e1⟩ := Py.attr_ok_iff.1 hh1
  rw [e1] at hloop
  obtain ⟨old, ss2, hh2, hloop⟩ := Py.bind_ok_iff.1 hloop
  obtain ⟨hold, e2⟩ := Py.attr_ok_iff.1 hh2
  rw [e2] at hloop
  have eor : r.s1.paramOrder = s.paramOrder := r.proj GState.paramOrder (fun _ => rfl) fun _ _ => rfl
  have efo : r.s1.forget = s.forget := r.proj GState.forget (fun _ => rfl) fun _ _ => rfl
  have egd : r.s1.globalDev = s.globalDev := r.proj GState.globalDev (fun _ => rfl) fun _ _ => rfl
  have efv : r.s1.fv = r.fv := r.proj GState.fv (fun _ => rfl) fun _ _ => rfl
  have hf0' : f0 = r.forget0 := by
    rw [efo, r.hforget0] at hf0
    exact (Option.some.inj hf0).symm
  subst hf0'
  have hold' : s.globalDev = some old := by rw [← egd]; exact hold
  have hn : r.fv.length = data.length := by
    have := r.hfv
    unfold predictParams at this
    obtain ⟨etas, _, this⟩ := bind_ok.1 this
    obtain ⟨cols, _, this⟩ := bind_ok.1 this
    rw [← Except.ok.inj this]
    simp [Fv.stack, xs]
  have hX : ∀ k X, C.X k = some X → X.length = data.length := by
    intro k X hk
    have := designFor_length (forParams_get? r.hX hk).2
    simpa [xs] using this
  let I : GState μ p → Prop := fun u => u.fv.length = data.length ∧ u.forget.get? 0 = some r.forget0 ∧ u.globalDev = some old
  have hstep : ∀ it k (u v : GState μ p) d, I u → innerUpdate C it k u = (.ok d, v) → I v := by
    intro it k u v d hu h
    have hset : SameSetup u v := (Py.Triple.ok (innerUpdate_committed C it k u) (SameCommitted.refl u) h).setup
    exact ⟨(innerUpdate_fitted hD (hX k) hu.1 h).1, by rw [hset.forget]; exact hu.2.1, by rw [hset.globalDev]; exact hu.2.2⟩
  have hkeep : ∀ it k j, j ≠ k → ∀ (u v : GState μ p) d, I u → FittedBy C j u → innerUpdate C it k u = (.ok d, v) → FittedBy C j v := by
    intro it k j hj u v d hu ⟨X, b, pred, h1, h2, h3, h4⟩ h
    obtain ⟨_, _, h5, _⟩ := innerUpdate_fitted hD (hX k) hu.1 h
    exact ⟨X, b, pred, h1, (h5 j hj).2.trans h2, h3, by rw [(h5 j hj).1]; exact h4⟩
  have hs1 : I r.s1 := ⟨by rw [efv]; exact hn, hf0, hold⟩
  have hpass : ∀ it > 0, ∀ d (u v : GState μ p) d', I u → paramLoop (innerUpdate C it) r.s1.paramOrder d u = (.ok d', v) → I v :=
    fun it _ d u v d' hu h => (paramLoop_all_ok (Q := FittedBy C) _ (fun k _ s t d hs h => hstep it k s t d hs h)
      (fun k _ s t d hs h => (innerUpdate_fitted hD (hX k) hs.1 h).2.1) (fun k _ j hj s t d hs hq h => hkeep it k j hj s t d hs hq h)
      hu h).1
  have t1 : t.fv = r.s2.fv := (congrArg GState.fv r.ht).trans rfl
  have t2 : t.coef = r.s2.coef := (congrArg GState.coef r.ht).trans rfl
  have t3 : t.globalDev = some r.dev := (congrArg GState.globalDev r.ht).trans rfl
  have hfit : ∀ k, FittedBy C k r.s2 → FittedBy C k t := by
    rintro k ⟨X, b, pred, h1, h2, h3, h4⟩
    exact ⟨X, b, pred, h1, by rw [t2]; exact h2, h3, by rw [t1]; exact h4⟩
  rcases outerLoop_last_ok (I := I) _ 0 hpass hloop hs1 with ⟨h1, h2, h3⟩ | ⟨_, d0, s', hs', hb⟩
  · refine ⟨by rw [t1, h3]; exact hs1.1, fun h => by omega, old, hold', ?_⟩
    rw [t3, h2, t1, h3]
  · obtain ⟨h1, h2⟩ := paramLoop_all_ok (Q := FittedBy C) _ (fun k _ s t d hs h => hstep r.it k s t d hs h)
      (fun k _ s t d hs h => (innerUpdate_fitted hD (hX k) hs.1 h).2.1)
      (fun k _ j hj s t d hs hq h => hkeep r.it k j hj s t d hs hq h) hs' hb
    refine ⟨by rw [t1]; exact h1.1, fun _ k hk => hfit k (h2 k (.inl (eor ▸ hk))), old, hold', ?_⟩
    obtain ⟨k, _, u, hu, hk⟩ := paramLoop_final _ (eor ▸ hp) (fun k _ s t d hs h => hstep r.it k s t d hs h) hs' hb
    obtain ⟨_, _, _, f, o, hf, ho, hd⟩ := innerUpdate_fitted hD (hX k) hu.1 hk
    rw [t3, hd, t1, Option.some.inj (hf.symm.trans hu.2.1), Option.some.inj (ho.symm.trans hu.2.2)]

/-! ### C77: the stored fitted values are the predictions for the last batch -/

/-- If the inverse link of the predictor of every parameter gives the stored fitted values, so does the prediction. -/
theorem predict_of_columns {D : DistOps} {t : GState μ p} {n : ℝ} {sc : Scaler p} {X : List (Row p)} (t1 : t.nObs = some n)
    (hsc : t.scaler = some sc) (hX : X ≠ []) (hlen : t.fv.length = X.length)
    (hk : ∀ k < D.nParams, ∃ A b pred, designFor t sc X k = .ok A ∧ t.coef k = some b ∧ matVec A b = .ok pred ∧
      D.linkInverse k pred = .ok (t.fv.col k)) :
    ∃ th, predictParams D t X .response = .ok th ∧ th.length = t.fv.length ∧ ∀ k < D.nParams, th.col k = t.fv.col k := by
  obtain ⟨x, X0, hx⟩ := List.exists_cons_of_ne_nil hX
  have hlin : ∃ etas, linearPredictors D t X = .ok etas ∧ etas.length = D.nParams ∧
      ∀ k (hk : k < etas.length), D.linkInverse k etas[k] = .ok (t.fv.col k) := by
    have hm : ∃ etas, ((List.range D.nParams).mapM fun k => do
        let A ← designFor t sc X k
        match t.coef k with
        | none => Except.error PyErr.attributeError
        | some b => matVec A b) = .ok etas := by
      refine exists_mapM fun k hk' => ?_
      obtain ⟨A, b, pred, h1, h2, h3, _⟩ := hk k (List.mem_range.1 hk')
      exact ⟨pred, by rw [h1, h2]; exact h3⟩
    obtain ⟨etas, he⟩ := hm
    obtain ⟨g1, g2⟩ := mapM_ok_get he
    rw [List.length_range] at g1
    refine ⟨etas, ?_, g1, fun k hk' => ?_⟩
    · unfold linearPredictors
      rw [t1, hsc, hx]
      simp only
      rw [← hx]
      exact he
    · have := g2 k (by rw [List.length_range]; omega) hk'
      rw [List.getElem_range] at this
      obtain ⟨A, b, pred, h1, h2, h3, h4⟩ := hk k (by omega)
      rw [h1, h2] at this
      have h5 : matVec A b = .ok etas[k] := this
      rw [h3] at h5
      rw [← Except.ok.inj h5]
      exact h4
  obtain ⟨etas, he, hel, hev⟩ := hlin
  have hcols : ∃ cols, ((etas.zip (List.range D.nParams)).mapM fun e => D.linkInverse e.2 e.1) = .ok cols := by
    refine exists_mapM fun e he => ?_
    obtain ⟨i, hi, rfl⟩ := List.getElem_of_mem he
    simp only [List.getElem_zip, List.getElem_range]
    exact ⟨_, hev i (by simp at hi; omega)⟩
  obtain ⟨cols, hcol⟩ := hcols
  obtain ⟨g1, g2⟩ := mapM_ok_get hcol
  have hz : (etas.zip (List.range D.nParams)).length = D.nParams := by simp [hel]
  refine ⟨Fv.stack X.length cols, ?_, ?_, fun k hk' => ?_⟩
  · unfold predictParams
    rw [he]
    simp only [bind, Except.bind, hcol, pure, Except.pure]
  · rw [hlen]; simp [Fv.stack]
  · have hkc : k < cols.length := by omega
    have h5 := g2 k (by omega) hkc
    simp only [List.getElem_zip, List.getElem_range] at h5
    rw [hev k (by omega)] at h5
    have h6 := Except.ok.inj h5
    rw [col_stack hkc (by rw [← h6]; simp [Fv.col, hlen]), h6]

/-- After a successful update that made at least one outer iteration, predicting the distribution parameters for the rows
of the batch gives the stored fitted values, for every distribution whose inverse links keep the shape, every estimation
method and every configuration whose parameter order names all parameters. -/
theorem C77_update {D : DistOps} (hD : KeepsLength D) {M : MethodOps μ} {c : GConfig μ p} {data : List (Obs p)}
    {s t : GState μ p} {u : Unit} (h : GState.update D M c data s = (.ok u, t)) (it : ℕ) (hit : t.itOuter = some it) (h1 : 1 ≤ it)
    (hall : ∀ k < D.nParams, k ∈ s.paramOrder) (hpos : 0 < D.nParams) :
    ∃ th, predictParams D t (xs data) .response = .ok th ∧ th.length = t.fv.length ∧
      ∀ k < D.nParams, th.col k = t.fv.col k := by
  obtain ⟨r⟩ := update_ok h
  obtain ⟨hlen, hfit, _⟩ := r.fitted hD (List.ne_nil_of_mem (hall 0 hpos))
  obtain ⟨hsc, hit', _⟩ := r.once
  have e : it = r.it := by
    rw [hit'] at hit; exact (Option.some.inj hit).symm
  subst e
  have hfit := hfit h1
  have hs2 : SameSetup r.s1 r.s2 := (Py.Triple.ok (outerUpdate_committed _ _ r.s1) (SameCommitted.refl _) r.hloop).setup
  have ens : r.s1.nObs = some (r.nObs0 + (ws data).sum) := r.proj GState.nObs (fun _ => rfl) fun _ _ => rfl
  have eeq : r.s1.equation = s.equation := r.proj GState.equation (fun _ => rfl) fun _ _ => rfl
  have efi : r.s1.fitIntercept = s.fitIntercept := r.proj GState.fitIntercept (fun _ => rfl) fun _ _ => rfl
  have t1 : t.nObs = some (r.nObs0 + (ws data).sum) := ((congrArg GState.nObs r.ht).trans rfl).trans (hs2.nObs.trans ens)
  have t2 : t.equation = s.equation := ((congrArg GState.equation r.ht).trans rfl).trans (hs2.equation.trans eeq)
  have t3 : t.fitIntercept = s.fitIntercept := ((congrArg GState.fitIntercept r.ht).trans rfl).trans (hs2.fitIntercept.trans efi)
  have hdesign : ∀ k, designFor t r.sc (xs data) k = designFor s r.sc (xs data) k := by
    intro k
    unfold designFor
    rw [t2, t3]
  have hne : data ≠ [] := fun e => r.nonempty (.inl e)
  -- the linear predictors
  have hk : ∀ k < D.nParams, ∃ A b pred, designFor t r.sc (xs data) k = .ok A ∧ t.coef k = some b ∧ matVec A b = .ok pred ∧
      D.linkInverse k pred = .ok (t.fv.col k) := by
    intro k hk
    obtain ⟨A, b, pred, h1, h2, h3, h4⟩ := hfit k (hall k hk)
    exact ⟨A, b, pred, by rw [hdesign]; exact (forParams_get? r.hX h1).2, h2, h3, h4⟩
  exact predict_of_columns t1 hsc (by simpa [xs] using hne) (by rw [hlen]; simp [xs]) hk

/-- **C77 fails for `fit`** with a step size below one: the stored values are those of the damped step, the stored
coefficients those of the full step.  Witness: one outer iteration with step size one half; the fitted parameter is one
half, the prediction for the training rows is one. -/
theorem C77_step_size_fails (g : ℝ → Flt) (s : GState Unit 1) :
    ∃ t, GState.fit false (walkDist g) firstMethod (walkConfig (1 / 2) 1) walkData s = (.ok (), t) ∧
      t.fv.col 0 = [.fin (1 / 2), .fin (1 / 2)] ∧
      ∃ th, predictParams (walkDist g) t (xs walkData) .response = .ok th ∧ th.col 0 = [.fin 1, .fin 1] := by
  obtain ⟨t, h⟩ := walk_fit g (1 / 2) 1 le_rfl s
  obtain ⟨⟨r1, r2, hfv, h1, h2⟩, hco, _⟩ := walk_one h
  obtain ⟨th, hth, q1, q2, rfl, h3, h4⟩ := walk_predict h hco
  exact ⟨t, h, by simp [hfv, Fv.col, h1, h2], _, hth, by simp [Fv.col, h3, h4]⟩

/-! ### C83: the stored deviance is the one of the stored fitted values -/

/-- After every successful update, the stored deviance is the deviance of the batch at the stored fitted values plus the
discounted deviance stored before. -/
theorem C83_update {D : DistOps} (hD : KeepsLength D) {M : MethodOps μ} {c : GConfig μ p} {data : List (Obs p)}
    {s t : GState μ p} {u : Unit} (h : GState.update D M c data s = (.ok u, t)) (hp : s.paramOrder ≠ []) :
    ∃ forget0 old, s.forget.get? 0 = some forget0 ∧ s.globalDev = some old ∧
      t.globalDev = some (Flt.add (deviance D (ys data) (ws data) t.fv)
        (Flt.mul (.fin ((1 - forget0) ^ data.length)) old)) := by
  obtain ⟨r⟩ := update_ok h
  obtain ⟨_, _, old, h1, h2⟩ := r.fitted hD hp
  refine ⟨r.forget0, old, r.hforget0, h1, h2.trans ?_⟩
  simp [updateDeviance, batchDiscount, ys]

/-- The deviance an inner loop of the fit returns is the one of the stored values, or larger. -/
theorem innerFit_dev {c : Call μ p} {itO k : ℕ} {s t : GState μ p} {d : Flt} (h : innerFit c itO k s = (.ok d, t)) :
    d = deviance c.D c.y c.w t.fv ∨ Flt.lt (deviance c.D c.y c.w t.fv) d := by
  unfold innerFit at h
  rw [Py.bind_self] at h
  obtain ⟨n, s1, hh, h⟩ := Py.bind_ok_iff.1 h
  obtain ⟨hn, ee8⟩ := Py.call_ok_iff.1 hh
  rw [ee8] at h
  clear ee8
  obtain ⟨a, s2, hl, h⟩ := Py.bind_ok_iff.1 h
  have hfv2 : s2.fv = s.fv :=
    (fitInnerLoop_inv c k itO n (fun itI a => fitIteration_fv c k itO itI n a s.fv) n 0 _).ok rfl hl
  obtain ⟨o, s3, hh, h⟩ := Py.bind_ok_iff.1 h
  obtain ⟨ho, ee9⟩ := Py.attr_ok_iff.1 hh
  rw [ee9] at h
  clear ee9
  obtain ⟨⟨col, hcol⟩, hdv, hbad⟩ := fitInnerLoop_out s.fv n 0 hl ⟨.inl rfl, rfl, by simp⟩ o ho
  rw [Py.bind_set, Py.bind_set] at h
  obtain ⟨rfl, ht⟩ := Py.pure_ok_iff.1 h
  by_cases hc : a.badState = false ∨ itO = 1
  · have hfv : t.fv = a.fvNew := by
      rw [← ht, if_pos hc]
      change s2.fv.setCol k (a.fvNew.col k) = a.fvNew
      rw [hfv2, hcol, Fv.setCol_col]
    exact .inl (by rw [hfv, hdv])
  · have hfv : t.fv = s.fv := by
      rw [← ht, if_neg hc]
      exact hfv2
    rw [hfv]
    refine .inr (hbad.1 ?_)
    simpa using fun e => hc (.inl e)

/-- After a successful `fit`, the stored deviance is the one of the stored fitted values, or larger.  What is missing is
equality: when the last step was rejected, the deviance of the rejected values is stored (`C83_rejected_fails`). -/
theorem C83_fit_partial {frames : Bool} {D : DistOps} {M : MethodOps μ} {c : GConfig μ p} {data : List (Obs p)}
    {s t : GState μ p} {u : Unit} (h : GState.fit frames D M c data s = (.ok u, t)) :
    ∃ d, t.globalDev = some d ∧ (d = deviance D (ys data) (ws data) t.fv ∨ Flt.lt (deviance D (ys data) (ws data) t.fv) d) := by
  obtain ⟨r⟩ := fit_ok h
  obtain ⟨pr⟩ := prepare_ok r.hprepare
  have t1 : t.fv = r.s2.fv := (congrArg GState.fv r.ht).trans rfl
  have t3 : t.globalDev = some r.dev := (congrArg GState.globalDev r.ht).trans rfl
  refine ⟨r.dev, t3, ?_⟩
  rw [t1]
  have hloop := r.hloop
  unfold outerFit at hloop
  rw [Py.bind_self] at hloop
  have hne : r.sP.paramOrder ≠ [] := List.ne_nil_of_mem (pr.mem_order r.nParams_pos)
  rcases outerLoop_last_ok (I := fun _ => True) _ 0 (fun _ _ _ _ _ _ _ _ => trivial) hloop trivial with
    ⟨_, h2, h3⟩ | ⟨_, d0, s', _, hb⟩
  · rw [h2, h3]
    exact .inl rfl
  · obtain ⟨k, _, u, _, hk⟩ := paramLoop_final (I := fun _ => True) _ (by rw [fitStart_paramOrder]; exact hne)
      (fun _ _ _ _ _ _ _ => trivial) trivial hb
    exact innerFit_dev hk

/-- **C83 fails** for `fit` when the last step was rejected.  Witness: a log density that drops from zero to minus one when
the parameter exceeds one; two outer iterations of length one; the second step is rejected, the stored values have deviance
zero, and the stored deviance is four. -/
theorem C83_rejected_fails (s : GState Unit 1) :
    ∃ g t, GState.fit false (walkDist g) firstMethod (walkConfig 1 2) walkData s = (.ok (), t) ∧
      deviance (walkDist g) (ys walkData) (ws walkData) t.fv = .fin 0 ∧ t.globalDev = some (.fin 4) := by
  obtain ⟨g, hg⟩ : ∃ g : ℝ → Flt, g = fun v => if v ≤ 1 then .fin 0 else .fin (-1) := ⟨_, rfl⟩
  obtain ⟨t, h⟩ := walk_fit g 1 2 (by norm_num) s
  obtain ⟨h1, _, h3⟩ := walk_two h
  have e1 : walkDev g 1 = .fin 0 := by simp [walkDev, hg, Flt.mul, Flt.add]
  have e2 : walkDev g (1 + 1) = .fin 4 := by
    have : ¬ (1 + 1 : ℝ) ≤ 1 := by norm_num
    simp [walkDev, hg, this, Flt.mul, Flt.add]; norm_num
  rw [e1, e2] at h3
  rw [e2] at h1
  exact ⟨g, t, h, (walk_deviance (h3 (by simp [Flt.lt])) _).trans e1, h1⟩

/-! ### C59: a deviance that is not a number -/

/-- **C59 fails** when a deviance is NaN: a step to values with deviance NaN is accepted.  Witness: a log density that is
zero up to one and NaN beyond.  With one outer iteration the deviance of the fitted values is zero, with two it is NaN. -/
theorem C59_nan_fails (s : GState Unit 1) :
    ∃ g t1 t2, GState.fit false (walkDist g) firstMethod (walkConfig 1 1) walkData s = (.ok (), t1) ∧
      GState.fit false (walkDist g) firstMethod (walkConfig 1 2) walkData s = (.ok (), t2) ∧
      deviance (walkDist g) (ys walkData) (ws walkData) t1.fv = .fin 0 ∧
      deviance (walkDist g) (ys walkData) (ws walkData) t2.fv = .nan := by
  obtain ⟨g, hg⟩ : ∃ g : ℝ → Flt, g = fun v => if v ≤ 1 then .fin 0 else .nan := ⟨_, rfl⟩
  obtain ⟨t1, k1⟩ := walk_fit g 1 1 le_rfl s
  obtain ⟨t2, k2⟩ := walk_fit g 1 2 (by norm_num) s
  obtain ⟨a1, _⟩ := walk_one k1
  obtain ⟨_, b1, _⟩ := walk_two k2
  have e1 : walkDev g 1 = .fin 0 := by simp [walkDev, hg, Flt.mul, Flt.add]
  have e2 : walkDev g (1 + 1) = .nan := by
    have : ¬ (1 + 1 : ℝ) ≤ 1 := by norm_num
    simp [walkDev, hg, this, Flt.mul, Flt.add]
  refine ⟨g, t1, t2, k1, k2, (walk_deviance a1 _).trans e1, (walk_deviance (b1 ?_) _).trans e2⟩
  rw [e1, e2]
  simp [Flt.lt]

end Ondil
