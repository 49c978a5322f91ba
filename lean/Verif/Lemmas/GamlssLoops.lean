import Verif.Lemmas.GamlssCalls
import Verif.Lemmas.InformationCriteria

/-!
# Lemmas about the iterations of the distributional regression
-/

namespace Ondil

variable {μ : Type} {p : ℕ}

/-! ### The outer loop -/

theorem outerLoop_ne_none {σ : Type} {stops : ℕ → Flt → Flt → Prop} {body : ℕ → Flt → Py σ Flt} {N : ℕ}
    (hN : ∀ it ≥ N, ∀ d e, stops it d e) (n itO : ℕ) (h1 : itO ≤ N) (h2 : N < itO + n) (d e : Flt) (s t : σ) :
    outerLoop stops body n itO d e s ≠ (.ok none, t) := by
  induction n generalizing itO d e s with
  | zero => omega
  | succ n ih =>
    unfold outerLoop
    split
    · intro h
      have := (Py.pure_ok_iff.1 h).1
      cases this
    · rename_i hs
      have hlt : itO < N := by
        by_contra hc
        exact hs (hN itO (by omega) d e)
      intro h
      obtain ⟨d', s', _, h⟩ := Py.bind_ok_iff.1 h
      exact ih (itO + 1) (by omega) (by omega) d' d s' h

/-- More fuel does not change a result. -/
theorem outerLoop_fuel {σ : Type} {stops : ℕ → Flt → Flt → Prop} {body : ℕ → Flt → Py σ Flt} (n m itO : ℕ) (hnm : n ≤ m)
    (d e : Flt) (s : σ) (h : ∀ t, outerLoop stops body n itO d e s ≠ (.ok none, t)) :
    outerLoop stops body m itO d e s = outerLoop stops body n itO d e s := by
  induction n generalizing m itO d e s with
  | zero => exact absurd rfl (h s)
  | succ n ih =>
    obtain ⟨m, rfl⟩ : ∃ k, m = k + 1 := ⟨m - 1, by omega⟩
    unfold outerLoop at h ⊢
    split
    · rfl
    · rename_i hs
      rw [if_neg hs] at h
      rcases hb : body (itO + 1) d s with ⟨x, s'⟩
      cases x with
      | error err => rw [Py.bind_of_error hb, Py.bind_of_error hb]
      | ok d' =>
        rw [Py.bind_of_ok hb, Py.bind_of_ok hb]
        refine ih m (itO + 1) (by omega) d' d s' fun t ht => h t ?_
        rw [Py.bind_of_ok hb]
        exact ht

/-- How the outer loop ends: without a pass, or with the last pass of the body. -/
theorem outerLoop_last {σ : Type} {I : σ → Prop} {stops : ℕ → Flt → Flt → Prop} {body : ℕ → Flt → Py σ Flt}
    (n itO : ℕ) (hI : ∀ it > itO, ∀ d, Py.Inv I (body it d)) {d e : Flt} {s t : σ} {d' : Flt} {it : ℕ}
    (h : outerLoop stops body n itO d e s = (.ok (some (d', it)), t)) (hs : I s) :
    (∃ e', stops it d' e') ∧
      (it = itO ∧ d' = d ∧ t = s ∨ itO < it ∧ ∃ d0 s', I s' ∧ body it d0 s' = (.ok d', t)) := by
  induction n generalizing itO d e s with
  | zero =>
    have := (Py.pure_ok_iff.1 h).1
    cases this
  | succ n ih =>
    unfold outerLoop at h
    split at h
    · rename_i hst
      obtain ⟨h1, h2⟩ := Py.pure_ok_iff.1 h
      simp only [Option.some.injEq, Prod.mk.injEq] at h1
      obtain ⟨rfl, rfl⟩ := h1
      exact ⟨⟨e, hst⟩, .inl ⟨rfl, rfl, h2.symm⟩⟩
    · obtain ⟨d1, s1, hb, h⟩ := Py.bind_ok_iff.1 h
      have hs1 : I s1 := Py.Triple.ok (hI (itO + 1) (by omega) d) hs hb
      obtain ⟨h1, h2⟩ := ih (itO + 1) (fun it hit => hI it (by omega)) h hs1
      refine ⟨h1, .inr ?_⟩
      rcases h2 with ⟨rfl, rfl, rfl⟩ | ⟨hlt, h2⟩
      · exact ⟨by omega, d, s, hs, hb⟩
      · exact ⟨by omega, h2⟩

/-- Every parameter of the loop is treated, and what the treatment of `k` establishes is kept by the others. -/
theorem paramLoop_all {σ : Type} {I : σ → Prop} {Q : ℕ → σ → Prop} {f : ℕ → Py σ Flt} (ks : List ℕ)
    (hI : ∀ k ∈ ks, Py.Inv I (f k)) (hQ : ∀ k ∈ ks, ∀ s t d, I s → f k s = (.ok d, t) → Q k t)
    (hkeep : ∀ k ∈ ks, ∀ j, j ≠ k → ∀ s t d, I s → Q j s → f k s = (.ok d, t) → Q j t)
    {d d' : Flt} {s t : σ} (hs : I s) (h : paramLoop f ks d s = (.ok d', t)) (j : ℕ) (hj : j ∈ ks ∨ Q j s) : Q j t := by
  induction ks generalizing d s with
  | nil =>
    obtain ⟨_, rfl⟩ := Py.pure_ok_iff.1 h
    exact hj.resolve_left (by simp)
  | cons k ks ih =>
    unfold paramLoop at h
    obtain ⟨d1, s1, hk, h⟩ := Py.bind_ok_iff.1 h
    have hs1 : I s1 := Py.Triple.ok (hI k (by simp)) hs hk
    refine ih (fun k hk => hI k (by simp [hk])) (fun k hk => hQ k (by simp [hk])) (fun k hk => hkeep k (by simp [hk]))
      hs1 h ?_
    by_cases hjk : j = k
    · subst hjk
      exact .inr (hQ j (by simp) s s1 d1 hs hk)
    · rcases hj with hj | hj
      · rcases List.mem_cons.1 hj with rfl | hj
        · exact absurd rfl hjk
        · exact .inl hj
      · exact .inr (hkeep k (by simp) j hjk s s1 d1 hs hj hk)

/-! ### One inner iteration of the update -/

/-- The steps of a successful inner iteration of the update. -/
structure UpdateStep (c : Call μ p) (k itO itI : ℕ) (a : Inner) (s t : GState μ p) (r : Inner × Bool) where
  wk : Working
  hwk : working c.D updateClip c.y a.fvIt k = .ok wk
  X : Arr2
  hX : c.X k = some X
  m : μ
  hm : s.method k = some m
  forget : ℝ
  hf : s.forget.get? k = some forget
  x0 : Arr2
  hx0 : s.xGram k = some x0
  xg : Arr2
  hxg : c.M.updateX m x0 X (wmul c.w wk.wt) forget = .ok xg
  y0 : Arr1
  hy0 : s.yGram k = some y0
  yg : Arr1
  hyg : c.M.updateY m y0 X wk.wv (wmul c.w wk.wt) forget = .ok yg
  co : Coefs
  s1 : GState μ p
  hco : updateCoefs c k X wk xg yg (debugWork c.cfg.debug (k, itO, itI) wk a.fvIt s) = (.ok co, s1)
  pred : Arr1
  hpred : matVec X co.beta = .ok pred
  v : Arr1
  hv : c.D.linkInverse k pred = .ok v
  forget0 : ℝ
  hf0 : s.forget.get? 0 = some forget0
  old : Flt
  hold : s.globalDev = some old
  rss : Flt
  out : r.1.out = some ⟨itI, wk.wt, wk.wv, xg, yg, co.beta, co.path, co.selection, co.bestIc, rss,
    updateDeviance c forget0 old (a.fvNew.setCol k v)⟩
  fvNew : r.1.fvNew = a.fvNew.setCol k v
  dvStart : r.1.dvStart = a.dvStart
  debugWeights : t.debugWeights = s1.debugWeights
  debugWorking : t.debugWorking = s1.debugWorking
  method : t.method = s1.method
  bestIc : t.bestIc = s1.bestIc
  fvIt : r.1.fvIt = a.fvIt ∨ r.1.fvIt = a.fvIt.setCol k (r.1.fvNew.col k)

theorem updateIteration_ok {c : Call μ p} {k itO itI : ℕ} {a : Inner} {s t : GState μ p} {r : Inner × Bool}
    (h : updateIteration c k itO itI a s = (.ok r, t)) : Nonempty (UpdateStep c k itO itI a s t r) := by
  unfold updateIteration at h
  obtain ⟨x1, ss1, hh1, h⟩ := Py.bind_ok_iff.1 h
  obtain ⟨dd1, ee1⟩ := Py.self_ok_iff.1 hh1
  rw [ee1, dd1] at h
  clear hh1 ee1 dd1
  obtain ⟨step, ss2, hh2, h⟩ := Py.bind_ok_iff.1 h
  obtain ⟨hstep, ee2⟩ := Py.call_ok_iff.1 hh2
  rw [ee2] at h
  clear hh2 ee2
  obtain ⟨wk, ss3, hh3, h⟩ := Py.bind_ok_iff.1 h
  obtain ⟨hwk, ee3⟩ := Py.call_ok_iff.1 hh3
  rw [ee3] at h
  clear hh3 ee3
  obtain ⟨x4, ss4, hh4, h⟩ := Py.bind_ok_iff.1 h
  have ee4 := Py.set_ok_iff.1 hh4
  rw [ee4] at h
  clear hh4 ee4
  obtain ⟨X, ss5, hh5, h⟩ := Py.bind_ok_iff.1 h
  obtain ⟨hX, ee5⟩ := Py.attr_ok_iff.1 hh5
  rw [ee5] at h
  clear hh5 ee5
  obtain ⟨m, ss6, hh6, h⟩ := Py.bind_ok_iff.1 h
  obtain ⟨hm, ee6⟩ := Py.attr_ok_iff.1 hh6
  rw [ee6] at h
  clear hh6 ee6
  obtain ⟨forget, ss7, hh7, h⟩ := Py.bind_ok_iff.1 h
  obtain ⟨hf, ee7⟩ := Py.attr_ok_iff.1 hh7
  rw [ee7] at h
  clear hh7 ee7
  obtain ⟨x0, ss8, hh8, h⟩ := Py.bind_ok_iff.1 h
  obtain ⟨hx0, ee8⟩ := Py.attr_ok_iff.1 hh8
  rw [ee8] at h
  clear hh8 ee8
  obtain ⟨xg, ss9, hh9, h⟩ := Py.bind_ok_iff.1 h
  obtain ⟨hxg, ee9⟩ := Py.call_ok_iff.1 hh9
  rw [ee9] at h
  clear hh9 ee9
  obtain ⟨y0, ss10, hh10, h⟩ := Py.bind_ok_iff.1 h
  obtain ⟨hy0, ee10⟩ := Py.attr_ok_iff.1 hh10
  rw [ee10] at h
  clear hh10 ee10
  obtain ⟨yg, ss11, hh11, h⟩ := Py.bind_ok_iff.1 h
  obtain ⟨hyg, ee11⟩ := Py.call_ok_iff.1 hh11
  rw [ee11] at h
  clear hh11 ee11
  obtain ⟨co, s1, hco, h⟩ := Py.bind_ok_iff.1 h
  obtain ⟨x13, ss13, hh13, h⟩ := Py.bind_ok_iff.1 h
  have ee13 := Py.set_ok_iff.1 hh13
  rw [ee13] at h
  clear hh13 ee13
  obtain ⟨pred, ss14, hh14, h⟩ := Py.bind_ok_iff.1 h
  obtain ⟨hpred, ee14⟩ := Py.call_ok_iff.1 hh14
  rw [ee14] at h
  clear hh14 ee14
  obtain ⟨mw, ss15, hh15, h⟩ := Py.bind_ok_iff.1 h
  obtain ⟨hmw, ee15⟩ := Py.attr_ok_iff.1 hh15
  rw [ee15] at h
  clear hh15 ee15
  obtain ⟨no, ss16, hh16, h⟩ := Py.bind_ok_iff.1 h
  obtain ⟨hno, ee16⟩ := Py.attr_ok_iff.1 hh16
  rw [ee16] at h
  clear hh16 ee16
  obtain ⟨v, ss17, hh17, h⟩ := Py.bind_ok_iff.1 h
  obtain ⟨hv, ee17⟩ := Py.call_ok_iff.1 hh17
  rw [ee17] at h
  clear hh17 ee17
  obtain ⟨forget0, ss18, hh18, h⟩ := Py.bind_ok_iff.1 h
  obtain ⟨hf0, ee18⟩ := Py.attr_ok_iff.1 hh18
  rw [ee18] at h
  clear hh18 ee18
  obtain ⟨old, ss19, hh19, h⟩ := Py.bind_ok_iff.1 h
  obtain ⟨hold, ee19⟩ := Py.attr_ok_iff.1 hh19
  rw [ee19] at h
  clear hh19 ee19
  obtain ⟨x20, ss20, hh20, h⟩ := Py.bind_ok_iff.1 h
  have ee20 := Py.set_ok_iff.1 hh20
  rw [ee20] at h
  clear hh20 ee20
  obtain ⟨hr, ht⟩ := Py.pure_ok_iff.1 h
  obtain ⟨rss, hrss⟩ : ∃ rss, r.1.out = some ⟨itI, wk.wt, wk.wv, xg, yg, co.beta, co.path, co.selection, co.bestIc, rss,
      updateDeviance c forget0 old (a.fvNew.setCol k v)⟩ := by
    rw [← hr]
    exact ⟨_, rfl⟩
  refine ⟨⟨wk, hwk, X, hX, m, hm, forget, hf, x0, hx0, xg, hxg, y0, hy0, yg, hyg, co, s1, hco, pred, hpred, v, hv, forget0, hf0,
    old, hold, rss, hrss, ?_, ?_, ?_, ?_, ?_, ?_, ?_⟩⟩
  · rw [← hr]
  · rw [← hr]
  · rw [← ht]
    split <;> unfold debugBeta <;> split <;> rfl
  · rw [← ht]
    split <;> unfold debugBeta <;> split <;> rfl
  · rw [← ht]
    split <;> unfold debugBeta <;> split <;> rfl
  · rw [← ht]
    split <;> unfold debugBeta <;> split <;> rfl
  · rw [← hr]
    exact (ite_eq_or_eq _ _ _).symm

/-! ### One inner iteration of the fit -/

/-- The steps of a successful inner iteration of the fit. -/
structure FitStep (c : Call μ p) (k itO itI : ℕ) (a : Inner) (s t : GState μ p) (r : Inner × Bool) where
  step : ℝ
  hstep : stepAt c.cfg s itO itI k = .ok step
  fvIt : Fv
  hfvIt : startValues c k itO itI a.fvIt = .ok fvIt
  wk : Working
  hwk : working c.D fitClip c.y fvIt k = .ok wk
  X : Arr2
  hX : c.X k = some X
  m : μ
  hm : s.method k = some m
  forget : ℝ
  hf : s.forget.get? k = some forget
  xg : Arr2
  hxg : c.M.initX m X (wmul c.w wk.wt) forget = .ok xg
  yg : Arr1
  hyg : c.M.initY m X wk.wv (wmul c.w wk.wt) forget = .ok yg
  co : Coefs
  s1 : GState μ p
  hco : fitCoefs c k itO itI (a.out.bind fun o => o.path) X wk xg yg
    (debugWork c.cfg.debug (k, itO, itI) wk fvIt s) = (.ok co, s1)
  xb : Arr1
  hxb : matVec X co.beta = .ok xb
  v : Arr1
  hv : c.D.linkInverse k
    (List.zipWith (fun u e => Flt.add (Flt.mul (.fin step) u) (Flt.mul (.fin (1 - step)) e)) xb wk.eta) = .ok v
  rss : Flt
  out : r.1.out = some ⟨itI, wk.wt, wk.wv, xg, yg, co.beta, co.path, co.selection, co.bestIc, rss,
    deviance c.D c.y c.w (a.fvNew.setCol k v)⟩
  fvNew : r.1.fvNew = a.fvNew.setCol k v
  dvStart : r.1.dvStart = a.dvStart
  bad : r.1.badState = true ↔ Flt.lt a.dvStart (deviance c.D c.y c.w (a.fvNew.setCol k v))
  debugWeights : t.debugWeights = s1.debugWeights
  debugWorking : t.debugWorking = s1.debugWorking
  method : t.method = s1.method
  fvItNew : r.1.fvIt = fvIt ∨ r.1.fvIt = fvIt.setCol k (r.1.fvNew.col k)

theorem fitIteration_ok {c : Call μ p} {k itO itI n : ℕ} {a : Inner} {s t : GState μ p} {r : Inner × Bool}
    (h : fitIteration c k itO itI n a s = (.ok r, t)) : Nonempty (FitStep c k itO itI a s t r) := by
  unfold fitIteration at h
  obtain ⟨x1, ss1, hh1, h⟩ := Py.bind_ok_iff.1 h
  obtain ⟨dd1, ee1⟩ := Py.self_ok_iff.1 hh1
  rw [ee1, dd1] at h
  clear hh1 ee1 dd1
  obtain ⟨step, ss2, hh2, h⟩ := Py.bind_ok_iff.1 h
  obtain ⟨hstep, ee2⟩ := Py.call_ok_iff.1 hh2
  rw [ee2] at h
  clear hh2 ee2
  obtain ⟨fvIt, ss3, hh3, h⟩ := Py.bind_ok_iff.1 h
  obtain ⟨hfv, ee3⟩ := Py.call_ok_iff.1 hh3
  rw [ee3] at h
  clear hh3 ee3
  obtain ⟨wk, ss4, hh4, h⟩ := Py.bind_ok_iff.1 h
  obtain ⟨hwk, ee4⟩ := Py.call_ok_iff.1 hh4
  rw [ee4] at h
  clear hh4 ee4
  obtain ⟨x5, ss5, hh5, h⟩ := Py.bind_ok_iff.1 h
  have ee5 := Py.set_ok_iff.1 hh5
  rw [ee5] at h
  clear hh5 ee5
  obtain ⟨X, ss6, hh6, h⟩ := Py.bind_ok_iff.1 h
  obtain ⟨hX, ee6⟩ := Py.attr_ok_iff.1 hh6
  rw [ee6] at h
  clear hh6 ee6
  obtain ⟨m, ss7, hh7, h⟩ := Py.bind_ok_iff.1 h
  obtain ⟨hm, ee7⟩ := Py.attr_ok_iff.1 hh7
  rw [ee7] at h
  clear hh7 ee7
  obtain ⟨forget, ss8, hh8, h⟩ := Py.bind_ok_iff.1 h
  obtain ⟨hf, ee8⟩ := Py.attr_ok_iff.1 hh8
  rw [ee8] at h
  clear hh8 ee8
  obtain ⟨xg, ss9, hh9, h⟩ := Py.bind_ok_iff.1 h
  obtain ⟨hxg, ee9⟩ := Py.call_ok_iff.1 hh9
  rw [ee9] at h
  clear hh9 ee9
  obtain ⟨yg, ss10, hh10, h⟩ := Py.bind_ok_iff.1 h
  obtain ⟨hyg, ee10⟩ := Py.call_ok_iff.1 hh10
  rw [ee10] at h
  clear hh10 ee10
  obtain ⟨co, s1, hco, h⟩ := Py.bind_ok_iff.1 h
  obtain ⟨x12, ss12, hh12, h⟩ := Py.bind_ok_iff.1 h
  have ee12 := Py.set_ok_iff.1 hh12
  rw [ee12] at h
  clear hh12 ee12
  obtain ⟨xb, ss13, hh13, h⟩ := Py.bind_ok_iff.1 h
  obtain ⟨hxb, ee13⟩ := Py.call_ok_iff.1 hh13
  rw [ee13] at h
  clear hh13 ee13
  obtain ⟨v, ss14, hh14, h⟩ := Py.bind_ok_iff.1 h
  obtain ⟨hv, ee14⟩ := Py.call_ok_iff.1 hh14
  rw [ee14] at h
  clear hh14 ee14
  obtain ⟨x15, ss15, hh15, h⟩ := Py.bind_ok_iff.1 h
  have ee15 := Py.set_ok_iff.1 hh15
  rw [ee15] at h
  clear hh15 ee15
  obtain ⟨hr, ht⟩ := Py.pure_ok_iff.1 h
  obtain ⟨rss, hrss⟩ : ∃ rss, r.1.out = some ⟨itI, wk.wt, wk.wv, xg, yg, co.beta, co.path, co.selection, co.bestIc, rss,
      deviance c.D c.y c.w (a.fvNew.setCol k v)⟩ := by
    rw [← hr]
    exact ⟨_, rfl⟩
  refine ⟨⟨step, hstep, fvIt, hfv, wk, hwk, X, hX, m, hm, forget, hf, xg, hxg, yg, hyg, co, s1, hco, xb, hxb, v, hv,
    rss, hrss, ?_, ?_, ?_, ?_, ?_, ?_, ?_⟩⟩
  · rw [← hr]
  · rw [← hr]
  · rw [← hr]; simp
  · rw [← ht]
    split <;> unfold debugBeta <;> split <;> rfl
  · rw [← ht]
    split <;> unfold debugBeta <;> split <;> rfl
  · rw [← ht]
    split <;> unfold debugBeta <;> split <;> rfl
  · rw [← hr]
    exact (ite_eq_or_eq _ _ _).symm

/-! ### The statistics of the update -/

/-- Attributes of other parameters that the treatment of one parameter does not touch. -/
def SameFor (j : ℕ) (s t : GState μ p) : Prop :=
  t.xGramNew j = s.xGramNew j ∧ t.yGramNew j = s.yGramNew j ∧ t.sumWNew j = s.sumWNew j ∧ t.meanWNew j = s.meanWNew j ∧
    t.itInner j = s.itInner j ∧ ∀ o i, t.debugWeights (j, o, i) = s.debugWeights (j, o, i) ∧
      t.debugWorking (j, o, i) = s.debugWorking (j, o, i)

theorem SameFor.refl (j : ℕ) (s : GState μ p) : SameFor j s s := ⟨rfl, rfl, rfl, rfl, rfl, fun _ _ => ⟨rfl, rfl⟩⟩

theorem SameFor.trans {j : ℕ} {s t u : GState μ p} (h : SameFor j s t) (h' : SameFor j t u) : SameFor j s u :=
  ⟨h'.1.trans h.1, h'.2.1.trans h.2.1, h'.2.2.1.trans h.2.2.1, h'.2.2.2.1.trans h.2.2.2.1,
    h'.2.2.2.2.1.trans h.2.2.2.2.1, fun o i => ⟨(h'.2.2.2.2.2 o i).1.trans (h.2.2.2.2.2 o i).1,
      (h'.2.2.2.2.2 o i).2.trans (h.2.2.2.2.2 o i).2⟩⟩

theorem updateCoefs_keeps (c : Call μ p) (k : ℕ) (X : Arr2) (wk : Working) (xg : Arr2) (yg : Arr1) (I : GState μ p → Prop)
    (h1 : ∀ s m, I s → I (s.setMethod m)) (h2 : ∀ s b, I s → I (s.setBestIc b)) :
    Py.Inv I (updateCoefs c k X wk xg yg) := by
  unfold updateCoefs
  py_inv
  all_goals first
    | exact fun s hs => h1 _ _ hs
    | exact fun s hs => h2 _ _ hs

theorem updateIteration_sameFor (c : Call μ p) (k itO itI : ℕ) (a : Inner) (s0 : GState μ p) (j : ℕ) (hj : j ≠ k) :
    Py.Inv (SameFor j s0) (updateIteration c k itO itI a) := by
  unfold updateIteration
  py_inv
  all_goals first
    | exact updateCoefs_keeps c k _ _ _ _ _ (fun s m hs => hs.trans (SameFor.refl j s))
        (fun s m hs => hs.trans (SameFor.refl j s))
    | (intro s hs
       refine hs.trans ?_
       unfold debugWork
       split
       · refine ⟨rfl, rfl, rfl, rfl, rfl, fun o i => ?_⟩
         constructor <;> exact Function.update_of_ne (by simp [hj]) _ _
       · exact SameFor.refl j s)
    | (intro s hs
       refine hs.trans ?_
       unfold debugBeta
       split
       · exact SameFor.refl j s
       · exact SameFor.refl j s)
    | (intro s hs
       split
       · exact hs.trans (SameFor.refl j s)
       · exact hs)

theorem innerUpdate_sameFor (c : Call μ p) (itO k : ℕ) (s0 : GState μ p) (j : ℕ) (hj : j ≠ k) :
    Py.Inv (SameFor j s0) (innerUpdate c itO k) := by
  unfold innerUpdate
  py_inv
  all_goals first
    | exact updateInnerLoop_inv c k itO (fun itI a => updateIteration_sameFor c k itO itI a s0 j hj) _ _ _
    | (intro s hs
       refine hs.trans ⟨?_, ?_, ?_, ?_, ?_, fun o i => ⟨rfl, rfl⟩⟩ <;> exact Function.update_of_ne hj _ _)

/-- What an inner iteration of the update computes for parameter `k`: from the statistics `x0`, `y0` of the previous
calls, the design of the new batch and some working quantities. -/
structure FromCommitted (c : Call μ p) (s1 : GState μ p) (k : ℕ) (wt wv : Arr1) (xg : Arr2) (yg : Arr1) : Prop where
  run : ∃ fv wk m X forget x0 y0, working c.D updateClip c.y fv k = .ok wk ∧ wk.wt = wt ∧ wk.wv = wv ∧ c.X k = some X ∧
    s1.forget.get? k = some forget ∧ s1.xGram k = some x0 ∧ s1.yGram k = some y0 ∧
    c.M.updateX m x0 X (wmul c.w wt) forget = .ok xg ∧ c.M.updateY m y0 X wv (wmul c.w wt) forget = .ok yg

theorem updateInnerLoop_out {c : Call μ p} {s1 : GState μ p} {k itO : ℕ} (n itI : ℕ) {a a' : Inner} {s t : GState μ p}
    (h : updateInnerLoop c k itO n itI a s = (.ok a', t)) (hs : SameCommitted s1 s)
    (ha : ∀ o, a.out = some o → FromCommitted c s1 k o.wt o.wv o.xGram o.yGram ∧
      (c.cfg.debug = true → s.debugWeights (k, itO, o.it) = some o.wt ∧ s.debugWorking (k, itO, o.it) = some o.wv)) :
    ∀ o, a'.out = some o → FromCommitted c s1 k o.wt o.wv o.xGram o.yGram ∧
      (c.cfg.debug = true → t.debugWeights (k, itO, o.it) = some o.wt ∧ t.debugWorking (k, itO, o.it) = some o.wv) := by
  induction n generalizing itI a s with
  | zero =>
    obtain ⟨rfl, rfl⟩ := Py.pure_ok_iff.1 h
    exact ha
  | succ n ih =>
    unfold updateInnerLoop at h
    obtain ⟨r, s', hr, h⟩ := Py.bind_ok_iff.1 h
    obtain ⟨st⟩ := updateIteration_ok hr
    have hs' : SameCommitted s1 s' := Py.Triple.ok (updateIteration_committed c k itO itI a s1) hs hr
    have hout : ∀ o, r.1.out = some o → FromCommitted c s1 k o.wt o.wv o.xGram o.yGram ∧
        (c.cfg.debug = true → s'.debugWeights (k, itO, o.it) = some o.wt ∧
          s'.debugWorking (k, itO, o.it) = some o.wv) := by
      intro o ho
      rw [st.out] at ho
      simp only [Option.some.injEq] at ho
      subst ho
      refine ⟨⟨a.fvIt, st.wk, st.m, st.X, st.forget, st.x0, st.y0, st.hwk, rfl, rfl, st.hX, ?_, ?_, ?_, st.hxg, st.hyg⟩,
        fun hd => ?_⟩
      · rw [← hs.setup.forget]; exact st.hf
      · rw [← hs.xGram]; exact st.hx0
      · rw [← hs.yGram]; exact st.hy0
      · rw [st.debugWeights, st.debugWorking]
        have hk := updateCoefs_keeps c k st.X st.wk st.xg st.yg
          (fun u : GState μ p => u.debugWeights (k, itO, itI) = some st.wk.wt ∧
            u.debugWorking (k, itO, itI) = some st.wk.wv) (fun _ _ h => h) (fun _ _ h => h)
        refine Py.Triple.ok hk ?_ st.hco
        unfold debugWork
        rw [if_pos hd]
        exact ⟨Function.update_self _ _ _, Function.update_self _ _ _⟩
    split at h
    · obtain ⟨rfl, rfl⟩ := Py.pure_ok_iff.1 h
      exact hout
    · exact ih (itI + 1) h hs' hout

/-- The new statistics of parameter `k` after its treatment in outer iteration `itO`. -/
def OnceUpdated (c : Call μ p) (s1 : GState μ p) (itO k : ℕ) (t : GState μ p) : Prop :=
  ∃ wt wv xg yg forget sumW nTraining, FromCommitted c s1 k wt wv xg yg ∧
    t.xGramNew k = some xg ∧ t.yGramNew k = some yg ∧
    s1.forget.get? k = some forget ∧ s1.sumW k = some sumW ∧ s1.nTraining.get? k = some nTraining ∧
    t.sumWNew k = some (Flt.add (asum (wmul c.w wt)) (Flt.mul (Flt.sub (.fin 1) (.fin forget)) sumW)) ∧
    t.meanWNew k = some (Flt.div (Flt.add (asum (wmul c.w wt)) (Flt.mul (Flt.sub (.fin 1) (.fin forget)) sumW))
      (.fin nTraining)) ∧
    (c.cfg.debug = true → t.debugWeights (k, itO, t.itInner k) = some wt ∧
      t.debugWorking (k, itO, t.itInner k) = some wv)

theorem OnceUpdated.keep {c : Call μ p} {s1 : GState μ p} {itO k : ℕ} {t u : GState μ p}
    (h : OnceUpdated c s1 itO k t) (hs : SameFor k t u) : OnceUpdated c s1 itO k u := by
  obtain ⟨wt, wv, xg, yg, forget, sumW, nTr, h0, h1, h2, h3, h4, h5, h6, h7, h8⟩ := h
  refine ⟨wt, wv, xg, yg, forget, sumW, nTr, h0, hs.1.trans h1, hs.2.1.trans h2, h3, h4, h5, hs.2.2.1.trans h6,
    hs.2.2.2.1.trans h7, fun hd => ?_⟩
  rw [hs.2.2.2.2.1, (hs.2.2.2.2.2 _ _).1, (hs.2.2.2.2.2 _ _).2]
  exact h8 hd

theorem innerUpdate_once {c : Call μ p} {s1 : GState μ p} {itO k : ℕ} {s t : GState μ p} {d : Flt}
    (hs : SameCommitted s1 s) (h : innerUpdate c itO k s = (.ok d, t)) : OnceUpdated c s1 itO k t := by
  unfold innerUpdate at h
  obtain ⟨x1, ss1, hh1, h⟩ := Py.bind_ok_iff.1 h
  obtain ⟨dd1, ee1⟩ := Py.self_ok_iff.1 hh1
  rw [ee1, dd1] at h
  clear hh1 ee1 dd1
  obtain ⟨forget0, ss2, hh2, h⟩ := Py.bind_ok_iff.1 h
  obtain ⟨hf0, ee2⟩ := Py.attr_ok_iff.1 hh2
  rw [ee2] at h
  clear hh2 ee2
  obtain ⟨old, ss3, hh3, h⟩ := Py.bind_ok_iff.1 h
  obtain ⟨hold, ee3⟩ := Py.attr_ok_iff.1 hh3
  rw [ee3] at h
  clear hh3 ee3
  obtain ⟨n, ss4, hh4, h⟩ := Py.bind_ok_iff.1 h
  obtain ⟨hn, ee4⟩ := Py.call_ok_iff.1 hh4
  rw [ee4] at h
  clear hh4 ee4
  obtain ⟨a, s2, hloop, h⟩ := Py.bind_ok_iff.1 h
  obtain ⟨o, ss5, hh5, h⟩ := Py.bind_ok_iff.1 h
  obtain ⟨ho, ee5⟩ := Py.attr_ok_iff.1 hh5
  rw [ee5] at h
  clear hh5 ee5
  obtain ⟨forget, ss6, hh6, h⟩ := Py.bind_ok_iff.1 h
  obtain ⟨hf, ee6⟩ := Py.attr_ok_iff.1 hh6
  rw [ee6] at h
  clear hh6 ee6
  obtain ⟨sumW, ss7, hh7, h⟩ := Py.bind_ok_iff.1 h
  obtain ⟨hsw, ee7⟩ := Py.attr_ok_iff.1 hh7
  rw [ee7] at h
  clear hh7 ee7
  obtain ⟨nTr, ss8, hh8, h⟩ := Py.bind_ok_iff.1 h
  obtain ⟨hnt, ee8⟩ := Py.attr_ok_iff.1 hh8
  rw [ee8] at h
  clear hh8 ee8
  obtain ⟨_, s3, hh9, h⟩ := Py.bind_ok_iff.1 h
  have ht := Py.set_ok_iff.1 hh9
  obtain ⟨_, rfl⟩ := Py.pure_ok_iff.1 h
  have hres := updateInnerLoop_out n 0 hloop hs (by simp) o ho
  subst ht
  refine ⟨o.wt, o.wv, o.xGram, o.yGram, forget, sumW, nTr, hres.1, Function.update_self _ _ _, Function.update_self _ _ _, ?_,
    ?_, ?_, Function.update_self _ _ _, Function.update_self _ _ _, fun hd => ?_⟩
  · rw [← hs.setup.forget]; exact hf
  · rw [← hs.sumW]; exact hsw
  · rw [← hs.setup.nTraining]; exact hnt
  · have hit : (commitUpdate c k a o (Flt.fin forget) sumW (Flt.fin nTr) s2).itInner k = o.it :=
      Function.update_self _ _ _
    rw [hit]
    exact hres.2 hd

/-! ### The deviance of the fit -/

theorem Fv.setCol_setCol (fv : Fv) (k : ℕ) (a b : Arr1) : (fv.setCol k a).setCol k b = fv.setCol k (b.take a.length) := by
  unfold Fv.setCol
  induction fv generalizing a b with
  | nil => simp
  | cons r fv ih =>
    cases a with
    | nil => simp
    | cons u a =>
      cases b with
      | nil => simp
      | cons v b => simp [ih]

theorem Fv.setCol_col (fv : Fv) (k : ℕ) (a : Arr1) : fv.setCol k ((fv.setCol k a).col k) = fv.setCol k a := by
  unfold Fv.setCol Fv.col
  induction fv generalizing a with
  | nil => simp
  | cons r fv ih =>
    cases a with
    | nil => simp
    | cons u a => simp only [List.zipWith_cons_cons, List.map_cons, Function.update_self, ih]

/-- What the inner loop of the fit leaves: the new values differ from the starting ones in one column, and the flag
compares their deviance with the one at the start. -/
theorem fitInnerLoop_out {c : Call μ p} {k itO scheduled : ℕ} (fv : Fv) (n itI : ℕ) {a a' : Inner} {s t : GState μ p}
    (h : fitInnerLoop c k itO scheduled n itI a s = (.ok a', t))
    (ha : (a.fvNew = fv ∨ ∃ col, a.fvNew = fv.setCol k col) ∧ a.dvStart = deviance c.D c.y c.w fv ∧
      ∀ o, a.out = some o → (∃ col, a.fvNew = fv.setCol k col) ∧ o.dv = deviance c.D c.y c.w a.fvNew ∧
        (a.badState = true ↔ Flt.lt (deviance c.D c.y c.w fv) o.dv)) :
    ∀ o, a'.out = some o → (∃ col, a'.fvNew = fv.setCol k col) ∧ o.dv = deviance c.D c.y c.w a'.fvNew ∧
        (a'.badState = true ↔ Flt.lt (deviance c.D c.y c.w fv) o.dv) := by
  induction n generalizing itI a s with
  | zero =>
    obtain ⟨rfl, rfl⟩ := Py.pure_ok_iff.1 h
    exact ha.2.2
  | succ n ih =>
    unfold fitInnerLoop at h
    obtain ⟨r, s', hr, h⟩ := Py.bind_ok_iff.1 h
    obtain ⟨st⟩ := fitIteration_ok hr
    have hcol : ∃ col, r.1.fvNew = fv.setCol k col := by
      rw [st.fvNew]
      rcases ha.1 with h1 | ⟨col, h1⟩
      · exact ⟨st.v, by rw [h1]⟩
      · exact ⟨_, by rw [h1, Fv.setCol_setCol]⟩
    have hout : ∀ o, r.1.out = some o → (∃ col, r.1.fvNew = fv.setCol k col) ∧ o.dv = deviance c.D c.y c.w r.1.fvNew ∧
        (r.1.badState = true ↔ Flt.lt (deviance c.D c.y c.w fv) o.dv) := by
      intro o ho
      rw [st.out] at ho
      simp only [Option.some.injEq] at ho
      subst ho
      exact ⟨hcol, by rw [st.fvNew], by rw [st.bad, ha.2.1]⟩
    split at h
    · obtain ⟨rfl, rfl⟩ := Py.pure_ok_iff.1 h
      exact hout
    · exact ih (itI + 1) h ⟨.inr hcol, st.dvStart.trans ha.2.1, hout⟩

/-! ### Dictionaries over the parameters -/

theorem forParams_spec {α : Type} (ks : List ℕ) {f : ℕ → Except PyErr α} {d : PyDict α}
    (h : (ks.mapM fun k => do
      let a ← f k
      pure (k, a)) = .ok d) (k : ℕ) :
    (∀ a, d.get? k = some a → k ∈ ks ∧ f k = .ok a) ∧ (k ∈ ks → ∃ a, d.get? k = some a ∧ f k = .ok a) := by
  induction ks generalizing d with
  | nil =>
    cases h
    exact ⟨fun a ha => by simp [PyDict.get?] at ha, fun hk => by simp at hk⟩
  | cons j ks ih =>
    have h2 := mapM_ok_iff.1 h
    cases h2 with
    | cons hab hrest =>
      rename_i b r
      replace ih := ih (mapM_ok_iff.2 hrest)
      cases hf : f j with
      | error e => rw [hf] at hab; cases hab
      | ok v =>
        rw [hf] at hab
        cases hab
        unfold PyDict.get?
        by_cases hjk : j = k
        · subst hjk
          simp [hf]
        · rw [if_neg hjk]
          refine ⟨fun a ha => ?_, fun hk => ?_⟩
          · exact ⟨List.mem_cons_of_mem _ (ih.1 a ha).1, (ih.1 a ha).2⟩
          · rcases List.mem_cons.1 hk with h | h
            · exact absurd h.symm hjk
            · exact ih.2 h

theorem forParams_get? {α : Type} {n : ℕ} {f : ℕ → Except PyErr α} {d : PyDict α} (h : forParams n f = .ok d) {k : ℕ} {a : α}
    (hk : d.get? k = some a) : k < n ∧ f k = .ok a := by
  obtain ⟨h1, h2⟩ := (forParams_spec _ h k).1 a hk
  exact ⟨List.mem_range.1 h1, h2⟩

theorem forParams_mem {α : Type} {n : ℕ} {f : ℕ → Except PyErr α} {d : PyDict α} (h : forParams n f = .ok d) {k : ℕ}
    (hk : k < n) : ∃ a, d.get? k = some a ∧ f k = .ok a := (forParams_spec _ h k).2 (List.mem_range.2 hk)

/-! ### A whole update -/

theorem OnceUpdated.congr {c : Call μ p} {s1 s1' : GState μ p} {itO k : ℕ} {t : GState μ p}
    (h : OnceUpdated c s1 itO k t) (h1 : s1.forget = s1'.forget) (h2 : s1.xGram = s1'.xGram) (h3 : s1.yGram = s1'.yGram)
    (h4 : s1.sumW = s1'.sumW) (h5 : s1.nTraining = s1'.nTraining) : OnceUpdated c s1' itO k t := by
  obtain ⟨wt, wv, xg, yg, forget, sumW, nTr, ⟨fv, wk, m, X, f, x0, y0, a1, a2, a3, a4, a5, a6, a7, a8, a9⟩, h⟩ := h
  rw [h1] at a5
  rw [h2] at a6
  rw [h3] at a7
  rw [h1, h4, h5] at h
  exact ⟨wt, wv, xg, yg, forget, sumW, nTr, ⟨fv, wk, m, X, f, x0, y0, a1, a2, a3, a4, a5, a6, a7, a8, a9⟩, h⟩

/-- The result of a successful update: the statistics are untouched without an outer iteration, and updated once
otherwise. -/
theorem UpdateRun.once {D : DistOps} {M : MethodOps μ} {c : GConfig μ p} {data : List (Obs p)} {s t : GState μ p}
    (r : UpdateRun D M c data s t) :
    t.scaler = some r.sc ∧ t.itOuter = some r.it ∧
      (r.it = 0 → t.xGram = s.xGram ∧ t.yGram = s.yGram ∧ t.sumW = s.sumW ∧ t.coef = s.coef ∧
        t.nObs = some (r.nObs0 + (ws data).sum)) ∧
      (1 ≤ r.it → ∀ k ∈ s.paramOrder, ∃ wt wv xg yg forget sumW nTraining,
        FromCommitted ⟨D, M, c, r.X.get?, ys data, ws data⟩ s k wt wv xg yg ∧ t.xGram k = some xg ∧ t.yGram k = some yg ∧
        s.forget.get? k = some forget ∧ s.sumW k = some sumW ∧ r.nt.get? k = some nTraining ∧
        t.sumW k = some (Flt.add (asum (wmul (ws data) wt)) (Flt.mul (Flt.sub (.fin 1) (.fin forget)) sumW)) ∧
        t.meanW k = some (Flt.div (Flt.add (asum (wmul (ws data) wt)) (Flt.mul (Flt.sub (.fin 1) (.fin forget)) sumW))
          (.fin nTraining)) ∧
        (c.debug = true → t.debugWeights (k, r.it, t.itInner k) = some wt ∧
          t.debugWorking (k, r.it, t.itInner k) = some wv)) := by
  have hloop := r.hloop
  unfold outerUpdate at hloop
  rw [Py.bind_self] at hloop
  obtain ⟨forget0, ss1, hh1, hloop⟩ := Py.bind_ok_iff.1 hloop
  obtain ⟨_, e1⟩ := Py.attr_ok_iff.1 hh1
  rw [e1] at hloop
  obtain ⟨old, ss2, hh2, hloop⟩ := Py.bind_ok_iff.1 hloop
  obtain ⟨_, e2⟩ := Py.attr_ok_iff.1 hh2
  rw [e2] at hloop
  have hinv : ∀ it > 0, ∀ d, Py.Inv (SameCommitted r.s1)
      (paramLoop (innerUpdate ⟨D, M, c, r.X.get?, ys data, ws data⟩ it) r.s1.paramOrder d) :=
    fun it _ d => paramLoop_inv _ (fun k _ => innerUpdate_committed _ it k r.s1) d
  have hlast := (outerLoop_last (I := SameCommitted r.s1) _ 0 hinv hloop (SameCommitted.refl _)).2
  have hs2 : SameCommitted r.s1 r.s2 :=
    Py.Triple.ok (outerLoop_inv (I := SameCommitted r.s1) _ _ (fun it h d => hinv it (by omega) d) _ _)
      (SameCommitted.refl _) hloop
  have esc : r.s1.scaler = some r.sc := r.proj GState.scaler (fun _ => rfl) fun _ _ => rfl
  have eno : r.s1.nObs = some (r.nObs0 + (ws data).sum) := r.proj GState.nObs (fun _ => rfl) fun _ _ => rfl
  have eor : r.s1.paramOrder = s.paramOrder := r.proj GState.paramOrder (fun _ => rfl) fun _ _ => rfl
  have efo : r.s1.forget = s.forget := r.proj GState.forget (fun _ => rfl) fun _ _ => rfl
  have egr : r.s1.xGram = s.xGram := r.proj GState.xGram (fun _ => rfl) fun _ _ => rfl
  have eyg : r.s1.yGram = s.yGram := r.proj GState.yGram (fun _ => rfl) fun _ _ => rfl
  have esw : r.s1.sumW = s.sumW := r.proj GState.sumW (fun _ => rfl) fun _ _ => rfl
  have egrn : r.s1.xGramNew = s.xGram := r.proj GState.xGramNew (fun _ => rfl) fun _ _ => rfl
  have eygn : r.s1.yGramNew = s.yGram := r.proj GState.yGramNew (fun _ => rfl) fun _ _ => rfl
  have eswn : r.s1.sumWNew = s.sumW := r.proj GState.sumWNew (fun _ => rfl) fun _ _ => rfl
  have eco : r.s1.coef = s.coef := r.proj GState.coef (fun _ => rfl) fun _ _ => rfl
  have ent : r.s1.nTraining = r.nt := r.proj GState.nTraining (fun _ => rfl) fun _ _ => rfl
  have t1 : t.scaler = r.s2.scaler := (congrArg GState.scaler r.ht).trans rfl
  have t2 : t.itOuter = some r.it := (congrArg GState.itOuter r.ht).trans rfl
  have t3 : t.xGram = r.s2.xGramNew := (congrArg GState.xGram r.ht).trans rfl
  have t4 : t.yGram = r.s2.yGramNew := (congrArg GState.yGram r.ht).trans rfl
  have t5 : t.sumW = r.s2.sumWNew := (congrArg GState.sumW r.ht).trans rfl
  have t6 : t.coef = r.s2.coef := (congrArg GState.coef r.ht).trans rfl
  have t7 : t.nObs = r.s2.nObs := (congrArg GState.nObs r.ht).trans rfl
  have t8 : t.meanW = r.s2.meanWNew := (congrArg GState.meanW r.ht).trans rfl
  have t9 : t.debugWeights = r.s2.debugWeights := (congrArg GState.debugWeights r.ht).trans rfl
  have t10 : t.debugWorking = r.s2.debugWorking := (congrArg GState.debugWorking r.ht).trans rfl
  have t11 : t.itInner = r.s2.itInner := (congrArg GState.itInner r.ht).trans rfl
  refine ⟨?_, t2, fun h0 => ?_, fun h1 k hk => ?_⟩
  · rw [t1, hs2.setup.scaler, esc]
  · rcases hlast with ⟨_, _, e⟩ | ⟨hlt, _⟩
    · rw [t3, t4, t5, t6, t7, e]
      exact ⟨egrn, eygn, eswn, eco, eno⟩
    · omega
  · rcases hlast with ⟨e0, _⟩ | ⟨_, d0, s', hs', hb⟩
    · omega
    · have hQ := paramLoop_all (I := SameCommitted r.s1)
        (Q := fun k t => OnceUpdated ⟨D, M, c, r.X.get?, ys data, ws data⟩ r.s1 r.it k t) r.s1.paramOrder
        (fun k _ => innerUpdate_committed _ _ k r.s1) (fun k _ s t d hs h => innerUpdate_once hs h)
        (fun k _ j hjk s t d hs hQ h => hQ.keep (Py.Triple.ok (innerUpdate_sameFor _ _ k s j hjk) (SameFor.refl j s) h))
        hs' hb k (.inl (eor ▸ hk))
      obtain ⟨wt, wv, xg, yg, forget, sumW, nTr, h0, h2, h3, h4, h5, h6, h7, h8, h9⟩ :=
        OnceUpdated.congr (s1' := { r.s1 with forget := s.forget, xGram := s.xGram, yGram := s.yGram, sumW := s.sumW })
          hQ efo egr eyg esw rfl
      refine ⟨wt, wv, xg, yg, forget, sumW, nTr, ⟨h0.run⟩, ?_, ?_, h4, h5, ?_, ?_, ?_, ?_⟩
      · rw [t3]; exact h2
      · rw [t4]; exact h3
      · rw [← ent]; exact h6
      · rw [t5]; exact h7
      · rw [t8]; exact h8
      · rw [t9, t10, t11]; exact h9

/-! ### Recorded iterations -/

/-- Every recorded iteration satisfies `P`. -/
def KeysIn (P : DebugKey → Prop) (s : GState μ p) : Prop := ∀ key, s.debugWeights key ≠ none → P key

theorem keysIn_debugWork {P : DebugKey → Prop} (debug : Bool) (key : DebugKey) (wk : Working) (fv : Fv) (s : GState μ p)
    (hs : KeysIn P s) (hk : P key) : KeysIn P (debugWork debug key wk fv s) := by
  unfold debugWork
  split
  · intro key' h'
    by_cases e : key' = key
    · rw [e]; exact hk
    · refine hs key' fun h0 => h' ?_
      exact (Function.update_of_ne e _ _).trans h0
  · exact hs

theorem fitCoefs_keeps (c : Call μ p) (k itO itI : ℕ) (prev : Option Arr2) (X : Arr2) (wk : Working) (xg : Arr2)
    (yg : Arr1) (I : GState μ p → Prop) (h1 : ∀ s m, I s → I (s.setMethod m)) :
    Py.Inv I (fitCoefs c k itO itI prev X wk xg yg) := by
  unfold fitCoefs
  py_inv
  all_goals exact fun s hs => h1 _ _ hs

theorem fitIteration_keys {P : DebugKey → Prop} (c : Call μ p) (k itO itI scheduled : ℕ) (a : Inner) (hP : P (k, itO, itI)) :
    Py.Inv (KeysIn P) (fitIteration c k itO itI scheduled a) := by
  unfold fitIteration
  py_inv
  all_goals first
    | exact fitCoefs_keeps c k itO itI _ _ _ _ _ _ fun s m hs => hs
    | exact fun s hs => keysIn_debugWork _ _ _ _ _ hs hP
    | (intro s hs; unfold debugBeta; split <;> exact hs)
    | (intro s hs; split <;> exact hs)

theorem updateIteration_keys {P : DebugKey → Prop} (c : Call μ p) (k itO itI : ℕ) (a : Inner) (hP : P (k, itO, itI)) :
    Py.Inv (KeysIn P) (updateIteration c k itO itI a) := by
  unfold updateIteration
  py_inv
  all_goals first
    | exact updateCoefs_keeps c k _ _ _ _ _ (fun s m hs => hs) (fun s m hs => hs)
    | exact fun s hs => keysIn_debugWork _ _ _ _ _ hs hP
    | (intro s hs; unfold debugBeta; split <;> exact hs)
    | (intro s hs; split <;> exact hs)

theorem fitInnerLoop_keys {P : DebugKey → Prop} (c : Call μ p) (k itO scheduled : ℕ) (n itI : ℕ) (a : Inner)
    (hP : ∀ i, itI ≤ i → i < itI + n → P (k, itO, i)) : Py.Inv (KeysIn P) (fitInnerLoop c k itO scheduled n itI a) := by
  induction n generalizing itI a with
  | zero => exact Py.inv_pure _
  | succ n ih =>
    unfold fitInnerLoop
    refine Py.Inv.bind (fitIteration_keys c k itO itI scheduled a (hP itI le_rfl (by omega))) fun r => ?_
    exact Py.inv_ite (Py.inv_pure _) (ih _ _ fun i h1 h2 => hP i (by omega) (by omega))

theorem updateInnerLoop_keys {P : DebugKey → Prop} (c : Call μ p) (k itO : ℕ) (n itI : ℕ) (a : Inner)
    (hP : ∀ i, itI ≤ i → i < itI + n → P (k, itO, i)) : Py.Inv (KeysIn P) (updateInnerLoop c k itO n itI a) := by
  induction n generalizing itI a with
  | zero => exact Py.inv_pure _
  | succ n ih =>
    unfold updateInnerLoop
    refine Py.Inv.bind (updateIteration_keys c k itO itI a (hP itI le_rfl (by omega))) fun r => ?_
    exact Py.inv_ite (Py.inv_pure _) (ih _ _ fun i h1 h2 => hP i (by omega) (by omega))

theorem Py.Inv.of_setup {α β : Type} {m : Py (GState μ p) β} (f : GState μ p → α)
    (hf : ∀ s t, SameSetup s t → f t = f s) (a : α) (h : ∀ s0, Py.Inv (SameSetup s0) m) : Py.Inv (fun s => f s = a) m :=
  fun s hs => ⟨fun _ t hm => (hf s t (Py.Triple.ok (h s) (SameSetup.refl s) hm)).trans hs,
    fun _ t hm => (hf s t (Py.Triple.error (h s) (SameSetup.refl s) hm)).trans hs⟩

theorem updateIteration_setup (c : Call μ p) (k itO itI : ℕ) (a : Inner) (s0 : GState μ p) :
    Py.Inv (SameSetup s0) (updateIteration c k itO itI a) := by
  intro s hs
  refine ⟨fun r t h => ?_, fun e t h => ?_⟩
  · exact hs.trans (Py.Triple.ok (updateIteration_committed c k itO itI a s) (SameCommitted.refl s) h).setup
  · exact hs.trans (Py.Triple.error (updateIteration_committed c k itO itI a s) (SameCommitted.refl s) h).setup

/-- What is allowed as a recorded iteration: outer iteration at most `maxOuter`, inner iteration within the schedule. -/
def Scheduled (maxOuter : ℕ) (schedule : ℕ → ℕ) (key : DebugKey) : Prop :=
  1 ≤ key.2.1 ∧ key.2.1 ≤ maxOuter ∧ key.2.2 < schedule (key.2.1 - 1)

theorem innerFit_keys (c : Call μ p) (itO k : ℕ) (h1 : 1 ≤ itO) (schedule : ℕ → ℕ) (P : DebugKey → Prop)
    (hP : ∀ key, Scheduled c.cfg.maxOuter schedule key → P key) :
    Py.Inv (fun s => s.scheduleIteration = schedule ∧ KeysIn P s) (innerFit c itO k) := by
  unfold innerFit
  refine Py.Inv.bind_self fun s hs => Py.Inv.bind_call fun n hn => ?_
  unfold iterationsAt at hn
  split at hn
  · rename_i hlt
    simp only [Except.ok.injEq] at hn
    have hloop := fun a => Py.Inv.and (J := KeysIn P)
      (Py.Inv.of_setup GState.scheduleIteration (fun s t h => h.scheduleIteration) schedule
        fun s0 => fitInnerLoop_inv c k itO n (fun itI a => fitIteration_setup c k itO itI n a s0) n 0 a)
      (fitInnerLoop_keys c k itO n n 0 a fun i _ hi => hP _ ⟨h1, by simp only; omega, by rw [hs.1] at hn; simp only; omega⟩)
    py_inv
    all_goals first
      | exact hloop _
      | (intro s hs; split <;> exact hs)
      | exact fun s hs => hs
  · cases hn

theorem innerUpdate_keys (c : Call μ p) (itO k : ℕ) (h1 : 1 ≤ itO) (schedule : ℕ → ℕ) (P : DebugKey → Prop)
    (hP : ∀ key, Scheduled c.cfg.maxOuter schedule key → P key) :
    Py.Inv (fun s => s.scheduleIteration = schedule ∧ KeysIn P s) (innerUpdate c itO k) := by
  unfold innerUpdate
  refine Py.Inv.bind_self fun s hs => ?_
  refine Py.Inv.bind (Py.inv_attr _ _) fun _ => Py.Inv.bind (Py.inv_attr _ _) fun _ => Py.Inv.bind_call fun n hn => ?_
  unfold iterationsAt at hn
  split at hn
  · rename_i hlt
    simp only [Except.ok.injEq] at hn
    have hloop := fun a => Py.Inv.and (J := KeysIn P)
      (Py.Inv.of_setup GState.scheduleIteration (fun s t h => h.scheduleIteration) schedule
        fun s0 => updateInnerLoop_inv c k itO (fun itI a => updateIteration_setup c k itO itI a s0) n 0 a)
      (updateInnerLoop_keys c k itO n 0 a fun i _ hi => hP _ ⟨h1, by simp only; omega, by rw [hs.1] at hn; simp only; omega⟩)
    py_inv
    all_goals first
      | exact hloop _
      | exact fun s hs => hs
  · cases hn

theorem outerFit_keys (c : Call μ p) (fuel : ℕ) (schedule : ℕ → ℕ) (P : DebugKey → Prop)
    (hP : ∀ key, Scheduled c.cfg.maxOuter schedule key → P key) :
    Py.Inv (fun s => s.scheduleIteration = schedule ∧ KeysIn P s) (outerFit c fuel) := by
  unfold outerFit
  refine Py.Inv.bind Py.inv_self fun s => ?_
  exact outerLoop_inv _ _ (fun it hit d => paramLoop_inv _ (fun k _ => innerFit_keys c it k hit schedule P hP) d) _ _

theorem outerUpdate_keys (c : Call μ p) (fuel : ℕ) (schedule : ℕ → ℕ) (P : DebugKey → Prop)
    (hP : ∀ key, Scheduled c.cfg.maxOuter schedule key → P key) :
    Py.Inv (fun s => s.scheduleIteration = schedule ∧ KeysIn P s) (outerUpdate c fuel) := by
  unfold outerUpdate
  py_inv
  exact outerLoop_inv _ _ (fun it hit d => paramLoop_inv _ (fun k _ => innerUpdate_keys c it k hit schedule P hP) d) _ _

theorem prepare_keeps (frames : Bool) (D : DistOps) (M : MethodOps μ) (c : GConfig μ p) (I : GState μ p → Prop)
    (h1 : ∀ s a, I s → I (s.setEquation a)) (h2 : ∀ s a, I s → I (s.setMethod a)) (h3 : ∀ s a, I s → I (s.setForget a))
    (h4 : ∀ s a, I s → I (s.setIc a)) (h5 : ∀ s a, I s → I (s.setFitIntercept a))
    (h6 : ∀ s a, I s → I (s.setRegularizeIntercept a)) (h7 : ∀ s a, I s → I (s.setStepSize a))
    (h8 : ∀ s a, I s → I (s.setParamOrder a)) (h9 : ∀ s a, I s → I (s.setScaler a)) :
    Py.Inv I (prepare frames D M c) := by
  unfold prepare
  py_inv
  · exact fun s hs => h1 _ _ hs
  · exact fun s hs => h2 _ _ hs
  · exact fun s hs => h3 _ _ hs
  · exact fun s hs => h4 _ _ hs
  · exact fun s hs => h5 _ _ hs
  · exact fun s hs => h6 _ _ hs
  · exact fun s hs => h7 _ _ hs
  · exact fun s hs => h8 _ _ hs
  · exact fun s hs => h9 _ _ hs

theorem fit_keys (frames : Bool) (D : DistOps) (M : MethodOps μ) (c : GConfig μ p) (data : List (Obs p)) (P : DebugKey → Prop)
    (hP : ∀ key, Scheduled c.maxOuter (fun i => if i < c.prefitInitial then 1 else c.maxInner) key → P key) :
    Py.Inv (KeysIn P) (GState.fit (μ := μ) frames D M c data) := by
  unfold GState.fit
  refine Py.Inv.bind (Py.inv_raiseIf _ _) fun _ => Py.Inv.bind ?_ fun _ => Py.Inv.bind (Py.inv_raiseIf _ _) fun _ =>
    Py.Inv.bind (Py.inv_raiseIf _ _) fun _ => Py.Inv.bind ?_ fun _ => Py.Inv.bind Py.inv_self fun s =>
    Py.Inv.bind (Py.inv_call _) fun nt => Py.Inv.bind ?_ fun _ => Py.Inv.bind (Py.inv_call _) fun fv =>
    Py.Inv.bind ?_ fun _ => Py.Inv.bind (Py.inv_call _) fun nf => Py.Inv.bind ?_ fun _ =>
    Py.Inv.bind (Py.inv_attr _ _) fun f0 => Py.Inv.bind (Py.inv_call _) fun sc => Py.Inv.bind ?_ fun _ =>
    Py.Inv.bind (Py.inv_call _) fun X => Py.Inv.bind (Py.inv_call _) fun reg => ?_
  · exact prepare_keeps frames D M c _ (fun _ _ h => h) (fun _ _ h => h) (fun _ _ h => h) (fun _ _ h => h) (fun _ _ h => h)
      (fun _ _ h => h) (fun _ _ h => h) (fun _ _ h => h) (fun _ _ h => h)
  · exact Py.inv_set fun _ h => h
  · exact Py.inv_set fun _ h => h
  · exact Py.inv_set fun _ h => h
  · exact Py.inv_set fun _ h => h
  · exact Py.inv_set fun _ h => h
  · refine Py.Triple.bind (R := fun _ s => s.scheduleIteration = (fun i => if i < c.prefitInitial then 1 else c.maxInner) ∧
      KeysIn P s) (Py.triple_set fun s hs => ⟨rfl, fun key hk => ?_⟩) fun _ => ?_
    · unfold resetFit at hk
      simp only at hk
      split at hk
      · exact absurd rfl hk
      · exact hs key hk
    · have hk := fun n => outerFit_keys ⟨D, M, c, X.get?, ys data, ws data⟩ n _ P hP
      have h2 : Py.Inv (fun s : GState μ p => s.scheduleIteration = (fun i => if i < c.prefitInitial then 1 else c.maxInner) ∧
          KeysIn P s) (do
            let s ← Py.self
            let r ← outerFit ⟨D, M, c, X.get?, ys data, ws data⟩ (c.fuel s.minIt)
            let r ← Py.attr r .notImplemented
            Py.set (GState.setResult r.1 r.2)) := by
        refine Py.Inv.bind Py.inv_self fun s => Py.Inv.bind (hk _) fun r => Py.Inv.bind (Py.inv_attr _ _) fun _ =>
          Py.inv_set fun _ h => h
      exact h2.weaken (fun _ h => h) (fun _ _ h => h.2) fun _ _ h => h.2

open Classical in
theorem cautious_keeps (D : DistOps) (c : GConfig μ p) (y : List ℝ) (I : GState μ p → Prop)
    (h1 : ∀ s, I s → I s.outlierSchedule) (h2 : ∀ s b, I s → I (s.setMinIt b)) : Py.Inv I (cautious D c y) := by
  unfold cautious
  py_inv
  exact fun s hs => h2 s _ hs

theorem update_keys (D : DistOps) (M : MethodOps μ) (c : GConfig μ p) (data : List (Obs p)) (P : DebugKey → Prop)
    (hP : ∀ key, Scheduled c.maxOuter (fun i => if i < c.prefitUpdate then 1 else max c.maxInner 1) key → P key) :
    Py.Inv (KeysIn P) (GState.update (μ := μ) D M c data) := by
  unfold GState.update
  refine Py.Inv.bind (Py.inv_raiseIf _ _) fun _ => Py.Inv.bind (Py.inv_raiseIf _ _) fun _ =>
    Py.Inv.bind (Py.inv_raiseIf _ _) fun _ => Py.Inv.bind Py.inv_self fun s => Py.Inv.bind (Py.inv_attr _ _) fun n0 =>
    Py.Inv.bind (Py.inv_set fun _ h => h) fun _ => Py.Inv.bind (Py.inv_call _) fun nt =>
    Py.Inv.bind (Py.inv_set fun _ h => h) fun _ => Py.Inv.bind Py.inv_self fun s' =>
    Py.Inv.bind (Py.inv_call _) fun fv => Py.Inv.bind (Py.inv_set fun _ h => h) fun _ =>
    Py.Inv.bind (Py.inv_attr _ _) fun sc0 => Py.Inv.bind (Py.inv_attr _ _) fun f0 => Py.Inv.bind (Py.inv_call _) fun sc =>
    Py.Inv.bind (Py.inv_set fun _ h => h) fun _ => Py.Inv.bind (Py.inv_call _) fun X => ?_
  let J : GState μ p → Prop := fun s =>
    (∀ i, s.scheduleIteration i ≤ if i < c.prefitUpdate then 1 else max c.maxInner 1) ∧ KeysIn P s
  refine Py.Triple.bind (R := fun _ => J) (Py.triple_set fun s hs => ⟨fun i => ?_, fun key hk => ?_⟩) fun _ => ?_
  · unfold resetUpdate
    simp only
    split
    · exact le_rfl
    · exact le_max_left _ _
  · unfold resetUpdate at hk
    simp only at hk
    split at hk
    · exact absurd rfl hk
    · exact hs key hk
  · have hc : Py.Inv J (cautious D c (ys data)) := by
      refine cautious_keeps D c _ J (fun s hs => ⟨fun i => ?_, hs.2⟩) fun s b hs => hs
      unfold GState.outlierSchedule
      simp only
      split
      · split
        · exact le_rfl
        · exact le_max_right _ _
      · exact hs.1 i
    have hl : ∀ n, Py.Inv J (outerUpdate ⟨D, M, c, X.get?, ys data, ws data⟩ n) := by
      intro n s hs
      have hk := outerUpdate_keys ⟨D, M, c, X.get?, ys data, ws data⟩ n s.scheduleIteration P fun key h =>
        hP key ⟨h.1, h.2.1, lt_of_lt_of_le h.2.2 (hs.1 _)⟩
      refine ⟨fun a t h => ?_, fun e t h => ?_⟩
      · have := Py.Triple.ok hk ⟨rfl, hs.2⟩ h
        exact ⟨fun i => by rw [this.1]; exact hs.1 i, this.2⟩
      · have := Py.Triple.error hk ⟨rfl, hs.2⟩ h
        exact ⟨fun i => by rw [this.1]; exact hs.1 i, this.2⟩
    have h2 : Py.Inv J (do
        cautious D c (ys data)
        let s ← Py.self
        let r ← outerUpdate ⟨D, M, c, X.get?, ys data, ws data⟩ (c.fuel s.minIt)
        let r ← Py.attr r .notImplemented
        Py.set (GState.setResult r.1 r.2)
        Py.set GState.commitStatistics) :=
      Py.Inv.bind hc fun _ => Py.Inv.bind Py.inv_self fun s => Py.Inv.bind (hl _) fun r =>
        Py.Inv.bind (Py.inv_attr _ _) fun _ => Py.Inv.bind (Py.inv_set fun _ h => h) fun _ => Py.inv_set fun _ h => h
    exact h2.weaken (fun _ h => h) (fun _ _ h => h.2) fun _ _ h => h.2

/-! ### The fitted values during the fit -/

theorem fitIteration_fv (c : Call μ p) (k itO itI scheduled : ℕ) (a : Inner) (fv : Fv) :
    Py.Inv (fun s => s.fv = fv) (fitIteration c k itO itI scheduled a) := by
  unfold fitIteration
  py_inv
  all_goals first
    | exact fitCoefs_keeps c k itO itI _ _ _ _ _ _ fun s m hs => hs
    | (intro s hs; unfold debugWork; split <;> exact hs)
    | (intro s hs; unfold debugBeta; split <;> exact hs)
    | (intro s hs; split <;> exact hs)

/-- After one inner loop of the fit: the fitted values are unchanged, or their deviance is the reported one and, behind
the first outer iteration, not above the one at the start. -/
theorem innerFit_fv (c : Call μ p) (itO k : ℕ) (s : GState μ p) :
    (innerFit c itO k s).2.fv = s.fv ∨ ∃ d, (innerFit c itO k s).1 = .ok d ∧
      d = deviance c.D c.y c.w (innerFit c itO k s).2.fv ∧
      (itO = 1 ∨ ¬ Flt.lt (deviance c.D c.y c.w s.fv) (deviance c.D c.y c.w (innerFit c itO k s).2.fv)) := by
  rcases hrun : innerFit c itO k s with ⟨x, t⟩
  simp only
  unfold innerFit at hrun
  rw [Py.bind_self] at hrun
  cases hn : iterationsAt c.cfg s itO with
  | error e =>
    rw [hn, Py.bind_call_error] at hrun
    cases hrun
    exact .inl rfl
  | ok n =>
    rw [hn, Py.bind_call_ok] at hrun
    rcases hl : fitInnerLoop c k itO n n 0 ⟨s.fv, s.fv, deviance c.D c.y c.w s.fv, deviance c.D c.y c.w s.fv, 0, false, none⟩ s
      with ⟨y, s2⟩
    have hfv2 : s2.fv = s.fv := by
      have := Py.Inv.apply (fitInnerLoop_inv c k itO n (fun itI a => fitIteration_fv c k itO itI n a s.fv) n 0
        ⟨s.fv, s.fv, deviance c.D c.y c.w s.fv, deviance c.D c.y c.w s.fv, 0, false, none⟩) (s := s) rfl
      rw [hl] at this
      exact this
    cases y with
    | error e =>
      rw [Py.bind_of_error hl] at hrun
      cases hrun
      exact .inl hfv2
    | ok a =>
      rw [Py.bind_of_ok hl] at hrun
      have hout := fitInnerLoop_out s.fv n 0 hl ⟨.inl rfl, rfl, by simp⟩
      cases ho : a.out with
      | none =>
        rw [ho, Py.bind_attr_none] at hrun
        cases hrun
        exact .inl hfv2
      | some o =>
        obtain ⟨⟨col, hcol⟩, hdv, hbad⟩ := hout o ho
        rw [ho, Py.bind_attr_some, Py.bind_set, Py.bind_set] at hrun
        obtain ⟨hx, ht⟩ := Prod.mk.inj hrun
        by_cases hc : a.badState = false ∨ itO = 1
        · have hfv : t.fv = a.fvNew := by
            rw [← ht, if_pos hc]
            change s2.fv.setCol k (a.fvNew.col k) = a.fvNew
            rw [hfv2, hcol, Fv.setCol_col]
          refine .inr ⟨o.dv, hx.symm, by rw [hfv, hdv], ?_⟩
          rcases hc with hc | hc
          · refine .inr fun hlt => ?_
            rw [hfv, ← hdv] at hlt
            rw [hbad.2 hlt] at hc
            cases hc
          · exact .inl hc
        · refine .inl ?_
          rw [← ht, if_neg hc]
          exact hfv2

theorem Flt.le_of_not_lt {a b : Flt} (ha : a ≠ .nan) (hb : b ≠ .nan) (h : ¬ Flt.lt a b) : Flt.le b a := by
  cases a <;> cases b <;> simp_all [Flt.lt, Flt.le]

end Ondil
