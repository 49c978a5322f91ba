import Verif.Lemmas.GamlssLoops

/-!
# Properties of the loops of the distributional regression (C57, C58, C59)
-/

namespace Ondil

variable {μ : Type} {p : ℕ}

/-! ### C57: every observation enters the statistics exactly once -/

/-- After a successful update with at least one outer iteration, the statistics of every distribution parameter are
those of the previous calls (`s.xGram`, `s.yGram`) updated once with the new batch, with working weights and a working
vector computed from the batch, however many inner and outer iterations were made.  In debug mode these are the weights
and the working vector recorded for the last outer and the last inner iteration. -/
theorem C57_statistics_once {D : DistOps} {M : MethodOps μ} {c : GConfig μ p} {data : List (Obs p)} {s t : GState μ p}
    {u : Unit} (h : GState.update D M c data s = (.ok u, t)) (it : ℕ) (hit : t.itOuter = some it) (h1 : 1 ≤ it) :
    ∃ sc, t.scaler = some sc ∧ ∀ k ∈ s.paramOrder, ∃ X fv wk m forget x0 y0 xg yg,
      designFor s sc (xs data) k = .ok X ∧ working D updateClip (ys data) fv k = .ok wk ∧
      s.forget.get? k = some forget ∧ s.xGram k = some x0 ∧ s.yGram k = some y0 ∧
      M.updateX m x0 X (wmul (ws data) wk.wt) forget = .ok xg ∧
      M.updateY m y0 X wk.wv (wmul (ws data) wk.wt) forget = .ok yg ∧
      t.xGram k = some xg ∧ t.yGram k = some yg ∧
      (c.debug = true → t.debugWeights (k, it, t.itInner k) = some wk.wt ∧
        t.debugWorking (k, it, t.itInner k) = some wk.wv) := by
  obtain ⟨r⟩ := update_ok h
  obtain ⟨hsc, hit', hO⟩ := r.once
  have e : it = r.it := by
    rw [hit'] at hit; exact (Option.some.inj hit).symm
  subst e
  refine ⟨r.sc, hsc, fun k hk => ?_⟩
  obtain ⟨wt, wv, xg, yg, _, _, _, ⟨fv, wk, m, X, forget, x0, y0, a1, rfl, rfl, a2, a3, a4, a5, a6, a7⟩, b1, b2, _, _, _, _, _,
    b3⟩ := hO.2 h1 k hk
  exact ⟨X, fv, wk, m, forget, x0, y0, xg, yg, (forParams_get? r.hX a2).2, a1, a3, a4, a5, a6, a7, b1, b2, b3⟩

/-- The sum of the working weights is discounted once per call of `update`, whatever the number of rows in the batch:
the discount of the Gramians is one factor per row (C01). -/
theorem C57_weight_sum {D : DistOps} {M : MethodOps μ} {c : GConfig μ p} {data : List (Obs p)} {s t : GState μ p}
    {u : Unit} (h : GState.update D M c data s = (.ok u, t)) (it : ℕ) (hit : t.itOuter = some it) (h1 : 1 ≤ it) :
    ∀ k ∈ s.paramOrder, ∃ fv wk forget sumW, working D updateClip (ys data) fv k = .ok wk ∧
      s.forget.get? k = some forget ∧ s.sumW k = some sumW ∧
      t.sumW k = some (Flt.add (asum (wmul (ws data) wk.wt)) (Flt.mul (.fin (1 - forget)) sumW)) := by
  obtain ⟨r⟩ := update_ok h
  obtain ⟨hsc, hit', hO⟩ := r.once
  have e : it = r.it := by
    rw [hit'] at hit; exact (Option.some.inj hit).symm
  subst e
  intro k hk
  obtain ⟨wt, wv, xg, yg, forget, sumW, _, ⟨fv, wk, _, _, _, _, _, a1, rfl, rfl, _⟩, _, _, b3, b4, _, b6, _⟩ := hO.2 h1 k hk
  refine ⟨fv, wk, forget, sumW, a1, b3, b4, b6.trans ?_⟩
  have : Flt.sub (.fin 1) (.fin forget) = .fin (1 - forget) := by simp [Flt.sub, Flt.neg, Flt.add, sub_eq_add_neg]
  rw [this]

/-- **C57 fails** when the outer loop makes no iteration, which `min_it_outer = 0` allows: the observations are counted
and the scaler learns from them, but they do not enter the statistics. -/
theorem C57_skipped_fails {D : DistOps} {M : MethodOps μ} {c : GConfig μ p} {data : List (Obs p)} {s t : GState μ p}
    {u : Unit} (h : GState.update D M c data s = (.ok u, t)) (hit : t.itOuter = some 0) :
    t.xGram = s.xGram ∧ t.yGram = s.yGram ∧ t.sumW = s.sumW ∧ t.coef = s.coef ∧
      ∃ n, s.nObs = some n ∧ t.nObs = some (n + (ws data).sum) := by
  obtain ⟨r⟩ := update_ok h
  obtain ⟨hsc, hit', hO⟩ := r.once
  have e : r.it = 0 := by
    rw [hit'] at hit; exact Option.some.inj hit
  obtain ⟨h1, h2, h3, h4, h5⟩ := hO.1 e
  exact ⟨h1, h2, h3, h4, r.nObs0, r.hnObs0, h5⟩

/-! ### C58: the fitting loops terminate within their limits -/

/-- The `while True` loops of `fit` and `update` are left after finitely many iterations, whatever the deviance does
(including NaN): the model, which unrolls them `fuel` times, never runs out of fuel, and more fuel changes nothing. -/
theorem C58_loops_leave (c : Call μ p) (s t : GState μ p) (n : ℕ) (hn : c.cfg.fuel s.minIt ≤ n) :
    outerFit c (c.cfg.fuel s.minIt) s ≠ (.ok none, t) ∧ outerFit c n s = outerFit c (c.cfg.fuel s.minIt) s ∧
    outerUpdate c (c.cfg.fuel s.minIt) s ≠ (.ok none, t) ∧
    outerUpdate c n s = outerUpdate c (c.cfg.fuel s.minIt) s := by
  have hF : ∀ it ≥ max s.minIt c.cfg.maxOuter, ∀ d e, fitStops c.cfg s.minIt it d e :=
    fun it hit d e => ⟨by omega, .inr (.inl (by omega))⟩
  have hU : ∀ it ≥ max s.minIt c.cfg.maxOuter, ∀ d e, updateStops c.cfg s.minIt it d e :=
    fun it hit d e => ⟨by omega, .inr (by omega)⟩
  have hfu : max s.minIt c.cfg.maxOuter < 0 + c.cfg.fuel s.minIt := by unfold GConfig.fuel; omega
  have h1 : ∀ t, outerFit c (c.cfg.fuel s.minIt) s ≠ (.ok none, t) := fun t => by
    unfold outerFit
    rw [Py.bind_self]
    exact outerLoop_ne_none hF _ _ (by omega) hfu _ _ _ _
  have h2 : ∀ t, outerUpdate c (c.cfg.fuel s.minIt) s ≠ (.ok none, t) := fun t => by
    unfold outerUpdate
    rw [Py.bind_self]
    intro h
    obtain ⟨_, _, hh1, h⟩ := Py.bind_ok_iff.1 h
    obtain ⟨_, e1⟩ := Py.attr_ok_iff.1 hh1
    obtain ⟨_, _, hh2, h⟩ := Py.bind_ok_iff.1 h
    exact outerLoop_ne_none hU _ _ (by omega) hfu _ _ _ _ h
  refine ⟨h1 t, ?_, h2 t, ?_⟩
  · unfold outerFit
    rw [Py.bind_self, Py.bind_self]
    exact outerLoop_fuel _ _ _ hn _ _ _ fun t => outerLoop_ne_none hF _ _ (by omega) hfu _ _ _ _
  · unfold outerUpdate
    rw [Py.bind_self, Py.bind_self]
    cases hf : s.forget.get? 0 with
    | none => rw [Py.bind_attr_none, Py.bind_attr_none]
    | some f0 =>
      rw [Py.bind_attr_some, Py.bind_attr_some]
      cases hd : s.globalDev with
      | none => rw [Py.bind_attr_none, Py.bind_attr_none]
      | some d0 =>
        rw [Py.bind_attr_some, Py.bind_attr_some]
        exact outerLoop_fuel _ _ _ hn _ _ _ fun t => outerLoop_ne_none hU _ _ (by omega) hfu _ _ _ _

/-- A pass over the parameters in an outer iteration beyond `max_it_outer` raises. -/
theorem paramLoop_beyond {f : ℕ → Py (GState μ p) Flt} {ks : List ℕ} (hks : ks ≠ [])
    (hf : ∀ k s d t, f k s ≠ (.ok d, t)) {d d' : Flt} {s t : GState μ p} : paramLoop f ks d s ≠ (.ok d', t) := by
  cases ks with
  | nil => exact absurd rfl hks
  | cons k ks =>
    unfold paramLoop
    intro h
    obtain ⟨d1, s1, h1, _⟩ := Py.bind_ok_iff.1 h
    exact hf k s d1 s1 h1

/-- A successful `fit` makes at most `max_it_outer` outer iterations and at least the required number. -/
theorem C58_fit_outer {frames : Bool} {D : DistOps} {M : MethodOps μ} {c : GConfig μ p} {data : List (Obs p)}
    {s t : GState μ p} {u : Unit} (h : GState.fit frames D M c data s = (.ok u, t)) :
    ∃ it, t.itOuter = some it ∧ it ≤ c.maxOuter ∧ (if 0 < c.prefitInitial then c.prefitInitial else c.minItOuter) ≤ it := by
  obtain ⟨r⟩ := fit_ok h
  obtain ⟨pr⟩ := prepare_ok r.hprepare
  refine ⟨r.it, (congrArg GState.itOuter r.ht).trans rfl, ?_⟩
  have hloop := r.hloop
  unfold outerFit at hloop
  rw [Py.bind_self] at hloop
  obtain ⟨⟨e', hst⟩, hlast⟩ := outerLoop_last (I := fun _ => True) _ 0
    (fun it _ d s _ => ⟨fun _ _ _ => trivial, fun _ _ _ => trivial⟩) hloop trivial
  refine ⟨?_, hst.1⟩
  rcases hlast with ⟨e, _⟩ | ⟨_, d0, s', _, hb⟩
  · omega
  · by_contra hgt
    have hne : r.sP.paramOrder ≠ [] := List.ne_nil_of_mem (pr.mem_order r.nParams_pos)
    refine paramLoop_beyond ?_ ?_ hb
    · rw [fitStart_paramOrder]
      exact hne
    intro k s d t h
    unfold innerFit at h
    rw [Py.bind_self] at h
    obtain ⟨n, _, hn, _⟩ := Py.bind_ok_iff.1 h
    have hn := (Py.call_ok_iff.1 hn).1
    unfold iterationsAt at hn
    rw [if_neg (by simp only; omega)] at hn
    cases hn

/-- The same for `update`, on an estimator with at least one distribution parameter. -/
theorem C58_update_outer {D : DistOps} {M : MethodOps μ} {c : GConfig μ p} {data : List (Obs p)}
    {s t : GState μ p} {u : Unit} (h : GState.update D M c data s = (.ok u, t)) (hp : s.paramOrder ≠ []) :
    ∃ it, t.itOuter = some it ∧ it ≤ c.maxOuter ∧ t.minIt ≤ it := by
  obtain ⟨r⟩ := update_ok h
  refine ⟨r.it, (congrArg GState.itOuter r.ht).trans rfl, ?_⟩
  have hs2 : SameSetup r.s1 r.s2 := (Py.Triple.ok (outerUpdate_committed _ _ r.s1) (SameCommitted.refl _) r.hloop).setup
  have hmin : t.minIt = r.s1.minIt := ((congrArg GState.minIt r.ht).trans rfl).trans hs2.minIt
  have eor : r.s1.paramOrder = s.paramOrder := r.proj GState.paramOrder (fun _ => rfl) fun _ _ => rfl
  have hloop := r.hloop
  unfold outerUpdate at hloop
  rw [Py.bind_self] at hloop
  obtain ⟨_, _, hh1, hloop⟩ := Py.bind_ok_iff.1 hloop
  obtain ⟨_, _, hh2, hloop⟩ := Py.bind_ok_iff.1 hloop
  obtain ⟨⟨e', hst⟩, hlast⟩ := outerLoop_last (I := fun _ => True) _ 0
    (fun it _ d s _ => ⟨fun _ _ _ => trivial, fun _ _ _ => trivial⟩) hloop trivial
  refine ⟨?_, hmin ▸ hst.1⟩
  rcases hlast with ⟨e, _⟩ | ⟨_, d0, s', _, hb⟩
  · omega
  · by_contra hgt
    refine paramLoop_beyond (eor ▸ hp) ?_ hb
    intro k s d t h
    unfold innerUpdate at h
    rw [Py.bind_self] at h
    obtain ⟨_, _, _, h⟩ := Py.bind_ok_iff.1 h
    obtain ⟨_, _, _, h⟩ := Py.bind_ok_iff.1 h
    obtain ⟨n, _, hn, _⟩ := Py.bind_ok_iff.1 h
    have hn := (Py.call_ok_iff.1 hn).1
    unfold iterationsAt at hn
    rw [if_neg (by simp only; omega)] at hn
    cases hn

/-- The proviso is needed: when more outer iterations are required than allowed, `fit` never succeeds. -/
theorem C58_min_above_max {frames : Bool} {D : DistOps} {M : MethodOps μ} {c : GConfig μ p} {data : List (Obs p)}
    (hc : c.maxOuter < if 0 < c.prefitInitial then c.prefitInitial else c.minItOuter) (s t : GState μ p) (u : Unit) :
    GState.fit frames D M c data s ≠ (.ok u, t) := by
  intro h
  obtain ⟨it, _, h1, h2⟩ := C58_fit_outer h
  omega

/-- The iterations `fit` makes, as recorded in debug mode, whether the call succeeds or raises: outer iterations are
numbered from one to at most `max_it_outer`; the inner iterations of outer iteration `o` are numbered below the scheduled
number, which is one for the first `prefit_initial` outer iterations and `max_it_inner` afterwards. -/
theorem C58_fit_iterations {frames : Bool} {D : DistOps} {M : MethodOps μ} {c : GConfig μ p} {data : List (Obs p)}
    {s : GState μ p} (hs : ∀ key, s.debugWeights key = none) (k o i : ℕ)
    (hkey : (GState.fit frames D M c data s).2.debugWeights (k, o, i) ≠ none) :
    1 ≤ o ∧ o ≤ c.maxOuter ∧ i < if o ≤ c.prefitInitial then 1 else c.maxInner := by
  have hinv : Py.Inv (KeysIn (μ := μ) (p := p) (Scheduled c.maxOuter fun i => if i < c.prefitInitial then 1 else c.maxInner))
      (GState.fit frames D M c data) := fit_keys frames D M c data _ fun _ h => h
  have := hinv.apply (s := s) (fun key h => absurd (hs key) h) (k, o, i) hkey
  refine ⟨this.1, this.2.1, this.2.2.trans_eq ?_⟩
  have h1 := this.1
  simp only at h1
  by_cases h : o ≤ c.prefitInitial
  · rw [if_pos h]; simp only; rw [if_pos (by omega)]
  · rw [if_neg h]; simp only; rw [if_neg (by omega)]

/-- The same for `update`: recorded iterations are those of earlier calls, or satisfy the limits, with `prefit_update` in
the place of `prefit_initial`.  With cautious updates the schedule may allow one iteration only. -/
theorem C58_update_iterations {D : DistOps} {M : MethodOps μ} {c : GConfig μ p} {data : List (Obs p)}
    {s : GState μ p} (k o i : ℕ) (hkey : (GState.update D M c data s).2.debugWeights (k, o, i) ≠ none)
    (hs : s.debugWeights (k, o, i) = none) :
    1 ≤ o ∧ o ≤ c.maxOuter ∧ (if o ≤ c.prefitUpdate then i < 1 else i < max c.maxInner 1) := by
  have hinv := update_keys D M c data (fun key : DebugKey => s.debugWeights key ≠ none ∨
    Scheduled c.maxOuter (fun i => if i < c.prefitUpdate then 1 else max c.maxInner 1) key) fun key h => .inr h
  rcases hinv.apply (s := s) (fun key h => .inl h) (k, o, i) hkey with h | h
  · exact absurd hs h
  · obtain ⟨h1, h2, h3⟩ := h
    simp only at h1 h2 h3
    refine ⟨h1, h2, ?_⟩
    by_cases ho : o ≤ c.prefitUpdate
    · rw [if_pos ho]; rwa [if_pos (by omega)] at h3
    · rw [if_neg ho]; rwa [if_neg (by omega)] at h3

/-! ### C59: accepted steps never increase the deviance -/

/-- From the second outer iteration on, treating one parameter either leaves the fitted values as they are, or replaces
them by values whose deviance is not above the one at the start; a call that raises leaves them as they are. -/
theorem C59_inner (c : Call μ p) (itO k : ℕ) (h2 : 2 ≤ itO) (s : GState μ p) :
    (innerFit c itO k s).2.fv = s.fv ∨
      ¬ Flt.lt (deviance c.D c.y c.w s.fv) (deviance c.D c.y c.w (innerFit c itO k s).2.fv) := by
  rcases innerFit_fv c itO k s with h | ⟨_, _, _, h | h⟩
  · exact .inl h
  · omega
  · exact .inr h

/-- The states that a fit passes through behind the first outer iteration: from each to the next, one parameter is
treated (`_inner_fit`). -/
inductive FitPath (c : Call μ p) (s1 : GState μ p) : List (GState μ p) → GState μ p → Prop
  | start : FitPath c s1 [s1] s1
  | step {l : List (GState μ p)} {s : GState μ p} (itO k : ℕ) : 2 ≤ itO → FitPath c s1 l s →
      FitPath c s1 (l ++ [(innerFit c itO k s).2]) (innerFit c itO k s).2

theorem FitPath.last_mem {c : Call μ p} {s1 s : GState μ p} {l : List (GState μ p)} (h : FitPath c s1 l s) : s ∈ l := by
  cases h <;> simp

theorem FitPath.bound {c : Call μ p} {s1 s : GState μ p} {l : List (GState μ p)} (h : FitPath c s1 l s)
    (hnan : ∀ a ∈ l, deviance c.D c.y c.w a.fv ≠ .nan) :
    Flt.le (deviance c.D c.y c.w s.fv) (deviance c.D c.y c.w s1.fv) := by
  induction h with
  | start => exact Flt.le_refl (hnan _ (by simp))
  | step itO k h2 h ih =>
    rename_i l s
    have hs := ih fun a ha => hnan a (List.mem_append_left _ ha)
    rcases C59_inner c itO k h2 s with e | e
    · rw [e]; exact hs
    · exact Flt.le_trans (Flt.le_of_not_lt (hnan _ (List.mem_append_left _ h.last_mem)) (hnan _ (by simp)) e) hs

/-- A successful `fit` passes, behind the first outer iteration, through states that lead to its fitted values, and when
none of them has deviance NaN, the deviance at the end is at most the one after the first outer iteration.  What is
missing without the hypothesis is the comparison with NaN, see `C59_nan_fails`. -/
theorem C59_fit_partial {frames : Bool} {D : DistOps} {M : MethodOps μ} {c : GConfig μ p} {data : List (Obs p)}
    {s t : GState μ p} {u : Unit} (h : GState.fit frames D M c data s = (.ok u, t)) (h1 : t.itOuter ≠ some 0) :
    ∃ (X : ℕ → Option Arr2) (s0 s1 s2 : GState μ p) (d0 d1 : Flt) (path : List (GState μ p)),
      paramLoop (innerFit ⟨D, M, c, X, ys data, ws data⟩ 1) s0.paramOrder d0 s0 = (.ok d1, s1) ∧
      FitPath ⟨D, M, c, X, ys data, ws data⟩ s1 path s2 ∧ s2.fv = t.fv ∧
      ((∀ a ∈ path, deviance D (ys data) (ws data) a.fv ≠ .nan) →
        Flt.le (deviance D (ys data) (ws data) t.fv) (deviance D (ys data) (ws data) s1.fv)) := by
  obtain ⟨r⟩ := fit_ok h
  have hit : t.itOuter = some r.it := (congrArg GState.itOuter r.ht).trans rfl
  have htfv : t.fv = r.s2.fv := (congrArg GState.fv r.ht).trans rfl
  have hloop := r.hloop
  unfold outerFit at hloop
  rw [Py.bind_self] at hloop
  obtain ⟨n, hn⟩ : ∃ n, c.fuel (fitStart c D.nParams (ws data).sum r.nt r.fv r.nf r.sc r.reg r.sP).minIt = n + 1 :=
    ⟨_, rfl⟩
  rw [hn] at hloop
  unfold outerLoop at hloop
  split at hloop
  · obtain ⟨e, _⟩ := Py.pure_ok_iff.1 hloop
    simp only [Option.some.injEq, Prod.mk.injEq] at e
    rw [hit, ← e.2] at h1
    exact absurd rfl h1
  · obtain ⟨d1, s1, hb, hrest⟩ := Py.bind_ok_iff.1 hloop
    have hpath : ∃ l, FitPath ⟨D, M, c, r.X.get?, ys data, ws data⟩ s1 l r.s2 := by
      refine Py.Triple.ok (outerLoop_inv (I := fun u : GState μ p => ∃ l, FitPath ⟨D, M, c, r.X.get?, ys data, ws data⟩ s1 l u)
        _ _ (fun it hit d => paramLoop_inv _ (fun k _ => ?_) d) _ _) ⟨_, .start⟩ hrest
      have key : ∀ v : GState μ p, (∃ l, FitPath ⟨D, M, c, r.X.get?, ys data, ws data⟩ s1 l v) →
          ∃ l, FitPath ⟨D, M, c, r.X.get?, ys data, ws data⟩ s1 l (innerFit ⟨D, M, c, r.X.get?, ys data, ws data⟩ it k v).2 :=
        fun v ⟨l, hl⟩ => ⟨_, .step it k (by omega) hl⟩
      intro v hv
      refine ⟨fun a t h => ?_, fun e t h => ?_⟩
      · have := key v hv; rwa [h] at this
      · have := key v hv; rwa [h] at this
    obtain ⟨l, hl⟩ := hpath
    refine ⟨r.X.get?, _, s1, r.s2, _, d1, l, hb, hl, htfv.symm, fun hnan => ?_⟩
    rw [htfv]
    exact hl.bound hnan

end Ondil
