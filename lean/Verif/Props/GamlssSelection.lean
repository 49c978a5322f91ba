import Verif.Lemmas.SelectionLoops
import Verif.Lemmas.GamlssPathToy

/-!
# The selected model of a coefficient path: C89
-/

namespace Ondil

variable {μ : Type} {p : ℕ}

/-! ### C89 -/

/-- **C89 for `fit`.**  After a successful fit, every parameter with a coefficient path uses the row of that path which is best
by the configured criterion and the stored statistics; the statistics are those of the rows on the training data.  Missing: under "global_ll" the statistics are without the sample
weights (`C89_weights_fails`). -/
theorem C89_fit_partial {frames : Bool} {D : DistOps} (hD : Regular D) {M : MethodOps μ} {c : GConfig μ p} 
    (hcond : c.condStartVal = true → ConditionalRegular D) {data : List (Obs p)} {s t : GState μ p} {u : Unit}
    (h : GState.fit frames D M c data s = (.ok u, t)) {k : ℕ} {path : Arr2} (hp : t.coefPath k = some path) :
    ∃ stats X sc, SelectedRow c.modelSelection t k path stats ∧ FitStatistics ⟨D, M, c, X, ys data, ws data⟩ t k path stats ∧
      t.scaler = some sc ∧ ∀ j A, X j = some A → designFor t sc (xs data) j = .ok A := by
  obtain ⟨r⟩ := fit_ok h
  set C : Call μ p := ⟨D, M, c, r.X.get?, ys data, ws data⟩ with hC
  have hX : ∀ k X, C.X k = some X → k < C.D.nParams ∧ X.length = C.y.length := by
    intro k X hk
    have := designFor_length (forParams_get? r.hX hk).2
    exact ⟨(forParams_get? r.hX hk).1, by simpa [xs, ys, hC] using this⟩
  have hset := (outerFit_setup _ _ _).ok (SameSetup.refl _) r.hloop
  have hloop := r.hloop
  unfold outerFit at hloop
  rw [Py.bind_self] at hloop
  let I : GState μ p → Prop := fun u => u.fv.length = C.y.length ∧ ∀ j, FitSelected C j u
  have hpass : ∀ it ks d (u v : GState μ p) d', I u → paramLoop (innerFit C it) ks d u = (.ok d', v) → I v := by
    intro it ks d u v d' hu hr
    exact (paramLoop_all_ok (I := I) (Q := fun _ _ => True) ks
      (fun k _ s t d hs h => innerFit_selected hD hcond (hX k) h hs.1 hs.2) (fun _ _ _ _ _ _ _ => trivial)
      (fun _ _ _ _ _ _ _ _ _ _ => trivial) hu hr).1
  have h0 : I (fitStart c D.nParams (ws data).sum r.nt r.fv r.nf r.sc r.reg r.sP) := by
    have hl : (fitStart c D.nParams (ws data).sum r.nt r.fv r.nf r.sc r.reg r.sP).fv = r.fv := by unfold_start
    refine ⟨?_, fun j path hp => ?_⟩
    · have hne : ys data ≠ [] := by
        intro e
        exact r.nonempty (.inl (by simpa [ys] using e))
      obtain ⟨q, hq, hql⟩ := hD.initialValues (ys data) hne
      rw [hl, ← Except.ok.inj (hq.symm.trans r.hfv)]
      exact hql
    have : (fitStart c D.nParams (ws data).sum r.nt r.fv r.nf r.sc r.reg r.sP).coefPath j = none := by unfold_start
    rw [this] at hp
    cases hp
  have h2 : I r.s2 := by
    rcases outerLoop_last_ok (I := I) _ 0 (fun it _ d u v d' hu hr => hpass it _ d u v d' hu hr) hloop h0 with
      ⟨_, _, h3⟩ | ⟨_, d0, s', hs', hb⟩
    · rw [h3]; exact h0
    · exact hpass _ _ _ _ _ _ hs' hb
  have ht : FitSelected C k t := by
    have := r.ht
    rw [this]
    intro path hp
    obtain ⟨stats, ⟨a1, a2, a3⟩, b⟩ := h2.2 k path hp
    exact ⟨stats, ⟨a1, a2, a3⟩, b⟩
  obtain ⟨stats, h3, h4⟩ := ht path hp
  have e1 : t.equation = r.sP.equation := ((congrArg GState.equation r.ht).trans rfl).trans (hset.equation.trans (by unfold_start))
  have e2 : t.fitIntercept = r.sP.fitIntercept :=
    ((congrArg GState.fitIntercept r.ht).trans rfl).trans (hset.fitIntercept.trans (by unfold_start))
  have e3 : t.scaler = some r.sc := ((congrArg GState.scaler r.ht).trans rfl).trans (hset.scaler.trans (by unfold_start))
  refine ⟨stats, r.X.get?, r.sc, h3, h4, e3, fun j A hA => ?_⟩
  have := (forParams_get? r.hX hA).2
  unfold designFor at this ⊢
  rw [e1, e2]
  exact this

/-- **C89 for `update`.**  After a successful update with at least one outer iteration, every parameter of the order with a
coefficient path uses the row of the new path which is best by the configured criterion and the new statistics. -/
theorem C89_update {D : DistOps} (hD : Regular D) {M : MethodOps μ} {c : GConfig μ p} {data : List (Obs p)} {s t : GState μ p}
    {u : Unit} (h : GState.update D M c data s = (.ok u, t)) (it : ℕ) (hit : t.itOuter = some it) (h1 : 1 ≤ it) {k : ℕ}
    (hk : k ∈ s.paramOrder) {path : Arr2} (hp : t.coefPath k = some path) :
    ∃ stats old, SelectedRow c.modelSelection t k path stats ∧ s.selection k = some old ∧
      stats.length = min path.length old.length := by
  obtain ⟨stats, _, _, h2, ⟨_, old, _, _, _, _, _, _, h3, _, _, _, _, _, _, h4, _⟩, _⟩ := update_selected hD h it hit h1 hk hp
  exact ⟨stats, old, h2, h3, h4⟩

/-! ### A concrete case, and sample weights -/

/-- A path of two rows. -/
def twoRows : Arr2 := [[.fin 0], [.fin 3]]

/-- Three responses, the first of which counts ten times. -/
def weightedData : List (Obs 1) := [⟨fun _ => 0, 0, 10⟩, ⟨fun _ => 0, 3, 1⟩, ⟨fun _ => 0, 3, 1⟩]

/-- The log-likelihoods of the two rows for `weightedData` with weights `w`. -/
theorem twoRows_ll {w0 w1 w2 : ℝ} {theta : Fv} (hth : theta.length = 3) {stats : Arr1}
    (h : LLStatistics quadDist 0 (ys weightedData) 0 [w0, w1, w2] [[.fin 1], [.fin 1], [.fin 1]] theta twoRows stats) :
    stats[0]? = some (.fin (-(9 / 2 * w1) - 9 / 2 * w2)) ∧ stats[1]? = some (.fin (-(9 / 2 * w0))) := by
  obtain ⟨r0, r1, r2, rfl⟩ : ∃ a b c, theta = [a, b, c] := by
    match theta, hth with
    | [a, b, c], _ => exact ⟨a, b, c, rfl⟩
  have key : ∀ (j : ℕ) (v : ℝ), twoRows[j]? = some [.fin v] →
      stats[j]? = some (.fin (w0 * (-(0 - v) ^ 2 / 2) + w1 * (-(3 - v) ^ 2 / 2) + w2 * (-(3 - v) ^ 2 / 2))) := by
    intro j v hj
    obtain ⟨eta, u, h1, h2, h3⟩ := h j _ hj
    have e1 : eta = [.fin v, .fin v, .fin v] := by
      have : matVec [[.fin 1], [.fin 1], [.fin 1]] [.fin v] = .ok [.fin v, .fin v, .fin v] := by
        simp [matVec, dot, asum, Dist.npSum, Flt.mul, Flt.add]
      exact (Except.ok.inj (this.symm.trans h1)).symm
    have e2 : u = [.fin v, .fin v, .fin v] := by
      have : (Except.ok eta : Except PyErr Arr1) = .ok u := h2
      rw [← Except.ok.inj this, e1]
    rw [h3 [-(0 - v) ^ 2 / 2, -(3 - v) ^ 2 / 2, -(3 - v) ^ 2 / 2] (by rw [e2]; simp [quadDist, ys, weightedData, Fv.setCol, Flt.num]) rfl rfl]
    simp only [List.zip_cons_cons, List.zip_nil_right, discSum_cons, discSum_nil]
    norm_num
    ring
  refine ⟨(key 0 0 rfl).trans ?_, (key 1 3 rfl).trans ?_⟩ <;> congr 2 <;> ring

/-- **The hypotheses of `C89_fit_partial` are met, and sample weights do not count under "global_ll".**  The fit selects the second of
the two rows, by the statistics without sample weights; by the log-likelihood with the sample weights, which `update` uses
and by which the deviance is computed, the first row is better. -/
theorem C89_weights_fails (s : GState Unit 1) :
    ∃ t, GState.fit false quadDist (rowsMethod twoRows) (rowsConfig .globalLL .aic 0) weightedData s = (.ok (), t) ∧
      t.coefPath 0 = some twoRows ∧ t.coef 0 = some [.fin 3] ∧ t.bestIc 0 = 1 ∧ t.nTraining.get? 0 = some 12 ∧
      ∀ X theta stats, designFor t (.off 12) (xs weightedData) 0 = .ok X → theta.length = 3 →
        LLStatistics quadDist 0 (ys weightedData) 0 (ws weightedData) X theta twoRows stats →
        ¬ BestRow .globalLL .aic 12 twoRows stats (t.bestIc 0) := by
  obtain ⟨t, ht, g, _⟩ := rows_runs (P := twoRows) (by simp [twoRows]) (by simp [twoRows]) (m := .globalLL) (ic := .aic) le_rfl one_pos
    (by simp) (data := weightedData) (by simp [weightedData]) (by simp [weightedData]) s
  obtain ⟨f1, f2, f3, f4, f5, f6, f7, f8⟩ := rows_settings (by simp [weightedData]) ht
  have hsum : (ws weightedData).sum = 12 := by norm_num [ws, weightedData]
  have hn : t.nTraining.get? 0 = some 12 := by rw [f3, hsum]; simp [effectiveTrainingLength]
  have hX : designFor t (.off 12) (xs weightedData) 0 = .ok [[.fin 1], [.fin 1], [.fin 1]] := rows_design f5 f6 12 _
  obtain ⟨path, hp, _⟩ := (g.stored 0 Nat.one_pos).path rfl
  obtain ⟨stats, X, sc, h1, ⟨forget, wt, h2, _, _, hlen, A, fv, wk, h3, _, h4, _,
    ⟨m, xg, yg, reg, first, start, m', _, _, h5⟩, _, h6⟩, h7, h8⟩ :=
    C89_fit_partial quad_regular (fun h => by cases h) ht hp
  have epath : path = twoRows := by
    unfold fitPathFrom at h5
    split at h5
    · exact (Prod.mk.inj (Except.ok.inj h5)).1.symm
    · cases start with
      | none => cases h5
      | some q => exact (Prod.mk.inj (Except.ok.inj h5)).1.symm
  subst epath
  obtain rfl : forget = 0 := by
    rw [f1] at h2; exact (Option.some.inj h2).symm
  obtain rfl : A = [[.fin 1], [.fin 1], [.fin 1]] := by
    have := h8 0 A h3
    rw [f8, hsum] at h7
    rw [← Option.some.inj h7] at this
    exact Except.ok.inj (this.symm.trans hX)
  obtain ⟨theta, hth, hll⟩ := h6 rfl
  obtain ⟨s0, s1⟩ := twoRows_ll (w0 := 1) (w1 := 1) (w2 := 1) hth hll
  obtain ⟨n, ic, g1, g2, g3⟩ := h1.best
  obtain rfl : n = 12 := by rw [hn] at g1; exact (Option.some.inj g1).symm
  obtain rfl : ic = .aic := by rw [f2] at g2; exact (Option.some.inj g2).symm
  have hm : (rowsConfig .globalLL .aic 0).modelSelection = .globalLL := rfl
  rw [hm] at g3
  have hact : activeCoefs [.fin 0] = 0 ∧ activeCoefs [.fin 3] = 1 := by simp [activeCoefs]
  have hbest : t.bestIc 0 = 1 := by
    obtain ⟨b, r, hb1, hb2, hb3⟩ := g3 (by norm_num) (fun d hd => by
      obtain ⟨i, hi, rfl⟩ := List.getElem_of_mem hd
      have hi' : i < 2 := by rw [hlen] at hi; exact hi
      have hi2 := List.getElem?_eq_getElem hi
      interval_cases i
      · exact ⟨_, Option.some.inj (hi2.symm.trans s0), fun h => by cases h⟩
      · exact ⟨_, Option.some.inj (hi2.symm.trans s1), fun h => by cases h⟩)
    have hlt : t.bestIc 0 < 2 := (List.getElem?_eq_some_iff.1 hb1).1
    by_contra hne
    have h0 : t.bestIc 0 = 0 := by omega
    rw [h0] at hb1 hb2
    have hb1' : b = [.fin 0] := (Option.some.inj hb1).symm
    rw [s0] at hb2
    have hr := Option.some.inj hb2
    have hr' : -(9 / 2 * 1) - 9 / 2 * 1 = r := by injection hr
    have := (hb3 1 [.fin 3] _ rfl s1).1
    rw [hb1', hact.1, hact.2, ← hr'] at this
    simp only [textbookIc, statisticLL] at this
    norm_num at this
  obtain ⟨b, hb, hrow⟩ := h1.row
  rw [hbest] at hrow
  refine ⟨t, ht, hp, by rw [hb]; exact hrow.symm, hbest, hn, fun X' theta' stats' hX' hth' hll' => ?_⟩
  obtain rfl : X' = [[.fin 1], [.fin 1], [.fin 1]] := Except.ok.inj (hX'.symm.trans hX)
  obtain ⟨w0, w1⟩ := twoRows_ll (w0 := 10) (w1 := 1) (w2 := 1) hth' hll'
  rw [hbest]
  rintro ⟨b', r, hb1, hb2, hb3⟩
  have hb1' : b' = [.fin 3] := (Option.some.inj hb1).symm
  rw [w1] at hb2
  have hr := Option.some.inj hb2
  have hr' : -(9 / 2 * 10) = r := by injection hr
  have := (hb3 0 [.fin 0] _ rfl w0).1
  rw [hb1', hact.1, hact.2, ← hr'] at this
  simp only [textbookIc, statisticLL] at this
  norm_num at this

/-- The hypotheses of `C89_update` are met by an update of the same estimator under "local_rss". -/
example (s : GState Unit 1) :
    ∃ t u path stats, GState.fit false quadDist (rowsMethod twoRows) (rowsConfig .localRss .bic (1 / 10)) weightedData s = (.ok (), t) ∧
      GState.update quadDist (rowsMethod twoRows) (rowsConfig .localRss .bic (1 / 10)) weightedData t = (.ok (), u) ∧
      u.coefPath 0 = some path ∧ SelectedRow .localRss u 0 path stats := by
  have ho := rows_options (m := .localRss) (ic := .bic) (f := 1 / 10) (by norm_num) (by norm_num) (by simp)
  obtain ⟨t, ht, _, hu⟩ := rows_runs (P := twoRows) (by simp [twoRows]) (by simp [twoRows]) (m := .localRss) (ic := .bic)
    (f := 1 / 10) (by norm_num) (by norm_num) (by simp) (data := weightedData) (by simp [weightedData]) (by simp [weightedData]) s
  obtain ⟨u, hu, g⟩ := hu weightedData (by simp [weightedData])
  obtain ⟨h1, h2⟩ := fit_settings ho ht
  have hmem := (h1 0 Nat.one_pos).1
  obtain ⟨it, hit, hle⟩ := update_iterates hu (List.ne_nil_of_mem hmem) h2 le_rfl
  obtain ⟨path, hp, _⟩ := (g.stored 0 Nat.one_pos).path rfl
  obtain ⟨stats, _, hsel, _⟩ := C89_update quad_regular hu it hit hle hmem hp
  exact ⟨t, u, path, stats, ht, hu, hp, hsel⟩

end Ondil
