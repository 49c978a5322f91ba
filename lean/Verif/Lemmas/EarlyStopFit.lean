import Verif.Lemmas.EarlyStop
import Verif.Props.FitTrace
import Mathlib.Analysis.Complex.ExponentialBounds

/-!
# How many passes the exponential regression with two observations makes
-/

open scoped BigOperators

namespace Ondil

variable {tiny ulp : ℝ} {so : ScipyOracles} {el : Elsewhere} {perm : ∀ J : ℕ, ℕ → ℕ → List (Fin J)}

/-! ### The numbers -/

/-- One pass moves the linear predictor `e` of the second observation there. -/
noncomputable def earlyNext (e : ℝ) : ℝ := e + 7 * Real.exp (-e) - 1

/-- The coefficient after the first, the second and the third pass. -/
noncomputable def earlyOne : ℝ := earlyNext (Real.log 4)
noncomputable def earlyTwo : ℝ := earlyNext earlyOne
noncomputable def earlyThree : ℝ := earlyNext earlyTwo

theorem log_four_bounds : 138 / 100 < Real.log 4 ∧ Real.log 4 < 139 / 100 := by
  have h : Real.log 4 = 2 * Real.log 2 := by
    rw [show (4 : ℝ) = 2 ^ 2 by norm_num, Real.log_pow]
    norm_num
  have h1 := Real.log_two_gt_d9
  have h2 := Real.log_two_lt_d9
  rw [h]
  constructor <;> linarith

theorem earlyOne_eq : earlyOne = Real.log 4 + 3 / 4 := by
  unfold earlyOne earlyNext
  rw [Real.exp_neg, Real.exp_log (by norm_num)]
  ring

/-- The reciprocal of the mean of the second observation after the first pass, times its response. -/
theorem early_ratio : 79 / 100 < 7 * Real.exp (-earlyOne) ∧ 7 * Real.exp (-earlyOne) < 84 / 100 := by
  have e4 : Real.exp (3 / 4) ^ 4 = Real.exp 1 ^ 3 := by
    rw [← Real.exp_nat_mul, ← Real.exp_nat_mul]
    norm_num
  have h1 := Real.exp_one_gt_d9
  have h2 := Real.exp_one_lt_d9
  have hp := Real.exp_pos (3 / 4)
  have l1 : 21 / 10 < Real.exp (3 / 4) := by
    by_contra hc
    rw [not_lt] at hc
    have : Real.exp (3 / 4) ^ 4 ≤ (21 / 10) ^ 4 := by gcongr
    have : (271 / 100 : ℝ) ^ 3 ≤ Real.exp 1 ^ 3 := by gcongr; linarith
    norm_num at *
    linarith
  have l2 : Real.exp (3 / 4) < 22 / 10 := by
    by_contra hc
    rw [not_lt] at hc
    have : (22 / 10 : ℝ) ^ 4 ≤ Real.exp (3 / 4) ^ 4 := by gcongr
    have : Real.exp 1 ^ 3 ≤ (272 / 100 : ℝ) ^ 3 := by gcongr; linarith
    norm_num at *
    linarith
  have e : 7 * Real.exp (-earlyOne) = 7 / 4 / Real.exp (3 / 4) := by
    rw [earlyOne_eq, neg_add, Real.exp_add, Real.exp_neg, Real.exp_neg, Real.exp_log (by norm_num)]
    field_simp
  rw [e, lt_div_iff₀ hp, div_lt_iff₀ hp]
  constructor <;> linarith

theorem early_moderate : Moderate (Real.log 4) ∧ Moderate earlyOne ∧ Moderate earlyTwo ∧ Moderate 0 := by
  obtain ⟨h1, h2⟩ := log_four_bounds
  obtain ⟨h3, h4⟩ := early_ratio
  have h5 := earlyOne_eq
  refine ⟨⟨by linarith, by linarith⟩, ⟨by linarith, by linarith⟩, ⟨?_, ?_⟩, ⟨le_rfl, by norm_num⟩⟩ <;> unfold earlyTwo earlyNext <;> linarith

/-- The mean of the second observation is still too small after the second pass. -/
theorem early_gap : 0 < 7 * Real.exp (-earlyTwo) ∧ 7 * Real.exp (-earlyTwo) < 1 - 1 / 160 := by
  refine ⟨by positivity, ?_⟩
  obtain ⟨h3, h4⟩ := early_ratio
  set u := 7 * Real.exp (-earlyOne) with hu
  have e : 7 * Real.exp (-earlyTwo) = u * Real.exp (1 - u) := by
    have : -earlyTwo = -earlyOne + (1 - u) := by
      unfold earlyTwo earlyNext
      rw [← hu]
      ring
    rw [this, Real.exp_add, hu]
    ring
  rw [e]
  have h5 : 1 - (1 - u) / 2 ≤ Real.exp (-((1 - u) / 2)) := by
    have := Real.add_one_le_exp (-((1 - u) / 2))
    linarith
  have h6 : (1 - (1 - u) / 2) ^ 2 ≤ Real.exp (-(1 - u)) := by
    have : Real.exp (-(1 - u)) = Real.exp (-((1 - u) / 2)) ^ 2 := by
      rw [← Real.exp_nat_mul]
      congr 1
      push_cast
      ring
    rw [this]
    have : 0 ≤ 1 - (1 - u) / 2 := by linarith
    gcongr
  have h7 : u * Real.exp (1 - u) * Real.exp (-(1 - u)) = u := by
    rw [mul_assoc, ← Real.exp_add]
    simp
  have hg : 0 < u * Real.exp (1 - u) := by
    have := Real.exp_pos (1 - u)
    have : 0 < u := by linarith
    positivity
  by_contra hc
  rw [not_lt] at hc
  have h8 : (1 - 1 / 160) * (1 - (1 - u) / 2) ^ 2 ≤ u := by
    have : 0 ≤ (1 - (1 - u) / 2) ^ 2 := sq_nonneg _
    calc (1 - 1 / 160) * (1 - (1 - u) / 2) ^ 2 ≤ u * Real.exp (1 - u) * (1 - (1 - u) / 2) ^ 2 := by gcongr
      _ ≤ u * Real.exp (1 - u) * Real.exp (-(1 - u)) := by gcongr
      _ = u := h7
  nlinarith

theorem early_dev0 (w : ℝ) : earlyDev w (Real.log 4) (Real.log 4) = 2 * w * (2 * Real.log 4 + 2) := by
  unfold earlyDev
  rw [Real.exp_neg, Real.exp_log (by norm_num)]
  ring

theorem early_dev1 (w : ℝ) : earlyDev w 0 earlyOne = 2 * w * (1 + earlyOne + 7 * Real.exp (-earlyOne)) := by
  unfold earlyDev
  rw [neg_zero, Real.exp_zero]
  ring

theorem early_dev2 (w : ℝ) : earlyDev w 0 earlyTwo = 2 * w * (earlyOne + 7 * Real.exp (-earlyOne) + 7 * Real.exp (-earlyTwo)) := by
  unfold earlyDev
  have : earlyTwo = earlyOne + 7 * Real.exp (-earlyOne) - 1 := rfl
  simp only [neg_zero, Real.exp_zero]
  nth_rewrite 1 [this]
  ring

/-! ### One pass -/

theorem derived_ols {m : MethodState} (h : Derived (packageMethods perm nanMethods) .ols m) : m = .ols := by
  induction h with
  | start => rfl
  | fitBeta _ _ e ih =>
    subst ih
    simp only [packageMethods] at e
    split at e
    · exact (Prod.mk.inj (Except.ok.inj e)).2.symm
    · exact (Prod.mk.inj (Except.ok.inj e)).2.symm
  | updateBeta _ _ e ih =>
    subst ih
    simp only [packageMethods] at e
    split at e
    · exact (Prod.mk.inj (Except.ok.inj e)).2.symm
    · exact (Prod.mk.inj (Except.ok.inj e)).2.symm
  | fitPath _ hp _ ih => subst ih; cases hp
  | updatePath _ hp _ ih => subst ih; cases hp

/-- One pass with full step. -/
theorem early_pass (ht : tiny ≤ 1) {o : ℕ} {w : ℝ} (hw : 0 < w) {e1 e2 : ℝ} (h1 : Moderate e1) (h2 : Moderate e2) {q : Pass}
    {reg : List Bool} (hfv : AtExp e1 e2 q.fv) (hst : q.step = 1)
    (hwk : working (expOps tiny ulp so el) fitClip [1, 7] q.fv 0 = .ok q.wk)
    (hsol : q.Solves (packageMethods perm nanMethods) .ols [w, w] 0 reg [[.fin 0], [.fin 1]] o)
    (hval : ∃ xb, matVec [[.fin 0], [.fin 1]] q.beta = .ok xb ∧ (expOps tiny ulp so el).linkInverse 0 (List.zipWith (fun u e =>
      Flt.add (Flt.mul (.fin q.step) u) (Flt.mul (.fin (1 - q.step)) e)) xb q.wk.eta) = .ok q.values) :
    q.beta = [.fin (earlyNext e2)] ∧ (Moderate (earlyNext e2) → q.values = [.fin (Real.exp 0), .fin (Real.exp (earlyNext e2))]) := by
  have e := Except.ok.inj ((early_working (so := so) (el := el) (ulp := ulp) ht h1 h2 hfv).symm.trans hwk)
  obtain ⟨m, m', xg, yg, hd, k1, k2, k3, _⟩ := hsol
  obtain rfl := derived_ols hd
  rw [← e] at k1 k2
  have k4 := early_beta hw _ _ k1 k2 (k3 rfl)
  have hb : q.beta = [.fin (earlyNext e2)] := (Prod.mk.inj k4).1
  refine ⟨hb, fun hm => ?_⟩
  obtain ⟨xb, j1, j2⟩ := hval
  rw [hb] at j1
  have hx : xb = [.fin 0, .fin (earlyNext e2)] := by
    rw [← Except.ok.inj j1]
    simp [dot, asum, Dist.npSum, Flt.mul, Flt.add]
  rw [hx, hst, ← e] at j2
  have hz : List.zipWith (fun u e => Flt.add (Flt.mul (.fin 1) u) (Flt.mul (.fin (1 - 1)) e)) [.fin 0, .fin (earlyNext e2)]
      [.fin e1, .fin e2] = [.fin 0, .fin (earlyNext e2)] := by
    simp [Flt.mul, Flt.add]
  rw [hz] at j2
  rw [← Except.ok.inj j2]
  have hm0 : Moderate 0 := ⟨le_rfl, by norm_num⟩
  change [Flt.fin (robustExp 0), Flt.fin (robustExp (earlyNext e2))] = _
  rw [hm0.exp, hm.exp]

theorem AtExp.setCol {e1 e2 : ℝ} {fv : Fv} (h : AtExp e1 e2 fv) (f1 f2 : ℝ) :
    AtExp f1 f2 (fv.setCol 0 [.fin (Real.exp f1), .fin (Real.exp f2)]) := by
  obtain ⟨r1, r2, rfl, _, _⟩ := h
  exact ⟨_, _, rfl, by simp, by simp⟩

theorem AtExp.col {e1 e2 : ℝ} {fv : Fv} (h : AtExp e1 e2 fv) : fv.col 0 = [.fin (Real.exp e1), .fin (Real.exp e2)] := by
  obtain ⟨r1, r2, rfl, h1, h2⟩ := h
  simp [Fv.col, h1, h2]

/-! ### The fit -/

theorem early_options : GoodOptions false (expOps tiny ulp so el) earlyConfig .ols false fun _ => 1 where
  valid := by norm_num [GConfig.Valid, earlyConfig, nanConfig, OptArg.OnlyValue]; decide
  method := rfl
  intercept := rfl
  columns := fun k hk => by
    have : k = 0 := by
      have : k < 1 := hk
      omega
    subst this
    have e : earlyConfig.equationFor 0 = .str "all" := rfl
    rw [e]
    exact ⟨rfl, by simp, fun h => by simp at h, [0], .all, rfl⟩
  order := fun o h => by cases h
  minIt := by simp [earlyConfig, nanConfig]
  prefit := by simp [earlyConfig, nanConfig]

theorem early_scaler (f w : ℝ) : Scaler.fit earlyConfig.scaleInputs f (xs (earlyData w)) (ws (earlyData w)) =
    .ok (.off (ws (earlyData w)).sum) := by
  simp [Scaler.fit, ToScale.selection, earlyConfig, nanConfig, earlyData, xs]

theorem early_array (w : ℝ) (b : ℝ) : modelArray (.fin 1) false (.str "all") ((Scaler.off b : Scaler 1).transformFlt (xs (earlyData w))) =
    .ok [[.fin 0], [.fin 1]] := by
  change modelArray (.fin 1) false (.str "all") [fun j => Flt.fin ((![0] : Row 1) j), fun j => Flt.fin ((![1] : Row 1) j)] = _
  rfl

theorem early_support (ht : tiny ≤ 1) (w : ℝ) : ¬ OutOfSupport (expOps tiny ulp so el) (ys (earlyData w)) := by
  rintro (⟨v, hv, h⟩ | ⟨v, _, h⟩)
  · change (v : EReal) < ((tiny : ℝ) : EReal) at h
    rw [EReal.coe_lt_coe_iff] at h
    simp only [ys, earlyData, List.map_cons, List.map_nil, List.mem_cons, List.not_mem_nil, or_false] at hv
    rcases hv with rfl | rfl <;> linarith
  · exact not_top_lt h

theorem early_fits (ht : tiny ≤ 1) {w : ℝ} (hw : 0 < w) (s : GState MethodState 1) :
    ∃ t, GState.fit false (expOps tiny ulp so el) (packageMethods perm nanMethods) earlyConfig (earlyData w) s = (.ok (), t) := by
  obtain ⟨t, h, _⟩ := C76_package_ols (perm := perm) (frames := false) tiny ulp so el .exponential [.log] le_rfl (c := earlyConfig) rfl nan_ols
    early_options one_ne_zero (data := earlyData w) (by simp [earlyData]) (by simp [earlyData, hw]) (fun k hk X hX => by
      have : k = 0 := by
        have : k < 1 := hk
        omega
      subst this
      obtain ⟨f, fi, sc, h1, h2, h3, h4⟩ := hX
      cases h2
      cases (early_scaler f w).symm.trans h3
      change List (Row 1) at X
      have h5 := Except.ok.inj ((early_array w _).symm.trans h4)
      have h6 : X = [![0], ![1]] := by
        have e : ([![0], ![1]] : List (Row 1)).map ofVec = X.map ofVec := by
          rw [← h5]
          simp [ofVec, List.finRange_succ]
        have := congrArg (fun A => A.mapM (vec? 1)) e
        simp only [mapM_vec, Option.some.injEq] at this
        exact this.symm
      subst h6
      intro v hv
      have h1 := hv ![1] (by simp)
      change Row 1 at v
      simp [linPred] at h1
      funext i
      fin_cases i
      simpa using h1) (early_support ht w) [] (by simp) s
  exact ⟨t, h⟩

theorem early_setup {w : ℝ} {s t : GState MethodState 1} {sc : Scaler 1}
    (h : GState.fit false (expOps tiny ulp so el) (packageMethods perm nanMethods) earlyConfig (earlyData w) s = (.ok (), t))
    (hs : t.scaler = some sc) :
    designFor t sc (xs (earlyData w)) 0 = .ok [[.fin 0], [.fin 1]] ∧ t.stepSize = [(0, 1)] ∧ t.forget = [(0, 0)] ∧ t.paramOrder = [0] := by
  obtain ⟨r⟩ := fit_ok h
  obtain ⟨q⟩ := prepare_ok r.hprepare
  have hset := (outerFit_setup _ _ _).ok (SameSetup.refl _) r.hloop
  have e1 : t.scaler = some r.sc := ((congrArg GState.scaler r.ht).trans rfl).trans (hset.scaler.trans (by unfold_start))
  have e2 : t.equation = r.sP.equation := ((congrArg GState.equation r.ht).trans rfl).trans (hset.equation.trans (by unfold_start))
  have e3 : t.fitIntercept = r.sP.fitIntercept :=
    ((congrArg GState.fitIntercept r.ht).trans rfl).trans (hset.fitIntercept.trans (by unfold_start))
  have e4 : sc = r.sc := Option.some.inj (hs.symm.trans e1)
  have e5 : t.stepSize = [(0, 1)] := by
    refine ((congrArg GState.stepSize r.ht).trans rfl).trans (hset.stepSize.trans ?_)
    rw [fitStart_stepSize, q.ht]
    exact (Except.ok.inj q.hst).symm
  have e6 : t.forget = r.sP.forget := ((congrArg GState.forget r.ht).trans rfl).trans (hset.forget.trans (by unfold_start))
  have e7 : t.paramOrder = r.sP.paramOrder :=
    ((congrArg GState.paramOrder r.ht).trans rfl).trans (hset.paramOrder.trans (by unfold_start))
  have e8 : r.sP.forget = [(0, 0)] := by
    rw [q.ht]
    exact (Except.ok.inj q.hfo).symm
  have e9 : r.sP.paramOrder = [0] := by
    rw [q.ht]
    rfl
  have heq : q.eq = [(0, .str "all")] := (Except.ok.inj q.heq).symm
  have hfi : q.fi = [(0, false)] := (Except.ok.inj q.hfi).symm
  have hm : r.sc = .off (ws (earlyData w)).sum := Except.ok.inj (r.hsc.symm.trans (early_scaler _ w))
  refine ⟨?_, e5, e6.trans e8, e7.trans e9⟩
  unfold designFor
  rw [e2, e3, e4, q.ht]
  change (match q.eq.get? 0, q.fi.get? 0 with
    | some eq, some fi => modelArray (Flt.fin 1) fi eq (r.sc.transformFlt (xs (earlyData w)))
    | _, _ => Except.error PyErr.keyError) = _
  rw [heq, hfi, hm]
  exact early_array w _

theorem early_start (w : ℝ) {fv0 : Fv} (h : (expOps tiny ulp so el).initialValues (ys (earlyData w)) = .ok fv0) :
    AtExp (Real.log 4) (Real.log 4) fv0 := by
  have e : Dist.npMean ([1, 7].map Flt.fin) = .fin 4 := by
    norm_num [Dist.npMean, Dist.npSum, Flt.add, Flt.div]
  rw [← Except.ok.inj h]
  refine ⟨_, _, rfl, ?_, ?_⟩ <;> rw [Real.exp_log (by norm_num)] <;> exact e

/-- The passes of the fit. -/
theorem early_trace (ht : tiny ≤ 1) {w : ℝ} (hw : 0 < w) : ∃ t : GState MethodState 1, ∃ rg, ∃ a : Treatment, ∃ fv0 : Fv,
    GState.fit false (expOps tiny ulp so el) (packageMethods perm nanMethods) earlyConfig (earlyData w) (GState.new _ _) = (.ok (), t) ∧
    AtExp (Real.log 4) (Real.log 4) fv0 ∧ a.passes.getLast? = some a.last ∧
    InnerTrace (expOps tiny ulp so el) (packageMethods perm nanMethods) earlyConfig .ols [1, 7] [w, w] [[.fin 0], [.fin 1]] 0 rg 1 0 1 3
      fv0 a.passes ∧ t.coef 0 = some a.last.beta := by
  obtain ⟨t, hfit⟩ := early_fits (ulp := ulp) (so := so) (el := el) (perm := perm) ht hw (GState.new _ _)
  obtain ⟨sc0, hsc0⟩ : ∃ sc, t.scaler = some sc := by
    obtain ⟨r⟩ := fit_ok hfit
    have hset := (outerFit_setup _ _ _).ok (SameSetup.refl _) r.hloop
    exact ⟨r.sc, ((congrArg GState.scaler r.ht).trans rfl).trans (hset.scaler.trans (by unfold_start))⟩
  obtain ⟨hdes, hstep, hforg, hord⟩ := early_setup hfit hsc0
  obtain ⟨ms, fv0, sc, it, d, l, hms, h1, h2, h3, h4, h5, h6, _⟩ := C96_fit hfit (by rw [hord]; simp)
  obtain rfl : sc0 = sc := Option.some.inj (hsc0.symm.trans h2)
  have hit : it = 1 := by
    have e := h5.outer
    have h6 := e.ends.1
    change 1 ≤ it at h6
    by_contra hne
    exact e.continues 1 (by omega) ⟨le_rfl, .inr (.inl le_rfl)⟩
  subst hit
  have hcyc := h5.cycle
  rw [hord] at hcyc
  obtain ⟨a, rfl⟩ : ∃ a, l = [a] := by
    have := congrArg List.length hcyc
    simp at this
    exact List.length_eq_one_iff.1 this
  have hao : a.outer = 1 ∧ a.param = 0 := by simpa using hcyc
  obtain ⟨hlast, m0, A, f, rg, st, hm0, hA, hf, _, hst, hin⟩ := h5.inner a (by simp)
  have hbefore := h5.first a rfl
  rw [hao.1, hao.2, hbefore] at hin
  rw [hao.2] at hA hst hf hm0
  rw [hdes] at hA
  obtain rfl : [[Flt.fin 0], [.fin 1]] = A := Option.some.inj hA
  rw [hstep] at hst
  obtain rfl : (1 : ℝ) = st := Option.some.inj hst
  rw [hforg] at hf
  obtain rfl : (0 : ℝ) = f := Option.some.inj hf
  have hms' : ms = [(0, some .ols)] := (Except.ok.inj hms).symm
  rw [hms'] at hm0
  obtain rfl : MethodState.ols = m0 := Option.some.inj hm0
  obtain ⟨l1, b, l2, hl, _, _, _, hb⟩ := h6 le_rfl 0 (by rw [hord]; simp)
  have hba : b = a := by
    have : b ∈ [a] := by rw [hl]; simp
    simpa using this
  rw [hba] at hb
  exact ⟨t, rg, a, fv0, hfit, early_start w h1, hlast, hin, hb⟩

/-- The first two passes. -/
theorem early_two (ht : tiny ≤ 1) {w : ℝ} (hw : 0 < w) {rg : List Bool} {fv0 : Fv} {ps : List Pass}
    (h0 : AtExp (Real.log 4) (Real.log 4) fv0)
    (hin : InnerTrace (expOps tiny ulp so el) (packageMethods perm nanMethods) earlyConfig .ols [1, 7] [w, w] [[.fin 0], [.fin 1]] 0 rg 1 0
      1 3 fv0 ps) : ∃ q1 q2 rest, ps = q1 :: q2 :: rest ∧ q2.it = 1 ∧ AtExp 0 earlyOne q2.fv ∧ q2.step = 1 ∧ q2.raised = 0 ∧
      q2.beta = [.fin earlyTwo] ∧ AtExp 0 earlyTwo q2.new ∧ q2.reference = .fin (earlyDev w 0 earlyOne) ∧
      q2.dev = .fin (earlyDev w 0 earlyTwo) ∧ ¬ q2.Raises := by
  obtain ⟨m4, m1, m2, m0⟩ := early_moderate
  obtain ⟨q, hq, hq0, hqr, hqs, hqd, hqn, hqf⟩ := hin.first
  rw [if_neg (by simp)] at hqf
  obtain ⟨ps', rfl⟩ : ∃ ps', ps = q :: ps' := by
    cases ps with
    | nil => cases hq
    | cons b bs => exact ⟨bs, by rw [Option.some.inj hq]⟩
  obtain ⟨k1, k2, k3, k4⟩ := hin.each q (by simp)
  obtain ⟨_, v1⟩ := early_pass ht hw m4 m4 (by rw [hqf]; exact h0) hqs k1 k2 k3
  have hv := v1 m1
  have hnew : AtExp 0 earlyOne q.new := by
    rw [hqn, hv]
    exact h0.setCol _ _
  rw [early_deviance ht m0 m1 hnew] at k4
  rw [early_deviance ht m4 m4 h0] at hqr
  have hraise : ¬ q.Raises := by
    unfold Pass.Raises
    rw [hqr, k4, early_dev0, early_dev1]
    simp only [Flt.lt, not_lt]
    obtain ⟨b1, b2⟩ := log_four_bounds
    obtain ⟨b3, b4⟩ := early_ratio
    have b5 := earlyOne_eq
    refine mul_le_mul_of_nonneg_left ?_ (by positivity)
    linarith
  have hnoend : ¬ q.Ends earlyConfig 1 3 := by
    rintro (⟨h6, _⟩ | ⟨h6, _⟩)
    · exact hraise h6
    · exact h6 ⟨rfl, hq0⟩
  obtain ⟨q2, ps2, rfl⟩ : ∃ q2 ps2, ps' = q2 :: ps2 := by
    cases ps' with
    | nil =>
      rcases hin.ends q rfl with h6 | h6
      · exact absurd h6 hnoend
      · rw [hq0] at h6; cases h6
    | cons b bs => exact ⟨b, bs, rfl⟩
  obtain ⟨hnext, _⟩ := List.isChain_cons_cons.1 hin.next
  obtain ⟨t1, t2, t3, t4⟩ := hnext.taken hraise
  obtain ⟨j1, j2, j3, j4⟩ := hin.each q2 (by simp)
  have hat : AtExp 0 earlyOne q2.fv := by
    rw [t1, hnew.col, hqf]
    exact h0.setCol _ _
  obtain ⟨b2, v2⟩ := early_pass ht hw m0 m1 hat t3 j1 j2 j3
  have hnew2 : AtExp 0 earlyTwo q2.new := by
    rw [hnext.new, v2 m2]
    exact hnew.setCol _ _
  rw [early_deviance ht m0 m2 hnew2] at j4
  refine ⟨q, q2, ps2, rfl, by rw [hnext.it, hq0], hat, t3, by rw [t4, hqd], b2, hnew2, by rw [t2, k4], j4, ?_⟩
  unfold Pass.Raises
  rw [t2, k4, j4, early_dev1, early_dev2]
  simp only [Flt.lt, not_lt]
  obtain ⟨_, b3⟩ := early_gap
  refine mul_le_mul_of_nonneg_left ?_ (by positivity)
  linarith

/-- With small weights the second pass is the last. -/
theorem early_small (ht : tiny ≤ 1) {w : ℝ} (hw : 0 < w) (hs : w ≤ 1 / 2000) : ∃ t : GState MethodState 1,
    GState.fit false (expOps tiny ulp so el) (packageMethods perm nanMethods) earlyConfig (earlyData w) (GState.new _ _) = (.ok (), t) ∧
    t.coef 0 = some [.fin earlyTwo] := by
  obtain ⟨t, rg, a, fv0, hfit, h0, hlast, hin, hb⟩ := early_trace (ulp := ulp) (so := so) (el := el) (perm := perm) ht hw
  obtain ⟨q1, q2, rest, hps, hit, hat, hst, hra, hbeta, hnew, href, hdev, hrs⟩ := early_two ht hw h0 hin
  refine ⟨t, hfit, ?_⟩
  have hrest : rest = [] := by
    cases rest with
    | nil => rfl
    | cons b bs =>
      refine absurd (.inr ⟨by rw [hit]; omega, .inl (.inl ?_)⟩) (hin.continues q2 (by rw [hps]; simp))
      rw [href, hdev, early_dev1, early_dev2]
      obtain ⟨b1, b2⟩ := early_gap
      change |2 * w * (1 + earlyOne + 7 * Real.exp (-earlyOne)) -
        2 * w * (earlyOne + 7 * Real.exp (-earlyOne) + 7 * Real.exp (-earlyTwo))| ≤ 1 / 1000
      have e : 2 * w * (1 + earlyOne + 7 * Real.exp (-earlyOne)) -
        2 * w * (earlyOne + 7 * Real.exp (-earlyOne) + 7 * Real.exp (-earlyTwo)) = 2 * w * (1 - 7 * Real.exp (-earlyTwo)) := by ring
      rw [e, abs_of_nonneg (by have : 0 ≤ 1 - 7 * Real.exp (-earlyTwo) := by linarith
                               positivity)]
      calc 2 * w * (1 - 7 * Real.exp (-earlyTwo)) ≤ 2 * (1 / 2000) * 1 := by
            gcongr
            · linarith
            · linarith
        _ = 1 / 1000 := by norm_num
  subst hrest
  rw [hps] at hlast
  have hal : q2 = a.last := Option.some.inj hlast
  rw [hb, ← hal, hbeta]

/-- With unit weights there is a third pass. -/
theorem early_unit (ht : tiny ≤ 1) : ∃ t : GState MethodState 1,
    GState.fit false (expOps tiny ulp so el) (packageMethods perm nanMethods) earlyConfig (earlyData 1) (GState.new _ _) = (.ok (), t) ∧
    t.coef 0 = some [.fin earlyThree] := by
  obtain ⟨t, rg, a, fv0, hfit, h0, hlast, hin, hb⟩ := early_trace (ulp := ulp) (so := so) (el := el) (perm := perm) ht (w := 1) one_pos
  obtain ⟨q1, q2, rest, hps, hit, hat, hst, hra, hbeta, hnew, href, hdev, hrs⟩ := early_two ht one_pos h0 hin
  obtain ⟨m4, m1, m2, m0⟩ := early_moderate
  refine ⟨t, hfit, ?_⟩
  have hno : ¬ q2.Ends earlyConfig 1 3 := by
    rintro (⟨h6, _⟩ | ⟨_, h6 | h6⟩)
    · exact hrs h6
    · have key : 2 / 160 < |earlyDev 1 0 earlyOne - earlyDev 1 0 earlyTwo| := by
        obtain ⟨b1, b2⟩ := early_gap
        rw [early_dev1, early_dev2]
        refine lt_of_lt_of_le ?_ (le_abs_self _)
        linarith
      have hbig : 0 < |earlyDev 1 0 earlyOne| ∧ |earlyDev 1 0 earlyOne| < 10 := by
        obtain ⟨b1, b2⟩ := log_four_bounds
        obtain ⟨b3, b4⟩ := early_ratio
        have b5 := earlyOne_eq
        have e : 0 < earlyDev 1 0 earlyOne := by
          rw [early_dev1]
          linarith
        rw [abs_of_pos e]
        refine ⟨e, ?_⟩
        rw [early_dev1]
        linarith
      rw [href, hdev] at h6
      rcases h6 with h6 | h6
      · change |earlyDev 1 0 earlyOne - earlyDev 1 0 earlyTwo| ≤ 1 / 1000 at h6
        linarith
      · have h7 : Flt.div (.fin |earlyDev 1 0 earlyOne - earlyDev 1 0 earlyTwo|) (.fin |earlyDev 1 0 earlyOne|) =
            .fin (|earlyDev 1 0 earlyOne - earlyDev 1 0 earlyTwo| / |earlyDev 1 0 earlyOne|) := by
          simp [Flt.div, hbig.1.ne']
        have h8 : |earlyDev 1 0 earlyOne - earlyDev 1 0 earlyTwo| / |earlyDev 1 0 earlyOne| < 1 / 100000 := by
          have h9 : Flt.lt (Flt.div (.fin |earlyDev 1 0 earlyOne - earlyDev 1 0 earlyTwo|) (.fin |earlyDev 1 0 earlyOne|))
            (.fin (1 / 100000)) := h6
          rw [h7] at h9
          exact h9
        rw [div_lt_iff₀ hbig.1] at h8
        linarith [hbig.2]
    · rw [hit] at h6
      cases h6
  obtain ⟨q3, rest', rfl⟩ : ∃ q3 r', rest = q3 :: r' := by
    cases rest with
    | nil =>
      rw [hps] at hin
      rcases hin.ends q2 rfl with h6 | h6
      · exact absurd h6 hno
      · rw [hit] at h6; cases h6
    | cons b bs => exact ⟨b, bs, rfl⟩
  rw [hps] at hin hlast
  obtain ⟨hnext, _⟩ := List.isChain_cons_cons.1 (List.isChain_cons_cons.1 hin.next).2
  obtain ⟨t1, t2, t3, t4⟩ := hnext.taken hrs
  obtain ⟨j1, j2, j3, j4⟩ := hin.each q3 (by simp)
  have hat3 : AtExp 0 earlyTwo q3.fv := by
    rw [t1, hnew.col]
    exact hat.setCol _ _
  obtain ⟨b3, _⟩ := early_pass ht one_pos m0 m2 hat3 t3 j1 j2 j3
  have hrest : rest' = [] := by
    cases rest' with
    | nil => rfl
    | cons b bs =>
      exact absurd (.inr ⟨by rw [hnext.it]; omega, .inr (by rw [hnext.it, hit]; rfl)⟩) (hin.continues q3 (by simp))
  subst hrest
  have hal : q3 = a.last := Option.some.inj hlast
  rw [hb, ← hal, b3]
  rfl

end Ondil
