import Verif.Lemmas.FitTrace
import Verif.Lemmas.LogDensity
import Verif.Props.GamlssPackage

/-!
# An exponential regression with two observations, pass by pass

One feature, no intercept, log link.  The feature is zero for the first observation, so one pass replaces the linear predictor `e` of
the second observation by `e + 7 * exp (-e) - 1`, whatever the common sample weight is.
-/

open scoped BigOperators

namespace Ondil

variable {tiny ulp : ℝ} {so : ScipyOracles} {el : Elsewhere} {perm : ∀ J : ℕ, ℕ → ℕ → List (Fin J)} {other : MethodOps MethodState}

/-- The exponential distribution with its default link. -/
noncomputable abbrev expOps (tiny ulp : ℝ) (so : ScipyOracles) (el : Elsewhere) : DistOps := Dist.exponential.ops tiny ulp so el [.log]

/-- Two observations with the sample weight `w`. -/
def earlyData (w : ℝ) : List (Obs 1) := [⟨![0], 1, w⟩, ⟨![1], 7, w⟩]

/-- The default tolerances, one outer iteration with at most three passes. -/
noncomputable def earlyConfig : GConfig MethodState 1 :=
  { nanConfig with
    equation := some [(0, .str "all")]
    fitIntercept := .value false
    maxOuter := 1
    maxInner := 3 }

/-- The two rows have the parameters `exp e1` and `exp e2`. -/
def AtExp (e1 e2 : ℝ) (fv : Fv) : Prop := ∃ r1 r2, fv = [r1, r2] ∧ r1 0 = .fin (Real.exp e1) ∧ r2 0 = .fin (Real.exp e2)

/-- The linear predictors are in a range without clipping. -/
def Moderate (e : ℝ) : Prop := 0 ≤ e ∧ e ≤ 3

theorem Moderate.exp {e : ℝ} (h : Moderate e) : robustExp e = Real.exp e := by
  have h3 : Real.exp 3 < largeNumber := by
    have : Real.exp 3 = Real.exp 1 ^ 3 := by rw [← Real.exp_nat_mul]; norm_num
    rw [this]
    have := Real.exp_one_lt_d9
    have h0 := Real.exp_pos 1
    calc Real.exp 1 ^ 3 ≤ 3 ^ 3 := by gcongr; linarith
      _ < largeNumber := by norm_num [largeNumber]
  unfold robustExp
  rw [if_neg]
  rw [gt_iff_lt, not_lt]
  refine h.2.trans ?_
  rw [← Real.log_exp 3]
  exact Real.log_le_log (Real.exp_pos 3) h3.le

theorem Moderate.one_le {e : ℝ} (h : Moderate e) : 1 ≤ Real.exp e := Real.one_le_exp h.1

theorem Moderate.log {e : ℝ} (h : Moderate e) : robustLog (Real.exp e) = e := by
  unfold robustLog
  rw [if_pos, Real.log_exp]
  have := h.one_le
  have : smallNumber < 1 := by norm_num [smallNumber]
  linarith

theorem exp_realRow (ht : tiny ≤ 1) {r : ℕ → Flt} {e : ℝ} (h : Moderate e) (hr : r 0 = .fin (Real.exp e)) :
    Dist.exponential.realRow? tiny ulp r = some fun k => ((r k).real?).getD 0 := by
  unfold Dist.realRow?
  rw [if_pos]
  intro k hk
  have : k = 0 := by
    have : k < 1 := hk
    omega
  subst this
  refine ⟨_, _, hr, rfl, ?_, le_top⟩
  have := h.one_le
  exact EReal.coe_le_coe_iff.2 (ht.trans this)

theorem early_working (ht : tiny ≤ 1) {e1 e2 : ℝ} (h1 : Moderate e1) (h2 : Moderate e2) {fv : Fv} (h : AtExp e1 e2 fv) :
    working (expOps tiny ulp so el) fitClip [1, 7] fv 0 = .ok ⟨[.fin e1, .fin e2], [.fin 1, .fin 1],
      [.fin (e1 + Real.exp (-e1) - 1), .fin (e2 + 7 * Real.exp (-e2) - 1)]⟩ := by
  obtain ⟨r1, r2, rfl, hr1, hr2⟩ := h
  have hl : ∀ {e}, Moderate e → LinkClass.linkFlt tiny ulp el .log (.fin (Real.exp e)) = .fin e := by
    intro e he
    change (if (LinkClass.linkSupport tiny ulp .log).1 ≤ ((Real.exp e : ℝ) : EReal) ∧
      ((Real.exp e : ℝ) : EReal) ≤ (LinkClass.linkSupport tiny ulp .log).2 then Flt.fin (LinkClass.link .log (Real.exp e)) else _) = _
    rw [if_pos ⟨EReal.coe_le_coe_iff.2 (ht.trans he.one_le), le_top⟩]
    exact congrArg Flt.fin he.log
  have hd : ∀ {e}, Moderate e → LinkClass.inverseDerivativeFlt el .log (.fin e) = .fin (Real.exp e) := fun he =>
    congrArg Flt.fin he.exp
  have hdr : ∀ e, Flt.div (.fin 1) (.fin (Real.exp e)) = .fin (Real.exp (-e)) := by
    intro e
    rw [Flt.div, if_neg (Real.exp_pos e).ne', Real.exp_neg, one_div]
  have hwt : ∀ e, Flt.clip fitClip 10000000000 (Flt.neg (Flt.div (.fin (-1 / Real.exp e ^ 2))
      (Flt.mul (.fin (Real.exp (-e))) (.fin (Real.exp (-e)))))) = .fin 1 := by
    intro e
    have : Real.exp (-e) * Real.exp (-e) ≠ 0 := by positivity
    rw [Flt.mul, Flt.div, if_neg this, Flt.neg, Flt.clip]
    have e' : -(-1 / Real.exp e ^ 2 / (Real.exp (-e) * Real.exp (-e))) = 1 := by
      rw [Real.exp_neg]
      field_simp
    rw [e', max_eq_left (by norm_num [fitClip]), min_eq_left (by norm_num)]
  have hz : ∀ y e, Flt.add (.fin e) (Flt.div (.fin ((y - Real.exp e) / Real.exp e ^ 2)) (Flt.mul (.fin (Real.exp (-e))) (.fin 1))) =
      .fin (e + y * Real.exp (-e) - 1) := by
    intro y e
    have : Real.exp (-e) * 1 ≠ 0 := by positivity
    rw [Flt.mul, Flt.div, if_neg this, Flt.add]
    congr 1
    rw [Real.exp_neg]
    field_simp
    ring
  have hdl1 : (expOps tiny ulp so el).dl1 [1, 7] [r1, r2] 0 = .ok [.fin ((1 - Real.exp e1) / Real.exp e1 ^ 2),
      .fin ((7 - Real.exp e2) / Real.exp e2 ^ 2)] := by
    simp [expOps, Dist.ops, derivativeAt, exp_realRow ht h1 hr1, exp_realRow ht h2 hr2, Dist.dl1, Dist.validateIndex, hr1, hr2, Flt.real?,
      Except.bind, bind, pure, Except.pure]
  have hdl2 : (expOps tiny ulp so el).dl2 [1, 7] [r1, r2] 0 = .ok [.fin (-1 / Real.exp e1 ^ 2), .fin (-1 / Real.exp e2 ^ 2)] := by
    simp [expOps, Dist.ops, derivativeAt, exp_realRow ht h1 hr1, exp_realRow ht h2 hr2, Dist.dl2, Dist.validateIndex, hr1, hr2, Flt.real?,
      Except.bind, bind, pure, Except.pure]
  have hlink : (expOps tiny ulp so el).link 0 (Fv.col [r1, r2] 0) = .ok [.fin e1, .fin e2] := by
    change Except.ok [LinkClass.linkFlt tiny ulp el .log (r1 0), LinkClass.linkFlt tiny ulp el .log (r2 0)] = _
    rw [hr1, hr2, hl h1, hl h2]
  have hder : (expOps tiny ulp so el).linkInverseDerivative 0 [.fin e1, .fin e2] = .ok [.fin (Real.exp e1), .fin (Real.exp e2)] := by
    change Except.ok [LinkClass.inverseDerivativeFlt el .log (.fin e1), LinkClass.inverseDerivativeFlt el .log (.fin e2)] = _
    rw [hd h1, hd h2]
  unfold working
  rw [hlink]
  simp only [bind, Except.bind]
  rw [hder]
  simp only
  rw [hdl1]
  simp only
  rw [hdl2]
  simp only [List.map_cons, List.map_nil, hdr, List.zipWith_cons_cons, List.zipWith_nil_left, hwt, hz, one_mul]
  rfl

/-- The deviance. -/
noncomputable def earlyDev (w e1 e2 : ℝ) : ℝ := 2 * w * (e1 + Real.exp (-e1) + (e2 + 7 * Real.exp (-e2)))

theorem early_deviance (ht : tiny ≤ 1) {e1 e2 : ℝ} (h1 : Moderate e1) (h2 : Moderate e2) {fv : Fv} (h : AtExp e1 e2 fv) (w : ℝ) :
    deviance (expOps tiny ulp so el) [1, 7] [w, w] fv = .fin (earlyDev w e1 e2) := by
  obtain ⟨r1, r2, rfl, hr1, hr2⟩ := h
  have hp : ∀ (y e : ℝ) (r : ℕ → Flt), 0 < y → r 0 = .fin (Real.exp e) →
      Dist.exponential.logpdf y (fun k => ((r k).real?).getD 0) = .fin (-(y * Real.exp (-e)) - e) := by
    intro y e r hy hr
    obtain ⟨_, _, _, _, hl⟩ := Dist.pdf_logpdf .exponential y (fun k => ((r k).real?).getD 0) hy (by
      change 0 < ((r 0).real?).getD 0
      rw [hr]
      exact Real.exp_pos e)
    rw [hl]
    change Flt.fin (-(y / ((r 0).real?).getD 0) - Real.log (((r 0).real?).getD 0)) = _
    rw [hr]
    change Flt.fin (-(y / Real.exp e) - Real.log (Real.exp e)) = _
    rw [Real.log_exp, Real.exp_neg, div_eq_mul_inv]
  have hlog : (expOps tiny ulp so el).logpdf [1, 7] [r1, r2] = [.fin (-(1 * Real.exp (-e1)) - e1), .fin (-(7 * Real.exp (-e2)) - e2)] := by
    simp only [expOps, Dist.ops, List.zipWith_cons_cons, List.zipWith_nil_left, exp_realRow ht h1 hr1, exp_realRow ht h2 hr2]
    rw [hp 1 e1 r1 one_pos hr1, hp 7 e2 r2 (by norm_num) hr2]
  unfold deviance
  rw [hlog]
  simp only [List.map_cons, List.map_nil, wmul, List.zipWith_cons_cons, List.zipWith_nil_left, Flt.mul, asum, Dist.npSum, List.foldr_cons,
    List.foldr_nil, Flt.add, Flt.fin.injEq, earlyDev]
  ring

/-- The regression of one pass. -/
theorem early_beta {w : ℝ} (hw : 0 < w) (z1 z2 : ℝ) {xg : Arr2} {yg : Arr1} {reg : List Bool} {r : Arr1 × MethodState}
    (hx : (packageMethods perm other).initX .ols [[.fin 0], [.fin 1]] (wmul [w, w] [.fin 1, .fin 1]) 0 = .ok xg)
    (hy : (packageMethods perm other).initY .ols [[.fin 0], [.fin 1]] [.fin z1, .fin z2] (wmul [w, w] [.fin 1, .fin 1]) 0 = .ok yg)
    (hb : (packageMethods perm other).fitBeta .ols xg yg reg = .ok r) : r = ([.fin z2], .ols) := by
  set d : List (Obs 1) := [⟨![0], z1, w * 1⟩, ⟨![1], z2, w * 1⟩] with hd
  have hn : NonnegWeights d := by
    intro o ho
    simp only [hd, List.mem_cons, List.not_mem_nil, or_false] at ho
    rcases ho with rfl | rfl <;> simp [hw.le]
  have hr : FullRank d := by
    intro v hv
    have := hv ⟨![1], z2, w * 1⟩ (by simp [hd]) (by simpa using hw)
    funext j
    rw [Fin.eq_zero j]
    simpa [linPred] using this
  obtain ⟨xg', yg', h1, h2, h3⟩ := ols_calls (perm := perm) (other := other) (f := 0) one_pos (by simp [hd]) hn hr reg
  have eX : (xs d).map ofVec = [[.fin 0], [.fin 1]] := by simp [hd, xs, ofVec, List.finRange_succ]
  have eW : (ws d).map Flt.fin = wmul [w, w] [.fin 1, .fin 1] := by simp [hd, ws, wmul, Flt.mul]
  have eY : (ys d).map Flt.fin = [.fin z1, .fin z2] := by simp [hd, ys]
  rw [eX, eW] at h1
  rw [eX, eW, eY] at h2
  cases h1.symm.trans hx
  cases h2.symm.trans hy
  have hl : lsq 0 d = ![z2] := by
    refine isLeastSquares_unique (lsq_isLeastSquares one_pos hn hr) fun b hb => ?_
    have hne : b 0 ≠ z2 := fun h => hb (by funext j; rw [Fin.eq_zero j]; simpa using h)
    have : 0 < (z2 - b 0) ^ 2 := by
      have : z2 - b 0 ≠ 0 := sub_ne_zero.2 (Ne.symm hne)
      positivity
    simp [discSSE, discSum_cons, hd, linPred]
    exact mul_pos hw this
  rw [hl] at h3
  have e := Except.ok.inj (h3.symm.trans hb)
  rw [← e]
  simp [ofVec, List.finRange_succ]

end Ondil
