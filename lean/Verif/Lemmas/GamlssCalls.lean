import Verif.Lemmas.Gamlss

/-!
# What a successful call of `fit` or `update` went through
-/

namespace Ondil

variable {μ : Type} {p : ℕ}

/-- The state with which `fit` enters its loops. -/
def fitStart (c : GConfig μ p) (n : ℕ) (nObs : ℝ) (nt : PyDict ℝ) (fv : Fv) (nf : PyDict ℕ) (sc : Scaler p)
    (reg : PyDict (List Bool)) (s : GState μ p) : GState μ p :=
  resetFit c n reg nf (((((s.setNObs (some nObs)).setNTraining nt).setFv fv).setNFeatures nf).setScaler (some sc))

/-- Unfolds the assignments before the loops. -/
macro "unfold_start" : tactic => `(tactic| simp only [fitStart, resetFit, GState.setScaler, GState.setNFeatures, GState.setFv,
  GState.setNTraining, GState.setNObs])

theorem fitStart_paramOrder (c : GConfig μ p) (n : ℕ) (nObs : ℝ) (nt : PyDict ℝ) (fv : Fv) (nf : PyDict ℕ) (sc : Scaler p)
    (reg : PyDict (List Bool)) (s : GState μ p) : (fitStart c n nObs nt fv nf sc reg s).paramOrder = s.paramOrder := by
  unfold_start

theorem fitStart_forget (c : GConfig μ p) (n : ℕ) (nObs : ℝ) (nt : PyDict ℝ) (fv : Fv) (nf : PyDict ℕ) (sc : Scaler p)
    (reg : PyDict (List Bool)) (s : GState μ p) : (fitStart c n nObs nt fv nf sc reg s).forget = s.forget := by
  unfold_start

theorem fitStart_nTraining (c : GConfig μ p) (n : ℕ) (nObs : ℝ) (nt : PyDict ℝ) (fv : Fv) (nf : PyDict ℕ) (sc : Scaler p)
    (reg : PyDict (List Bool)) (s : GState μ p) : (fitStart c n nObs nt fv nf sc reg s).nTraining = nt := by
  unfold_start

theorem fitStart_nObs (c : GConfig μ p) (n : ℕ) (nObs : ℝ) (nt : PyDict ℝ) (fv : Fv) (nf : PyDict ℕ) (sc : Scaler p)
    (reg : PyDict (List Bool)) (s : GState μ p) : (fitStart c n nObs nt fv nf sc reg s).nObs = some nObs := by
  unfold_start

theorem fitStart_scaler (c : GConfig μ p) (n : ℕ) (nObs : ℝ) (nt : PyDict ℝ) (fv : Fv) (nf : PyDict ℕ) (sc : Scaler p)
    (reg : PyDict (List Bool)) (s : GState μ p) : (fitStart c n nObs nt fv nf sc reg s).scaler = some sc := by
  unfold_start

theorem fitStart_equation (c : GConfig μ p) (n : ℕ) (nObs : ℝ) (nt : PyDict ℝ) (fv : Fv) (nf : PyDict ℕ) (sc : Scaler p)
    (reg : PyDict (List Bool)) (s : GState μ p) : (fitStart c n nObs nt fv nf sc reg s).equation = s.equation := by
  unfold_start

theorem fitStart_fitIntercept (c : GConfig μ p) (n : ℕ) (nObs : ℝ) (nt : PyDict ℝ) (fv : Fv) (nf : PyDict ℕ) (sc : Scaler p)
    (reg : PyDict (List Bool)) (s : GState μ p) : (fitStart c n nObs nt fv nf sc reg s).fitIntercept = s.fitIntercept := by
  unfold_start

theorem fitStart_method (c : GConfig μ p) (n : ℕ) (nObs : ℝ) (nt : PyDict ℝ) (fv : Fv) (nf : PyDict ℕ) (sc : Scaler p)
    (reg : PyDict (List Bool)) (s : GState μ p) : (fitStart c n nObs nt fv nf sc reg s).method = s.method := by
  unfold_start

theorem fitStart_ic (c : GConfig μ p) (n : ℕ) (nObs : ℝ) (nt : PyDict ℝ) (fv : Fv) (nf : PyDict ℕ) (sc : Scaler p)
    (reg : PyDict (List Bool)) (s : GState μ p) : (fitStart c n nObs nt fv nf sc reg s).ic = s.ic := by
  unfold_start

theorem fitStart_stepSize (c : GConfig μ p) (n : ℕ) (nObs : ℝ) (nt : PyDict ℝ) (fv : Fv) (nf : PyDict ℕ) (sc : Scaler p)
    (reg : PyDict (List Bool)) (s : GState μ p) : (fitStart c n nObs nt fv nf sc reg s).stepSize = s.stepSize := by
  unfold_start

theorem fitStart_isRegularized (c : GConfig μ p) (n : ℕ) (nObs : ℝ) (nt : PyDict ℝ) (fv : Fv) (nf : PyDict ℕ) (sc : Scaler p)
    (reg : PyDict (List Bool)) (s : GState μ p) : (fitStart c n nObs nt fv nf sc reg s).isRegularized = reg := by
  unfold_start

theorem fitStart_fv (c : GConfig μ p) (n : ℕ) (nObs : ℝ) (nt : PyDict ℝ) (fv : Fv) (nf : PyDict ℕ) (sc : Scaler p)
    (reg : PyDict (List Bool)) (s : GState μ p) : (fitStart c n nObs nt fv nf sc reg s).fv = fv := by
  unfold_start

/-- The steps of a successful `fit`. -/
structure FitRun (frames : Bool) (D : DistOps) (M : MethodOps μ) (c : GConfig μ p) (data : List (Obs p))
    (s t : GState μ p) where
  valid : c.Valid
  nonempty : ¬ (data = [] ∨ p = 0)
  support : ¬ OutOfSupport D (ys data)
  sP : GState μ p
  hprepare : prepare frames D M c s = (.ok (), sP)
  nt : PyDict ℝ
  hnt : trainingLengths D.nParams sP.forget (ws data).sum = .ok nt
  fv : Fv
  hfv : D.initialValues (ys data) = .ok fv
  nf : PyDict ℕ
  hnf : (forParams D.nParams fun k =>
    match sP.equation.get? k, sP.fitIntercept.get? k with
    | some eq, some fi => getJ p fi eq
    | _, _ => .error .keyError) = .ok nf
  forget0 : ℝ
  hforget0 : sP.forget.get? 0 = some forget0
  sc : Scaler p
  hsc : Scaler.fit c.scaleInputs forget0 (xs data) (ws data) = .ok sc
  X : PyDict Arr2
  hX : (forParams D.nParams fun k => designFor sP sc (xs data) k) = .ok X
  reg : PyDict (List Bool)
  hreg : (forParams D.nParams fun k =>
    match nf.get? k, sP.fitIntercept.get? k, sP.regularizeIntercept.get? k, sP.equation.get? k with
    | some J, some fi, some ri, some eq => .ok (regularizedFlags J fi ri eq)
    | _, _, _, _ => .error .keyError) = .ok reg
  dev : Flt
  it : ℕ
  s2 : GState μ p
  hloop : outerFit ⟨D, M, c, X.get?, ys data, ws data⟩
    (c.fuel (fitStart c D.nParams (ws data).sum nt fv nf sc reg sP).minIt)
    (fitStart c D.nParams (ws data).sum nt fv nf sc reg sP) = (.ok (some (dev, it)), s2)
  ht : t = s2.setResult dev it

theorem fit_ok {frames : Bool} {D : DistOps} {M : MethodOps μ} {c : GConfig μ p} {data : List (Obs p)}
    {s t : GState μ p} {u : Unit} (h : GState.fit frames D M c data s = (.ok u, t)) :
    Nonempty (FitRun frames D M c data s t) := by
  unfold GState.fit at h
  obtain ⟨x1, s11, h1, h⟩ := Py.bind_ok_iff.1 h
  obtain ⟨hv, e1⟩ := Py.raiseIf_ok_iff.1 h1
  rw [e1] at h
  clear h1 e1
  obtain ⟨⟨⟩, sP, hP, h⟩ := Py.bind_ok_iff.1 h
  obtain ⟨x2, s12, h2, h⟩ := Py.bind_ok_iff.1 h
  obtain ⟨hne, e2⟩ := Py.raiseIf_ok_iff.1 h2
  rw [e2] at h
  clear h2 e2
  obtain ⟨x3, s13, h3, h⟩ := Py.bind_ok_iff.1 h
  obtain ⟨hsup, e3⟩ := Py.raiseIf_ok_iff.1 h3
  rw [e3] at h
  clear h3 e3
  obtain ⟨x4, s14, h4, h⟩ := Py.bind_ok_iff.1 h
  have e4 := Py.set_ok_iff.1 h4
  rw [e4] at h
  clear h4 e4
  obtain ⟨x5, s15, h5, h⟩ := Py.bind_ok_iff.1 h
  obtain ⟨d5, e5⟩ := Py.self_ok_iff.1 h5
  rw [e5, d5] at h
  clear h5 e5 d5
  obtain ⟨nt, s16, h6, h⟩ := Py.bind_ok_iff.1 h
  obtain ⟨hnt, e6⟩ := Py.call_ok_iff.1 h6
  rw [e6] at h
  clear h6 e6
  obtain ⟨x7, s17, h7, h⟩ := Py.bind_ok_iff.1 h
  have e7 := Py.set_ok_iff.1 h7
  rw [e7] at h
  clear h7 e7
  obtain ⟨fv, s18, h8, h⟩ := Py.bind_ok_iff.1 h
  obtain ⟨hfv, e8⟩ := Py.call_ok_iff.1 h8
  rw [e8] at h
  clear h8 e8
  obtain ⟨x9, s19, h9, h⟩ := Py.bind_ok_iff.1 h
  have e9 := Py.set_ok_iff.1 h9
  rw [e9] at h
  clear h9 e9
  obtain ⟨nf, s20, h10, h⟩ := Py.bind_ok_iff.1 h
  obtain ⟨hnf, e10⟩ := Py.call_ok_iff.1 h10
  rw [e10] at h
  clear h10 e10
  obtain ⟨x11, s21, h11, h⟩ := Py.bind_ok_iff.1 h
  have e11 := Py.set_ok_iff.1 h11
  rw [e11] at h
  clear h11 e11
  obtain ⟨f0, s22, h12, h⟩ := Py.bind_ok_iff.1 h
  obtain ⟨hf0, e12⟩ := Py.attr_ok_iff.1 h12
  rw [e12] at h
  clear h12 e12
  obtain ⟨sc, s23, h13, h⟩ := Py.bind_ok_iff.1 h
  obtain ⟨hsc, e13⟩ := Py.call_ok_iff.1 h13
  rw [e13] at h
  clear h13 e13
  obtain ⟨x14, s24, h14, h⟩ := Py.bind_ok_iff.1 h
  have e14 := Py.set_ok_iff.1 h14
  rw [e14] at h
  clear h14 e14
  obtain ⟨X, s25, h15, h⟩ := Py.bind_ok_iff.1 h
  obtain ⟨hX, e15⟩ := Py.call_ok_iff.1 h15
  rw [e15] at h
  clear h15 e15
  obtain ⟨reg, s26, h16, h⟩ := Py.bind_ok_iff.1 h
  obtain ⟨hreg, e16⟩ := Py.call_ok_iff.1 h16
  rw [e16] at h
  clear h16 e16
  obtain ⟨x17, s27, h17, h⟩ := Py.bind_ok_iff.1 h
  have e17 := Py.set_ok_iff.1 h17
  rw [e17] at h
  clear h17 e17
  obtain ⟨x18, s28, h18, h⟩ := Py.bind_ok_iff.1 h
  obtain ⟨d18, e18⟩ := Py.self_ok_iff.1 h18
  rw [e18, d18] at h
  clear h18 e18 d18
  obtain ⟨r, s2, hloop, h⟩ := Py.bind_ok_iff.1 h
  obtain ⟨r2, s29, h19, h⟩ := Py.bind_ok_iff.1 h
  obtain ⟨hr, e19⟩ := Py.attr_ok_iff.1 h19
  rw [e19] at h
  clear h19 e19
  have ht := Py.set_ok_iff.1 h
  rw [hr] at hloop
  exact ⟨⟨not_not.1 hv, hne, hsup, sP, hP, nt, hnt, fv, hfv, nf, hnf, f0, hf0, sc, hsc, X, hX, reg, hreg, r2.1, r2.2, s2,
    hloop, ht⟩⟩

/-- The state with which `update` enters its loops, before `cautious`. -/
def updateStart (c : GConfig μ p) (nObs : ℝ) (nt : PyDict ℝ) (fv : Fv) (sc : Scaler p) (s : GState μ p) : GState μ p :=
  resetUpdate c ((((s.setNObs (some nObs)).setNTraining nt).setFv fv).setScaler (some sc))

/-- The steps of a successful `update`. -/
structure UpdateRun (D : DistOps) (M : MethodOps μ) (c : GConfig μ p) (data : List (Obs p)) (s t : GState μ p) where
  valid : c.Valid
  nonempty : ¬ (data = [] ∨ p = 0)
  support : ¬ OutOfSupport D (ys data)
  nObs0 : ℝ
  hnObs0 : s.nObs = some nObs0
  nt : PyDict ℝ
  hnt : trainingLengths D.nParams s.forget (nObs0 + (ws data).sum) = .ok nt
  fv : Fv
  hfv : predictParams D ((s.setNObs (some (nObs0 + (ws data).sum))).setNTraining nt) (xs data) .response = .ok fv
  sc0 : Scaler p
  hsc0 : s.scaler = some sc0
  forget0 : ℝ
  hforget0 : s.forget.get? 0 = some forget0
  sc : Scaler p
  hsc : sc0.update forget0 (xs data) (ws data) = .ok sc
  X : PyDict Arr2
  hX : (forParams D.nParams fun k => designFor s sc (xs data) k) = .ok X
  s1 : GState μ p
  hcautious : cautious D c (ys data) (updateStart c (nObs0 + (ws data).sum) nt fv sc s) = (.ok (), s1)
  dev : Flt
  it : ℕ
  s2 : GState μ p
  hloop : outerUpdate ⟨D, M, c, X.get?, ys data, ws data⟩ (c.fuel s1.minIt) s1 = (.ok (some (dev, it)), s2)
  ht : t = (s2.setResult dev it).commitStatistics

theorem update_ok {D : DistOps} {M : MethodOps μ} {c : GConfig μ p} {data : List (Obs p)}
    {s t : GState μ p} {u : Unit} (h : GState.update D M c data s = (.ok u, t)) :
    Nonempty (UpdateRun D M c data s t) := by
  unfold GState.update at h
  obtain ⟨x1, s11, h1, h⟩ := Py.bind_ok_iff.1 h
  obtain ⟨hv, e1⟩ := Py.raiseIf_ok_iff.1 h1
  rw [e1] at h
  clear h1 e1
  obtain ⟨x2, s12, h2, h⟩ := Py.bind_ok_iff.1 h
  obtain ⟨hne, e2⟩ := Py.raiseIf_ok_iff.1 h2
  rw [e2] at h
  clear h2 e2
  obtain ⟨x3, s13, h3, h⟩ := Py.bind_ok_iff.1 h
  obtain ⟨hsup, e3⟩ := Py.raiseIf_ok_iff.1 h3
  rw [e3] at h
  clear h3 e3
  obtain ⟨x4, s14, h4, h⟩ := Py.bind_ok_iff.1 h
  obtain ⟨d4, e4⟩ := Py.self_ok_iff.1 h4
  rw [e4, d4] at h
  clear h4 e4 d4
  obtain ⟨n0, s15, h5, h⟩ := Py.bind_ok_iff.1 h
  obtain ⟨hn0, e5⟩ := Py.attr_ok_iff.1 h5
  rw [e5] at h
  clear h5 e5
  obtain ⟨x6, s16, h6, h⟩ := Py.bind_ok_iff.1 h
  have e6 := Py.set_ok_iff.1 h6
  rw [e6] at h
  clear h6 e6
  obtain ⟨nt, s17, h7, h⟩ := Py.bind_ok_iff.1 h
  obtain ⟨hnt, e7⟩ := Py.call_ok_iff.1 h7
  rw [e7] at h
  clear h7 e7
  obtain ⟨x8, s18, h8, h⟩ := Py.bind_ok_iff.1 h
  have e8 := Py.set_ok_iff.1 h8
  rw [e8] at h
  clear h8 e8
  obtain ⟨x9, s19, h9, h⟩ := Py.bind_ok_iff.1 h
  obtain ⟨d9, e9⟩ := Py.self_ok_iff.1 h9
  rw [e9, d9] at h
  clear h9 e9 d9
  obtain ⟨fv, s20, h10, h⟩ := Py.bind_ok_iff.1 h
  obtain ⟨hfv, e10⟩ := Py.call_ok_iff.1 h10
  rw [e10] at h
  clear h10 e10
  obtain ⟨x11, s21, h11, h⟩ := Py.bind_ok_iff.1 h
  have e11 := Py.set_ok_iff.1 h11
  rw [e11] at h
  clear h11 e11
  obtain ⟨sc0, s22, h12, h⟩ := Py.bind_ok_iff.1 h
  obtain ⟨hsc0, e12⟩ := Py.attr_ok_iff.1 h12
  rw [e12] at h
  clear h12 e12
  obtain ⟨f0, s23, h13, h⟩ := Py.bind_ok_iff.1 h
  obtain ⟨hf0, e13⟩ := Py.attr_ok_iff.1 h13
  rw [e13] at h
  clear h13 e13
  obtain ⟨sc, s24, h14, h⟩ := Py.bind_ok_iff.1 h
  obtain ⟨hsc, e14⟩ := Py.call_ok_iff.1 h14
  rw [e14] at h
  clear h14 e14
  obtain ⟨x15, s25, h15, h⟩ := Py.bind_ok_iff.1 h
  have e15 := Py.set_ok_iff.1 h15
  rw [e15] at h
  clear h15 e15
  obtain ⟨X, s26, h16, h⟩ := Py.bind_ok_iff.1 h
  obtain ⟨hX, e16⟩ := Py.call_ok_iff.1 h16
  rw [e16] at h
  clear h16 e16
  obtain ⟨x17, s27, h17, h⟩ := Py.bind_ok_iff.1 h
  have e17 := Py.set_ok_iff.1 h17
  rw [e17] at h
  clear h17 e17
  obtain ⟨⟨⟩, s1, hcaut, h⟩ := Py.bind_ok_iff.1 h
  obtain ⟨x18, s28, h18, h⟩ := Py.bind_ok_iff.1 h
  obtain ⟨d18, e18⟩ := Py.self_ok_iff.1 h18
  rw [e18, d18] at h
  clear h18 e18 d18
  obtain ⟨r, s2, hloop, h⟩ := Py.bind_ok_iff.1 h
  obtain ⟨r2, s29, h19, h⟩ := Py.bind_ok_iff.1 h
  obtain ⟨hr, e19⟩ := Py.attr_ok_iff.1 h19
  rw [e19] at h
  clear h19 e19
  obtain ⟨x20, s30, h20, h⟩ := Py.bind_ok_iff.1 h
  have e20 := Py.set_ok_iff.1 h20
  rw [e20] at h
  clear h20 e20
  have ht := Py.set_ok_iff.1 h
  rw [hr] at hloop
  exact ⟨⟨not_not.1 hv, hne, hsup, n0, hn0, nt, hnt, fv, hfv, sc0, hsc0, f0, hf0, sc, hsc, X, hX, s1, hcaut, r2.1, r2.2, s2,
    hloop, ht⟩⟩

/-- The steps of a successful `_prepare_estimator`. -/
structure PrepareRun (frames : Bool) (D : DistOps) (M : MethodOps μ) (c : GConfig μ p) (s t : GState μ p) where
  eq : PyDict Equation
  heq : (processEquation frames D.nParams c.equation).1 = .ok eq
  ms : PyDict (Option μ)
  hms : (c.method.process D.nParams (.value (some M.ols))).result = .ok ms
  hok : ¬ ∃ k < D.nParams, ms.get? k = some none
  fo : PyDict ℝ
  hfo : (c.forget.process D.nParams (.value 0)).result = .ok fo
  ic : PyDict Criterion
  hic : (c.ic.process D.nParams (.value .aic)).result = .ok ic
  fi : PyDict Bool
  hfi : (c.fitIntercept.process D.nParams (.value true)).result = .ok fi
  ri : PyDict Bool
  hri : (c.regularizeIntercept.process D.nParams (.value false)).result = .ok ri
  st : PyDict ℝ
  hst : (c.stepSize.process D.nParams (.value 1)).result = .ok st
  hord : ¬ ∃ o, c.paramOrder = some o ∧ ∃ k < D.nParams, k ∉ o
  ht : t = ((((((((s.setEquation eq).setMethod fun k => (ms.get? k).bind id).setForget fo).setIc ic).setFitIntercept
    fi).setRegularizeIntercept ri).setStepSize st).setParamOrder (c.paramOrder.getD (List.range D.nParams))).setScaler none

theorem prepare_ok {frames : Bool} {D : DistOps} {M : MethodOps μ} {c : GConfig μ p} {s t : GState μ p} {u : Unit}
    (h : prepare frames D M c s = (.ok u, t)) : Nonempty (PrepareRun frames D M c s t) := by
  unfold prepare at h
  obtain ⟨eq, ss1, hh1, h⟩ := Py.bind_ok_iff.1 h
  obtain ⟨heq, ee1⟩ := Py.call_ok_iff.1 hh1
  rw [ee1] at h
  clear hh1 ee1
  obtain ⟨x2, ss2, hh2, h⟩ := Py.bind_ok_iff.1 h
  have ee2 := Py.set_ok_iff.1 hh2
  rw [ee2] at h
  clear hh2 ee2
  obtain ⟨ms, ss3, hh3, h⟩ := Py.bind_ok_iff.1 h
  obtain ⟨hms, ee3⟩ := Py.call_ok_iff.1 hh3
  rw [ee3] at h
  clear hh3 ee3
  obtain ⟨x4, ss4, hh4, h⟩ := Py.bind_ok_iff.1 h
  obtain ⟨hok, ee4⟩ := Py.raiseIf_ok_iff.1 hh4
  rw [ee4] at h
  clear hh4 ee4
  obtain ⟨x5, ss5, hh5, h⟩ := Py.bind_ok_iff.1 h
  have ee5 := Py.set_ok_iff.1 hh5
  rw [ee5] at h
  clear hh5 ee5
  obtain ⟨fo, ss6, hh6, h⟩ := Py.bind_ok_iff.1 h
  obtain ⟨hfo, ee6⟩ := Py.call_ok_iff.1 hh6
  rw [ee6] at h
  clear hh6 ee6
  obtain ⟨x7, ss7, hh7, h⟩ := Py.bind_ok_iff.1 h
  have ee7 := Py.set_ok_iff.1 hh7
  rw [ee7] at h
  clear hh7 ee7
  obtain ⟨ic, ss8, hh8, h⟩ := Py.bind_ok_iff.1 h
  obtain ⟨hic, ee8⟩ := Py.call_ok_iff.1 hh8
  rw [ee8] at h
  clear hh8 ee8
  obtain ⟨x9, ss9, hh9, h⟩ := Py.bind_ok_iff.1 h
  have ee9 := Py.set_ok_iff.1 hh9
  rw [ee9] at h
  clear hh9 ee9
  obtain ⟨fi, ss10, hh10, h⟩ := Py.bind_ok_iff.1 h
  obtain ⟨hfi, ee10⟩ := Py.call_ok_iff.1 hh10
  rw [ee10] at h
  clear hh10 ee10
  obtain ⟨x11, ss11, hh11, h⟩ := Py.bind_ok_iff.1 h
  have ee11 := Py.set_ok_iff.1 hh11
  rw [ee11] at h
  clear hh11 ee11
  obtain ⟨ri, ss12, hh12, h⟩ := Py.bind_ok_iff.1 h
  obtain ⟨hri, ee12⟩ := Py.call_ok_iff.1 hh12
  rw [ee12] at h
  clear hh12 ee12
  obtain ⟨x13, ss13, hh13, h⟩ := Py.bind_ok_iff.1 h
  have ee13 := Py.set_ok_iff.1 hh13
  rw [ee13] at h
  clear hh13 ee13
  obtain ⟨st, ss14, hh14, h⟩ := Py.bind_ok_iff.1 h
  obtain ⟨hst, ee14⟩ := Py.call_ok_iff.1 hh14
  rw [ee14] at h
  clear hh14 ee14
  obtain ⟨x15, ss15, hh15, h⟩ := Py.bind_ok_iff.1 h
  have ee15 := Py.set_ok_iff.1 hh15
  rw [ee15] at h
  clear hh15 ee15
  obtain ⟨x16, ss16, hh16, h⟩ := Py.bind_ok_iff.1 h
  obtain ⟨hord, ee16⟩ := Py.raiseIf_ok_iff.1 hh16
  rw [ee16] at h
  clear hh16 ee16
  obtain ⟨x17, ss17, hh17, h⟩ := Py.bind_ok_iff.1 h
  have ee17 := Py.set_ok_iff.1 hh17
  rw [ee17] at h
  clear hh17 ee17
  exact ⟨⟨eq, heq, ms, hms, hok, fo, hfo, ic, hic, fi, hfi, ri, hri, st, hst, hord, Py.set_ok_iff.1 h⟩⟩

theorem PrepareRun.mem_order {frames : Bool} {D : DistOps} {M : MethodOps μ} {c : GConfig μ p} {s t : GState μ p}
    (r : PrepareRun frames D M c s t) {k : ℕ} (hk : k < D.nParams) : k ∈ t.paramOrder := by
  have h1 : t.paramOrder = c.paramOrder.getD (List.range D.nParams) := by rw [r.ht]; rfl
  rw [h1]
  cases hc : c.paramOrder with
  | none => exact List.mem_range.2 hk
  | some o =>
    by_contra hn
    exact r.hord ⟨o, hc, k, hk, hn⟩

/-- A valid configuration needs at least one distribution parameter. -/
theorem FitRun.nParams_pos {frames : Bool} {D : DistOps} {M : MethodOps μ} {c : GConfig μ p} {data : List (Obs p)}
    {s t : GState μ p} (r : FitRun frames D M c data s t) : 0 < D.nParams := by
  obtain ⟨pr⟩ := prepare_ok r.hprepare
  by_contra hn
  have hn0 : D.nParams = 0 := by omega
  have hv := r.valid.1
  have hfo := pr.hfo
  have hf0 := r.hforget0
  have h1 : r.sP.forget = pr.fo := congrArg GState.forget pr.ht
  rw [h1] at hf0
  cases hc : c.forget with
  | dict d => rw [hc] at hv; exact hv
  | value f =>
    rw [hc, hn0] at hfo
    have : pr.fo = [] := by
      unfold OptArg.process at hfo
      simp only [Except.ok.injEq] at hfo
      rw [← hfo]; rfl
    rw [this] at hf0
    cases hf0

theorem cautious_ok {D : DistOps} {c : GConfig μ p} {y : List ℝ} {s t : GState μ p} {u : Unit}
    (h : cautious D c y s = (.ok u, t)) :
    (c.cautiousUpdates = false ∧ t = s) ∨
      c.cautiousUpdates = true ∧ (t = s.outlierSchedule ∨ t = s.setMinIt c.minItOuter) := by
  unfold cautious at h
  rw [Py.bind_self] at h
  split at h
  · rename_i hc
    refine .inr ⟨hc, ?_⟩
    obtain ⟨lo, s1, hh1, h⟩ := Py.bind_ok_iff.1 h
    obtain ⟨_, e1⟩ := Py.call_ok_iff.1 hh1
    rw [e1] at h
    obtain ⟨hi, s2, hh2, h⟩ := Py.bind_ok_iff.1 h
    obtain ⟨_, e2⟩ := Py.call_ok_iff.1 hh2
    rw [e2] at h
    split at h
    · exact .inl (Py.set_ok_iff.1 h)
    · exact .inr (Py.set_ok_iff.1 h)
  · rename_i hc
    exact .inl ⟨by simpa using hc, (Py.pure_ok_iff.1 h).2.symm⟩

theorem cautious_proj {α : Type} (f : GState μ p → α) (h1 : ∀ s, f s.outlierSchedule = f s)
    (h2 : ∀ s b, f (s.setMinIt b) = f s) {D : DistOps} {c : GConfig μ p} {y : List ℝ} {s t : GState μ p} {u : Unit}
    (h : cautious D c y s = (.ok u, t)) : f t = f s := by
  rcases cautious_ok h with ⟨_, e⟩ | ⟨_, e | e⟩ <;> rw [e]
  · exact h1 _
  · exact h2 _ _

/-- What the attributes look like when the loops of `update` start. -/
theorem UpdateRun.proj {α : Type} (f : GState μ p → α) (h1 : ∀ s, f s.outlierSchedule = f s)
    (h2 : ∀ s b, f (s.setMinIt b) = f s) {D : DistOps} {M : MethodOps μ} {c : GConfig μ p} {data : List (Obs p)}
    {s t : GState μ p} (r : UpdateRun D M c data s t) :
    f r.s1 = f (updateStart c (r.nObs0 + (ws data).sum) r.nt r.fv r.sc s) := cautious_proj f h1 h2 r.hcautious

end Ondil
