import Verif.Lemmas.GamlssErrors

/-!
# Properties of the calls of the distributional regression (C55, C56, C60, C64, C65, C35, C38)
-/

namespace Ondil

variable {μ : Type} {p : ℕ}

/-! ### C55: responses outside the support are rejected -/

/-- An update with a response outside the support raises `OutOfSupportError` and changes nothing. -/
theorem C55_update_rejects (D : DistOps) (M : MethodOps μ) (c : GConfig μ p) (hc : c.Valid) (hp : 0 < p)
    (data : List (Obs p)) (hout : OutOfSupport D (ys data)) (s : GState μ p) :
    GState.update D M c data s = (.error .outOfSupport, s) := by
  have hne : ¬ (data = [] ∨ p = 0) := by
    rintro (rfl | rfl)
    · rcases hout with ⟨v, hv, _⟩ | ⟨v, hv, _⟩ <;> simp [ys] at hv
    · exact lt_irrefl _ hp
  unfold GState.update
  rw [Py.bind_raiseIf_neg (not_not.2 hc), Py.bind_raiseIf_neg hne, Py.bind_raiseIf_pos hout]

/-- A fit with a response outside the support raises `OutOfSupportError` if the options are accepted; the only
attributes that change are those that `_prepare_estimator` sets. -/
theorem C55_fit_rejects (frames : Bool) (D : DistOps) (M : MethodOps μ) (c : GConfig μ p) (hc : c.Valid) (hp : 0 < p)
    (data : List (Obs p)) (hout : OutOfSupport D (ys data)) (s sP : GState μ p)
    (hprep : prepare frames D M c s = (.ok (), sP)) :
    GState.fit frames D M c data s = (.error .outOfSupport, sP) := by
  have hne : ¬ (data = [] ∨ p = 0) := by
    rintro (rfl | rfl)
    · rcases hout with ⟨v, hv, _⟩ | ⟨v, hv, _⟩ <;> simp [ys] at hv
    · exact lt_irrefl _ hp
  unfold GState.fit
  rw [Py.bind_raiseIf_neg (not_not.2 hc), Py.bind_of_ok hprep, Py.bind_raiseIf_neg hne, Py.bind_raiseIf_pos hout]

/-- If the objects the estimator works with do not raise `OutOfSupportError` themselves, the error means that some
response lies below the lower or above the upper end of the support. -/
theorem C55_only_out_of_support (frames : Bool) (D : DistOps) (M : MethodOps μ) (h : NoSupportErrors D M) (c : GConfig μ p)
    (data : List (Obs p)) (s : GState μ p) :
    ((GState.fit frames D M c data s).1 = .error .outOfSupport → OutOfSupport D (ys data)) ∧
    ((GState.update D M c data s).1 = .error .outOfSupport → OutOfSupport D (ys data)) :=
  ⟨fun he => fit_outOfSupport h (t := (GState.fit frames D M c data s).2) (by rw [← he]),
    fun he => update_outOfSupport h (t := (GState.update D M c data s).2) (by rw [← he])⟩

/-- A rejected second `fit` is not without effect: the scaler has been replaced, so that the model fitted before can
neither predict nor be updated, although `is_fitted` still holds. -/
theorem C78_rejected_refit_fails (frames : Bool) (D : DistOps) (M : MethodOps μ) (c : GConfig μ p) (hc : c.Valid) (hp : 0 < p)
    (data : List (Obs p)) (hout : OutOfSupport D (ys data)) (s sP : GState μ p) (hfit : s.isFitted = true)
    (hprep : prepare frames D M c s = (.ok (), sP)) :
    GState.fit frames D M c data s = (.error .outOfSupport, sP) ∧ sP.isFitted = true ∧
    (∀ x X what, predictParams D sP (x :: X) what = .error .notFitted) ∧
    ∀ c' data', ∃ e t, GState.update D M c' data' sP = (.error e, t) := by
  obtain ⟨r⟩ := prepare_ok hprep
  have hn : sP.nObs = s.nObs := by rw [r.ht]; rfl
  have hsc : sP.scaler = none := by rw [r.ht]; rfl
  obtain ⟨n, hs⟩ := Option.isSome_iff_exists.1 hfit
  have hpred : ∀ (sQ : GState μ p), sQ.nObs ≠ none → sQ.scaler = none → ∀ x X what,
      predictParams D sQ (x :: X) what = .error .notFitted := by
    intro sQ h1 h2 x X what
    unfold predictParams linearPredictors
    obtain ⟨m, hm⟩ := Option.ne_none_iff_exists'.1 h1
    rw [hm, h2]
    rfl
  refine ⟨C55_fit_rejects frames D M c hc hp data hout s sP hprep, ?_, hpred sP (by rw [hn, hs]; simp) hsc, ?_⟩
  · unfold GState.isFitted
    rw [hn, hs]
    rfl
  · intro c' data'
    rcases h : GState.update D M c' data' sP with ⟨x, t⟩
    cases x with
    | error e => exact ⟨e, t, rfl⟩
    | ok u =>
      obtain ⟨q⟩ := update_ok h
      have := q.hsc0
      rw [hsc] at this
      cases this

/-! ### C56: a rejected update -/

/-- The attributes that a failing update leaves as they were. -/
structure KeptStatistics (s t : GState μ p) : Prop where
  xGram : t.xGram = s.xGram
  yGram : t.yGram = s.yGram
  sumW : t.sumW = s.sumW
  meanW : t.meanW = s.meanW
  globalDev : t.globalDev = s.globalDev
  itOuter : t.itOuter = s.itOuter
  equation : t.equation = s.equation
  forget : t.forget = s.forget
  ic : t.ic = s.ic
  fitIntercept : t.fitIntercept = s.fitIntercept
  stepSize : t.stepSize = s.stepSize
  paramOrder : t.paramOrder = s.paramOrder

theorem KeptStatistics.trans {s t u : GState μ p} (h : KeptStatistics s t) (h' : KeptStatistics t u) : KeptStatistics s u := by
  constructor
  · exact h'.xGram.trans h.xGram
  · exact h'.yGram.trans h.yGram
  · exact h'.sumW.trans h.sumW
  · exact h'.meanW.trans h.meanW
  · exact h'.globalDev.trans h.globalDev
  · exact h'.itOuter.trans h.itOuter
  · exact h'.equation.trans h.equation
  · exact h'.forget.trans h.forget
  · exact h'.ic.trans h.ic
  · exact h'.fitIntercept.trans h.fitIntercept
  · exact h'.stepSize.trans h.stepSize
  · exact h'.paramOrder.trans h.paramOrder

theorem outerUpdate_kept (c : Call μ p) (fuel : ℕ) (s0 : GState μ p) : Py.Inv (KeptStatistics s0) (outerUpdate c fuel) := by
  intro s hs
  have key : ∀ t, SameCommitted s t → KeptStatistics s0 t := fun t h => hs.trans
    ⟨h.xGram, h.yGram, h.sumW, h.meanW, h.setup.globalDev, h.setup.itOuter, h.setup.equation, h.setup.forget, h.setup.ic,
      h.setup.fitIntercept, h.setup.stepSize, h.setup.paramOrder⟩
  obtain ⟨h1, h2⟩ := outerUpdate_committed c fuel s s (SameCommitted.refl s)
  exact ⟨fun a t h => key t (h1 a t h), fun e t h => key t (h2 e t h)⟩

open Classical in
theorem cautious_kept (D : DistOps) (c : GConfig μ p) (y : List ℝ) (s0 : GState μ p) :
    Py.Inv (KeptStatistics s0) (cautious D c y) := by
  unfold cautious
  py_inv
  all_goals exact fun s hs => hs.trans (by constructor <;> rfl)

/-- What a failing update leaves as it was: the statistics of all previous batches, the stored deviance, the number of
outer iterations and the options.  Missing: the number of observations, the effective training lengths, the fitted values,
the scaler and the coefficients (`C56_cautious_fails`). -/
theorem C56_statistics_partial (D : DistOps) (M : MethodOps μ) (c : GConfig μ p) (data : List (Obs p)) (s t : GState μ p)
    (e : PyErr) (h : GState.update D M c data s = (.error e, t)) : KeptStatistics s t := by
  have key : Py.Triple (KeptStatistics s) (GState.update D M c data) (fun _ _ => True) fun _ => KeptStatistics s := by
    unfold GState.update
    have hset : ∀ f : GState μ p → GState μ p, (∀ u, KeptStatistics u (f u)) →
        Py.Triple (KeptStatistics s) (Py.set f) (fun _ => KeptStatistics s) fun _ => KeptStatistics s :=
      fun f hf => Py.triple_set fun u hu => hu.trans (hf u)
    refine .bind (Py.inv_raiseIf _ _) fun _ => ?_
    refine .bind (Py.inv_raiseIf _ _) fun _ => ?_
    refine .bind (Py.inv_raiseIf _ _) fun _ => ?_
    refine .bind Py.inv_self fun _ => ?_
    refine .bind (Py.inv_attr _ _) fun _ => ?_
    refine .bind (hset _ fun u => by constructor <;> rfl) fun _ => ?_
    refine .bind (Py.inv_call _) fun _ => ?_
    refine .bind (hset _ fun u => by constructor <;> rfl) fun _ => ?_
    refine .bind Py.inv_self fun _ => ?_
    refine .bind (Py.inv_call _) fun _ => ?_
    refine .bind (hset _ fun u => by constructor <;> rfl) fun _ => ?_
    refine .bind (Py.inv_attr _ _) fun _ => ?_
    refine .bind (Py.inv_attr _ _) fun _ => ?_
    refine .bind (Py.inv_call _) fun _ => ?_
    refine .bind (hset _ fun u => by constructor <;> rfl) fun _ => ?_
    refine .bind (Py.inv_call _) fun _ => ?_
    refine .bind (hset _ fun u => by constructor <;> rfl) fun _ => ?_
    refine .bind (cautious_kept D c _ s) fun _ => ?_
    refine .bind Py.inv_self fun _ => ?_
    refine .bind (outerUpdate_kept _ _ s) fun _ => ?_
    refine .bind (Py.inv_attr _ _) fun _ => ?_
    refine .bind (R := fun _ _ => True) (Py.triple_set fun _ _ => trivial) fun _ => ?_
    exact Py.triple_set fun _ _ => trivial
  exact key.error (by constructor <;> rfl) h

/-- A batch rejected by the checks at the head of `update` (options, shape, support) leaves everything as it was. -/
theorem C56_checks_partial (D : DistOps) (M : MethodOps μ) (c : GConfig μ p) (data : List (Obs p)) (s : GState μ p)
    (h : ¬ c.Valid ∨ data = [] ∨ p = 0 ∨ OutOfSupport D (ys data)) :
    ∃ e, GState.update D M c data s = (.error e, s) := by
  unfold GState.update
  by_cases h1 : c.Valid
  · rw [Py.bind_raiseIf_neg (not_not.2 h1)]
    by_cases h2 : data = [] ∨ p = 0
    · exact ⟨_, by rw [Py.bind_raiseIf_pos h2]⟩
    · rw [Py.bind_raiseIf_neg h2]
      have h3 : OutOfSupport D (ys data) := by
        rcases h with h | h | h | h
        · exact absurd h1 h
        · exact absurd (Or.inl h) h2
        · exact absurd (Or.inr h) h2
        · exact h
      exact ⟨_, by rw [Py.bind_raiseIf_pos h3]⟩
  · exact ⟨_, by rw [Py.bind_raiseIf_pos h1]⟩

theorem predictParams_length {D : DistOps} {s : GState μ p} {X : List (Row p)} {what : What} {th : Fv}
    (h : predictParams D s X what = .ok th) : th.length = X.length := by
  unfold predictParams at h
  obtain ⟨etas, _, h⟩ := bind_ok.1 h
  cases what with
  | response =>
    obtain ⟨cols, _, h⟩ := bind_ok.1 h
    cases h
    simp [Fv.stack]
  | link =>
    cases h
    simp [Fv.stack]
  | other => cases h

theorem predictParams_setNObs {D : DistOps} {s : GState μ p} {n m : ℝ} (hn : s.nObs = some n) (nt : PyDict ℝ)
    (X : List (Row p)) (what : What) :
    predictParams D ((s.setNObs (some m)).setNTraining nt) X what = predictParams D s X what := by
  have : linearPredictors D ((s.setNObs (some m)).setNTraining nt) X = linearPredictors D s X := by
    unfold linearPredictors
    rw [hn]
    cases X with
    | nil => rfl
    | cons x X =>
      have e : ((s.setNObs (some m)).setNTraining nt).scaler = s.scaler := rfl
      rw [e]
      cases s.scaler <;> rfl
  unfold predictParams
  rw [this]

theorem forParams_total {α : Type} {n : ℕ} {f : ℕ → Except PyErr α} (h : ∀ k < n, ∃ a, f k = .ok a) :
    ∃ d, forParams n f = .ok d := by
  have key : ∀ l : List ℕ, (∀ k ∈ l, ∃ a, f k = .ok a) →
      ∃ d, (l.mapM fun k => do let a ← f k; pure (k, a)) = (.ok d : Except PyErr _) := by
    intro l
    induction l with
    | nil => exact fun _ => ⟨[], rfl⟩
    | cons k l ih =>
      intro h
      obtain ⟨a, ha⟩ := h k (by simp)
      obtain ⟨d, hd⟩ := ih fun j hj => h j (by simp [hj])
      refine ⟨(k, a) :: d, ?_⟩
      rw [List.mapM_cons, ha, hd]
      rfl
  exact key _ fun k hk => h k (List.mem_range.1 hk)

theorem scaler_update_total (sc : Scaler p) (f : ℝ) (X : List (Row p)) (w : List ℝ) (hX : 1 ≤ X.length) :
    ∃ sc', sc.update f X w = .ok sc' := by
  cases sc with
  | off m => exact ⟨_, if_neg (by omega)⟩
  | on k sel st =>
    have : scalerUpdate sel f st X w = .ok _ := if_neg (by omega)
    exact ⟨_, by unfold Scaler.update; simp only; rw [this]; rfl⟩

/-- With `cautious_updates` every update with more than one row fails: the quantiles of all rows are turned into one
number with `.item()`. -/
theorem C79_cautious_batch_fails (D : DistOps) (M : MethodOps μ) (c : GConfig μ p) (hcaut : c.cautiousUpdates = true)
    (hppf : ∀ q fv, (D.ppf q fv).length = fv.length) (data : List (Obs p)) (hlen : 2 ≤ data.length) (s : GState μ p) :
    ∃ e t, GState.update D M c data s = (.error e, t) := by
  rcases h : GState.update D M c data s with ⟨x, t⟩
  cases x with
  | error e => exact ⟨e, t, rfl⟩
  | ok u =>
    exfalso
    obtain ⟨r⟩ := update_ok h
    have h1 := r.hcautious
    have hfv : r.fv.length = data.length := (predictParams_length r.hfv).trans (by simp [xs])
    unfold cautious at h1
    rw [Py.bind_self, if_pos hcaut] at h1
    obtain ⟨v, _, h2, _⟩ := Py.bind_ok_iff.1 h1
    obtain ⟨h3, _⟩ := Py.call_ok_iff.1 h2
    have h4 : (D.ppf (5 / 1000) r.fv).length = data.length := (hppf _ _).trans hfv
    have h5 : item (D.ppf (5 / 1000) r.fv) = .ok v := h3
    unfold item at h5
    split at h5
    · rename_i heq
      rw [heq] at h4
      simp at h4
      omega
    · cases h5

/-- The exception of a cautious update with several rows comes after the batch has been counted, so **C56 fails**:
repeating the update one row at a time counts the observations twice. -/
theorem C56_cautious_fails (D : DistOps) (M : MethodOps μ) (c : GConfig μ p) (hc : c.Valid) (hcaut : c.cautiousUpdates = true)
    (hp : 0 < p) (data : List (Obs p)) (hlen : 2 ≤ data.length) (hin : ¬ OutOfSupport D (ys data))
    (hppf : ∀ q fv, (D.ppf q fv).length = fv.length) (s : GState μ p) (n : ℝ) (hn : s.nObs = some n)
    (hpred : ∃ th, predictParams D s (xs data) .response = .ok th)
    (hforget : ∀ k < D.nParams, (s.forget.get? k).isSome) (hD : 0 < D.nParams) (sc : Scaler p) (hs : s.scaler = some sc)
    (hX : ∀ sc', ∀ k < D.nParams, ∃ A, designFor s sc' (xs data) k = .ok A) :
    ∃ t, GState.update D M c data s = (.error .valueError, t) ∧ t.nObs = some (n + (ws data).sum) := by
  have hne : ¬ (data = [] ∨ p = 0) := by
    rintro (rfl | rfl)
    · simp at hlen
    · exact lt_irrefl _ hp
  obtain ⟨th, hth⟩ := hpred
  obtain ⟨forget0, hf0⟩ := Option.isSome_iff_exists.1 (hforget 0 hD)
  obtain ⟨nt, hnt⟩ : ∃ nt, trainingLengths D.nParams s.forget (n + (ws data).sum) = .ok nt := by
    unfold trainingLengths
    refine forParams_total fun k hk => ?_
    obtain ⟨f, hf⟩ := Option.isSome_iff_exists.1 (hforget k hk)
    rw [hf]
    exact ⟨_, rfl⟩
  obtain ⟨sc', hsc'⟩ : ∃ sc', sc.update forget0 (xs data) (ws data) = .ok sc' := by
    refine scaler_update_total _ _ _ _ ?_
    rw [xs, List.length_map]
    omega
  obtain ⟨X, hXX⟩ := forParams_total (hX sc')
  have hitem : item (D.ppf (5 / 1000) th) = .error .valueError := by
    have h4 : (D.ppf (5 / 1000) th).length = data.length :=
      (hppf _ _).trans ((predictParams_length hth).trans (by simp [xs]))
    unfold item
    split
    · rename_i heq
      rw [heq] at h4
      simp at h4
      omega
    · rfl
  unfold GState.update
  rw [Py.bind_raiseIf_neg (not_not.2 hc), Py.bind_raiseIf_neg hne, Py.bind_raiseIf_neg hin, Py.bind_self,
    Py.bind_attr_eq hn, Py.bind_set, Py.bind_call_eq hnt, Py.bind_set, Py.bind_self,
    Py.bind_call_eq ((predictParams_setNObs hn nt _ _).trans hth), Py.bind_set,
    Py.bind_attr_eq (show ((s.setNObs (some (n + (ws data).sum))).setNTraining nt).scaler = some sc from hs),
    Py.bind_attr_eq (show ((s.setNObs (some (n + (ws data).sum))).setNTraining nt).forget.get? 0 = some forget0 from hf0),
    Py.bind_call_eq hsc', Py.bind_set,
    Py.bind_call_eq (show (forParams D.nParams fun k => designFor ((s.setNObs (some (n + (ws data).sum))).setNTraining nt) sc' (xs data) k) = .ok X
      from hXX), Py.bind_set,
    Py.bind_of_error (e := .valueError) (s' := updateStart c (n + (ws data).sum) nt th sc' s)]
  · exact ⟨_, rfl, rfl⟩
  · unfold cautious
    rw [Py.bind_self, if_pos hcaut]
    refine Py.bind_of_error ?_
    exact congrArg (fun x => (x, updateStart c (n + (ws data).sum) nt th sc' s)) hitem

/-! ### C60: options given as dictionaries -/

/-- Dictionaries for `forget`, `method`, `fit_intercept`, `regularize_intercept` and `ic` are announced by the docstring
and understood by the estimator (`C60_dict_lookup`), but `fit` and `update` reject them before they look at the data. -/
theorem C60_dict_rejected_fails (frames : Bool) (D : DistOps) (M : MethodOps μ) (c : GConfig μ p) (data : List (Obs p))
    (s : GState μ p) (h : (∃ d, c.forget = .dict d) ∨ (∃ d, c.method = .dict d) ∨ (∃ d, c.fitIntercept = .dict d) ∨
      (∃ d, c.regularizeIntercept = .dict d) ∨ ∃ d, c.ic = .dict d) :
    GState.fit frames D M c data s = (.error .valueError, s) ∧ GState.update D M c data s = (.error .valueError, s) := by
  have hv : ¬ c.Valid := by
    rintro ⟨h1, h2, h3, h4, h5, _⟩
    rcases h with ⟨d, h⟩ | ⟨d, h⟩ | ⟨d, h⟩ | ⟨d, h⟩ | ⟨d, h⟩
    · rw [h] at h1; exact h1
    · rw [h] at h4; exact h4
    · rw [h] at h2; exact h2
    · rw [h] at h3; exact h3
    · rw [h] at h5; exact h5
  constructor
  · unfold GState.fit
    rw [Py.bind_raiseIf_pos hv]
  · unfold GState.update
    rw [Py.bind_raiseIf_pos hv]

/-! ### C35 and C38: what is counted, and `partial_fit` -/

/-- Number of observations and effective training lengths after one successful `fit`. -/
theorem fit_counters {frames : Bool} {D : DistOps} {M : MethodOps μ} {c : GConfig μ p} {data : List (Obs p)}
    {s t : GState μ p} {u : Unit} (h : GState.fit frames D M c data s = (.ok u, t)) :
    t.nObs = some (ws data).sum ∧ trainingLengths D.nParams t.forget (ws data).sum = .ok t.nTraining := by
  obtain ⟨r⟩ := fit_ok h
  have h1 := (outerFit_setup _ _ _).ok (SameSetup.refl _) r.hloop
  refine ⟨(congrArg GState.nObs r.ht).trans (h1.nObs.trans (fitStart_nObs ..)), ?_⟩
  have h2 := (congrArg GState.forget r.ht).trans (h1.forget.trans (fitStart_forget ..))
  have h3 := (congrArg GState.nTraining r.ht).trans (h1.nTraining.trans (fitStart_nTraining ..))
  rw [h2, h3]
  exact r.hnt

/-- The same after one successful `update`. -/
theorem update_counters {D : DistOps} {M : MethodOps μ} {c : GConfig μ p} {data : List (Obs p)}
    {s t : GState μ p} {u : Unit} (h : GState.update D M c data s = (.ok u, t)) :
    ∃ n, s.nObs = some n ∧ t.nObs = some (n + (ws data).sum) ∧ t.forget = s.forget ∧
      trainingLengths D.nParams t.forget (n + (ws data).sum) = .ok t.nTraining := by
  obtain ⟨r⟩ := update_ok h
  refine ⟨r.nObs0, r.hnObs0, ?_⟩
  have h1 := (outerUpdate_committed _ _ _).ok (SameCommitted.refl _) r.hloop
  have h2 := (congrArg GState.nObs r.ht).trans (h1.setup.nObs.trans
    ((r.proj GState.nObs (fun _ => rfl) fun _ _ => rfl).trans rfl))
  have h3 : t.forget = s.forget := (congrArg GState.forget r.ht).trans (h1.setup.forget.trans
    ((r.proj GState.forget (fun _ => rfl) fun _ _ => rfl).trans rfl))
  have h4 := (congrArg GState.nTraining r.ht).trans (h1.setup.nTraining.trans
    ((r.proj GState.nTraining (fun _ => rfl) fun _ _ => rfl).trans rfl))
  refine ⟨h2, h3, ?_⟩
  rw [h3, h4]
  exact r.hnt

/-- After `fit` and any number of updates the number of observations is the sum of all sample weights, and the training
length of every distribution parameter is the effective length for its forget factor. -/
theorem C35_gamlss_counters (frames : Bool) (D : DistOps) (M : MethodOps μ) (c c' : GConfig μ p) (init : List (Obs p))
    (batches : List (List (Obs p))) (s₀ s t : GState μ p) (hfit : GState.fit frames D M c init s₀ = (.ok (), s))
    (hup : GState.updates D M c' batches s = (.ok (), t)) :
    t.nObs = some ((init ++ batches.flatten).map Obs.w).sum ∧ t.forget = s.forget ∧
      ∀ k < D.nParams, ∃ f, t.forget.get? k = some f ∧ t.nTraining.get? k =
        some (if f = 0 then ((init ++ batches.flatten).map Obs.w).sum
          else (1 - (1 - f) ^ ((init ++ batches.flatten).map Obs.w).sum) / f) := by
  have key : t.nObs = some ((init ++ batches.flatten).map Obs.w).sum ∧ t.forget = s.forget ∧
      trainingLengths D.nParams t.forget ((init ++ batches.flatten).map Obs.w).sum = .ok t.nTraining := by
    obtain ⟨h1, h2⟩ := fit_counters hfit
    clear hfit
    induction batches generalizing s init with
    | nil =>
      obtain ⟨_, rfl⟩ := Py.pure_ok_iff.1 hup
      simpa [ws] using ⟨h1, h2⟩
    | cons b bs ih =>
      unfold GState.updates at hup
      obtain ⟨x, s', hu, hup⟩ := Py.bind_ok_iff.1 hup
      obtain ⟨n, e1, e2, e3, e4⟩ := update_counters hu
      rw [h1] at e1
      obtain rfl := Option.some.inj e1
      have hb : (ws init).sum + (ws b).sum = (ws (init ++ b)).sum := by simp [ws]
      rw [hb] at e2 e4
      have := ih (init ++ b) s' hup e2 e4
      rw [List.flatten_cons, ← List.append_assoc]
      exact ⟨this.1, this.2.1.trans e3, this.2.2⟩
  refine ⟨key.1, key.2.1, fun k hk => ?_⟩
  obtain ⟨a, h1, h2⟩ := forParams_mem key.2.2 hk
  cases hf : t.forget.get? k with
  | none => rw [hf] at h2; cases h2
  | some f =>
    rw [hf] at h2
    refine ⟨f, rfl, ?_⟩
    rw [h1, ← Except.ok.inj h2]
    rfl

/-- The first `partial_fit` is a `fit`, the following ones are updates. -/
theorem C38_gamlss_partial_fit (frames : Bool) (D : DistOps) (M : MethodOps μ) (c : GConfig μ p) (b : List (Obs p))
    (bs : List (List (Obs p))) (s : GState μ p) (h : GState.fit frames D M c b (GState.new μ p) = (.ok (), s)) :
    GState.partialFits frames D M c (b :: bs) (GState.new μ p) = GState.updates D M c bs s := by
  have h1 : GState.partialFit frames D M c b (GState.new μ p) = (.ok (), s) := by
    unfold GState.partialFit
    rw [Py.bind_self]
    exact h
  have key : ∀ (bs : List (List (Obs p))) (s : GState μ p), s.nObs.isSome →
      GState.partialFits frames D M c bs s = GState.updates D M c bs s := by
    intro bs
    induction bs with
    | nil => exact fun _ _ => rfl
    | cons b bs ih =>
      intro s hs
      unfold GState.partialFits GState.updates
      have hb : GState.partialFit frames D M c b s = GState.update D M c b s := by
        unfold GState.partialFit
        rw [Py.bind_self, if_pos (show s.isFitted = true from hs)]
      rcases hu : GState.update D M c b s with ⟨x, t⟩
      rw [hu] at hb
      cases x with
      | error e => rw [Py.bind_of_error hb, Py.bind_of_error hu]
      | ok u =>
        rw [Py.bind_of_ok hb, Py.bind_of_ok hu]
        obtain ⟨n, _, h2, _⟩ := update_counters hu
        exact ih t (by rw [h2]; rfl)
  unfold GState.partialFits
  rw [Py.bind_of_ok h1]
  exact key bs s (by rw [(fit_counters h).1]; rfl)

/-- **C38 fails.** An equation that does not fit the data (a mask of the wrong length, say) makes the first `partial_fit`
raise, as it should, but `is_fitted` holds afterwards: every later `partial_fit`, also with a corrected equation, is an
update and raises. -/
theorem C38_gamlss_is_fitted_fails (frames : Bool) (D : DistOps) (M : MethodOps μ) (c : GConfig μ p) (hc : c.Valid)
    (data : List (Obs p)) (hne : ¬ (data = [] ∨ p = 0)) (hin : ¬ OutOfSupport D (ys data)) (sP : GState μ p)
    (hprep : prepare frames D M c (GState.new μ p) = (.ok (), sP)) (hfo : ∀ k < D.nParams, (sP.forget.get? k).isSome)
    (fv : Fv) (hfv : D.initialValues (ys data) = .ok fv) (e : PyErr)
    (hJ : (forParams D.nParams fun k =>
      match sP.equation.get? k, sP.fitIntercept.get? k with
      | some eq, some fi => getJ p fi eq
      | _, _ => .error .keyError) = .error e) :
    ∃ s, GState.partialFit frames D M c data (GState.new μ p) = (.error e, s) ∧ s.isFitted = true ∧
      ∀ frames' c' data', ∃ e' t, GState.partialFit frames' D M c' data' s = (.error e', t) := by
  obtain ⟨nt, hnt⟩ : ∃ nt, trainingLengths D.nParams sP.forget (ws data).sum = .ok nt := by
    unfold trainingLengths
    refine forParams_total fun k hk => ?_
    obtain ⟨f, hf⟩ := Option.isSome_iff_exists.1 (hfo k hk)
    rw [hf]
    exact ⟨_, rfl⟩
  have hf : GState.fit frames D M c data (GState.new μ p) =
      (.error e, ((sP.setNObs (some (ws data).sum)).setNTraining nt).setFv fv) := by
    unfold GState.fit
    rw [Py.bind_raiseIf_neg (not_not.2 hc), Py.bind_of_ok hprep, Py.bind_raiseIf_neg hne, Py.bind_raiseIf_neg hin,
      Py.bind_set, Py.bind_self, Py.bind_call_eq (show trainingLengths D.nParams
        (sP.setNObs (some (ws data).sum)).forget (ws data).sum = .ok nt from hnt), Py.bind_set, Py.bind_call_eq hfv,
      Py.bind_set]
    refine Py.bind_of_error ?_
    exact congrArg (fun x => (x, _)) hJ
  have hsc : sP.scaler = none := by
    obtain ⟨r⟩ := prepare_ok hprep
    rw [r.ht]
    rfl
  refine ⟨((sP.setNObs (some (ws data).sum)).setNTraining nt).setFv fv, ?_, rfl, fun frames' c' data' => ?_⟩
  · unfold GState.partialFit
    rw [Py.bind_self]
    exact hf
  · rcases h : GState.partialFit frames' D M c' data'
      (((sP.setNObs (some (ws data).sum)).setNTraining nt).setFv fv) with ⟨x, t⟩
    cases x with
    | error e => exact ⟨e, t, rfl⟩
    | ok u =>
      exfalso
      unfold GState.partialFit at h
      rw [Py.bind_self, if_pos (show GState.isFitted (((sP.setNObs (some (ws data).sum)).setNTraining nt).setFv fv) = true
        from rfl)] at h
      obtain ⟨q⟩ := update_ok h
      have h2 : sP.scaler = some q.sc0 := q.hsc0
      rw [hsc] at h2
      cases h2

end Ondil
