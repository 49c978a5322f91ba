import Verif.Lemmas.GamlssNormal
import Verif.Spec.GamlssNormal
import Verif.Props.StartMoments
import Verif.Props.Scaler
import Verif.Lemmas.LinearModelOls

/-!
# `fit` of a normal distributional regression: from the options to the outer loop
-/

open scoped BigOperators

namespace Ondil

variable {p : ℕ}

namespace NormalOptions

variable {frames : Bool} {c : GConfig MethodState p} {f : ℝ} {sel : List (Fin p)}

theorem forget_mem (h : NormalOptions frames c f sel) : 0 ≤ f ∧ f < 1 := by
  have := h.valid.1
  rw [h.forget] at this
  exact this

theorem good (h : NormalOptions frames c f sel) (hu : c.prefitUpdate ≤ c.maxOuter) {D : DistOps} (hD : D.nParams = 2) :
    GoodOptions frames D c .ols true (fun k => if k = 0 then 1 + sel.length else 1) where
  valid := h.valid
  method := h.method
  intercept := h.intercept
  columns := by
    rw [hD]
    intro k hk
    rcases (by omega : k = 0 ∨ k = 1) with rfl | rfl
    · exact ⟨h.location.1, h.location.2.1, fun _ => rfl, sel, h.location.2.2, by simp⟩
    · rw [h.scale]
      exact ⟨by simp [Equation.accepted], by simp, fun _ => rfl, [], .intercept, by simp⟩
  order := by
    intro o ho
    rw [h.order] at ho
    cases ho
  minIt := h.minIt
  prefit := ⟨h.prefit, hu⟩

end NormalOptions

/-- The standardised rows as the estimator computes them. -/
theorem transformFlt_standardise {t : ToScale p} {f : ℝ} (hf : f < 1) {data : List (Obs p)} (h2 : 2 ≤ data.length)
    (hw : PosWeights data) (hv : Varies t f data) : ∃ sc, Scaler.fit t f (xs data) (ws data) = .ok sc ∧
      sc.transformFlt (xs data) = data.map fun o j => .fin (standardise t f data o.x j) := by
  have hne : data ≠ [] := by rintro rfl; simp at h2
  have hlen : ¬ (xs data).length < 2 := by simp only [xs, List.length_map]; omega
  unfold Scaler.fit
  cases ht : t.selection with
  | none =>
    simp only
    rw [if_neg hlen]
    refine ⟨_, rfl, ?_⟩
    unfold Scaler.transformFlt xs
    rw [List.map_map]
    refine List.map_congr_left fun o _ => ?_
    rw [standardise_off ht]
    rfl
  | some l =>
    simp only
    rw [scalerFit_eq l.get f data h2 (C12_totalWeight_pos hf data hne hw).ne']
    refine ⟨_, rfl, ?_⟩
    unfold Scaler.transformFlt xs
    simp only
    rw [List.map_map]
    refine List.map_congr_left fun o _ => ?_
    funext j
    change transformRowFlt l.get (canonScaler l.get f data) o.x j = _
    unfold transformRowFlt standardise
    rcases sel_cases l.get j with ⟨i, rfl⟩ | hj
    · have hs : t.Selects (l.get i) := (selects_iff ..).2 ⟨l, ht, List.get_mem ..⟩
      rw [assignCols_of_mem _ _ _ _ (fun i' hi' => by simp only [canonScaler, hi']), if_pos hs]
      have := hv _ hs
      simp only [canonScaler]
      rw [Flt.sqrt, if_pos this.le, Flt.div, if_neg (Real.sqrt_pos.2 this).ne']
    · rw [assignCols_of_notMem _ _ _ _ hj, if_neg]
      rw [selects_iff]
      rintro ⟨l', hl', hm⟩
      rw [ht] at hl'
      cases hl'
      obtain ⟨i, rfl⟩ := List.get_of_mem hm
      exact hj i rfl

theorem ofVec_cons {q : ℕ} (a : ℝ) (v : Row q) : ofVec (Fin.cons a v : Row (q + 1)) = .fin a :: ofVec v := by
  unfold ofVec
  rw [List.finRange_succ, List.map_cons, List.map_map]
  rfl

theorem ofVec_get (sel : List (Fin p)) (z : Row p) :
    ofVec (fun i => z (sel.get i)) = sel.map fun j => Flt.fin (z j) := by
  unfold ofVec
  refine List.ext_getElem (by simp) fun i h1 h2 => ?_
  simp

section

variable {tiny ulp : ℝ} {so : ScipyOracles} {e : Elsewhere} {perm : ∀ J : ℕ, ℕ → ℕ → List (Fin J)}
  {other : MethodOps MethodState}

/-- The two designs. -/
theorem normal_designs {frames : Bool} {c : GConfig MethodState p} {f : ℝ} {sel : List (Fin p)}
    (h : NormalOptions frames c f sel) {data : List (Obs p)} {sc : Scaler p}
    (hsc : sc.transformFlt (xs data) = data.map fun o j => .fin (standardise c.scaleInputs f data o.x j))
    {s : GState MethodState p} (he : ∀ k < 2, s.equation.get? k = some (c.equationFor k))
    (hi : ∀ k < 2, s.fitIntercept.get? k = some true) :
    designFor s sc (xs data) 0 = .ok ((xs (locationObs c.scaleInputs f sel data)).map ofVec) ∧
    designFor s sc (xs data) 1 = .ok ((locationObs c.scaleInputs f sel data).map fun _ => ofVec fun _ : Fin 1 => (1 : ℝ)) := by
  unfold designFor
  constructor
  · rw [he 0 (by norm_num), hi 0 (by norm_num)]
    simp only
    rw [C62_built _ _ _ sel h.location.2.2 (fun _ => rfl), hsc]
    refine congrArg Except.ok ?_
    unfold locationObs xs
    simp only [List.map_map]
    refine List.map_congr_left fun o _ => ?_
    simp only [Function.comp_apply, if_true, List.singleton_append]
    rw [ofVec_cons, ofVec_get]
  · rw [he 1 (by norm_num), hi 1 (by norm_num), h.scale]
    simp only
    rw [C62_built _ _ _ [] .intercept (fun _ => rfl), hsc]
    refine congrArg Except.ok ?_
    unfold locationObs
    simp only [List.map_map]
    refine List.map_congr_left fun o _ => ?_
    simp [ofVec]

/-- The state `_prepare_estimator` leaves. -/
structure NormalPrepared (c : GConfig MethodState p) (f : ℝ) (s : GState MethodState p) : Prop where
  equation : ∀ k < 2, s.equation.get? k = some (c.equationFor k)
  method : ∀ k < 2, s.method k = some .ols
  forget : ∀ k < 2, s.forget.get? k = some f
  fitIntercept : ∀ k < 2, s.fitIntercept.get? k = some true
  regularizeIntercept : ∃ v, ∀ k < 2, s.regularizeIntercept.get? k = some v
  steps : ∀ k < 2, s.stepSize.values[k]? = some 1
  order : s.paramOrder = [0, 1]

theorem normal_prepare {frames : Bool} {c : GConfig MethodState p} {f : ℝ} {sel : List (Fin p)}
    (h : NormalOptions frames c f sel) {D : DistOps} (hD : D.nParams = 2) {M : MethodOps MethodState} :
    Py.Total (fun _ : GState MethodState p => True) (prepare frames D M c) (fun _ s => NormalPrepared c f s) := by
  obtain ⟨_, _, hri, _, hic, _⟩ := h.valid
  obtain ⟨ri, hr, _⟩ := hri.exists
  obtain ⟨ic, hi, hia⟩ := hic.exists
  obtain ⟨eq, heq, heq'⟩ := processEquation_ok (frames := frames) (n := D.nParams) (c := c) fun k hk => by
    rw [hD] at hk
    rcases (by omega : k = 0 ∨ k = 1) with rfl | rfl
    · exact h.location.1
    · rw [h.scale]
      simp [Equation.accepted]
  obtain ⟨ms, hms, hms'⟩ := process_value_ok D.nParams (some MethodState.ols) (.value (some M.ols))
  obtain ⟨fo, hfo, hfo'⟩ := process_value_ok D.nParams f (.value 0)
  obtain ⟨ics, hics, hics'⟩ := process_value_ok D.nParams ic (.value .aic)
  obtain ⟨fis, hfis, hfis'⟩ := process_value_ok D.nParams true (.value true)
  obtain ⟨ris, hris, hris'⟩ := process_value_ok D.nParams ri (.value false)
  have hst : ((OptArg.value (1 : ℝ)).process D.nParams (.value 1)).result = .ok (PyDict.ofRange D.nParams fun _ => 1) := rfl
  unfold prepare
  rw [h.method, h.forget, hi, h.intercept, hr, h.step, h.order]
  refine Py.Total.of_state fun s _ => ?_
  refine Py.Total.bind_call heq (Py.Total.bind_set_eq (Py.Total.bind_call hms (Py.Total.bind_raiseIf ?_
    (Py.Total.bind_set_eq (Py.Total.bind_call hfo (Py.Total.bind_set_eq (Py.Total.bind_call hics (Py.Total.bind_set_eq
    (Py.Total.bind_call hfis (Py.Total.bind_set_eq (Py.Total.bind_call hris (Py.Total.bind_set_eq (Py.Total.bind_call hst
    (Py.Total.bind_set_eq (Py.Total.bind_raiseIf ?_ (Py.Total.bind_set_eq (Py.Total.set ?_)))))))))))))))))
  · rintro ⟨k, hk, h⟩
    rw [hms' k hk] at h
    cases h
  · rintro ⟨o, ho, _⟩
    cases ho
  · rintro _ rfl
    rw [hD] at *
    refine ⟨heq', fun k hk => ?_, hfo', hfis', ⟨ri, hris'⟩, fun k hk => ?_, ?_⟩
    · change (ms.get? k).bind id = some MethodState.ols
      rw [hms' k hk]
      rfl
    · change (PyDict.ofRange 2 fun _ => (1 : ℝ)).values[k]? = some 1
      rcases (by omega : k = 0 ∨ k = 1) with rfl | rfl <;> rfl
    · rfl

/-- The starting values of the normal distribution. -/
theorem normal_start {data : List (Obs p)} (h2 : 2 ≤ data.length) {q : ℕ} (x : Obs p → Row q) :
    ∃ fv, (normalOps tiny ulp so e).initialValues (ys data) = .ok fv ∧
      FvAt (data.map fun o => (⟨x o, o.y, o.w⟩ : Obs q)) (fun _ => Dist.mean (ys data)) (Dist.std 1 (ys data)) fv := by
  refine ⟨_, rfl, ?_⟩
  have hl : 1 < (ys data).length := by simp only [ys, List.length_map]; omega
  have hne : ys data ≠ [] := by intro h; rw [h] at hl; simp at hl
  have hs : Dist.npStd 1 ((ys data).map Flt.fin) = .fin (Dist.std 1 (ys data)) := by
    have h0 : 0 ≤ Dist.ssd (ys data) := by
      unfold Dist.ssd
      exact List.sum_nonneg fun a ha => by
        obtain ⟨v, _, rfl⟩ := List.mem_map.1 ha
        positivity
    unfold Dist.npStd Dist.std
    rw [Dist.npVar_fin 1 hne hl, Flt.sqrt, if_pos (by positivity)]
  unfold FvAt Dist.initialValues
  rw [List.map_map]
  conv => rhs; unfold ys
  rw [List.map_map, List.forall₂_map_left_iff, List.forall₂_map_right_iff]
  refine List.forall₂_same.2 fun o _ => ?_
  simp only [Function.comp_apply, Dist.initialRow, rowFn]
  exact ⟨Dist.npMean_fin hne, hs⟩

/-- The fit, for data whose first working values give the coefficients `b`. -/
theorem normal_fit {frames : Bool} {c : GConfig MethodState p} {f : ℝ} {sel : List (Fin p)}
    (h : NormalOptions frames c f sel) (hp : p ≠ 0) {data : List (Obs p)} (h2 : 2 ≤ data.length) (hw : PosWeights data)
    (hv : Varies c.scaleInputs f data) (hr : FullRank (locationObs c.scaleInputs f sel data)) (ht : tiny ≤ scaleMin)
    {σ : ℝ} (hσ0 : σ = Dist.std 1 (ys data)) (hσ : ScaleOk σ) {b : Row (sel.length + 1)}
    (hb : locBeta f σ (fun _ => Dist.mean (ys data)) (locationObs c.scaleInputs f sel data) = b)
    (hacc : ((0 < c.prefitInitial ∨ c.maxInner = 1) ∧ c.maxOuter = 1) ∨
      LocFixed f (locationObs c.scaleInputs f sel data) b ∧
      ∀ fv fv', FvAt (locationObs c.scaleInputs f sel data) (fun _ => Dist.mean (ys data)) σ fv →
        FvAt (locationObs c.scaleInputs f sel data) (fun o => linPred o.x b) σ fv' →
        ¬ Flt.lt (deviance (normalOps tiny ulp so e) (ys data) (ws data) fv)
          (deviance (normalOps tiny ulp so e) (ys data) (ws data) fv')) :
    Py.Total (fun _ : GState MethodState p => True)
      (GState.fit frames (normalOps tiny ulp so e) (packageMethods perm other) c data)
      (fun _ s => s.coef 0 = some (ofVec b)) := by
  have hne : data ≠ [] := by rintro rfl; simp at h2
  have hD : (normalOps tiny ulp so e).nParams = 2 := rfl
  obtain ⟨hf0, hf1⟩ := h.forget_mem
  subst hσ0
  have hys : ys (locationObs c.scaleInputs f sel data) = ys data := by simp [ys, locationObs, Function.comp_def]
  have hws : ws (locationObs c.scaleInputs f sel data) = ws data := by simp [ws, locationObs, Function.comp_def]
  unfold GState.fit
  refine Py.Total.bind_raiseIf (fun hn => hn h.valid) (Py.Total.bind (normal_prepare h hD) fun _ => ?_)
  refine Py.Total.bind_raiseIf (by simp [hne, hp]) (Py.Total.bind_raiseIf ?_ ?_)
  · rintro (⟨v, _, hv⟩ | ⟨v, _, hv⟩)
    · exact absurd hv not_lt_bot
    · exact absurd hv not_top_lt
  rw [hD]
  refine Py.Total.of_state fun s hs => ?_
  obtain ⟨ri, hri⟩ := hs.regularizeIntercept
  obtain ⟨nt, hnt, _⟩ := forParams_ok (n := 2) (f := fun k =>
    match s.forget.get? k with
    | some f => .ok (effectiveTrainingLength f (ws data).sum)
    | none => .error .keyError) (Q := fun _ _ => True) (fun k hk => by
      rw [hs.forget k hk]
      exact ⟨_, rfl, trivial⟩)
  obtain ⟨fv, hfv, hfvl⟩ := normal_start (tiny := tiny) (ulp := ulp) (so := so) (e := e) h2
    (fun o => (Fin.cons 1 fun i => standardise c.scaleInputs f data o.x (sel.get i) : Row (sel.length + 1)))
  obtain ⟨nf, hnf, hnf'⟩ := forParams_ok (n := 2) (f := fun k =>
    match s.equation.get? k, s.fitIntercept.get? k with
    | some eq, some fi => getJ p fi eq
    | _, _ => .error .keyError) (Q := fun _ _ => True) (fun k hk => by
      rw [hs.equation k hk, hs.fitIntercept k hk]
      rcases (by omega : k = 0 ∨ k = 1) with rfl | rfl
      · exact ⟨_, getJ_ok h.location.2.2 h.location.2.1 fun _ => rfl, trivial⟩
      · rw [h.scale]
        exact ⟨_, getJ_ok .intercept (by simp) fun _ => rfl, trivial⟩)
  obtain ⟨sc, hsc, hsc'⟩ := transformFlt_standardise hf1 h2 hw hv
  obtain ⟨hX0, hX1⟩ := normal_designs h hsc' hs.equation hs.fitIntercept
  obtain ⟨X, hX, hX'⟩ := forParams_ok (n := 2) (f := fun k => designFor s sc (xs data) k)
    (Q := fun k A => .ok A = designFor s sc (xs data) k) (fun k hk => by
      rcases (by omega : k = 0 ∨ k = 1) with rfl | rfl
      · exact ⟨_, hX0, hX0.symm⟩
      · exact ⟨_, hX1, hX1.symm⟩)
  obtain ⟨reg, hreg, hreg'⟩ := forParams_ok (n := 2) (f := fun k =>
    match nf.get? k, s.fitIntercept.get? k, s.regularizeIntercept.get? k, s.equation.get? k with
    | some J, some fi, some ri, some eq => .ok (regularizedFlags J fi ri eq)
    | _, _, _, _ => .error .keyError) (Q := fun _ _ => True) (fun k hk => by
      obtain ⟨j, hj, _⟩ := hnf' k hk
      rw [hj, hs.equation k hk, hs.fitIntercept k hk, hri k hk]
      exact ⟨_, rfl, trivial⟩)
  have hc : NormalCall tiny ulp so e perm other
      (⟨normalOps tiny ulp so e, packageMethods perm other, c, X.get?, ys data, ws data⟩ : Call MethodState p)
      (locationObs c.scaleInputs f sel data) := by
    refine ⟨rfl, rfl, hys.symm, hws.symm, ?_, ?_, h.cond, ?_, ?_, hr, ht⟩
    · obtain ⟨A, hA, hA'⟩ := hX' 0 (by norm_num)
      rw [hX0] at hA'
      cases hA'
      exact hA
    · obtain ⟨A, hA, hA'⟩ := hX' 1 (by norm_num)
      rw [hX1] at hA'
      cases hA'
      exact hA
    · simpa [locationObs] using hne
    · intro o ho
      obtain ⟨o', ho', rfl⟩ := List.mem_map.1 ho
      exact hw o' ho'
  obtain ⟨_, _, _, _, _, hmo, hmi, _⟩ := h.valid
  have hstart : NormalStart f c.maxInner (locationObs c.scaleInputs f sel data) (fun _ => Dist.mean (ys data))
      (Dist.std 1 (ys data)) (fitStart c 2 (ws data).sum nt fv nf sc reg s) := by
    refine ⟨⟨?_, ?_, ?_, ?_, ?_, ?_, ?_, ?_⟩, ?_⟩
    · rw [fitStart_method]
      exact hs.method
    · rw [fitStart_forget]
      exact hs.forget
    · rw [fitStart_isRegularized]
      intro k hk
      obtain ⟨r, hr, _⟩ := hreg' k hk
      exact ⟨r, hr⟩
    · rw [fitStart_stepSize]
      exact hs.steps
    · intro i
      change 1 ≤ (if i < c.prefitInitial then 1 else c.maxInner) ∧ (if i < c.prefitInitial then 1 else c.maxInner) ≤ c.maxInner
      split <;> omega
    · exact fun _ _ => rfl
    · intro o i k v hv
      cases hv
    · rw [fitStart_paramOrder]
      exact hs.order
    · rw [fitStart_fv]
      exact hfvl
  have hmin : (1 ≤ (fitStart c 2 (ws data).sum nt fv nf sc reg s).minIt) ∧
      (fitStart c 2 (ws data).sum nt fv nf sc reg s).minIt ≤ c.maxOuter := by
    change (1 ≤ if 0 < c.prefitInitial then c.prefitInitial else c.minItOuter) ∧
      (if 0 < c.prefitInitial then c.prefitInitial else c.minItOuter) ≤ c.maxOuter
    have := h.minIt
    have := h.prefit
    split <;> omega
  have hsch : (0 < c.prefitInitial ∨ c.maxInner = 1) →
      (fitStart c 2 (ws data).sum nt fv nf sc reg s).scheduleIteration 0 = 1 := by
    intro hh
    change (if 0 < c.prefitInitial then 1 else c.maxInner) = 1
    split
    · rfl
    · rcases hh with hh | hh
      · contradiction
      · exact hh
  refine Py.Total.bind_set_eq (Py.Total.bind_self_eq ?_)
  refine Py.Total.bind_call hnt (Py.Total.bind_set_eq (Py.Total.bind_call hfv (Py.Total.bind_set_eq (Py.Total.bind_call hnf
    (Py.Total.bind_set_eq (Py.Total.bind_attr (hs.forget 0 (by norm_num)) (Py.Total.bind_call hsc (Py.Total.bind_set_eq
    (Py.Total.bind_call hX (Py.Total.bind_call hreg (Py.Total.bind_set_eq (Py.Total.bind_self_eq ?_))))))))))))
  change Py.Total (fun t => t = fitStart c 2 (ws data).sum nt fv nf sc reg s)
    (outerFit ⟨normalOps tiny ulp so e, packageMethods perm other, c, X.get?, ys data, ws data⟩
      (c.fuel (fitStart c 2 (ws data).sum nt fv nf sc reg s).minIt) >>= fun r => (do
        let r ← Py.attr r .notImplemented
        Py.set (GState.setResult r.1 r.2))) _
  generalize fitStart c 2 (ws data).sum nt fv nf sc reg s = S0 at *
  refine Py.Total.bind (normal_outerFit hc hf1 hσ hb hstart hmin.1 hmin.2 (c.fuel S0.minIt) ?_ ?_) fun r => ?_
  · change c.maxOuter < max _ c.maxOuter + 2
    omega
  · rcases hacc with hh | hh
    · exact .inl ⟨hsch hh.1, hh.2⟩
    · exact .inr hh
  · refine Py.Total.of_state ?_
    rintro t ⟨⟨d, i, rfl⟩, hcoef⟩
    refine Py.Total.bind_attr rfl (Py.Total.set ?_)
    rintro t rfl
    exact hcoef.coef

end

end Ondil
