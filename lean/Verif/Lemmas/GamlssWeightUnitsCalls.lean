import Verif.Lemmas.GamlssWeightUnits
import Verif.Lemmas.GamlssOls

/-!
# The unit of the sample weights in whole calls of the distributional regression
-/

namespace Ondil

variable {μ : Type} {p : ℕ} {k : ℝ} {ok : μ → Prop}

/-! ### Least squares -/

theorem getD_map_of {α β : Type} (f : α → β) (l : List α) (n : ℕ) (d : α) : (l.map f).getD n (f d) = f (l.getD n d) := by
  rw [List.getD_eq_getElem?_getD, List.getD_eq_getElem?_getD, List.getElem?_map]
  cases l[n]? <;> rfl

theorem real_times (k : ℝ) (v : Flt) : (Flt.times k v).real? = v.real?.map (k * ·) := by
  cases v <;> rfl

theorem mapM_map_comm {α β γ δ : Type} {f : α → Option β} {g : γ → Option δ} {a : α → γ} {b : β → δ}
    (h : ∀ x, g (a x) = (f x).map b) (l : List α) : (l.map a).mapM g = (l.mapM f).map (List.map b) := by
  induction l with
  | nil => rfl
  | cons x l ih =>
    rw [List.map_cons, List.mapM_cons, List.mapM_cons, h, ih]
    cases f x with
    | none => rfl
    | some y => cases l.mapM f <;> rfl

theorem mapM_real_times (k : ℝ) (a : Arr1) : (scaleCross k a).mapM Flt.real? = (a.mapM Flt.real?).map (List.map (k * ·)) :=
  mapM_map_comm (real_times k) a

theorem vec_times (J : ℕ) (k : ℝ) (a : Arr1) : vec? J (a.map (Flt.times k)) = (vec? J a).map (k • ·) := by
  unfold vec?
  rw [List.length_map]
  split_ifs
  · rw [show (a.map (Flt.times k)).mapM Flt.real? = _ from mapM_real_times k a]
    cases a.mapM Flt.real? with
    | none => rfl
    | some r =>
      simp only [Option.map_some, Option.some.injEq]
      funext j
      have := getD_map_of (k * ·) r j.1 0
      rw [mul_zero] at this
      exact this
  · rfl

theorem mat_times (J : ℕ) (k : ℝ) (G : Arr2) : mat? J (scaleGram k G) = (mat? J G).map (k⁻¹ • ·) := by
  unfold mat? scaleGram
  rw [List.length_map]
  split_ifs
  · rw [mapM_map_comm (vec_times J k⁻¹) G]
    cases G.mapM (vec? J) with
    | none => rfl
    | some r =>
      refine congrArg some ?_
      funext i j
      have := getD_map_of (fun v : Row J => k⁻¹ • v) r i.1 0
      rw [smul_zero] at this
      exact congrFun this j
  · rfl

theorem ofVec_times {J : ℕ} (k : ℝ) (v : Row J) : ofVec (k • v) = (ofVec v).map (Flt.times k) := by
  simp [ofVec, Flt.times]

theorem ofMat_times {J : ℕ} (k : ℝ) (G : Matrix (Fin J) (Fin J) ℝ) : ofMat (k⁻¹ • G) = scaleGram k (ofMat G) := by
  unfold ofMat scaleGram
  rw [List.map_map]
  exact List.map_congr_left fun i _ => ofVec_times k⁻¹ (G i)

theorem ofMat_except {J : ℕ} (k : ℝ) (r : Except PyErr (Matrix (Fin J) (Fin J) ℝ)) :
    (r.map (k⁻¹ • ·)).map ofMat = (r.map ofMat).map (scaleGram k) := by
  cases r with
  | error e => rfl
  | ok G => exact congrArg Except.ok (ofMat_times k G)

variable {perm : ∀ J : ℕ, ℕ → ℕ → List (Fin J)} {other : MethodOps MethodState}

theorem fitBeta_other {G : Arr2} {J : ℕ} (h : G.length = J) {y : Arr1} (hn : mat? J G = none ∨ vec? J y = none) (reg : List Bool) :
    (packageMethods perm other).fitBeta .ols G y reg = other.fitBeta .ols G y reg := by
  subst h
  simp only [packageMethods]
  cases h1 : mat? G.length G with
  | none => rfl
  | some Gr =>
    cases h2 : vec? G.length y with
    | none => rfl
    | some hr => simp [h1, h2] at hn

theorem updateBeta_other {G : Arr2} {J : ℕ} (h : G.length = J) {y : Arr1} (hn : mat? J G = none ∨ vec? J y = none) (b : Arr1) (reg : List Bool) :
    (packageMethods perm other).updateBeta .ols G y b reg = other.updateBeta .ols G y b reg := by
  subst h
  simp only [packageMethods]
  cases h1 : mat? G.length G with
  | none => rfl
  | some Gr =>
    cases h2 : vec? G.length y with
    | none => rfl
    | some hr => simp [h1, h2] at hn

theorem updateBeta_finite {G : Arr2} {J : ℕ} (h : G.length = J) {y : Arr1} {Gr : Matrix (Fin J) (Fin J) ℝ} {yr : Row J}
    (hG : mat? J G = some Gr) (hy : vec? J y = some yr) (b : Arr1) (reg : List Bool) :
    (packageMethods perm other).updateBeta .ols G y b reg = .ok (ofVec (olsBeta Gr yr), .ols) := by
  subst h
  simp only [packageMethods, hG, hy]

/-- Least squares of the package, when arrays that are not finite are treated alike in all units of the weights. -/
theorem ols_weightFree (hk : 0 < k) (perm : ∀ J : ℕ, ℕ → ℕ → List (Fin J)) {other : MethodOps MethodState}
    (ho : WeightFreeMethods k (· = .ols) other) : WeightFreeMethods k (· = .ols) (packageMethods perm other) where
  notPath := by rintro _ rfl; rfl
  initX := by
    rintro _ X w f rfl
    simp only [packageMethods, mapM_real_times]
    cases X.mapM (vec? (width X)) with
    | none => exact ho.initX _ X w f rfl
    | some Xr =>
      cases w.mapM Flt.real? with
      | none => exact ho.initX _ X w f rfl
      | some wr =>
        change ((initInvertedGram Xr (wr.map (k * ·)) f).map ofMat) = ((initInvertedGram Xr wr f).map ofMat).map (scaleGram k)
        rw [initInvertedGram_weights hk, ofMat_except]
  initY := by
    rintro _ X y w f rfl
    simp only [packageMethods, mapM_real_times]
    cases X.mapM (vec? (width X)) with
    | none => exact ho.initY _ X y w f rfl
    | some Xr =>
      cases y.mapM Flt.real? with
      | none => exact ho.initY _ X y w f rfl
      | some yr =>
        cases w.mapM Flt.real? with
        | none => exact ho.initY _ X y w f rfl
        | some wr =>
          change Except.ok (ofVec (initYGram Xr yr (wr.map (k * ·)) f)) = Except.ok (scaleCross k (ofVec (initYGram Xr yr wr f)))
          rw [initYGram_weights hk.le, ofVec_times]
          rfl
  updateX := by
    rintro _ G X w f rfl
    simp only [packageMethods, mapM_real_times, mat_times]
    cases mat? (width X) G with
    | none => exact ho.updateX _ G X w f rfl
    | some Gr =>
      cases X.mapM (vec? (width X)) with
      | none => exact ho.updateX _ G X w f rfl
      | some Xr =>
        cases w.mapM Flt.real? with
        | none => exact ho.updateX _ G X w f rfl
        | some wr =>
          change ((updateInvertedGram (k⁻¹ • Gr) Xr f (.array (wr.map (k * ·)))).map ofMat) =
            ((updateInvertedGram Gr Xr f (.array wr)).map ofMat).map (scaleGram k)
          rw [updateInvertedGram_weights hk.ne', ofMat_except]
  updateY := by
    rintro _ h X y w f rfl
    simp only [packageMethods, mapM_real_times]
    rw [show vec? (width X) (scaleCross k h) = _ from vec_times (width X) k h]
    cases vec? (width X) h with
    | none => exact ho.updateY _ h X y w f rfl
    | some hr =>
      cases X.mapM (vec? (width X)) with
      | none => exact ho.updateY _ h X y w f rfl
      | some Xr =>
        cases y.mapM Flt.real? with
        | none => exact ho.updateY _ h X y w f rfl
        | some yr =>
          cases w.mapM Flt.real? with
          | none => exact ho.updateY _ h X y w f rfl
          | some wr =>
            change Except.ok (ofVec (updateYGram (k • hr) Xr yr f (.array (wr.map (k * ·))))) =
              Except.ok (scaleCross k (ofVec (updateYGram hr Xr yr f (.array wr))))
            rw [updateYGram_weights hk.le, ofVec_times]
            rfl
  fitBeta := by
    rintro _ G h reg rfl
    have hl : (scaleGram k G).length = G.length := by simp [scaleGram]
    have hm := mat_times G.length k G
    have hv : vec? G.length (scaleCross k h) = _ := vec_times G.length k h
    cases h1 : mat? G.length G with
    | none =>
      rw [h1] at hm
      rw [fitBeta_other hl (.inl hm) reg, fitBeta_other rfl (.inl h1) reg]
      exact ho.fitBeta _ G h reg rfl
    | some Gr =>
      cases h2 : vec? G.length h with
      | none =>
        rw [h2] at hv
        rw [fitBeta_other hl (.inr hv) reg, fitBeta_other rfl (.inr h2) reg]
        exact ho.fitBeta _ G h reg rfl
      | some hr =>
        rw [h1] at hm
        rw [h2] at hv
        rw [fitBeta_width hl hm hv reg, fitBeta_width rfl h1 h2 reg, olsBeta_weights hk.ne']
  fitOk := by
    rintro _ G h reg r rfl hr
    simp only [packageMethods] at hr
    cases hG : mat? G.length G with
    | none =>
      rw [hG] at hr
      exact ho.fitOk _ G h reg r rfl hr
    | some Gr =>
      cases hh : vec? G.length h with
      | none =>
        rw [hG, hh] at hr
        exact ho.fitOk _ G h reg r rfl hr
      | some hr' =>
        rw [hG, hh] at hr
        cases hr
        rfl
  updateBeta := by
    rintro _ G h b reg rfl
    have hl : (scaleGram k G).length = G.length := by simp [scaleGram]
    have hm := mat_times G.length k G
    have hv : vec? G.length (scaleCross k h) = _ := vec_times G.length k h
    cases h1 : mat? G.length G with
    | none =>
      rw [h1] at hm
      rw [updateBeta_other hl (.inl hm) b reg, updateBeta_other rfl (.inl h1) b reg]
      exact ho.updateBeta _ G h b reg rfl
    | some Gr =>
      cases h2 : vec? G.length h with
      | none =>
        rw [h2] at hv
        rw [updateBeta_other hl (.inr hv) b reg, updateBeta_other rfl (.inr h2) b reg]
        exact ho.updateBeta _ G h b reg rfl
      | some hr =>
        rw [h1] at hm
        rw [h2] at hv
        rw [updateBeta_finite hl hm hv b reg, updateBeta_finite rfl h1 h2 b reg, olsBeta_weights hk.ne']
  updateOk := by
    rintro _ G h b reg r rfl hr
    simp only [packageMethods] at hr
    cases hG : mat? G.length G with
    | none =>
      rw [hG] at hr
      exact ho.updateOk _ G h b reg r rfl hr
    | some Gr =>
      cases hh : vec? G.length h with
      | none =>
        rw [hG, hh] at hr
        exact ho.updateOk _ G h b reg r rfl hr
      | some hr' =>
        rw [hG, hh] at hr
        cases hr
        rfl

/-! ### `fit` -/

theorem inUnit_valid (hk : 0 < k) (c : GConfig μ p) : (c.inUnit k).Valid ↔ c.Valid := by
  unfold GConfig.Valid
  change _ ∧ _ ∧ _ ∧ _ ∧ _ ∧ _ ∧ _ ∧ 0 ≤ k * c.absTolOuter ∧ 0 ≤ k * c.absTolInner ∧ _ ↔ _
  rw [mul_nonneg_iff_of_pos_left hk, mul_nonneg_iff_of_pos_left hk]
  rfl

/-- All methods are admitted. -/
def MethodsOk (ok : μ → Prop) (s : GState μ p) : Prop := ∀ j m, s.method j = some m → ok m

theorem Agrees.of_new {v : FreeParts} {s s' : GState μ p} (hv : v.Agrees s) (h : s'.nObs = s.nObs ∧ s'.nTraining = s.nTraining ∧ s'.sumW = s.sumW ∧
    s'.meanW = s.meanW ∧ s'.sumWNew = s.sumWNew ∧ s'.meanWNew = s.meanWNew) : v.Agrees s' :=
  Agrees.same hv h.1 h.2.1 h.2.2.1 h.2.2.2.1 h.2.2.2.2.1 h.2.2.2.2.2

/-- The relation before the first attributes that depend on the weights are set. -/
def StartWeights (k : ℝ) (ok : μ → Prop) (s t : GState μ p) : Prop := Reweighed k s t ∧ MethodsOk ok s

theorem StartWeights.set {s t : GState μ p} (h : StartWeights k ok s t) (f : GState μ p → GState μ p)
    (hf : ∀ v, f (s.reweigh k v) = (f s).reweigh k v)
    (ha : (f s).nObs = s.nObs ∧ (f s).nTraining = s.nTraining ∧ (f s).sumW = s.sumW ∧
      (f s).meanW = s.meanW ∧ (f s).sumWNew = s.sumWNew ∧ (f s).meanWNew = s.meanWNew) (hm : (f s).method = s.method) :
    StartWeights k ok (f s) (f t) :=
  ⟨h.1.set f hf fun _ hv => Agrees.of_new hv ha, by unfold MethodsOk; rw [hm]; exact h.2⟩

theorem prepare_weights (frames : Bool) (D : DistOps) (M : MethodOps μ) (c : GConfig μ p)
    (hok : ∀ d, (c.method.process D.nParams (.value (some M.ols))).result = .ok d → ∀ j m, (d.get? j).bind id = some m → ok m) :
    Py.Sim (Reweighed k) (StartWeights k ok) Eq (prepare frames D M c) (prepare frames D M (c.inUnit k)) := by
  unfold prepare
  refine Py.Sim.bind (Py.sim_call (BothRel.of_eq rfl)) fun eq _ hm => ?_
  subst hm
  refine Py.Sim.bind (Py.sim_set fun s t h => h.set (GState.setEquation eq) (fun _ => rfl)
    fun _ hv => Agrees.of_new hv ⟨rfl, rfl, rfl, rfl, rfl, rfl⟩) fun _ _ _ => ?_
  refine Py.Sim.bind (Py.sim_call (bothRel_self hok)) fun ms _ hm => ?_
  obtain ⟨rfl, hms⟩ := hm
  refine Py.Sim.bind (Py.sim_raiseIf Iff.rfl _) fun _ _ _ => ?_
  refine Py.Sim.bind (R' := StartWeights k ok) (Py.sim_set fun s t h => ⟨h.set (GState.setMethod fun j => (ms.get? j).bind id)
    (fun _ => rfl) fun _ hv => Agrees.of_new hv ⟨rfl, rfl, rfl, rfl, rfl, rfl⟩, hms⟩) fun _ _ _ => ?_
  refine Py.Sim.bind (Py.sim_call (BothRel.of_eq rfl)) fun fo _ hm => ?_
  subst hm
  refine Py.Sim.bind (Py.sim_set fun s t h => h.set (GState.setForget fo) (fun _ => rfl) ⟨rfl, rfl, rfl, rfl, rfl, rfl⟩ rfl) fun _ _ _ => ?_
  refine Py.Sim.bind (Py.sim_call (BothRel.of_eq rfl)) fun ic _ hm => ?_
  subst hm
  refine Py.Sim.bind (Py.sim_set fun s t h => h.set (GState.setIc ic) (fun _ => rfl) ⟨rfl, rfl, rfl, rfl, rfl, rfl⟩ rfl) fun _ _ _ => ?_
  refine Py.Sim.bind (Py.sim_call (BothRel.of_eq rfl)) fun fi _ hm => ?_
  subst hm
  refine Py.Sim.bind (Py.sim_set fun s t h => h.set (GState.setFitIntercept fi) (fun _ => rfl) ⟨rfl, rfl, rfl, rfl, rfl, rfl⟩ rfl) fun _ _ _ => ?_
  refine Py.Sim.bind (Py.sim_call (BothRel.of_eq rfl)) fun ri _ hm => ?_
  subst hm
  refine Py.Sim.bind (Py.sim_set fun s t h => h.set (GState.setRegularizeIntercept ri) (fun _ => rfl) ⟨rfl, rfl, rfl, rfl, rfl, rfl⟩ rfl)
    fun _ _ _ => ?_
  refine Py.Sim.bind (Py.sim_call (BothRel.of_eq rfl)) fun st _ hm => ?_
  subst hm
  refine Py.Sim.bind (Py.sim_set fun s t h => h.set (GState.setStepSize st) (fun _ => rfl) ⟨rfl, rfl, rfl, rfl, rfl, rfl⟩ rfl) fun _ _ _ => ?_
  refine Py.Sim.bind (Py.sim_raiseIf Iff.rfl _) fun _ _ _ => ?_
  refine Py.Sim.bind (Py.sim_set fun s t h => h.set (GState.setParamOrder (c.paramOrder.getD (List.range D.nParams))) (fun _ => rfl)
    ⟨rfl, rfl, rfl, rfl, rfl, rfl⟩ rfl) fun _ _ _ => ?_
  exact Py.sim_set fun s t h => h.set (GState.setScaler none) (fun _ => rfl) ⟨rfl, rfl, rfl, rfl, rfl, rfl⟩ rfl

theorem trainingLengths_weights (n : ℕ) (forget : PyDict ℝ) (a b : ℝ) :
    BothRel (fun d d' : PyDict ℝ => ∀ j, (d'.get? j).isSome = (d.get? j).isSome) (trainingLengths n forget a) (trainingLengths n forget b) := by
  refine BothRel.mono (forParams_rel (Q := fun _ _ => True) n fun j => ?_) fun d d' h j => ?_
  · cases forget.get? j with
    | none => exact .inl ⟨_, rfl, rfl⟩
    | some f => exact .inr ⟨_, _, rfl, rfl, trivial⟩
  · rcases h j with ⟨h1, h2⟩ | ⟨x, y, h1, h2, _⟩ <;> rw [h1, h2] <;> rfl

theorem transformFlt_scaleW (k : ℝ) (sc : Scaler p) (X : List (Row p)) : (sc.scaleW k).transformFlt X = sc.transformFlt X := by
  cases sc <;> rfl

theorem designFor_weights (k : ℝ) (v : FreeParts) (s : GState μ p) (sc : Scaler p) (X : List (Row p)) (j : ℕ) :
    designFor (s.reweigh k v) (sc.scaleW k) X j = designFor s sc X j := by
  unfold designFor
  rw [transformFlt_scaleW]
  rfl

set_option maxHeartbeats 1000000 in
theorem fit_weights (hk : 0 < k) (frames : Bool) (D : DistOps) (M : MethodOps μ) (c : GConfig μ p) (hM : WeightFreeMethods k ok M)
    (hok : ∀ d, (c.method.process D.nParams (.value (some M.ols))).result = .ok d → ∀ j m, (d.get? j).bind id = some m → ok m)
    (hmin : 1 ≤ c.minItOuter) (data : List (Obs p)) :
    Py.Sim (Reweighed k) (WeightRel k ok) Eq (GState.fit frames D M c data)
      (GState.fit frames D M (c.inUnit k) (data.map (Obs.scaleW k))) := by
  unfold GState.fit
  rw [ys_scaleW, ws_scaleW, xs_scaleW, list_sum_scale]
  refine Py.Sim.bind (Py.sim_raiseIf (not_congr (inUnit_valid hk c).symm) _) fun _ _ _ => ?_
  refine Py.Sim.bind (prepare_weights frames D M c hok) fun _ _ _ => ?_
  refine Py.Sim.bind (Py.sim_raiseIf (by simp) _) fun _ _ _ => ?_
  refine Py.Sim.bind (Py.sim_raiseIf Iff.rfl _) fun _ _ _ => ?_
  refine Py.Sim.bind (R' := StartWeights k ok) (Py.sim_set fun s t h => ?_) fun _ _ _ => ?_
  · obtain ⟨⟨v, hv, rfl⟩, h2⟩ := h
    exact ⟨⟨{ v with nObs := some (k * (ws data).sum) }, ⟨rfl, hv.2, hv.3, hv.4, hv.5, hv.6⟩, rfl⟩, h2⟩
  refine Py.Sim.bind_self fun s t hR => ?_
  obtain ⟨⟨v, hv, rfl⟩, _⟩ := hR
  refine Py.Sim.bind (Py.sim_call (trainingLengths_weights D.nParams s.forget _ _)) fun nt nt' hnt => ?_
  refine Py.Sim.bind (R' := StartWeights k ok) (Py.sim_set fun s t h => ?_) fun _ _ _ => ?_
  · obtain ⟨⟨v, hv, rfl⟩, h2⟩ := h
    exact ⟨⟨{ v with nTraining := nt' }, ⟨hv.1, hnt, hv.3, hv.4, hv.5, hv.6⟩, rfl⟩, h2⟩
  refine Py.Sim.bind (Py.sim_call (BothRel.of_eq rfl)) fun fv _ hm => ?_
  subst hm
  refine Py.Sim.bind (Py.sim_set fun s t h => h.set (GState.setFv fv) (fun _ => rfl) ⟨rfl, rfl, rfl, rfl, rfl, rfl⟩ rfl) fun _ _ _ => ?_
  refine Py.Sim.bind (Py.sim_call (BothRel.of_eq rfl)) fun nf _ hm => ?_
  subst hm
  refine Py.Sim.bind (Py.sim_set fun s t h => h.set (GState.setNFeatures nf) (fun _ => rfl) ⟨rfl, rfl, rfl, rfl, rfl, rfl⟩ rfl) fun _ _ _ => ?_
  refine Py.Sim.bind (Py.sim_attr rfl _) fun f0 _ hm => ?_
  subst hm
  refine Py.Sim.bind (sim_call_map (Scaler.fit_weights hk.ne' c.scaleInputs f0 (xs data) (ws data))) fun sc _ hm => ?_
  obtain ⟨rfl, _⟩ := hm
  refine Py.Sim.bind (R' := StartWeights k ok) (Py.sim_set fun s t h => ?_) fun _ _ _ => ?_
  · obtain ⟨⟨v, hv, rfl⟩, h2⟩ := h
    exact ⟨⟨v, ⟨hv.1, hv.2, hv.3, hv.4, hv.5, hv.6⟩, rfl⟩, h2⟩
  simp only [designFor_weights]
  refine Py.Sim.bind (Py.sim_call (BothRel.of_eq rfl)) fun X _ hm => ?_
  subst hm
  refine Py.Sim.bind (Py.sim_call (BothRel.of_eq rfl)) fun reg _ hm => ?_
  subst hm
  refine Py.Sim.bind (R' := WeightRel k ok) (Py.sim_set fun s t h => ?_) fun _ _ _ => ?_
  · obtain ⟨⟨v, hv, rfl⟩, h2⟩ := h
    refine ⟨⟨{ v with sumW := fun _ => none, meanW := fun _ => none, rss := fun _ => .fin 0 },
      ⟨hv.1, hv.2, fun _ => rfl, fun _ => rfl, hv.5, hv.6⟩, rfl⟩, h2, ?_⟩
    change 1 ≤ if 0 < c.prefitInitial then c.prefitInitial else c.minItOuter
    split_ifs with h
    · exact h
    · exact hmin
  refine Py.Sim.bind_self fun s t hR => ?_
  obtain ⟨⟨v, hv, rfl⟩, _⟩ := hR
  refine Py.Sim.bind (outerFit_weights hk ⟨D, M, c, X.get?, ys data, ws data⟩ hM _) fun r _ hm => ?_
  refine Py.Sim.bind (sim_attr_map hm _) fun r _ hm => ?_
  subst hm
  refine Py.sim_set fun s t h => ?_
  obtain ⟨⟨v, hv, rfl⟩, h2, h3⟩ := h
  exact ⟨⟨v, ⟨hv.1, hv.2, hv.3, hv.4, hv.5, hv.6⟩, rfl⟩, h2, h3⟩

/-! ### `update` -/

theorem predict_weights {D : DistOps} {s : GState μ p} {v : FreeParts} (hv : v.Agrees s) (X : List (Row p)) (what : What) :
    predictParams D (s.reweigh k v) X what = predictParams D s X what := by
  have : linearPredictors D (s.reweigh k v) X = linearPredictors D s X := by
    have hn := hv.nObs
    have hn' : (s.reweigh k v).nObs = v.nObs := rfl
    have hs : (s.reweigh k v).scaler = s.scaler.map (Scaler.scaleW k) := rfl
    unfold linearPredictors
    rw [hn', hs]
    cases h1 : s.nObs with
    | none =>
      rw [h1] at hn
      rw [show v.nObs = none by cases h : v.nObs <;> simp_all]
    | some n =>
      rw [h1] at hn
      obtain ⟨n', h2⟩ := Option.isSome_iff_exists.1 hn
      rw [h2]
      cases X with
      | nil => rfl
      | cons x X =>
        cases s.scaler with
        | none => rfl
        | some sc =>
          simp only [Option.map_some, designFor_weights]
          rfl
  unfold predictParams
  rw [this]

theorem cautious_weights {D : DistOps} {c : GConfig μ p} (hmin : 1 ≤ c.minItOuter) (y : List ℝ) :
    Py.Sim (WeightRel k ok) (WeightRel k ok) Eq (cautious D c y) (cautious D (c.inUnit k) y) := by
  unfold cautious
  refine Py.Sim.bind_self fun s t hR => ?_
  obtain ⟨⟨v, hv, rfl⟩, _⟩ := hR
  change Py.Sim _ _ _ _ (if c.cautiousUpdates = true then _ else _)
  cases c.cautiousUpdates with
  | false => exact Py.sim_pure rfl
  | true =>
    rw [if_pos rfl, if_pos rfl]
    refine Py.Sim.bind (Py.sim_call (BothRel.of_eq rfl)) fun lo _ hm => ?_
    subst hm
    refine Py.Sim.bind (Py.sim_call (BothRel.of_eq rfl)) fun hi _ hm => ?_
    subst hm
    split_ifs
    · refine Py.sim_set fun s t h => ?_
      obtain ⟨⟨v, hv, rfl⟩, h2, h3⟩ := h
      exact ⟨⟨v, ⟨hv.1, hv.2, hv.3, hv.4, hv.5, hv.6⟩, rfl⟩, h2, by change 1 ≤ 4; omega⟩
    · refine Py.sim_set fun s t h => ?_
      obtain ⟨⟨v, hv, rfl⟩, h2, h3⟩ := h
      exact ⟨⟨v, ⟨hv.1, hv.2, hv.3, hv.4, hv.5, hv.6⟩, rfl⟩, h2, hmin⟩

set_option maxHeartbeats 1000000 in
theorem update_weights (hk : 0 < k) (D : DistOps) (M : MethodOps μ) (c : GConfig μ p) (hM : WeightFreeMethods k ok M)
    (hmin : 1 ≤ c.minItOuter) (data : List (Obs p)) :
    Py.Sim (WeightRel k ok) (WeightRel k ok) Eq (GState.update D M c data)
      (GState.update D M (c.inUnit k) (data.map (Obs.scaleW k))) := by
  unfold GState.update
  rw [ys_scaleW, ws_scaleW, xs_scaleW, list_sum_scale]
  refine Py.Sim.bind (Py.sim_raiseIf (not_congr (inUnit_valid hk c).symm) _) fun _ _ _ => ?_
  refine Py.Sim.bind (Py.sim_raiseIf (by simp) _) fun _ _ _ => ?_
  refine Py.Sim.bind (Py.sim_raiseIf Iff.rfl _) fun _ _ _ => ?_
  refine Py.Sim.bind_self fun s t hR => ?_
  obtain ⟨⟨v, hv, rfl⟩, _⟩ := hR
  refine Py.Sim.bind (sim_attr_some hv.nObs _) fun n0 n0' _ => ?_
  refine Py.Sim.bind (R' := WeightRel k ok) (Py.sim_set fun s t h => ?_) fun _ _ _ => ?_
  · obtain ⟨⟨v, hv, rfl⟩, h2⟩ := h
    exact ⟨⟨{ v with nObs := some (n0' + k * (ws data).sum) }, ⟨rfl, hv.2, hv.3, hv.4, hv.5, hv.6⟩, rfl⟩, h2⟩
  refine Py.Sim.bind (Py.sim_call (trainingLengths_weights D.nParams s.forget _ _)) fun nt nt' hnt => ?_
  refine Py.Sim.bind (R' := WeightRel k ok) (Py.sim_set fun s t h => ?_) fun _ _ _ => ?_
  · obtain ⟨⟨v, hv, rfl⟩, h2⟩ := h
    exact ⟨⟨{ v with nTraining := nt' }, ⟨hv.1, hnt, hv.3, hv.4, hv.5, hv.6⟩, rfl⟩, h2⟩
  refine Py.Sim.bind_self fun s t hR => ?_
  obtain ⟨⟨v, hv, rfl⟩, _⟩ := hR
  refine Py.Sim.bind (Py.sim_call (BothRel.of_eq (predict_weights hv _ _).symm)) fun fv _ hm => ?_
  subst hm
  refine Py.Sim.bind (Py.sim_set fun s t h => h.set (GState.setFv fv) (fun _ => rfl)
    (fun v hv => ⟨hv.1, hv.2, hv.3, hv.4, hv.5, hv.6⟩) rfl rfl) fun _ _ _ => ?_
  refine Py.Sim.bind (sim_attr_map (g := Scaler.scaleW k) rfl _) fun sc0 _ hm => ?_
  subst hm
  refine Py.Sim.bind (Py.sim_attr rfl _) fun f0 _ hm => ?_
  subst hm
  refine Py.Sim.bind (sim_call_map (Scaler.update_weights hk.ne' f0 (xs data) (ws data) sc0)) fun sc _ hm => ?_
  obtain ⟨rfl, _⟩ := hm
  refine Py.Sim.bind (R' := WeightRel k ok) (Py.sim_set fun s t h => ?_) fun _ _ _ => ?_
  · obtain ⟨⟨v, hv, rfl⟩, h2⟩ := h
    exact ⟨⟨v, ⟨hv.1, hv.2, hv.3, hv.4, hv.5, hv.6⟩, rfl⟩, h2⟩
  simp only [designFor_weights]
  refine Py.Sim.bind (Py.sim_call (BothRel.of_eq rfl)) fun X _ hm => ?_
  subst hm
  refine Py.Sim.bind (R' := WeightRel k ok) (Py.sim_set fun s t h => ?_) fun _ _ _ => ?_
  · obtain ⟨⟨v, hv, rfl⟩, h2, h3⟩ := h
    refine ⟨⟨{ v with sumWNew := v.sumW, meanWNew := v.meanW, rssOld := v.rss },
      ⟨hv.1, hv.2, hv.3, hv.4, hv.3, hv.4⟩, rfl⟩, h2, ?_⟩
    change 1 ≤ if 0 < c.prefitUpdate then c.prefitUpdate else s.minIt
    split_ifs with h
    · exact h
    · exact h3
  refine Py.Sim.bind (cautious_weights hmin _) fun _ _ _ => ?_
  refine Py.Sim.bind_self fun s t hR => ?_
  obtain ⟨⟨v, hv, rfl⟩, _⟩ := hR
  refine Py.Sim.bind (outerUpdate_weights hk ⟨D, M, c, X.get?, ys data, ws data⟩ hM _) fun r _ hm => ?_
  refine Py.Sim.bind (sim_attr_map hm _) fun r _ hm => ?_
  subst hm
  refine Py.Sim.bind (R' := WeightRel k ok) (Py.sim_set fun s t h => ?_) fun _ _ _ => ?_
  · obtain ⟨⟨v, hv, rfl⟩, h2, h3⟩ := h
    exact ⟨⟨v, ⟨hv.1, hv.2, hv.3, hv.4, hv.5, hv.6⟩, rfl⟩, h2, h3⟩
  · refine Py.sim_set fun s t h => ?_
    obtain ⟨⟨v, hv, rfl⟩, h2, h3⟩ := h
    exact ⟨⟨{ v with sumW := v.sumWNew, meanW := v.meanWNew }, ⟨hv.1, hv.2, hv.5, hv.6, hv.5, hv.6⟩, rfl⟩, h2, h3⟩

theorem updates_weights (hk : 0 < k) (D : DistOps) (M : MethodOps μ) (c : GConfig μ p) (hM : WeightFreeMethods k ok M)
    (hmin : 1 ≤ c.minItOuter) (bs : List (List (Obs p))) :
    Py.Sim (WeightRel k ok) (WeightRel k ok) Eq (GState.updates D M c bs)
      (GState.updates D M (c.inUnit k) (bs.map fun b => b.map (Obs.scaleW k))) := by
  induction bs with
  | nil => exact Py.sim_pure rfl
  | cons b bs ih =>
    rw [List.map_cons]
    unfold GState.updates
    exact Py.Sim.bind (update_weights hk D M c hM hmin b) fun _ _ _ => ih

/-- A new estimator is the same in all units. -/
theorem new_reweighed (k : ℝ) : Reweighed k (GState.new μ p) (GState.new μ p) :=
  ⟨⟨none, [], fun _ => none, fun _ => none, fun _ => none, fun _ => none, fun _ => .fin 0, fun _ => .fin 0⟩,
    ⟨rfl, fun _ => rfl, fun _ => rfl, fun _ => rfl, fun _ => rfl, fun _ => rfl⟩, rfl⟩

end Ondil
