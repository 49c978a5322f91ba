import Verif.Lemmas.GamlssRowsUpdate
import Verif.Lemmas.GamlssCalls

/-!
# The order of the rows in whole calls of the distributional regression
-/

namespace Ondil

variable {μ : Type} {p : ℕ} {data data' : List (Obs p)} {K : GramKind μ}

/-! ### Predictions along the two orders -/

theorem along_choose {cols cols' : List (List Flt)} (h : AlongAll data data' cols cols') :
    ∃ fs : List (Obs p → Flt), cols = fs.map (fun f => data.map f) ∧ cols' = fs.map (fun f => data'.map f) := by
  induction h with
  | nil => exact ⟨[], rfl, rfl⟩
  | cons h1 _ ih =>
    obtain ⟨f, rfl, rfl⟩ := h1
    obtain ⟨fs, rfl, rfl⟩ := ih
    exact ⟨f :: fs, rfl, rfl⟩

theorem stack_maps (fs : List (Obs p → Flt)) (l : List (Obs p)) :
    Fv.stack l.length (fs.map fun f => l.map f) = l.map fun o k => (fs.getD k fun _ => .nan) o := by
  unfold Fv.stack
  refine List.ext_getElem (by simp) fun i h1 h2 => ?_
  simp only [List.length_map, List.length_range] at h1
  simp only [List.getElem_map, List.getElem_range]
  funext k
  by_cases hk : k < fs.length
  · simp [List.getD_eq_getElem?_getD, hk, h1]
  · simp [List.getD_eq_getElem?_getD, hk]

theorem stack_along (hp : data.Perm data') {cols cols' : List (List Flt)} (h : AlongAll data data' cols cols') :
    Along data data' (Fv.stack (xs data).length cols) (Fv.stack (xs data').length cols') := by
  obtain ⟨fs, rfl, rfl⟩ := along_choose h
  have e1 : (xs data).length = data.length := by simp [xs]
  have e2 : (xs data').length = data'.length := by simp [xs]
  rw [e1, e2, stack_maps, stack_maps]
  exact along_map _

theorem zip_forall₂ {α β γ : Type} {P : α → β → Prop} {a : List α} {b : List β} (h : List.Forall₂ P a b) (l : List γ) :
    List.Forall₂ (fun x y => P x.1 y.1 ∧ x.2 = y.2) (a.zip l) (b.zip l) := by
  induction h generalizing l with
  | nil => exact List.Forall₂.nil
  | cons h1 _ ih =>
    cases l with
    | nil => exact List.Forall₂.nil
    | cons c l => exact List.Forall₂.cons ⟨h1, rfl⟩ (ih l)

theorem predict_along {D : DistOps} (hD : RowwiseDist D data data') (hp : data.Perm data') (hne : data ≠ []) {s t : GState μ p}
    (h : SameButRows s t) :
    BothRel (Along data data') (predictParams D s (xs data) .response) (predictParams D t (xs data') .response) := by
  obtain ⟨v, rfl⟩ := h
  have hne' : data' ≠ [] := fun h0 => hne (by subst h0; exact List.perm_nil.1 hp)
  unfold predictParams
  refine BothRel.bind (Q := AlongAll data data') ?_ fun etas etas' he => ?_
  · unfold linearPredictors
    change BothRel _ _ (match s.nObs, xs data', s.scaler with
      | none, _, _ => .error .notFitted
      | some _, [], _ => .error .valueError
      | some _, _ :: _, none => .error .notFitted
      | some _, x :: X, some sc => _)
    cases s.nObs with
    | none => exact .inl ⟨_, rfl, rfl⟩
    | some n =>
      obtain ⟨o, l, rfl⟩ := List.exists_cons_of_ne_nil hne
      obtain ⟨o', l', rfl⟩ := List.exists_cons_of_ne_nil hne'
      cases hs : s.scaler with
      | none => exact .inl ⟨_, rfl, rfl⟩
      | some sc =>
        refine mapM_forall₂ (P := Eq) (List.forall₂_same.2 fun _ _ => rfl) fun k _ hk => ?_
        subst hk
        refine BothRel.bind (designFor_along hp rfl rfl sc k) fun A A' hA => ?_
        change BothRel _ _ (match s.coef k with
          | none => Except.error PyErr.attributeError
          | some b => matVec A' b)
        cases s.coef k with
        | none => exact .inl ⟨_, rfl, rfl⟩
        | some b => exact hA.matVec hp b
  · refine BothRel.bind (Q := AlongAll data data') (mapM_forall₂ (zip_forall₂ he _) ?_) fun cols cols' hc => ?_
    · rintro ⟨x, k⟩ ⟨y, _⟩ ⟨hxy, rfl⟩
      exact hD.linkInverse k _ _ hxy
    · exact BothRel.ok (stack_along hp hc)

theorem item_perm {a a' : Arr1} (h : a.Perm a') : item a = item a' := by
  match a, a' with
  | [], a' => rw [List.nil_perm.1 h]
  | [v], a' => rw [List.singleton_perm.1 h]
  | x :: y :: l, a' =>
    have := h.length_eq
    match a' with
    | [] => simp at this
    | [z] => simp at this
    | z :: z' :: l' => rfl

theorem cautious_along {D : DistOps} {c : GConfig μ p} (hD : RowwiseDist D data data') (hp : data.Perm data') :
    Py.Sim (UpdRel K data data') (UpdRel K data data') Eq (cautious D c (ys data)) (cautious D c (ys data')) := by
  unfold cautious
  refine Py.Sim.bind_self fun s t hR => ?_
  obtain ⟨⟨⟨v, rfl, hfv⟩, h0, hgi⟩, hnn', hg⟩ := hR
  have hfv' : Along data data' s.fv (s.setRows v).fv := hfv
  cases c.cautiousUpdates with
  | false => exact Py.sim_pure rfl
  | true =>
    rw [if_pos rfl, if_pos rfl]
    refine Py.Sim.bind (Py.sim_call (BothRel.of_eq (item_perm ((hD.ppf _ _ _ hfv').perm hp)))) fun lo _ hm => ?_
    subst hm
    refine Py.Sim.bind (Py.sim_call (BothRel.of_eq (item_perm ((hD.ppf _ _ _ hfv').perm hp)))) fun hi _ hm => ?_
    subst hm
    have hy : ∀ v, v ∈ ys data ↔ v ∈ ys data' := fun v => (hp.map _).mem_iff
    have e : ((∃ v ∈ ys data, Flt.lt (.fin v) lo) ∨ ∃ v ∈ ys data, Flt.lt hi (.fin v)) ↔
        ((∃ v ∈ ys data', Flt.lt (.fin v) lo) ∨ ∃ v ∈ ys data', Flt.lt hi (.fin v)) := by simp only [hy]
    by_cases h : (∃ v ∈ ys data, Flt.lt (.fin v) lo) ∨ ∃ v ∈ ys data, Flt.lt hi (.fin v)
    · rw [if_pos h, if_pos (e.1 h)]
      exact Py.sim_set fun s t h => h.set GState.outlierSchedule (fun _ => rfl) rfl rfl rfl rfl rfl rfl
    · rw [if_neg h, if_neg (mt e.2 h)]
      exact Py.sim_set fun s t h => h.set (GState.setMinIt c.minItOuter) (fun _ => rfl) rfl rfl rfl rfl rfl rfl

/-- What an estimator holds between calls when nothing is forgotten. -/
structure RowsInv (K : GramKind μ) (c : GConfig μ p) (s : GState μ p) : Prop where
  forget : ∀ k f, s.forget.get? k = some f → f = 0
  gram : RowGramInv K s
  nObs : ∀ n, s.nObs = some n → 0 < n
  scaler : ∀ sc, s.scaler = some sc → ∃ h : List (Obs p), (c.scaleInputs.selection = none ∨ 0 < totalWeight 0 h) ∧
    sc = canonSc c.scaleInputs 0 h

set_option maxHeartbeats 1000000 in
/-- An update with two orders of the same observations. -/
theorem update_rows_sim (D : DistOps) (M : MethodOps μ) (c : GConfig μ p) (hp : data.Perm data') (hD : RowwiseDist D data data')
    (hM : RowwiseUpdates K M data data') (hw : NonnegWeights data) (hcv : NonnegCurvature K D data) :
    Py.Sim (fun s t => SameButRows s t ∧ RowsInv K c s) (fun s t => RowsRel K data data' s t ∧ ∀ n, s.nObs = some n → 0 < n) Eq
      (GState.update D M c data) (GState.update D M c data') := by
  unfold GState.update
  have hws : (ws data).sum = (ws data').sum := sum_perm hp _
  have hws0 : 0 ≤ (ws data).sum := List.sum_nonneg fun v hv => by
    obtain ⟨o, ho, rfl⟩ := List.mem_map.1 hv
    exact hw o ho
  have hw' : NonnegWeights data' := fun o ho => hw o (hp.mem_iff.2 ho)
  rw [← hws]
  refine Py.Sim.bind (Py.sim_raiseIf Iff.rfl _) fun _ _ _ => ?_
  by_cases hne : data = []
  · subst hne
    rw [List.nil_perm.1 hp]
    intro s t _
    exact .inl ⟨.valueError, s, t, Py.bind_of_error (by simp [Py.raiseIf]), Py.bind_of_error (by simp [Py.raiseIf])⟩
  have hne' : data' ≠ [] := fun h0 => hne (by subst h0; exact List.perm_nil.1 hp)
  refine Py.Sim.bind (Py.sim_raiseIf (by rw [nil_or_perm hp]) _) fun _ _ _ => ?_
  refine Py.Sim.bind (Py.sim_raiseIf (outOfSupport_perm D hp) _) fun _ _ _ => ?_
  refine Py.Sim.bind_self fun s t hR => ?_
  obtain ⟨⟨v, rfl⟩, inv⟩ := hR
  refine Py.Sim.bind (Q := fun a b => a = b ∧ s.nObs = some a) (Py.sim_attr_rel ?_ _) fun n0 _ hm => ?_
  · rcases hn : s.nObs with _ | n
    · exact .inl ⟨rfl, hn⟩
    · exact .inr ⟨n, n, rfl, hn, rfl, rfl⟩
  obtain ⟨rfl, hn0⟩ := hm
  have hn : 0 < n0 + (ws data).sum := by
    have := inv.nObs n0 hn0
    linarith
  have set : ∀ (f : GState μ p → GState μ p), (∀ s v, f (s.setRows v) = (f s).setRows v) → (∀ s, (f s).forget = s.forget) →
      (∀ s, (f s).method = s.method) → (∀ s, (f s).xGram = s.xGram) → (∀ s, (f s).scaler = s.scaler) →
      (∀ s, (∀ n, s.nObs = some n → 0 < n) → ∀ n, (f s).nObs = some n → 0 < n) →
      Py.Sim (fun s t => SameButRows s t ∧ RowsInv K c s) (fun s t => SameButRows s t ∧ RowsInv K c s) Eq (Py.set f) (Py.set f) := by
    intro f h1 h2 h3 h4 h5 h6
    refine Py.sim_set fun s t h => ⟨h.1.set f (h1 s), by rw [h2]; exact h.2.forget, ⟨by rw [h3]; exact h.2.gram.kind, by rw [h4]; exact h.2.gram.gram⟩,
      h6 s h.2.nObs, by rw [h5]; exact h.2.scaler⟩
  refine Py.Sim.bind (set (GState.setNObs (some (n0 + (ws data).sum))) (fun _ _ => rfl) (fun _ => rfl) (fun _ => rfl) (fun _ => rfl)
    (fun _ => rfl) fun _ _ n h => by
      have : n0 + (ws data).sum = n := Option.some.inj h
      rw [← this]
      exact hn) fun _ _ _ => ?_
  refine Py.Sim.bind (Py.sim_call (BothRel.of_eq rfl)) fun nt _ hm => ?_
  subst hm
  refine Py.Sim.bind (set (GState.setNTraining nt) (fun _ _ => rfl) (fun _ => rfl) (fun _ => rfl) (fun _ => rfl) (fun _ => rfl)
    fun _ h => h) fun _ _ _ => ?_
  refine Py.Sim.bind_self fun s t hR => ?_
  have hR' := hR
  obtain ⟨⟨v, rfl⟩, inv⟩ := hR
  refine Py.Sim.bind (Py.sim_call (predict_along hD hp hne hR'.1)) fun fv fv' hfv => ?_
  refine Py.Sim.bind (R' := fun s t => RowsRel K data data' s t ∧ ∀ n, s.nObs = some n → 0 < n) (Py.sim_set fun s t h => ?_) fun _ _ _ => ?_
  · obtain ⟨⟨v, rfl⟩, inv⟩ := h
    exact ⟨⟨⟨⟨fv', v.debugWeights, v.debugWorking, v.debugEta, v.debugFv⟩, rfl, hfv⟩, inv.forget, inv.gram.kind, inv.gram.gram⟩, inv.nObs⟩
  refine Py.Sim.bind (Q := fun a b => a = b ∧ s.scaler = some a) (Py.sim_attr_rel ?_ _) fun sc0 _ hm => ?_
  · rcases hn : s.scaler with _ | n
    · exact .inl ⟨rfl, hn⟩
    · exact .inr ⟨n, n, rfl, hn, rfl, rfl⟩
  obtain ⟨rfl, hsc0⟩ := hm
  refine Py.Sim.bind (Q := fun a b => a = 0 ∧ b = 0) (Py.sim_attr_rel ?_ _) fun f f' hf => ?_
  · rcases hf : s.forget.get? 0 with _ | f
    · exact .inl ⟨rfl, hf⟩
    · exact .inr ⟨f, f, rfl, hf, inv.forget 0 f hf, inv.forget 0 f hf⟩
  obtain ⟨rfl, rfl⟩ := hf
  obtain ⟨g, hW, rfl⟩ := inv.scaler sc0 hsc0
  have e2 : (canonSc c.scaleInputs 0 g).update 0 (xs data) (ws data) = (canonSc c.scaleInputs 0 g).update 0 (xs data') (ws data') := by
    rw [scaler_update_canon _ one_pos _ _ hne hw hW, scaler_update_canon _ one_pos _ _ hne' hw' hW, canonSc_perm _ (hp.append_left g)]
  refine Py.Sim.bind (Py.sim_call (BothRel.of_eq e2)) fun sc _ hm => ?_
  subst hm
  refine Py.Sim.bind (R' := fun s t => RowsRel K data data' s t ∧ ∀ n, s.nObs = some n → 0 < n)
    (Py.sim_set fun s t h => ⟨h.1.set (GState.setScaler (some sc)) (fun _ => rfl) rfl rfl rfl rfl, h.2⟩) fun _ _ _ => ?_
  refine Py.Sim.bind (Py.sim_call (forParams_rel D.nParams fun k => designFor_along hp rfl rfl sc k)) fun X X' hX => ?_
  refine Py.Sim.bind (R' := UpdRel K data data') (Py.sim_set fun s t h => ?_) fun _ _ _ => ?_
  · obtain ⟨⟨⟨v, rfl, hfv⟩, h2, h3, h4⟩, hn⟩ := h
    exact ⟨⟨⟨⟨v.fv, if c.debug then fun _ => none else v.debugWeights, if c.debug then fun _ => none else v.debugWorking,
      if c.debug then fun _ => none else v.debugEta, if c.debug then fun _ => none else v.debugFv⟩, rfl, hfv⟩, h2, h3, h4⟩, hn, h4⟩
  refine Py.Sim.bind (cautious_along hD hp) fun _ _ _ => ?_
  refine Py.Sim.bind_self fun s t hR => ?_
  obtain ⟨⟨⟨v, rfl, hfv⟩, hs0⟩, _⟩ := hR
  refine Py.Sim.bind (outerUpdate_along (c := ⟨D, M, c, X.get?, ys data, ws data⟩) (c' := ⟨D, M, c, X'.get?, ys data', ws data'⟩) hD hM hp
    ⟨rfl, rfl, rfl, rfl, rfl, rfl, rfl, hX⟩ (fun _ _ => hw) hcv _) fun r _ hm => ?_
  subst hm
  refine Py.Sim.bind (Py.sim_attr rfl _) fun r _ hm => ?_
  subst hm
  refine Py.Sim.bind (Py.sim_set fun s t h => h.set (GState.setResult r.1 r.2) (fun _ => rfl) rfl rfl rfl rfl rfl rfl) fun _ _ _ => ?_
  refine Py.sim_set fun s t h => ?_
  obtain ⟨⟨⟨v, rfl, hfv⟩, h2, h3, h4⟩, hn, hg⟩ := h
  exact ⟨⟨⟨v, rfl, hfv⟩, h2, h3, hg⟩, hn⟩

/-- An update keeps the invariant. -/
theorem update_rows (D : DistOps) (M : MethodOps μ) (c : GConfig μ p) (hp : data.Perm data') (hD : RowwiseDist D data data')
    (hM : RowwiseUpdates K M data data') (hw : NonnegWeights data) (hcv : NonnegCurvature K D data) :
    Py.Sim (fun s t => SameButRows s t ∧ RowsInv K c s) (fun s t => SameButRows s t ∧ RowsInv K c s) Eq
      (GState.update D M c data) (GState.update D M c data') := by
  intro s t hst
  rcases update_rows_sim D M c hp hD hM hw hcv s t hst with h | ⟨a, b, s', t', h1, h2, hQ, hR, hn⟩
  · exact .inl h
  · refine .inr ⟨a, b, s', t', h1, h2, hQ, ?_⟩
    obtain ⟨⟨v, rfl, _⟩, hf, hg⟩ := hR
    refine ⟨⟨v, rfl⟩, hf, hg, hn, fun sc hsc => ?_⟩
    obtain ⟨r⟩ := update_ok h1
    have hset := (outerUpdate_committed _ _ _).ok (SameCommitted.refl _) r.hloop
    have e1 : s'.scaler = some r.sc := (congrArg GState.scaler r.ht).trans (hset.setup.scaler.trans
      ((r.proj GState.scaler (fun _ => rfl) fun _ _ => rfl).trans rfl))
    rw [e1] at hsc
    obtain rfl := Option.some.inj hsc
    obtain ⟨g, hW, he⟩ := hst.2.scaler r.sc0 r.hsc0
    have hu := r.hsc
    have h0 := hst.2.forget 0 r.forget0 r.hforget0
    have hne : data ≠ [] := fun e => r.nonempty (.inl e)
    rw [he, h0, scaler_update_canon _ one_pos _ _ hne hw hW] at hu
    refine ⟨g ++ data, hW.imp_right fun hpos => ?_, (Except.ok.inj hu).symm⟩
    have e3 : totalWeight 0 (g ++ data) = totalWeight 0 g + totalWeight 0 data := by
      simp [totalWeight, discSum_forget_zero]
    rw [e3]
    exact add_pos_of_pos_of_nonneg hpos (totalWeight_nonneg one_pos.le data hw)

/-- A fit establishes the invariant. -/
theorem fit_rows_inv (frames : Bool) (D : DistOps) (M : MethodOps μ) (c : GConfig μ p) (hp : data.Perm data') (h0 : NoForget D c)
    (hK : KindsOf D M c K) (hcond : c.condStartVal = false) (hw : NonnegWeights data) (hpos : 0 < (ws data).sum)
    (hD : RowwiseDist D data data') (hM : RowwiseMethods K M data data')
    (hi : BothRel (Along data data') (D.initialValues (ys data)) (D.initialValues (ys data'))) :
    Py.Sim SameButRows (fun s t => SameButRows s t ∧ RowsInv K c s) Eq (GState.fit frames D M c data) (GState.fit frames D M c data') := by
  intro s t hst
  rcases fit_rows frames D M c hp h0 hK hcond (fun _ _ => hw) hD hM hi s t hst with h | ⟨a, b, s', t', h1, h2, hQ, hR⟩
  · exact .inl h
  · refine .inr ⟨a, b, s', t', h1, h2, hQ, ?_⟩
    obtain ⟨⟨v, rfl, _⟩, hf, hg⟩ := hR
    obtain ⟨r⟩ := fit_ok h1
    have hset := (outerFit_setup _ _ _).ok (SameSetup.refl _) r.hloop
    have e1 : s'.scaler = some r.sc := (congrArg GState.scaler r.ht).trans (hset.scaler.trans (fitStart_scaler ..))
    have e2 : s'.nObs = some (ws data).sum := (congrArg GState.nObs r.ht).trans (hset.nObs.trans (fitStart_nObs ..))
    have e3 : s'.forget = r.sP.forget := (congrArg GState.forget r.ht).trans (hset.forget.trans (fitStart_forget ..))
    refine ⟨⟨v, rfl⟩, hf, hg, fun n hn => ?_, fun sc hsc => ?_⟩
    · rw [e2] at hn
      rw [← Option.some.inj hn]
      exact hpos
    · rw [e1] at hsc
      obtain rfl := Option.some.inj hsc
      have hz : r.forget0 = 0 := hf 0 r.forget0 (by rw [e3]; exact r.hforget0)
      have hs := r.hsc
      rw [hz] at hs
      obtain ⟨_, hW, he⟩ := scaler_fit_ok _ _ _ _ hs
      exact ⟨data, hW.imp_right fun h => lt_of_le_of_ne (totalWeight_nonneg one_pos.le data hw) h.symm, he⟩

/-- A sequence of updates. -/
theorem updates_rows (D : DistOps) (M : MethodOps μ) (c : GConfig μ p) {bs bs' : List (List (Obs p))} (hp : SameBatches bs bs')
    (hD : ∀ b ∈ bs, ∀ b', b.Perm b' → RowwiseDist D b b') (hM : ∀ b ∈ bs, ∀ b', b.Perm b' → RowwiseUpdates K M b b')
    (hw : ∀ b ∈ bs, NonnegWeights b) (hcv : ∀ b ∈ bs, NonnegCurvature K D b) :
    Py.Sim (fun s t => SameButRows s t ∧ RowsInv K c s) (fun s t => SameButRows s t ∧ RowsInv K c s) Eq
      (GState.updates D M c bs) (GState.updates D M c bs') := by
  induction hp with
  | nil => exact Py.sim_pure rfl
  | @cons b b' l l' h1 _ ih =>
    unfold GState.updates
    refine Py.Sim.bind (update_rows D M c h1 (hD b List.mem_cons_self b' h1) (hM b List.mem_cons_self b' h1) (hw b List.mem_cons_self)
      (hcv b List.mem_cons_self)) fun _ _ _ => ?_
    exact ih (fun x hx => hD x (List.mem_cons_of_mem _ hx)) (fun x hx => hM x (List.mem_cons_of_mem _ hx))
      (fun x hx => hw x (List.mem_cons_of_mem _ hx)) fun x hx => hcv x (List.mem_cons_of_mem _ hx)

end Ondil
