import Verif.Lemmas.GamlssRows

/-!
# The order of the rows in an update of the distributional regression
-/

namespace Ondil

/-! ### The running mean of the working weights -/

theorem onlineMeanStepFlt_zero (avg v : Flt) (n : ℝ) :
    onlineMeanStepFlt avg v 0 n = Flt.add avg (Flt.div (Flt.sub v avg) (.fin n)) := by
  unfold onlineMeanStepFlt
  simp only
  by_cases h : effectiveTrainingLength 0 n = 0
  · simp [h, Flt.mul, Flt.lt, Flt.infSigned]
  · simp [h, Flt.lt]

/-- A weight that is a number or NaN. -/
def FinOrNan (v : Flt) : Prop := v = .nan ∨ ∃ x, v = .fin x

theorem meanStep_nan {avg v : Flt} {n : ℝ} (h : avg = .nan ∨ v = .nan) : onlineMeanStepFlt avg v 0 n = .nan := by
  rw [onlineMeanStepFlt_zero]
  rcases h with rfl | rfl
  · rfl
  · cases avg <;> rfl

theorem meanStep_inf {avg v : Flt} {n : ℝ} (hv : FinOrNan v) (h : ¬ avg.IsFinite) : ¬ (onlineMeanStepFlt avg v 0 n).IsFinite := by
  rw [onlineMeanStepFlt_zero]
  rcases hv with rfl | ⟨x, rfl⟩ <;> cases avg <;>
    simp_all [Flt.sub, Flt.neg, Flt.add, Flt.div, Flt.IsFinite] <;> split_ifs <;> simp_all

theorem meanStep_inf_pos {avg v : Flt} {n : ℝ} (hn : 0 < n) (hv : FinOrNan v) (h : ¬ avg.IsFinite) :
    onlineMeanStepFlt avg v 0 n = .nan := by
  rw [onlineMeanStepFlt_zero]
  rcases hv with rfl | ⟨x, rfl⟩ <;> cases avg <;>
    simp_all [Flt.sub, Flt.neg, Flt.add, Flt.div, Flt.IsFinite, hn.ne', hn.le, hn.not_gt]

theorem meanStep_zero {avg v : Flt} (hv : FinOrNan v) : ¬ (onlineMeanStepFlt avg v 0 0).IsFinite := by
  rw [onlineMeanStepFlt_zero]
  rcases hv with rfl | ⟨x, rfl⟩ <;> cases avg <;>
    simp_all [Flt.sub, Flt.neg, Flt.add, Flt.div, Flt.IsFinite]
  unfold Flt.infSigned
  split_ifs <;> simp_all

theorem meanLoop_inf {n : ℝ} (hn : 0 < n) {vs : Arr1} (hv : ∀ v ∈ vs, FinOrNan v) (hne : vs ≠ []) {avg : Flt} (h : ¬ avg.IsFinite) :
    onlineMeanLoopFlt 0 n avg vs = .nan := by
  induction vs generalizing avg with
  | nil => exact absurd rfl hne
  | cons v vs ih =>
    unfold onlineMeanLoopFlt
    cases vs with
    | nil =>
      simp only [List.length_nil, Nat.cast_zero, sub_zero, onlineMeanLoopFlt]
      exact meanStep_inf_pos hn (hv v List.mem_cons_self) h
    | cons w vs =>
      exact ih (fun x hx => hv x (List.mem_cons_of_mem _ hx)) (by simp) (meanStep_inf (hv v List.mem_cons_self) h)

theorem meanLoop_swap {n : ℝ} (hn : 0 < n) (x y : Flt) (vs : Arr1) (hv : ∀ v ∈ x :: y :: vs, FinOrNan v) (avg : Flt) :
    onlineMeanLoopFlt 0 n avg (y :: x :: vs) = onlineMeanLoopFlt 0 n avg (x :: y :: vs) := by
  simp only [onlineMeanLoopFlt, List.length_cons]
  have hx : FinOrNan x := hv x List.mem_cons_self
  have hy : FinOrNan y := hv y (List.mem_cons_of_mem _ List.mem_cons_self)
  have hvs : ∀ v ∈ vs, FinOrNan v := fun v h => hv v (List.mem_cons_of_mem _ (List.mem_cons_of_mem _ h))
  have tail : ∀ a b : Flt, ¬ a.IsFinite → ¬ b.IsFinite → (vs = [] → a = .nan ∧ b = .nan) →
      onlineMeanLoopFlt 0 n a vs = onlineMeanLoopFlt 0 n b vs := by
    intro a b ha hb h0
    rcases eq_or_ne vs [] with e | hne
    · obtain ⟨rfl, rfl⟩ := h0 e
      rfl
    · rw [meanLoop_inf hn hvs hne ha, meanLoop_inf hn hvs hne hb]
  set n2 : ℝ := n - vs.length with hn2
  have hn1 : n - ((vs.length + 1 : ℕ) : ℝ) = n2 - 1 := by rw [hn2]; push_cast; ring
  rw [hn1]
  have hlast : vs = [] → n2 = n := fun e => by rw [hn2, e]; simp
  have inf2 : ∀ u v, FinOrNan u → FinOrNan v → (¬ (onlineMeanStepFlt avg u 0 (n2 - 1)).IsFinite ∨ n2 = 0) →
      ¬ (onlineMeanStepFlt (onlineMeanStepFlt avg u 0 (n2 - 1)) v 0 n2).IsFinite ∧
      (vs = [] → onlineMeanStepFlt (onlineMeanStepFlt avg u 0 (n2 - 1)) v 0 n2 = .nan) := by
    intro u v _ hv h
    rcases h with h | h
    · exact ⟨meanStep_inf hv h, fun e => meanStep_inf_pos (by rw [hlast e]; exact hn) hv h⟩
    · refine ⟨by rw [h]; exact meanStep_zero hv, fun e => ?_⟩
      rw [hlast e] at h
      exact absurd h hn.ne'
  by_cases hbad : (¬ (onlineMeanStepFlt avg x 0 (n2 - 1)).IsFinite ∧ ¬ (onlineMeanStepFlt avg y 0 (n2 - 1)).IsFinite) ∨ n2 = 0
  · have h1 := inf2 x y hx hy (hbad.imp_left And.left)
    have h2 := inf2 y x hy hx (hbad.imp_left And.right)
    exact tail _ _ h2.1 h1.1 fun e => ⟨h2.2 e, h1.2 e⟩
  · rw [not_or] at hbad
    obtain ⟨hb, h20⟩ := hbad
    rcases hx with rfl | ⟨a, rfl⟩
    · rw [meanStep_nan (.inr rfl), meanStep_nan (v := .nan) (.inr rfl), meanStep_nan (.inl rfl)]
    rcases hy with rfl | ⟨b, rfl⟩
    · rw [meanStep_nan (.inr rfl), meanStep_nan (v := .nan) (.inr rfl), meanStep_nan (.inl rfl)]
    by_cases h10 : n2 - 1 = 0
    · rw [h10] at hb
      exact absurd ⟨meanStep_zero (.inr ⟨a, rfl⟩), meanStep_zero (.inr ⟨b, rfl⟩)⟩ hb
    · cases avg with
      | fin m =>
        congr 1
        simp only [onlineMeanStepFlt_zero, Flt.sub, Flt.neg, Flt.add, Flt.div, h10, h20, if_false]
        congr 1
        field_simp
        ring
      | _ => exact absurd ⟨meanStep_inf (.inr ⟨a, rfl⟩) (by simp [Flt.IsFinite]), meanStep_inf (.inr ⟨b, rfl⟩) (by simp [Flt.IsFinite])⟩ hb

/-- The running mean does not depend on the order when nothing is forgotten. -/
theorem onlineMeanLoopFlt_perm {n : ℝ} (hn : 0 < n) {vs vs' : Arr1} (h : vs.Perm vs') (hv : ∀ v ∈ vs, FinOrNan v) (avg : Flt) :
    onlineMeanLoopFlt 0 n avg vs = onlineMeanLoopFlt 0 n avg vs' := by
  induction h generalizing avg with
  | nil => rfl
  | @cons x l l' hp ih =>
    unfold onlineMeanLoopFlt
    rw [hp.length_eq]
    exact ih (fun v h => hv v (List.mem_cons_of_mem _ h)) _
  | swap x y l => exact meanLoop_swap hn x y l (fun v h => hv v (by simp at h ⊢; tauto)) avg
  | trans h1 _ ih1 ih2 => rw [ih1 hv, ih2 fun v h => hv v (h1.mem_iff.2 h)]

/-! ### The loops of `update` -/

variable {μ : Type} {p : ℕ} {data data' : List (Obs p)} {K : GramKind μ}

/-- The updates of the Gramians are sums over the rows when nothing is forgotten. -/
structure RowwiseUpdates (K : GramKind μ) (M : MethodOps μ) (data data' : List (Obs p)) : Prop where
  updateX : ∀ m G (X X' : Arr2) w w', (K.inverse m = true → K.Good G ∧ ∀ v ∈ w, GoodWeight v) → Along data data' X X' →
    Along data data' w w' → M.updateX m G X w 0 = M.updateX m G X' w' 0
  updateY : ∀ m h (X X' : Arr2) y y' w w', Along data data' X X' → Along data data' y y' → Along data data' w w' →
    M.updateY m h X y w 0 = M.updateY m h X' y' w' 0
  good : ∀ m G (X X' : Arr2) w w' G', K.inverse m = true → K.Good G → Along data data' X X' → Along data data' w w' →
    (∀ v ∈ w, GoodWeight v) → M.updateX m G X w 0 = .ok G' → K.Good G'
  kindUpdateBeta : ∀ m G h b reg r, M.updateBeta m G h b reg = .ok r → K.inverse r.2 = K.inverse m
  kindUpdatePath : ∀ m G h b reg r, M.updatePath m G h b reg = .ok r → K.inverse r.2 = K.inverse m

/-- The two estimators during an update. -/
def UpdRel (K : GramKind μ) (data data' : List (Obs p)) (s t : GState μ p) : Prop :=
  RowsRel K data data' s t ∧ (∀ n, s.nObs = some n → 0 < n) ∧ ∀ k G, K.uses k = true → s.xGramNew k = some G → K.Good G

theorem UpdRel.set {s t : GState μ p} (h : UpdRel K data data' s t) (f : GState μ p → GState μ p)
    (hf : ∀ v, f (s.setRows v) = (f s).setRows v) (h1 : (f s).fv = s.fv) (h2 : (f s).forget = s.forget)
    (h3 : (f s).method = s.method) (h4 : (f s).xGram = s.xGram) (h5 : (f s).nObs = s.nObs) (h6 : (f s).xGramNew = s.xGramNew) :
    UpdRel K data data' (f s) (f t) :=
  ⟨h.1.set f hf h1 h2 h3 h4, by rw [h5]; exact h.2.1, by rw [h6]; exact h.2.2⟩

theorem UpdRel.setMethod {s t : GState μ p} (h : UpdRel K data data' s t) (k : ℕ) {m : μ} (hm : K.inverse m = K.uses k) :
    UpdRel K data data' (s.setMethod (upd s.method k (some m))) (t.setMethod (upd t.method k (some m))) :=
  ⟨h.1.setMethod k hm, h.2⟩

theorem BothRel.with_eq {α β : Type} {Q : α → β → Prop} {x : Except PyErr α} {x' : Except PyErr β} (h : BothRel Q x x') :
    BothRel (fun a b => Q a b ∧ x = .ok a) x x' := by
  rcases h with h | ⟨a, b, h1, h2, h3⟩
  · exact .inl h
  · exact .inr ⟨a, b, h1, h2, h3, h1⟩

variable {c c' : Call μ p}

theorem ys_length (hp : data.Perm data') : (ys data').length = (ys data).length := by simp [ys, hp.length_eq]

theorem sim_nObs {s t : GState μ p} (h : UpdRel K data data' s t) (R : GState μ p → GState μ p → Prop) (e : PyErr) :
    Py.Sim R R (fun a b => a = b ∧ 0 < a) (Py.attr s.nObs e) (Py.attr t.nObs e) := by
  obtain ⟨⟨⟨v, rfl, _⟩, _⟩, hn, _⟩ := h
  refine Py.sim_attr_rel ?_ e
  rcases hm : s.nObs with _ | n
  · exact .inl ⟨rfl, hm⟩
  · exact .inr ⟨n, n, rfl, hm, rfl, hn n hm⟩

theorem meanLoop_along (hp : data.Perm data') {n : ℝ} (hn : 0 < n) {lo : ℝ} {wk wk' : Working} (hwk : WorkRel lo data data' wk wk')
    (avg : Flt) : onlineMeanLoopFlt 0 n avg wk.wt = onlineMeanLoopFlt 0 n avg wk'.wt :=
  onlineMeanLoopFlt_perm hn (hwk.wt.perm hp) (fun v hv => (hwk.clip v hv).imp_right fun ⟨x, _, e⟩ => ⟨x, e⟩) avg

theorem updateSelectModel_along (hD : RowwiseDist c.D data data') (hp : data.Perm data') (hc : CallRel data data' c c') {s t : GState μ p}
    (hs : RowsRel K data data' s t) (k : ℕ) {X X' : Arr2} (hX : Along data data' X X') {lo : ℝ} {wk wk' : Working}
    (hwk : WorkRel lo data data' wk wk') (path : Arr2) (old : Arr1) (meanW : Flt) {nObs : ℝ} (hn : 0 < nObs) (nt : ℝ) (ic : Criterion) :
    updateSelectModel c s k X wk.wv wk.wt path old meanW 0 nObs nt ic =
      updateSelectModel c' t k X' wk'.wv wk'.wt path old meanW 0 nObs nt ic := by
  obtain ⟨⟨v, ht, hfv⟩, _⟩ := hs
  have hfv' : Along data data' s.fv t.fv := by rw [ht]; exact hfv
  unfold updateSelectModel
  rw [countNonzeroOther_rows _ _ ⟨v, ht⟩, hc.D, hc.cfg]
  refine BothRel.eq ?_
  refine BothRel.bind (preds_along hX hp path) fun pr pr' hpr => ?_
  rw [hc.y, hc.y', hc.w, hc.w', ← meanLoop_along hp hn hwk, ys_length hp]
  cases c.cfg.modelSelection with
  | localRss =>
    simp only
    have e : (pr.zipWith (fun pr o => Flt.div (Flt.add (weightedRss (ws data) (initForgetVector 0 (ys data).length) wk.wt wk.wv pr)
          (Flt.mul (.fin (batchDiscount 0 (ys data).length)) (Flt.mul o meanW))) (onlineMeanLoopFlt 0 nObs meanW wk.wt)) old) =
        pr'.zipWith (fun pr o => Flt.div (Flt.add (weightedRss (ws data') (initForgetVector 0 (ys data).length) wk'.wt wk'.wv pr)
          (Flt.mul (.fin (batchDiscount 0 (ys data).length)) (Flt.mul o meanW))) (onlineMeanLoopFlt 0 nObs meanW wk.wt)) old := by
      have hf : initForgetVector 0 (ys data).length = initForgetVector 0 (ys data').length := by rw [ys_length hp]
      have e1 : pr.map (weightedRss (ws data) (initForgetVector 0 (ys data).length) wk.wt wk.wv) =
          pr'.map (weightedRss (ws data') (initForgetVector 0 (ys data).length) wk'.wt wk'.wv) :=
        map_congr_forall₂ hpr fun x y hxy => by
          nth_rewrite 2 [hf]
          exact Along.weightedRss hp along_ws (along_forget hp) hwk.wt hwk.wv hxy
      have e2 := congrArg (fun l => List.zipWith (fun r o => Flt.div (Flt.add r
          (Flt.mul (.fin (batchDiscount 0 (ys data).length)) (Flt.mul o meanW))) (onlineMeanLoopFlt 0 nObs meanW wk.wt)) l old) e1
      simp only [List.zipWith_map_left] at e2
      exact e2
    rw [e]
    exact BothRel.of_eq rfl
  | globalLL =>
    simp only
    have e := pathLL_along hD hp hc hfv' k (along_forget hp) (along_ws (data := data) (data' := data')) hpr
    rw [ys_length hp] at e
    rw [e]
    exact BothRel.of_eq rfl

theorem updateCoefs_along (hD : RowwiseDist c.D data data') (hM : RowwiseUpdates K c.M data data') (hp : data.Perm data')
    (hc : CallRel data data' c c') (k : ℕ) {X X' : Arr2} (hX : Along data data' X X') {lo : ℝ} {wk wk' : Working}
    (hwk : WorkRel lo data data' wk wk') (xg : Arr2) (yg : Arr1) :
    Py.Sim (UpdRel K data data') (UpdRel K data data') Eq (updateCoefs c k X wk xg yg) (updateCoefs c' k X' wk' xg yg) := by
  unfold updateCoefs
  refine Py.Sim.bind_self fun s t hR => ?_
  have hR' := hR
  obtain ⟨⟨⟨v, rfl, hfv⟩, h0⟩, hn, hg⟩ := hR
  refine Py.Sim.bind (sim_method hR'.1 _ k _) fun m _ hm => ?_
  obtain ⟨rfl, hk⟩ := hm
  refine Py.Sim.bind (Py.sim_attr rfl _) fun reg _ hm => ?_
  subst hm
  refine Py.Sim.bind (sim_forget hR'.1 _ k _) fun f f' hf => ?_
  obtain ⟨rfl, rfl⟩ := hf
  rw [hc.M]
  by_cases hpb : c.M.pathBased m = true
  · rw [if_pos hpb, if_pos hpb]
    refine Py.Sim.bind (Py.sim_attr rfl _) fun start _ hm => ?_
    subst hm
    refine Py.Sim.bind (Py.sim_call (bothRel_self (P := fun r => K.inverse r.2 = K.uses k) fun r hr => ?_)) fun r _ hm => ?_
    · rw [hM.kindUpdatePath _ _ _ _ _ _ hr, hk]
    obtain ⟨rfl, hr⟩ := hm
    refine Py.Sim.bind (Py.sim_set fun s t h => h.setMethod k hr) fun _ _ _ => ?_
    refine Py.Sim.bind (Py.sim_attr rfl _) fun old _ hm => ?_
    subst hm
    refine Py.Sim.bind (Py.sim_attr rfl _) fun meanW _ hm => ?_
    subst hm
    refine Py.Sim.bind (sim_nObs hR' _ _) fun nObs _ hm => ?_
    obtain ⟨rfl, hnp⟩ := hm
    refine Py.Sim.bind (Py.sim_attr rfl _) fun nt _ hm => ?_
    subst hm
    refine Py.Sim.bind (Py.sim_attr rfl _) fun ic _ hm => ?_
    subst hm
    refine Py.Sim.bind (Py.sim_call (BothRel.of_eq (updateSelectModel_along hD hp hc hR'.1 k hX hwk r.1 old meanW hnp nt ic)))
      fun sel _ hm => ?_
    subst hm
    refine Py.Sim.bind (Py.sim_set fun s t h => h.set (fun s => s.setBestIc (Function.update s.bestIc k sel.2.2)) (fun _ => rfl)
      rfl rfl rfl rfl rfl rfl) fun _ _ _ => ?_
    exact Py.sim_pure rfl
  · rw [if_neg hpb, if_neg hpb]
    refine Py.Sim.bind (Py.sim_attr rfl _) fun b _ hm => ?_
    subst hm
    refine Py.Sim.bind (Py.sim_call (bothRel_self (P := fun r => K.inverse r.2 = K.uses k) fun r hr => ?_)) fun r _ hm => ?_
    · rw [hM.kindUpdateBeta _ _ _ _ _ _ hr, hk]
    obtain ⟨rfl, hr⟩ := hm
    refine Py.Sim.bind (Py.sim_set fun s t h => h.setMethod k hr) fun _ _ _ => ?_
    exact Py.sim_pure rfl

theorem along_updateDeviance (hD : RowwiseDist c.D data data') (hp : data.Perm data') (hc : CallRel data data' c c') {fv fv' : Fv}
    (h : Along data data' fv fv') (f0 : ℝ) (old : Flt) : updateDeviance c f0 old fv = updateDeviance c' f0 old fv' := by
  unfold updateDeviance
  rw [hc.D, hc.y, hc.y', hc.w, hc.w', along_deviance hD hp h, ys_length hp]

/-- The working weights of an update are not negative for the parameters whose method keeps an inverse Gramian. -/
def NonnegCurvature (K : GramKind μ) (D : DistOps) (data : List (Obs p)) : Prop :=
  ∀ k, K.uses k = true → ∀ fv wk, working D updateClip (ys data) fv k = .ok wk → ∀ v ∈ wk.wt, GoodWeight v

theorem updateIteration_along (hD : RowwiseDist c.D data data') (hM : RowwiseUpdates K c.M data data') (hp : data.Perm data')
    (hc : CallRel data data' c c') (hnn : ∀ k, K.uses k = true → NonnegWeights data) (hcv : NonnegCurvature K c.D data)
    (k itO itI : ℕ) {a b : Inner} (hab : InnerRel K k data data' a b) :
    Py.Sim (UpdRel K data data') (UpdRel K data data') (fun r r' => InnerRel K k data data' r.1 r'.1 ∧ r'.2 = r.2)
      (updateIteration c k itO itI a) (updateIteration c' k itO itI b) := by
  obtain ⟨aIt, aNew, dv0, dv1, n, bad, oa⟩ := a
  obtain ⟨bIt, bNew, dv0', dv1', n', bad', ob⟩ := b
  obtain ⟨h1, h2, h3, h4⟩ := hab
  simp only [Inner.mk.injEq, true_and, and_true] at h3
  obtain ⟨rfl, rfl, rfl, rfl⟩ := h3
  simp only at h1 h2 h4
  unfold updateIteration
  refine Py.Sim.bind_self fun s t hR => ?_
  have hR' := hR
  obtain ⟨⟨⟨v, rfl, hfv⟩, h0, hgi⟩, hnn', hg⟩ := hR
  rw [hc.cfg, hc.D, hc.M, hc.y, hc.y', hc.w, hc.w']
  refine Py.Sim.bind (Py.sim_call (BothRel.of_eq rfl)) fun step _ hm => ?_
  subst hm
  refine Py.Sim.bind (Py.sim_call (working_along hD (lo := updateClip) (by norm_num [updateClip]) k h1).with_eq) fun wk wk' hwk => ?_
  obtain ⟨hwk, hwe⟩ := hwk
  refine Py.Sim.bind (R' := UpdRel K data data') (Py.sim_set fun s t h => ⟨debugWork_rows h.1 _ _ wk wk' aIt bIt, ?_⟩) fun _ _ _ => ?_
  · unfold debugWork
    split_ifs <;> exact h.2
  refine Py.Sim.bind (Py.sim_attr_rel (hc.X k) _) fun X X' hX => ?_
  refine Py.Sim.bind (sim_method hR'.1 _ k _) fun m _ hm => ?_
  obtain ⟨rfl, hk⟩ := hm
  refine Py.Sim.bind (sim_forget hR'.1 _ k _) fun f f' hf => ?_
  obtain ⟨rfl, rfl⟩ := hf
  refine Py.Sim.bind (Q := fun G G' => G = G' ∧ (K.uses k = true → K.Good G)) (Py.sim_attr_rel ?_ _) fun x0 _ hm => ?_
  · rcases hG : s.xGram k with _ | G
    · exact .inl ⟨rfl, hG⟩
    · exact .inr ⟨G, G, rfl, hG, rfl, fun hu => hgi.gram k G hu hG⟩
  obtain ⟨rfl, hx0⟩ := hm
  have hgw : K.uses k = true → ∀ v ∈ wmul (ws data) wk.wt, GoodWeight v := fun hu =>
    goodWeight_wmul (hnn k hu) le_rfl fun v hv => hcv k hu aIt wk hwe v hv
  have ex := hM.updateX m x0 X X' _ _ (fun hi => ⟨hx0 (hk.symm.trans hi), hgw (hk.symm.trans hi)⟩) hX (along_ws.wmul hwk.wt)
  rw [← ex]
  refine Py.Sim.bind (Py.sim_call (bothRel_self (P := fun xg => K.uses k = true → K.Good xg) fun xg hxg hu => ?_)) fun xg _ hm => ?_
  · exact hM.good m x0 X X' _ _ xg (hk.trans hu) (hx0 hu) hX (along_ws.wmul hwk.wt) (hgw hu) hxg
  obtain ⟨rfl, hgood⟩ := hm
  refine Py.Sim.bind (Py.sim_attr rfl _) fun y0 _ hm => ?_
  subst hm
  refine Py.Sim.bind (Py.sim_call (BothRel.of_eq (hM.updateY m y0 X X' _ _ _ _ hX hwk.wv (along_ws.wmul hwk.wt)))) fun yg _ hm => ?_
  subst hm
  refine Py.Sim.bind (updateCoefs_along hD hM hp hc k hX hwk xg yg) fun co _ hm => ?_
  subst hm
  refine Py.Sim.bind (R' := UpdRel K data data') (Py.sim_set fun s t h => ⟨debugBeta_rows h.1 _ _ co.beta, ?_⟩) fun _ _ _ => ?_
  · unfold debugBeta
    split_ifs <;> exact h.2
  refine Py.Sim.bind (Py.sim_call (hX.matVec hp co.beta)) fun pred pred' hpred => ?_
  refine Py.Sim.bind (Py.sim_attr rfl _) fun meanW _ hm => ?_
  subst hm
  refine Py.Sim.bind (sim_nObs hR' _ _) fun nObs _ hm => ?_
  obtain ⟨rfl, hnp⟩ := hm
  refine Py.Sim.bind (Py.sim_call (hD.linkInverse k _ _ hpred)) fun w w' hw => ?_
  have hnew := h2.setCol k hw
  refine Py.Sim.bind (sim_forget hR'.1 _ 0 _) fun f f' hf => ?_
  obtain ⟨rfl, rfl⟩ := hf
  refine Py.Sim.bind (Py.sim_attr rfl _) fun old _ hm => ?_
  subst hm
  rw [← along_updateDeviance hD hp hc hnew, ← Along.weightedRss hp along_ws (along_forget hp) hwk.wt hwk.wv hpred,
    ← Along.amean ((along_forget hp).wmul (along_ws.wmul hwk.wt)) hp, ← meanLoop_along hp hnp hwk, ys_length hp]
  refine Py.Sim.bind (R' := UpdRel K data data') (Py.sim_set fun s t h => ?_) fun _ _ _ => ?_
  · split_ifs with hh
    · exact h.set (fun s => s.setScheduleStep fun o i j => if o = itO - 1 ∧ i = itI ∧ j = k then some (step / 2)
        else s.scheduleStep o i j) (fun _ => rfl) rfl rfl rfl rfl rfl rfl
    · exact h
  · refine Py.sim_pure ⟨⟨?_, hnew, rfl, .inr ⟨_, _, rfl, rfl, ⟨hwk.wt, hwk.wv, rfl⟩, hgood⟩⟩, rfl⟩
    exact along_ite _ (h1.setCol k (hnew.col k)) h1

theorem updateInnerLoop_along (hD : RowwiseDist c.D data data') (hM : RowwiseUpdates K c.M data data') (hp : data.Perm data')
    (hc : CallRel data data' c c') (hnn : ∀ k, K.uses k = true → NonnegWeights data) (hcv : NonnegCurvature K c.D data)
    (k itO n itI : ℕ) {a b : Inner} (hab : InnerRel K k data data' a b) :
    Py.Sim (UpdRel K data data') (UpdRel K data data') (InnerRel K k data data')
      (updateInnerLoop c k itO n itI a) (updateInnerLoop c' k itO n itI b) := by
  induction n generalizing itI a b with
  | zero => exact Py.sim_pure hab
  | succ n ih =>
    unfold updateInnerLoop
    refine Py.Sim.bind (updateIteration_along hD hM hp hc hnn hcv k itO itI hab) fun r r' hr => ?_
    obtain ⟨h1, h2⟩ := hr
    rw [h2]
    split_ifs
    · exact Py.sim_pure h1
    · exact ih (itI + 1) h1

theorem commitUpdate_along (hp : data.Perm data') (hc : CallRel data data' c c') (k : ℕ) {a b : Inner}
    (hab : InnerRel K k data data' a b) {o o' : IterOut} (ho : OutRel data data' o o') (hg : K.uses k = true → K.Good o.xGram)
    (f sw nt : Flt) {s t : GState μ p} (h : UpdRel K data data' s t) :
    UpdRel K data data' (commitUpdate c k a o f sw nt s) (commitUpdate c' k b o' f sw nt t) := by
  obtain ⟨⟨⟨v, rfl, hfv⟩, h0, hki, hgi⟩, hn, hgn⟩ := h
  refine ⟨⟨⟨⟨v.fv.setCol k (b.fvNew.col k), v.debugWeights, v.debugWorking, v.debugEta, v.debugFv⟩, ?_,
    hfv.setCol k (hab.fvNew.col k)⟩, h0, hki, hgi⟩, hn, fun j G hj hG => ?_⟩
  swap
  · by_cases hjk : j = k
    · subst hjk
      have e : upd s.xGramNew j (some o.xGram) j = some G := hG
      rw [upd_self] at e
      rw [← Option.some.inj e]
      exact hg hj
    · have e : upd s.xGramNew k (some o.xGram) j = some G := hG
      rw [upd_other _ hjk] at e
      exact hgn j G hj e
  obtain ⟨h1, h2, h3⟩ := ho
  obtain ⟨it, wt, wv, xg, yg, be, pa, se, bi, rs, dv⟩ := o
  obtain ⟨it', wt', wv', xg', yg', be', pa', se', bi', rs', dv'⟩ := o'
  simp only [IterOut.mk.injEq, true_and] at h3
  obtain ⟨rfl, rfl, rfl, rfl, rfl, rfl, rfl, rfl, rfl⟩ := h3
  simp only at h1 h2
  unfold commitUpdate
  simp only
  rw [hc.w, hc.w', Along.asum (along_ws.wmul h1) hp]
  rfl

theorem innerUpdate_along (hD : RowwiseDist c.D data data') (hM : RowwiseUpdates K c.M data data') (hp : data.Perm data')
    (hc : CallRel data data' c c') (hnn : ∀ k, K.uses k = true → NonnegWeights data) (hcv : NonnegCurvature K c.D data) (itO k : ℕ) :
    Py.Sim (UpdRel K data data') (UpdRel K data data') Eq (innerUpdate c itO k) (innerUpdate c' itO k) := by
  unfold innerUpdate
  refine Py.Sim.bind_self fun s t hR => ?_
  have hR' := hR
  obtain ⟨⟨⟨v, rfl, hfv⟩, h0, hgi⟩, hnn', hg⟩ := hR
  have hfv' : Along data data' s.fv (s.setRows v).fv := hfv
  refine Py.Sim.bind (sim_forget hR'.1 _ 0 _) fun f f' hf => ?_
  obtain ⟨rfl, rfl⟩ := hf
  refine Py.Sim.bind (Py.sim_attr rfl _) fun old _ hm => ?_
  subst hm
  rw [hc.cfg, ← along_updateDeviance hD hp hc hfv']
  refine Py.Sim.bind (Py.sim_call (BothRel.of_eq rfl)) fun n _ hm => ?_
  subst hm
  refine Py.Sim.bind (updateInnerLoop_along hD hM hp hc hnn hcv k itO n 0 ⟨hfv', hfv', rfl, .inl ⟨rfl, rfl⟩⟩) fun a b hab => ?_
  refine Py.Sim.bind (Py.sim_attr_rel hab.out _) fun o o' hoo => ?_
  obtain ⟨ho, hgood⟩ := hoo
  refine Py.Sim.bind (sim_forget hR'.1 _ k _) fun f f' hf => ?_
  obtain ⟨rfl, rfl⟩ := hf
  refine Py.Sim.bind (Py.sim_attr rfl _) fun sw _ hm => ?_
  subst hm
  refine Py.Sim.bind (Py.sim_attr rfl _) fun nt _ hm => ?_
  subst hm
  have hdv : o'.dv = o.dv := by
    have := congrArg IterOut.dv ho.same
    exact this
  rw [hdv]
  refine Py.Sim.bind (Py.sim_set fun s t h => commitUpdate_along hp hc k hab ho hgood _ _ _ h) fun _ _ _ => ?_
  exact Py.sim_pure rfl

theorem outerUpdate_along (hD : RowwiseDist c.D data data') (hM : RowwiseUpdates K c.M data data') (hp : data.Perm data')
    (hc : CallRel data data' c c') (hnn : ∀ k, K.uses k = true → NonnegWeights data) (hcv : NonnegCurvature K c.D data) (fuel : ℕ) :
    Py.Sim (UpdRel K data data') (UpdRel K data data') Eq (outerUpdate c fuel) (outerUpdate c' fuel) := by
  unfold outerUpdate
  refine Py.Sim.bind_self fun s t hR => ?_
  have hR' := hR
  obtain ⟨⟨⟨v, rfl, hfv⟩, h0, hgi⟩, hnn', hg⟩ := hR
  have hfv' : Along data data' s.fv (s.setRows v).fv := hfv
  refine Py.Sim.bind (sim_forget hR'.1 _ 0 _) fun f f' hf => ?_
  obtain ⟨rfl, rfl⟩ := hf
  refine Py.Sim.bind (Py.sim_attr rfl _) fun old _ hm => ?_
  subst hm
  rw [hc.cfg, ← along_updateDeviance hD hp hc hfv']
  exact outerLoop_sim _ (fun i d => paramLoop_sim (fun k => innerUpdate_along hD hM hp hc hnn hcv i k) _ d) _ _ _ _

end Ondil
