import Verif.Lemmas.GamlssRowsCalls
import Verif.Lemmas.WeightUnits
import Verif.Spec.GamlssWeightUnits

/-!
# The unit of the sample weights in the distributional regression
-/

namespace Ondil

/-! ### Floats times a positive number -/

namespace Flt

variable {k : ℝ}

theorem mul_times (hk : 0 < k) (u : ℝ) (v : Flt) : mul (.fin (k * u)) v = times k (mul (.fin u) v) := by
  have h1 : ∀ x : ℝ, 0 < k * x ↔ 0 < x := fun x => mul_pos_iff_of_pos_left hk
  have h2 : ∀ x : ℝ, k * x < 0 ↔ x < 0 := fun x => by rw [← neg_pos, ← neg_pos (a := x), ← mul_neg, h1]
  cases v <;> simp only [mul, infSigned, h1, h2]
  · simp only [times, mul_assoc]
  · split_ifs <;> rfl
  · split_ifs <;> rfl
  · rfl

theorem times_add (a b : Flt) : times k (add a b) = add (times k a) (times k b) := by
  cases a <;> cases b <;> simp [times, add, mul_add]

theorem times_neg (a : Flt) : times k (neg a) = neg (times k a) := by
  cases a <;> simp [times, neg]

theorem times_sub (a b : Flt) : times k (sub a b) = sub (times k a) (times k b) := by
  unfold sub
  rw [times_add, times_neg]

theorem times_abs (hk : 0 < k) (a : Flt) : times k (abs a) = abs (times k a) := by
  cases a <;> simp [times, abs, abs_mul, abs_of_pos hk]

theorem times_mul (c : ℝ) (a : Flt) : times k (mul (.fin c) a) = mul (.fin c) (times k a) := by
  cases a <;> simp only [times, mul]
  · congr 1
    ring
  · unfold infSigned
    split_ifs <;> rfl
  · unfold infSigned
    split_ifs <;> rfl

theorem times_lt (hk : 0 < k) (a b : Flt) : lt (times k a) (times k b) ↔ lt a b := by
  cases a <;> cases b <;> simp [times, lt, hk]

theorem times_le_fin (hk : 0 < k) (a : Flt) (t : ℝ) : le (times k a) (.fin (k * t)) ↔ le a (.fin t) := by
  cases a <;> simp [times, le, hk]

theorem times_lt_fin (hk : 0 < k) (a : Flt) (t : ℝ) : lt (times k a) (.fin (k * t)) ↔ lt a (.fin t) := by
  cases a <;> simp [times, lt, hk]

theorem times_div (hk : 0 < k) (a b : Flt) : div (times k a) (times k b) = div a b := by
  have h1 : ∀ x : ℝ, 0 < k * x ↔ 0 < x := fun x => mul_pos_iff_of_pos_left hk
  have h2 : ∀ x : ℝ, k * x < 0 ↔ x < 0 := fun x => by rw [← neg_pos, ← neg_pos (a := x), ← mul_neg, h1]
  have h3 : ∀ x : ℝ, 0 ≤ k * x ↔ 0 ≤ x := fun x => mul_nonneg_iff_of_pos_left hk
  cases a <;> cases b <;> simp only [times, div, infSigned, h1, h2, h3, mul_eq_zero, hk.ne', false_or, mul_div_mul_left _ _ hk.ne']

end Flt

section

variable {k : ℝ}

theorem wmul_times (hk : 0 < k) (w : List ℝ) (a : Arr1) : wmul (w.map (k * ·)) a = (wmul w a).map (Flt.times k) := by
  unfold wmul
  induction w generalizing a with
  | nil => rfl
  | cons u w ih =>
    cases a with
    | nil => rfl
    | cons v a => simp only [List.map_cons, List.zipWith_cons_cons, ih, Flt.mul_times hk]

theorem asum_times (a : Arr1) : asum (a.map (Flt.times k)) = Flt.times k (asum a) := by
  unfold asum Dist.npSum
  induction a with
  | nil => simp [Flt.times]
  | cons v a ih => rw [List.map_cons, List.foldr_cons, List.foldr_cons, ih, Flt.times_add]

theorem deviance_times (hk : 0 < k) (D : DistOps) (y w : List ℝ) (fv : Fv) :
    deviance D y (w.map (k * ·)) fv = Flt.times k (deviance D y w fv) := by
  unfold deviance
  rw [wmul_times hk, asum_times]

end

/-! ### States -/

/-- Attributes that depend on the unit of the weights and that no coefficient depends on. -/
structure FreeParts where
  nObs : Option ℝ
  nTraining : PyDict ℝ
  sumW : ℕ → Option Flt
  meanW : ℕ → Option Flt
  sumWNew : ℕ → Option Flt
  meanWNew : ℕ → Option Flt
  rss : ℕ → Flt
  rssOld : ℕ → Flt

variable {μ : Type} {p : ℕ}

/-- The same attributes are set. -/
structure FreeParts.Agrees (v : FreeParts) (s : GState μ p) : Prop where
  nObs : v.nObs.isSome = s.nObs.isSome
  nTraining : ∀ j, (v.nTraining.get? j).isSome = (s.nTraining.get? j).isSome
  sumW : ∀ j, (v.sumW j).isSome = (s.sumW j).isSome
  meanW : ∀ j, (v.meanW j).isSome = (s.meanW j).isSome
  sumWNew : ∀ j, (v.sumWNew j).isSome = (s.sumWNew j).isSome
  meanWNew : ∀ j, (v.meanWNew j).isSome = (s.meanWNew j).isSome

/-- The attributes of an estimator that works with the weights in another unit. -/
noncomputable def GState.reweigh (k : ℝ) (v : FreeParts) (s : GState μ p) : GState μ p :=
  { s with
    scaler := s.scaler.map (Scaler.scaleW k)
    xGram := fun j => (s.xGram j).map (scaleGram k)
    yGram := fun j => (s.yGram j).map (scaleCross k)
    xGramNew := fun j => (s.xGramNew j).map (scaleGram k)
    yGramNew := fun j => (s.yGramNew j).map (scaleCross k)
    globalDev := s.globalDev.map (Flt.times k)
    nObs := v.nObs
    nTraining := v.nTraining
    sumW := v.sumW
    meanW := v.meanW
    sumWNew := v.sumWNew
    meanWNew := v.meanWNew
    rss := v.rss
    rssOld := v.rssOld }

/-- The second estimator works with the weights in another unit. -/
def Reweighed (k : ℝ) (s t : GState μ p) : Prop := ∃ v : FreeParts, v.Agrees s ∧ t = s.reweigh k v

/-- The same in the loops: all methods are admitted, and there is at least one outer iteration. -/
def WeightRel (k : ℝ) (ok : μ → Prop) (s t : GState μ p) : Prop :=
  Reweighed k s t ∧ (∀ j m, s.method j = some m → ok m) ∧ 1 ≤ s.minIt

variable {k : ℝ} {ok : μ → Prop}

theorem Reweighed.set {s t : GState μ p} (h : Reweighed k s t) (f : GState μ p → GState μ p)
    (hf : ∀ v, f (s.reweigh k v) = (f s).reweigh k v) (ha : ∀ v : FreeParts, v.Agrees s → v.Agrees (f s)) : Reweighed k (f s) (f t) := by
  obtain ⟨v, hv, rfl⟩ := h
  exact ⟨v, ha v hv, hf v⟩

theorem WeightRel.set {s t : GState μ p} (h : WeightRel k ok s t) (f : GState μ p → GState μ p)
    (hf : ∀ v, f (s.reweigh k v) = (f s).reweigh k v) (ha : ∀ v : FreeParts, v.Agrees s → v.Agrees (f s))
    (hm : (f s).method = s.method) (hi : (f s).minIt = s.minIt) : WeightRel k ok (f s) (f t) :=
  ⟨h.1.set f hf ha, by rw [hm]; exact h.2.1, by rw [hi]; exact h.2.2⟩

theorem WeightRel.setMethod {s t : GState μ p} (h : WeightRel k ok s t) (j : ℕ) {m : μ} (hm : ok m) :
    WeightRel k ok (s.setMethod (upd s.method j (some m))) (t.setMethod (upd t.method j (some m))) := by
  obtain ⟨⟨v, hv, rfl⟩, h2, h3⟩ := h
  refine ⟨⟨v, ⟨hv.1, hv.2, hv.3, hv.4, hv.5, hv.6⟩, rfl⟩, fun i m' hi => ?_, h3⟩
  by_cases hij : i = j
  · subst hij
    have e : upd s.method i (some m) i = some m' := hi
    rw [upd_self] at e
    rw [← Option.some.inj e]
    exact hm
  · have e : upd s.method j (some m) i = some m' := hi
    rw [upd_other _ hij] at e
    exact h2 i m' e

theorem Agrees.same {v : FreeParts} {s s' : GState μ p} (hv : v.Agrees s) (h1 : s'.nObs = s.nObs) (h2 : s'.nTraining = s.nTraining)
    (h3 : s'.sumW = s.sumW) (h4 : s'.meanW = s.meanW) (h5 : s'.sumWNew = s.sumWNew) (h6 : s'.meanWNew = s.meanWNew) : v.Agrees s' :=
  ⟨by rw [h1]; exact hv.1, by rw [h2]; exact hv.2, by rw [h3]; exact hv.3, by rw [h4]; exact hv.4, by rw [h5]; exact hv.5,
    by rw [h6]; exact hv.6⟩

theorem sim_attr_some {α β σ τ : Type} {R : σ → τ → Prop} {x : Option α} {x' : Option β} (h : x'.isSome = x.isSome) (e : PyErr) :
    Py.Sim R R (fun _ _ => True) (Py.attr x e) (Py.attr x' e) := by
  refine Py.sim_attr_rel ?_ e
  cases x <;> cases x' <;> simp_all

theorem sim_attr_map {α β σ τ : Type} {R : σ → τ → Prop} {x : Option α} {x' : Option β} {g : α → β} (h : x' = x.map g) (e : PyErr) :
    Py.Sim R R (fun a b => b = g a) (Py.attr x e) (Py.attr x' e) := by
  refine Py.sim_attr_rel ?_ e
  subst h
  cases x <;> simp

theorem sim_call_map {α β σ τ : Type} {R : σ → τ → Prop} {x : Except PyErr α} {x' : Except PyErr β} {g : α → β} (h : x' = x.map g) :
    Py.Sim R R (fun a b => b = g a ∧ x = .ok a) (Py.call x) (Py.call x') := by
  refine Py.sim_call ?_
  subst h
  cases x with
  | error e => exact .inl ⟨e, rfl, rfl⟩
  | ok a => exact .inr ⟨a, g a, rfl, rfl, rfl, rfl⟩

/-! ### `fit` -/

/-- The call with the weights and the absolute tolerances in another unit. -/
noncomputable def Call.reweigh (k : ℝ) (c : Call μ p) : Call μ p := { c with cfg := c.cfg.inUnit k, w := c.w.map (k * ·) }

theorem sim_okMethod {s t : GState μ p} (h : WeightRel k ok s t) (R : GState μ p → GState μ p → Prop) (j : ℕ) (e : PyErr) :
    Py.Sim R R (fun a b => a = b ∧ ok a) (Py.attr (s.method j) e) (Py.attr (t.method j) e) := by
  obtain ⟨⟨v, hv, rfl⟩, h2, _⟩ := h
  refine Py.sim_attr_rel ?_ e
  rcases hm : s.method j with _ | m
  · exact .inl ⟨rfl, hm⟩
  · exact .inr ⟨m, m, rfl, hm, rfl, h2 j m hm⟩

theorem fitCoefs_weights (c : Call μ p) (hM : WeightFreeMethods k ok c.M) (j itO itI : ℕ) (prev : Option Arr2) (X : Arr2) (wk : Working)
    (xg : Arr2) (yg : Arr1) : Py.Sim (WeightRel k ok) (WeightRel k ok) Eq (fitCoefs c j itO itI prev X wk xg yg)
      (fitCoefs (c.reweigh k) j itO itI prev X wk (scaleGram k xg) (scaleCross k yg)) := by
  unfold fitCoefs
  refine Py.Sim.bind_self fun s t hR => ?_
  have hR' := hR
  obtain ⟨⟨v, hv, rfl⟩, _⟩ := hR
  refine Py.Sim.bind (sim_okMethod hR' _ j _) fun m _ hm => ?_
  obtain ⟨rfl, hok⟩ := hm
  refine Py.Sim.bind (Py.sim_attr rfl _) fun reg _ hm => ?_
  subst hm
  refine Py.Sim.bind (Py.sim_attr rfl _) fun f _ hm => ?_
  subst hm
  have hp : ¬ c.M.pathBased m = true := by rw [hM.notPath m hok]; simp
  have hp' : ¬ (c.reweigh k).M.pathBased m = true := hp
  rw [if_neg hp, if_neg hp']
  refine Py.Sim.bind (Q := fun a b => a = b ∧ ok a.2) (Py.sim_call ?_) fun r _ hm => ?_
  · have e : (c.reweigh k).M.fitBeta m (scaleGram k xg) (scaleCross k yg) reg = c.M.fitBeta m xg yg reg := hM.fitBeta m xg yg reg hok
    rw [e]
    cases hr : c.M.fitBeta m xg yg reg with
    | error e => exact .inl ⟨e, rfl, rfl⟩
    | ok r => exact .inr ⟨r, r, rfl, rfl, rfl, hM.fitOk m xg yg reg r hok hr⟩
  obtain ⟨rfl, hr⟩ := hm
  refine Py.Sim.bind (Py.sim_set fun s t h => h.setMethod j hr) fun _ _ _ => ?_
  exact Py.sim_pure rfl

/-- The results of an iteration in another unit of the weights. -/
structure OutWeights (k : ℝ) (o o' : IterOut) : Prop where
  it : o'.it = o.it
  wt : o'.wt = o.wt
  xGram : o'.xGram = scaleGram k o.xGram
  yGram : o'.yGram = scaleCross k o.yGram
  beta : o'.beta = o.beta
  path : o'.path = o.path
  selection : o'.selection = o.selection
  bestIc : o'.bestIc = o.bestIc
  dv : o'.dv = Flt.times k o.dv

/-- The variables of an inner loop in another unit of the weights. -/
structure InnerWeights (k : ℝ) (a b : Inner) : Prop where
  fvIt : b.fvIt = a.fvIt
  fvNew : b.fvNew = a.fvNew
  dvStart : b.dvStart = Flt.times k a.dvStart
  dvOld : b.dvOld = Flt.times k a.dvOld
  stepDecrease : b.stepDecrease = a.stepDecrease
  badState : b.badState = a.badState
  out : (a.out = none ∧ b.out = none) ∨ ∃ o o', a.out = some o ∧ b.out = some o' ∧ OutWeights k o o'

theorem innerConverged_weights (hk : 0 < k) (c : GConfig μ p) (itI : ℕ) (dvOld dv : Flt) :
    innerConverged (c.inUnit k) itI (Flt.times k dvOld) (Flt.times k dv) ↔ innerConverged c itI dvOld dv := by
  unfold innerConverged
  rw [← Flt.times_sub, ← Flt.times_abs hk, ← Flt.times_abs hk, Flt.times_div hk]
  change Flt.le _ (.fin (k * c.absTolInner)) ∨ _ ↔ _
  rw [Flt.times_le_fin hk]
  rfl

theorem debugWork_weights {s t : GState μ p} (h : WeightRel k ok s t) (b : Bool) (key : DebugKey) (wk : Working) (fv : Fv) :
    WeightRel k ok (debugWork b key wk fv s) (debugWork b key wk fv t) := by
  cases b
  · exact h
  · exact h.set (debugWork true key wk fv) (fun _ => rfl) (fun v hv => ⟨hv.1, hv.2, hv.3, hv.4, hv.5, hv.6⟩) rfl rfl

theorem debugBeta_weights {s t : GState μ p} (h : WeightRel k ok s t) (b : Bool) (key : DebugKey) (be : Arr1) :
    WeightRel k ok (debugBeta b key be s) (debugBeta b key be t) := by
  cases b
  · exact h
  · exact h.set (debugBeta true key be) (fun _ => rfl) (fun v hv => ⟨hv.1, hv.2, hv.3, hv.4, hv.5, hv.6⟩) rfl rfl

set_option maxHeartbeats 1000000 in
theorem fitIteration_weights (hk : 0 < k) (c : Call μ p) (hM : WeightFreeMethods k ok c.M) (j itO itI scheduled : ℕ) {a b : Inner}
    (hab : InnerWeights k a b) :
    Py.Sim (WeightRel k ok) (WeightRel k ok) (fun r r' => InnerWeights k r.1 r'.1 ∧ r'.2 = r.2)
      (fitIteration c j itO itI scheduled a) (fitIteration (c.reweigh k) j itO itI scheduled b) := by
  obtain ⟨aIt, aNew, dv0, dv1, n, bad, oa⟩ := a
  obtain ⟨bIt, bNew, dv0', dv1', n', bad', ob⟩ := b
  obtain ⟨h1, h2, h3, h4, h5, h6, h7⟩ := hab
  simp only at h1 h2 h3 h4 h5 h6 h7
  subst h1 h2 h3 h4 h5 h6
  have hpath : (ob.bind fun o => o.path) = oa.bind fun o => o.path := by
    rcases h7 with ⟨rfl, rfl⟩ | ⟨o, o', rfl, rfl, ho⟩
    · rfl
    · exact ho.path
  unfold fitIteration
  refine Py.Sim.bind_self fun s t hR => ?_
  have hR' := hR
  obtain ⟨⟨v, hv, rfl⟩, _⟩ := hR
  refine Py.Sim.bind (Py.sim_call (BothRel.of_eq rfl)) fun step _ hm => ?_
  subst hm
  refine Py.Sim.bind (Py.sim_call (BothRel.of_eq rfl)) fun fvIt _ hm => ?_
  subst hm
  refine Py.Sim.bind (Py.sim_call (BothRel.of_eq rfl)) fun wk _ hm => ?_
  subst hm
  refine Py.Sim.bind (Py.sim_set fun s t h => debugWork_weights h _ _ wk fvIt) fun _ _ _ => ?_
  refine Py.Sim.bind (Py.sim_attr rfl _) fun X _ hm => ?_
  subst hm
  refine Py.Sim.bind (sim_okMethod hR' _ j _) fun m _ hm => ?_
  obtain ⟨rfl, hok⟩ := hm
  refine Py.Sim.bind (Py.sim_attr rfl _) fun f _ hm => ?_
  subst hm
  have hw : wmul (c.reweigh k).w wk.wt = scaleCross k (wmul c.w wk.wt) := wmul_times hk c.w wk.wt
  rw [hw]
  refine Py.Sim.bind (sim_call_map (hM.initX m X _ f hok)) fun xg _ hm => ?_
  obtain ⟨rfl, _⟩ := hm
  refine Py.Sim.bind (sim_call_map (hM.initY m X wk.wv _ f hok)) fun yg _ hm => ?_
  obtain ⟨rfl, _⟩ := hm
  rw [hpath]
  refine Py.Sim.bind (fitCoefs_weights c hM j itO itI _ X wk xg yg) fun co _ hm => ?_
  subst hm
  refine Py.Sim.bind (Py.sim_set fun s t h => debugBeta_weights h _ _ co.beta) fun _ _ _ => ?_
  refine Py.Sim.bind (Py.sim_call (BothRel.of_eq rfl)) fun xb _ hm => ?_
  subst hm
  refine Py.Sim.bind (Py.sim_call (BothRel.of_eq rfl)) fun w _ hm => ?_
  subst hm
  have hdv : deviance (c.reweigh k).D (c.reweigh k).y (c.reweigh k).w (bNew.setCol j w) =
      Flt.times k (deviance c.D c.y c.w (bNew.setCol j w)) := deviance_times hk c.D c.y c.w _
  have e1 : ∀ u d, Flt.lt (Flt.times k u) (Flt.times k d) = Flt.lt u d := fun u d => propext (Flt.times_lt hk u d)
  have e2 : ∀ u d, innerConverged (c.reweigh k).cfg itI (Flt.times k u) (Flt.times k d) = innerConverged c.cfg itI u d :=
    fun u d => propext (innerConverged_weights hk c.cfg itI u d)
  dsimp only
  rw [hdv, e1, e1, e2]
  refine Py.Sim.bind (R' := WeightRel k ok) (Py.sim_set fun s t h => ?_) fun _ _ _ => ?_
  · split_ifs with hh
    · exact h.set (fun s => s.setScheduleStep fun o i j' => if o = itO - 1 ∧ i = itI + 1 ∧ j' = j then some (step / 2)
        else s.scheduleStep o i j') (fun _ => rfl) (fun v hv => ⟨hv.1, hv.2, hv.3, hv.4, hv.5, hv.6⟩) rfl rfl
    · exact h
  · refine Py.sim_pure ⟨⟨rfl, rfl, rfl, ?_, rfl, rfl, .inr ⟨_, _, rfl, rfl, ⟨rfl, rfl, rfl, rfl, rfl, rfl, rfl, rfl, rfl⟩⟩⟩, rfl⟩
    simp only
    split_ifs <;> rfl

theorem fitInnerLoop_weights (hk : 0 < k) (c : Call μ p) (hM : WeightFreeMethods k ok c.M) (j itO scheduled n itI : ℕ) {a b : Inner}
    (hab : InnerWeights k a b) :
    Py.Sim (WeightRel k ok) (WeightRel k ok) (InnerWeights k)
      (fitInnerLoop c j itO scheduled n itI a) (fitInnerLoop (c.reweigh k) j itO scheduled n itI b) := by
  induction n generalizing itI a b with
  | zero => exact Py.sim_pure hab
  | succ n ih =>
    unfold fitInnerLoop
    refine Py.Sim.bind (fitIteration_weights hk c hM j itO itI scheduled hab) fun r r' hr => ?_
    obtain ⟨h1, h2⟩ := hr
    rw [h2]
    split_ifs
    · exact Py.sim_pure h1
    · exact ih (itI + 1) h1

theorem upd_map {α β : Type} (f : ℕ → Option α) (g : α → β) (j : ℕ) (a : α) :
    (fun i => (upd f j (some a) i).map g) = upd (fun i => (f i).map g) j (some (g a)) := by
  funext i
  by_cases h : i = j
  · subst h
    simp [upd]
  · simp [upd, h]

theorem upd_isSome {α β : Type} {f : ℕ → Option α} {g : ℕ → Option β} (h : ∀ i, (g i).isSome = (f i).isSome) (j : ℕ) (a : α) (b : β) (i : ℕ) :
    (upd g j (some b) i).isSome = (upd f j (some a) i).isSome := by
  by_cases hi : i = j
  · subst hi
    simp [upd]
  · simp [upd, hi, h i]

theorem commitFit_weights (c : Call μ p) (j : ℕ) {a b : Inner} (hab : InnerWeights k a b) {o o' : IterOut} (ho : OutWeights k o o')
    {s t : GState μ p} (h : WeightRel k ok s t) : WeightRel k ok (commitFit c j a o s) (commitFit (c.reweigh k) j b o' t) := by
  obtain ⟨⟨v, hv, rfl⟩, h2, h3⟩ := h
  obtain ⟨it, wt, wv, xg, yg, be, pa, se, bi, rs, dv⟩ := o
  obtain ⟨it', wt', wv', xg', yg', be', pa', se', bi', rs', dv'⟩ := o'
  obtain ⟨e1, e2, e3, e4, e5, e6, e7, e8, e9⟩ := ho
  simp only at e1 e2 e3 e4 e5 e6 e7 e8 e9
  subst e1 e2 e3 e4 e5 e6 e7 e8 e9
  refine ⟨⟨⟨v.nObs, v.nTraining, upd v.sumW j (some (asum (wmul (c.reweigh k).w wt'))), upd v.meanW j (some (amean (wmul (c.reweigh k).w wt'))),
    v.sumWNew, v.meanWNew, Function.update v.rss j rs', v.rssOld⟩, ⟨hv.1, hv.2, upd_isSome hv.3 j _ _, upd_isSome hv.4 j _ _, hv.5, hv.6⟩, ?_⟩,
    h2, h3⟩
  unfold commitFit
  simp only [GState.reweigh, hab.fvNew, upd_map]

theorem innerFit_weights (hk : 0 < k) (c : Call μ p) (hM : WeightFreeMethods k ok c.M) (itO j : ℕ) :
    Py.Sim (WeightRel k ok) (WeightRel k ok) (fun d d' => d' = Flt.times k d) (innerFit c itO j) (innerFit (c.reweigh k) itO j) := by
  unfold innerFit
  refine Py.Sim.bind_self fun s t hR => ?_
  obtain ⟨⟨v, hv, rfl⟩, _⟩ := hR
  have hdv : deviance (c.reweigh k).D (c.reweigh k).y (c.reweigh k).w (s.reweigh k v).fv = Flt.times k (deviance c.D c.y c.w s.fv) :=
    deviance_times hk c.D c.y c.w _
  rw [hdv]
  refine Py.Sim.bind (Py.sim_call (BothRel.of_eq rfl)) fun n _ hm => ?_
  subst hm
  refine Py.Sim.bind (fitInnerLoop_weights hk c hM j itO n n 0 ⟨rfl, rfl, rfl, rfl, rfl, rfl, .inl ⟨rfl, rfl⟩⟩) fun a b hab => ?_
  refine Py.Sim.bind (Py.sim_attr_rel hab.out _) fun o o' ho => ?_
  rw [hab.badState, ho.it, ho.dv]
  refine Py.Sim.bind (R' := WeightRel k ok) (Py.sim_set fun s t h => ?_) fun _ _ _ => ?_
  · split_ifs
    · exact commitFit_weights c j hab ho h
    · exact h
  refine Py.Sim.bind (Py.sim_set fun s t h => h.set (fun s => s.setItInner (Function.update s.itInner j o.it)) (fun _ => rfl)
    (fun v hv => ⟨hv.1, hv.2, hv.3, hv.4, hv.5, hv.6⟩) rfl rfl) fun _ _ _ => ?_
  exact Py.sim_pure rfl

theorem paramLoop_weights {σ : Type} {R : σ → σ → Prop} {f g : ℕ → Py σ Flt}
    (h : ∀ j, Py.Sim R R (fun d d' => d' = Flt.times k d) (f j) (g j)) (l : List ℕ) (dev : Flt) :
    Py.Sim R R (fun d d' => d' = Flt.times k d) (paramLoop f l dev) (paramLoop g l (Flt.times k dev)) := by
  induction l generalizing dev with
  | nil => exact Py.sim_pure rfl
  | cons j l ih =>
    unfold paramLoop
    refine Py.Sim.bind (h j) fun d _ hd => ?_
    subst hd
    exact ih d

/-- The outer loop when its tests, from the first iteration on, do not see the unit of the weights. -/
theorem outerLoop_weights {σ : Type} {R : σ → σ → Prop} {stops stops' : ℕ → Flt → Flt → Prop} {f g : ℕ → Flt → Py σ Flt}
    (h0 : ∀ dev old, ¬ stops 0 dev old ∧ ¬ stops' 0 dev old)
    (hs : ∀ i dev old, stops' i (Flt.times k dev) (Flt.times k old) ↔ stops i dev old)
    (h : ∀ i d, Py.Sim R R (fun d d' => d' = Flt.times k d) (f i d) (g i (Flt.times k d))) (n itO : ℕ) (dev old old' : Flt)
    (ho : itO = 0 ∨ old' = Flt.times k old) :
    Py.Sim R R (fun r r' => r' = r.map fun q => (Flt.times k q.1, q.2)) (outerLoop stops f n itO dev old)
      (outerLoop stops' g n itO (Flt.times k dev) old') := by
  induction n generalizing itO dev old old' with
  | zero => exact Py.sim_pure rfl
  | succ n ih =>
    unfold outerLoop
    have e : stops' itO (Flt.times k dev) old' ↔ stops itO dev old := by
      rcases ho with rfl | rfl
      · exact iff_of_false (h0 _ _).2 (h0 _ _).1
      · exact hs _ _ _
    by_cases hst : stops itO dev old
    · rw [if_pos hst, if_pos (e.2 hst)]
      exact Py.sim_pure rfl
    · rw [if_neg hst, if_neg (mt e.1 hst)]
      refine Py.Sim.bind (h _ _) fun d _ hd => ?_
      subst hd
      exact ih _ _ _ _ (.inr rfl)

theorem outerConverged_weights (hk : 0 < k) (c : GConfig μ p) (dev old : Flt) :
    outerConverged (c.inUnit k) (Flt.times k dev) (Flt.times k old) ↔ outerConverged c dev old := by
  unfold outerConverged
  rw [← Flt.times_sub, ← Flt.times_abs hk, ← Flt.times_abs hk, Flt.times_div hk]
  change _ ∨ Flt.lt _ (.fin (k * c.absTolOuter)) ↔ _
  rw [Flt.times_lt_fin hk]
  rfl

theorem outerFit_weights (hk : 0 < k) (c : Call μ p) (hM : WeightFreeMethods k ok c.M) (fuel : ℕ) :
    Py.Sim (WeightRel k ok) (WeightRel k ok) (fun r r' => r' = r.map fun q => (Flt.times k q.1, q.2)) (outerFit c fuel)
      (outerFit (c.reweigh k) fuel) := by
  unfold outerFit
  refine Py.Sim.bind_self fun s t hR => ?_
  obtain ⟨⟨v, hv, rfl⟩, _, hmin⟩ := hR
  have hdv : deviance (c.reweigh k).D (c.reweigh k).y (c.reweigh k).w (s.reweigh k v).fv = Flt.times k (deviance c.D c.y c.w s.fv) :=
    deviance_times hk c.D c.y c.w _
  rw [hdv]
  refine outerLoop_weights (fun dev old => ⟨fun h => ?_, fun h => ?_⟩) (fun i dev old => ?_)
    (fun i d => paramLoop_weights (fun j => innerFit_weights hk c hM i j) _ d) _ _ _ _ _ (.inl rfl)
  · exact absurd h.1 (by omega)
  · exact absurd (show s.minIt ≤ 0 from h.1) (by omega)
  · change fitStops (c.cfg.inUnit k) s.minIt i _ _ ↔ _
    unfold fitStops
    rw [outerConverged_weights hk, Flt.times_lt hk]
    rfl

/-! ### `update` -/

theorem updateDeviance_times (hk : 0 < k) (c : Call μ p) (f0 : ℝ) (old : Flt) (fv : Fv) :
    updateDeviance (c.reweigh k) f0 (Flt.times k old) fv = Flt.times k (updateDeviance c f0 old fv) := by
  unfold updateDeviance
  rw [Flt.times_add, Flt.times_mul]
  exact congrArg (fun d => Flt.add d _) (deviance_times hk c.D c.y c.w fv)

theorem updateCoefs_weights (c : Call μ p) (hM : WeightFreeMethods k ok c.M) (j : ℕ) (X : Arr2) (wk : Working)
    (xg : Arr2) (yg : Arr1) : Py.Sim (WeightRel k ok) (WeightRel k ok) Eq (updateCoefs c j X wk xg yg)
      (updateCoefs (c.reweigh k) j X wk (scaleGram k xg) (scaleCross k yg)) := by
  unfold updateCoefs
  refine Py.Sim.bind_self fun s t hR => ?_
  have hR' := hR
  obtain ⟨⟨v, hv, rfl⟩, _⟩ := hR
  refine Py.Sim.bind (sim_okMethod hR' _ j _) fun m _ hm => ?_
  obtain ⟨rfl, hok⟩ := hm
  refine Py.Sim.bind (Py.sim_attr rfl _) fun reg _ hm => ?_
  subst hm
  refine Py.Sim.bind (Py.sim_attr rfl _) fun f _ hm => ?_
  subst hm
  have hp : ¬ c.M.pathBased m = true := by rw [hM.notPath m hok]; simp
  have hp' : ¬ (c.reweigh k).M.pathBased m = true := hp
  rw [if_neg hp, if_neg hp']
  refine Py.Sim.bind (Py.sim_attr rfl _) fun b _ hm => ?_
  subst hm
  refine Py.Sim.bind (Q := fun a b => a = b ∧ ok a.2) (Py.sim_call ?_) fun r _ hm => ?_
  · have e : (c.reweigh k).M.updateBeta m (scaleGram k xg) (scaleCross k yg) b reg = c.M.updateBeta m xg yg b reg :=
      hM.updateBeta m xg yg b reg hok
    rw [e]
    cases hr : c.M.updateBeta m xg yg b reg with
    | error e => exact .inl ⟨e, rfl, rfl⟩
    | ok r => exact .inr ⟨r, r, rfl, rfl, rfl, hM.updateOk m xg yg b reg r hok hr⟩
  obtain ⟨rfl, hr⟩ := hm
  refine Py.Sim.bind (Py.sim_set fun s t h => h.setMethod j hr) fun _ _ _ => ?_
  exact Py.sim_pure rfl

set_option maxHeartbeats 1000000 in
theorem updateIteration_weights (hk : 0 < k) (c : Call μ p) (hM : WeightFreeMethods k ok c.M) (j itO itI : ℕ) {a b : Inner}
    (hab : InnerWeights k a b) :
    Py.Sim (WeightRel k ok) (WeightRel k ok) (fun r r' => InnerWeights k r.1 r'.1 ∧ r'.2 = r.2)
      (updateIteration c j itO itI a) (updateIteration (c.reweigh k) j itO itI b) := by
  obtain ⟨aIt, aNew, dv0, dv1, n, bad, oa⟩ := a
  obtain ⟨bIt, bNew, dv0', dv1', n', bad', ob⟩ := b
  obtain ⟨h1, h2, h3, h4, h5, h6, h7⟩ := hab
  simp only at h1 h2 h3 h4 h5 h6 h7
  subst h1 h2 h3 h4 h5 h6
  unfold updateIteration
  refine Py.Sim.bind_self fun s t hR => ?_
  have hR' := hR
  obtain ⟨⟨v, hv, rfl⟩, _⟩ := hR
  refine Py.Sim.bind (Py.sim_call (BothRel.of_eq rfl)) fun step _ hm => ?_
  subst hm
  refine Py.Sim.bind (Py.sim_call (BothRel.of_eq rfl)) fun wk _ hm => ?_
  subst hm
  refine Py.Sim.bind (Py.sim_set fun s t h => debugWork_weights h _ _ wk _) fun _ _ _ => ?_
  refine Py.Sim.bind (Py.sim_attr rfl _) fun X _ hm => ?_
  subst hm
  refine Py.Sim.bind (sim_okMethod hR' _ j _) fun m _ hm => ?_
  obtain ⟨rfl, hok⟩ := hm
  refine Py.Sim.bind (Py.sim_attr rfl _) fun f _ hm => ?_
  subst hm
  have hw : wmul (c.reweigh k).w wk.wt = scaleCross k (wmul c.w wk.wt) := wmul_times hk c.w wk.wt
  rw [hw]
  refine Py.Sim.bind (sim_attr_map (g := scaleGram k) rfl _) fun x0 _ hm => ?_
  subst hm
  refine Py.Sim.bind (sim_call_map (hM.updateX m x0 X _ f hok)) fun xg _ hm => ?_
  obtain ⟨rfl, _⟩ := hm
  refine Py.Sim.bind (sim_attr_map (g := scaleCross k) rfl _) fun y0 _ hm => ?_
  subst hm
  refine Py.Sim.bind (sim_call_map (hM.updateY m y0 X wk.wv _ f hok)) fun yg _ hm => ?_
  obtain ⟨rfl, _⟩ := hm
  refine Py.Sim.bind (updateCoefs_weights c hM j X wk xg yg) fun co _ hm => ?_
  subst hm
  refine Py.Sim.bind (Py.sim_set fun s t h => debugBeta_weights h _ _ co.beta) fun _ _ _ => ?_
  refine Py.Sim.bind (Py.sim_call (BothRel.of_eq rfl)) fun xb _ hm => ?_
  subst hm
  refine Py.Sim.bind (sim_attr_some (hv.meanW j) _) fun meanW meanW' _ => ?_
  refine Py.Sim.bind (sim_attr_some hv.nObs _) fun nObs nObs' _ => ?_
  refine Py.Sim.bind (Py.sim_call (BothRel.of_eq rfl)) fun w _ hm => ?_
  subst hm
  refine Py.Sim.bind (Py.sim_attr rfl _) fun f0 _ hm => ?_
  subst hm
  refine Py.Sim.bind (sim_attr_map (g := Flt.times k) rfl _) fun old _ hm => ?_
  subst hm
  have e1 : ∀ u d, Flt.lt (Flt.times k u) (Flt.times k d) = Flt.lt u d := fun u d => propext (Flt.times_lt hk u d)
  have e2 : ∀ u d, innerConverged (c.reweigh k).cfg itI (Flt.times k u) (Flt.times k d) = innerConverged c.cfg itI u d :=
    fun u d => propext (innerConverged_weights hk c.cfg itI u d)
  dsimp only
  rw [updateDeviance_times hk, e1, e2]
  refine Py.Sim.bind (R' := WeightRel k ok) (Py.sim_set fun s t h => ?_) fun _ _ _ => ?_
  · split_ifs with hh
    · exact h.set (fun s => s.setScheduleStep fun o i j' => if o = itO - 1 ∧ i = itI ∧ j' = j then some (step / 2)
        else s.scheduleStep o i j') (fun _ => rfl) (fun v hv => ⟨hv.1, hv.2, hv.3, hv.4, hv.5, hv.6⟩) rfl rfl
    · exact h
  · refine Py.sim_pure ⟨⟨rfl, rfl, rfl, ?_, rfl, rfl, .inr ⟨_, _, rfl, rfl, ⟨rfl, rfl, rfl, rfl, rfl, rfl, rfl, rfl, rfl⟩⟩⟩, rfl⟩
    exact (apply_ite (Flt.times k) _ _ _).symm

theorem updateInnerLoop_weights (hk : 0 < k) (c : Call μ p) (hM : WeightFreeMethods k ok c.M) (j itO n itI : ℕ) {a b : Inner}
    (hab : InnerWeights k a b) :
    Py.Sim (WeightRel k ok) (WeightRel k ok) (InnerWeights k)
      (updateInnerLoop c j itO n itI a) (updateInnerLoop (c.reweigh k) j itO n itI b) := by
  induction n generalizing itI a b with
  | zero => exact Py.sim_pure hab
  | succ n ih =>
    unfold updateInnerLoop
    refine Py.Sim.bind (updateIteration_weights hk c hM j itO itI hab) fun r r' hr => ?_
    obtain ⟨h1, h2⟩ := hr
    rw [h2]
    split_ifs
    · exact Py.sim_pure h1
    · exact ih (itI + 1) h1

theorem commitUpdate_weights (c : Call μ p) (j : ℕ) {a b : Inner} (hab : InnerWeights k a b) {o o' : IterOut} (ho : OutWeights k o o')
    (f sw sw' nt nt' : Flt) {s t : GState μ p} (h : WeightRel k ok s t) :
    WeightRel k ok (commitUpdate c j a o f sw nt s) (commitUpdate (c.reweigh k) j b o' f sw' nt' t) := by
  obtain ⟨⟨v, hv, rfl⟩, h2, h3⟩ := h
  obtain ⟨it, wt, wv, xg, yg, be, pa, se, bi, rs, dv⟩ := o
  obtain ⟨it', wt', wv', xg', yg', be', pa', se', bi', rs', dv'⟩ := o'
  obtain ⟨e1, e2, e3, e4, e5, e6, e7, e8, e9⟩ := ho
  simp only at e1 e2 e3 e4 e5 e6 e7 e8 e9
  subst e1 e2 e3 e4 e5 e6 e7 e8 e9
  refine ⟨⟨⟨v.nObs, v.nTraining, v.sumW, v.meanW,
    upd v.sumWNew j (some (Flt.add (asum (wmul (c.reweigh k).w wt')) (Flt.mul (Flt.sub (.fin 1) f) sw'))),
    upd v.meanWNew j (some (Flt.div (Flt.add (asum (wmul (c.reweigh k).w wt')) (Flt.mul (Flt.sub (.fin 1) f) sw')) nt')),
    Function.update v.rss j rs', v.rssOld⟩, ⟨hv.1, hv.2, hv.3, hv.4, upd_isSome hv.5 j _ _, upd_isSome hv.6 j _ _⟩, ?_⟩,
    h2, h3⟩
  unfold commitUpdate
  simp only [GState.reweigh, hab.fvNew, upd_map]

theorem innerUpdate_weights (hk : 0 < k) (c : Call μ p) (hM : WeightFreeMethods k ok c.M) (itO j : ℕ) :
    Py.Sim (WeightRel k ok) (WeightRel k ok) (fun d d' => d' = Flt.times k d) (innerUpdate c itO j) (innerUpdate (c.reweigh k) itO j) := by
  unfold innerUpdate
  refine Py.Sim.bind_self fun s t hR => ?_
  obtain ⟨⟨v, hv, rfl⟩, _⟩ := hR
  refine Py.Sim.bind (Py.sim_attr rfl _) fun f0 _ hm => ?_
  subst hm
  refine Py.Sim.bind (sim_attr_map (g := Flt.times k) rfl _) fun old _ hm => ?_
  subst hm
  rw [updateDeviance_times hk]
  refine Py.Sim.bind (Py.sim_call (BothRel.of_eq rfl)) fun n _ hm => ?_
  subst hm
  refine Py.Sim.bind (updateInnerLoop_weights hk c hM j itO n 0 ⟨rfl, rfl, rfl, rfl, rfl, rfl, .inl ⟨rfl, rfl⟩⟩) fun a b hab => ?_
  refine Py.Sim.bind (Py.sim_attr_rel hab.out _) fun o o' ho => ?_
  refine Py.Sim.bind (Py.sim_attr rfl _) fun f _ hm => ?_
  subst hm
  refine Py.Sim.bind (sim_attr_some (hv.sumW j) _) fun sw sw' _ => ?_
  refine Py.Sim.bind (sim_attr_some (hv.nTraining j) _) fun nt nt' _ => ?_
  rw [ho.dv]
  refine Py.Sim.bind (Py.sim_set fun s t h => commitUpdate_weights c j hab ho _ _ _ _ _ h) fun _ _ _ => ?_
  exact Py.sim_pure rfl

theorem outerUpdate_weights (hk : 0 < k) (c : Call μ p) (hM : WeightFreeMethods k ok c.M) (fuel : ℕ) :
    Py.Sim (WeightRel k ok) (WeightRel k ok) (fun r r' => r' = r.map fun q => (Flt.times k q.1, q.2)) (outerUpdate c fuel)
      (outerUpdate (c.reweigh k) fuel) := by
  unfold outerUpdate
  refine Py.Sim.bind_self fun s t hR => ?_
  obtain ⟨⟨v, hv, rfl⟩, _, hmin⟩ := hR
  refine Py.Sim.bind (Py.sim_attr rfl _) fun f0 _ hm => ?_
  subst hm
  refine Py.Sim.bind (sim_attr_map (g := Flt.times k) rfl _) fun old _ hm => ?_
  subst hm
  have hdv : updateDeviance (c.reweigh k) f0 (Flt.times k old) (s.reweigh k v).fv = Flt.times k (updateDeviance c f0 old s.fv) :=
    updateDeviance_times hk c f0 old s.fv
  rw [hdv]
  refine outerLoop_weights (fun dev old => ⟨fun h => ?_, fun h => ?_⟩) (fun i dev old => ?_)
    (fun i d => paramLoop_weights (fun j => innerUpdate_weights hk c hM i j) _ d) _ _ _ _ _ (.inl rfl)
  · exact absurd h.1 (by omega)
  · exact absurd (show s.minIt ≤ 0 from h.1) (by omega)
  · change updateStops (c.cfg.inUnit k) s.minIt i _ _ ↔ _
    unfold updateStops
    rw [outerConverged_weights hk]
    rfl

end Ondil
