import Verif.Lemmas.GamlssOrigin

/-!
# The loops of two estimators whose responses are measured from different origins
-/

namespace Ondil

variable {μ : Type} {p : ℕ} {δ f0 : ℝ} {V : MoveView} {ok : μ → Prop} {E : Equation → Prop} {q : Prop} {N : ℕ → Prop}

/-- What a call has to satisfy: one entry per observation everywhere, and sample weights that are not negative. -/
structure MoveCallOk (V : MoveView) (δ f0 : ℝ) (ok : μ → Prop) (n : ℕ) (c : Call μ p) : Prop where
  dist : DistMoves c.D δ
  methods : V.Respects δ f0 ok c.M
  designs : DesignsOk V n c.X
  ys : c.y.length = n
  ws : c.w.length = n
  nonneg : ∀ u ∈ c.w, 0 ≤ u

theorem weightedRss_moved {wv pred wv' pred' : Arr1} {k : ℕ} (h1 : wv' = plusAt δ k wv) (h2 : pred' = plusAt δ k pred) (w f : List ℝ)
    (wt : Arr1) : weightedRss w f wt wv' pred' = weightedRss w f wt wv pred := by
  rw [h1, h2, weightedRss_plus]

theorem ite_sized {α : Type} {b : Bool} {x y : List α} {n : ℕ} (h1 : x.length = n) (h2 : y.length = n) :
    (if b = true then x else y).length = n := by
  split_ifs
  · exact h1
  · exact h2

set_option maxHeartbeats 1000000 in
theorem fitIteration_moved {n : ℕ} (c : Call μ p) (hc : MoveCallOk V δ f0 ok n c) (hcond : c.cfg.condStartVal = false)
    (k itO itI scheduled : ℕ) {a b : Inner} (hab : InnerMoved V δ n k a b) :
    Py.Sim (MovedRel V δ f0 ok E q N) (MovedRel V δ f0 ok E q N) (fun r r' => InnerMoved V δ n k r.1 r'.1 ∧ r'.2 = r.2)
      (fitIteration c k itO itI scheduled a) (fitIteration (c.plus δ) k itO itI scheduled b) := by
  obtain ⟨aIt, aNew, dv0, dv1, nn, bad, oa⟩ := a
  obtain ⟨bIt, bNew, dv0', dv1', nn', bad', ob⟩ := b
  obtain ⟨h1, h2, h3, h4, h5, h6, h7, hl1, hl2⟩ := hab
  simp only at h1 h2 h3 h4 h5 h6 h7 hl1 hl2
  subst h1 h2 h3 h4 h5 h6
  have hM := hc.methods
  have hD := hc.dist
  have hpath : (ob.bind fun o => o.path) = oa.bind fun o => o.path := by
    rcases h7 with ⟨rfl, rfl⟩ | ⟨o, o', rfl, rfl, ho⟩
    · rfl
    · exact ho.path
  unfold fitIteration
  refine Py.Sim.bind_self fun s t hR => ?_
  have hR' := hR
  obtain ⟨⟨v, hv, rfl⟩, _⟩ := hR
  refine Py.Sim.bind (Py.sim_call (BothRel.of_eq rfl)) fun step _ hm => ?_
  subst hm
  have hs : startValues c k itO itI aIt = .ok aIt := by unfold startValues; rw [if_neg (by simp [hcond])]
  have hs' : startValues (c.plus δ) k itO itI (aIt.map (locationPlus δ)) = .ok (aIt.map (locationPlus δ)) := by
    unfold startValues
    rw [if_neg (by simp [Call.plus, hcond])]
  refine Py.Sim.bind (Q := fun x x' => x = aIt ∧ x' = aIt.map (locationPlus δ)) (Py.sim_call (.inr ⟨_, _, hs, hs', rfl, rfl⟩))
    fun fvIt fvIt' hm => ?_
  obtain ⟨rfl, rfl⟩ := hm
  refine Py.Sim.bind (Py.sim_call (bothRel_ofMap (P := fun wk => working c.D fitClip c.y fvIt k = .ok wk)
    (working_plus hD fitClip c.y fvIt k) fun wk h => h)) fun wk wk' hm => ?_
  obtain ⟨rfl, hwk⟩ := hm
  have hsz := working_sized hD hwk (hc.ys.trans hl1.symm)
  rw [hc.ys] at hsz
  have hgood := wmul_good hc.nonneg (working_fitGood hwk)
  have hwl := wmul_sized hc.ws hsz.wt
  refine Py.Sim.bind (Py.sim_set fun s t h => debugWork_moved h _ _ (wk := wk) (wk' := wk.plus δ k) rfl fvIt _) fun _ _ _ => ?_
  refine Py.Sim.bind (Q := fun A A' => A = A' ∧ c.X k = some A) (Py.sim_attr_rel ?_ _) fun X _ hm => ?_
  · change (c.X k = none ∧ c.X k = none) ∨ ∃ a b, c.X k = some a ∧ c.X k = some b ∧ _
    cases c.X k with
    | none => exact .inl ⟨rfl, rfl⟩
    | some A => exact .inr ⟨A, A, rfl, rfl, rfl, rfl⟩
  obtain ⟨rfl, hXk⟩ := hm
  have hX0 : k = 0 → V.X n X := fun h => hc.designs.location X (by rw [← h]; exact hXk)
  have hXl := hc.designs.rows k X hXk
  refine Py.Sim.bind (sim_movedMethod hR' _ k _) fun m _ hm => ?_
  obtain ⟨rfl, hok⟩ := hm
  refine Py.Sim.bind (sim_movedForget hR' _ k _) fun f _ hm => ?_
  obtain ⟨rfl, hf⟩ := hm
  refine Py.Sim.bind (Py.sim_call (bothRel_self (P := fun G => c.M.initX m X (wmul c.w wk.wt) f = .ok G) fun _ h => h)) fun xg _ hm => ?_
  obtain ⟨rfl, hxg⟩ := hm
  refine Py.Sim.bind (Py.sim_call (initY_moved hM hok hX0 hsz.wv hwl hgood hf hxg)) fun yg yg' hyg => ?_
  rw [hpath]
  refine Py.Sim.bind (fitCoefs_moved c hM k itO itI _ wk (wk.plus δ k) hyg) fun co co' hco => ?_
  refine Py.Sim.bind (Py.sim_set fun s t h => debugBeta_moved h _ _ co.beta co'.beta) fun _ _ _ => ?_
  refine Py.Sim.bind (Py.sim_call (bothRel_ofMap (P := fun r => r.length = n) (predict_moved hM hX0 hco.beta)
    fun r h => (matVec_sized h).trans hXl)) fun xb xb' hm => ?_
  obtain ⟨rfl, hxb⟩ := hm
  have hpred := damp_plusAt δ step k xb wk.eta
  have hpl : (List.zipWith (fun u e => Flt.add (Flt.mul (.fin step) u) (Flt.mul (.fin (1 - step)) e)) xb wk.eta).length = n := by
    simp [hxb, hsz.eta]
  change Py.Sim _ _ _ _ (Py.call (c.D.linkInverse k (List.zipWith (fun u e => Flt.add (Flt.mul (.fin step) u)
    (Flt.mul (.fin (1 - step)) e)) (plusAt δ k xb) (plusAt δ k wk.eta))) >>= _)
  rw [hpred]
  refine Py.Sim.bind (Py.sim_call (bothRel_ofMap (P := fun r => r.length = n) (hD.inverse k _)
    fun r h => (hD.inverseLen _ _ _ h).trans hpl)) fun w w' hm => ?_
  obtain ⟨rfl, hw⟩ := hm
  have hdv : deviance (c.plus δ).D (c.plus δ).y (c.plus δ).w (Fv.setCol (aNew.map (locationPlus δ)) k (plusAt δ k w)) =
      deviance c.D c.y c.w (aNew.setCol k w) := by
    rw [setCol_plus]
    exact deviance_plus hD c.y c.w _
  have hrss : ∀ (f : ℝ), weightedRss (c.plus δ).w (initForgetVector f (c.plus δ).y.length) (wk.plus δ k).wt (wk.plus δ k).wv
      (List.zipWith (fun u e => Flt.add (Flt.mul (.fin step) u) (Flt.mul (.fin (1 - step)) e)) (plusAt δ k xb) (wk.plus δ k).eta) =
      weightedRss c.w (initForgetVector f c.y.length) wk.wt wk.wv
        (List.zipWith (fun u e => Flt.add (Flt.mul (.fin step) u) (Flt.mul (.fin (1 - step)) e)) xb wk.eta) := by
    intro f
    have hlen : (c.plus δ).y.length = c.y.length := by simp [Call.plus]
    rw [hlen]
    exact weightedRss_moved (k := k) rfl hpred _ _ _
  have hlen : (c.plus δ).y.length = c.y.length := by simp [Call.plus]
  dsimp only
  rw [hdv, hrss, hlen]
  refine Py.Sim.bind (R' := MovedRel V δ f0 ok E q N) (Py.sim_set fun s t h => ?_) fun _ _ _ => ?_
  · split_ifs with hh
    · exact h.set (fun s => s.setScheduleStep fun o i j' => if o = itO - 1 ∧ i = itI + 1 ∧ j' = k then some (step / 2)
        else s.scheduleStep o i j') (fun _ => rfl) ⟨rfl, rfl, rfl, rfl, rfl, rfl⟩ ⟨rfl, rfl, rfl, rfl, rfl⟩
    · exact h
  · have hset : (aNew.setCol k w).length = n := by rw [setCol_sized, hl2, hw, min_self]
    have hcol : ((aNew.setCol k w).col k).length = n := by simp [Fv.col, hset]
    refine Py.sim_pure ⟨⟨?_, setCol_plus aNew k w, rfl, rfl, rfl, rfl, .inr ⟨_, _, rfl, rfl,
      ⟨rfl, rfl, rfl, hyg, hco.beta, hco.path, hco.selection, hco.bestIc, rfl, rfl⟩⟩, ?_, hset⟩, rfl⟩
    · dsimp only
      rw [setCol_plus, col_plus, setCol_plus]
      exact (apply_ite (List.map (locationPlus δ)) _ _ _).symm
    · exact ite_sized (by rw [setCol_sized, hl1, hcol, min_self]) hl1

theorem fitInnerLoop_moved {n : ℕ} (c : Call μ p) (hc : MoveCallOk V δ f0 ok n c) (hcond : c.cfg.condStartVal = false)
    (k itO scheduled l itI : ℕ) {a b : Inner} (hab : InnerMoved V δ n k a b) :
    Py.Sim (MovedRel V δ f0 ok E q N) (MovedRel V δ f0 ok E q N) (InnerMoved V δ n k)
      (fitInnerLoop c k itO scheduled l itI a) (fitInnerLoop (c.plus δ) k itO scheduled l itI b) := by
  induction l generalizing itI a b with
  | zero => exact Py.sim_pure hab
  | succ l ih =>
    unfold fitInnerLoop
    refine Py.Sim.bind (fitIteration_moved c hc hcond k itO itI scheduled hab) fun r r' hr => ?_
    obtain ⟨h1, h2⟩ := hr
    rw [h2]
    split_ifs
    · exact Py.sim_pure h1
    · exact ih (itI + 1) h1

theorem pairs_upd {G : ℕ → Option Arr2} {h h' : ℕ → Option Arr1} (hp : V.Pairs G h h') (k : ℕ) {g : Arr2} {a a' : Arr1}
    (ha : V.HAt k g a a') : V.Pairs (upd G k (some g)) (upd h k (some a)) (upd h' k (some a')) := by
  by_cases hk : k = 0
  · subst hk
    refine ⟨fun i hi => ?_, .inr ⟨g, a, a', upd_self, upd_self, upd_self, ha⟩⟩
    rw [upd_other _ hi, upd_other _ hi]
    exact hp.1 i hi
  · refine ⟨fun i hi => ?_, ?_⟩
    · by_cases hik : i = k
      · subst hik
        rw [upd_self, upd_self, (HAt_other hk).1 ha]
      · rw [upd_other _ hik, upd_other _ hik]
        exact hp.1 i hi
    · rw [upd_other _ (Ne.symm hk), upd_other _ (Ne.symm hk), upd_other _ (Ne.symm hk)]
      exact hp.2

theorem coef_upd {f g : ℕ → Option Arr1}
    (h : ∀ k, OptRel (fun b b' => (k ≠ 0 → b' = b) ∧ (k = 0 → q → V.B b b')) (f k) (g k)) (k : ℕ) {b b' : Arr1} (hb : V.BAt k b b')
    {q' : Prop} (hq : q' → q ∨ k = 0) (i : ℕ) :
    OptRel (fun b b' => (i ≠ 0 → b' = b) ∧ (i = 0 → q' → V.B b b')) (upd f k (some b) i) (upd g k (some b') i) := by
  by_cases hi : i = k
  · subst hi
    rw [upd_self, upd_self]
    exact .inr ⟨b, b', rfl, rfl, fun h0 => (BAt_other h0).1 hb, fun h0 _ => by subst h0; exact BAt_zero.1 hb⟩
  · rw [upd_other _ hi, upd_other _ hi]
    rcases h i with h | ⟨x, y, e1, e2, h1, h2⟩
    · exact .inl h
    · refine .inr ⟨x, y, e1, e2, h1, fun h0 hq' => ?_⟩
      rcases hq hq' with h3 | h3
      · exact h2 h0 h3
      · exact absurd (h0.trans h3.symm) hi

theorem commitFit_moved {n : ℕ} (c : Call μ p) (k : ℕ) {a b : Inner} (hab : InnerMoved V δ n k a b) {o o' : IterOut}
    (ho : OutMoved V k o o') {s t : GState μ p} (h : MovedRel V δ f0 ok E q (· = n) s t) :
    MovedRel V δ f0 ok E (q ∨ k = 0) (· = n) (commitFit c k a o s) (commitFit (c.plus δ) k b o' t) := by
  obtain ⟨⟨v, hv, rfl⟩, h2, h3⟩ := h
  obtain ⟨it, wt, wv, xg, yg, be, pa, se, bi, rs, dv⟩ := o
  obtain ⟨it', wt', wv', xg', yg', be', pa', se', bi', rs', dv'⟩ := o'
  obtain ⟨e1, e2, e3, e4, e5, e6, e7, e8, e9, e10⟩ := ho
  simp only at e1 e2 e3 e4 e5 e6 e7 e8 e9 e10
  subst e1 e2 e3 e6 e7 e8 e9 e10
  have hcol : (a.fvNew.col k).length = n := by simp [Fv.col, hab.lenNew]
  refine ⟨⟨⟨(s.fv.setCol k (a.fvNew.col k)).map (locationPlus δ), upd v.yGram k (some yg'), v.yGramNew, upd v.coef k (some be'),
    v.debugWorking, v.debugEta, v.debugFv, v.debugCoef⟩, ⟨rfl, pairs_upd hv.2 k e4, hv.3, coef_upd hv.4 k e5 id⟩, ?_⟩,
    h2.keep ⟨rfl, rfl, rfl, rfl, rfl⟩, ?_⟩
  · unfold commitFit
    rw [hab.fvNew, col_plus]
    have hfv : (s.moved v).fv = s.fv.map (locationPlus δ) := hv.1
    rw [hfv, setCol_plus]
    rfl
  · change (s.fv.setCol k (a.fvNew.col k)).length = n
    rw [setCol_sized, h3, hcol, min_self]

theorem innerFit_moved {n : ℕ} (c : Call μ p) (hc : MoveCallOk V δ f0 ok n c) (hcond : c.cfg.condStartVal = false) (itO k : ℕ) :
    Py.Sim (MovedRel V δ f0 ok E q (· = n)) (MovedRel V δ f0 ok E (q ∨ (itO = 1 ∧ k = 0)) (· = n)) Eq
      (innerFit c itO k) (innerFit (c.plus δ) itO k) := by
  unfold innerFit
  refine Py.Sim.bind_self fun s t hR => ?_
  obtain ⟨⟨v, hv, rfl⟩, _, hlen⟩ := hR
  have hfv : (s.moved v).fv = s.fv.map (locationPlus δ) := hv.1
  have hdv : deviance (c.plus δ).D (c.plus δ).y (c.plus δ).w (s.moved v).fv = deviance c.D c.y c.w s.fv := by
    rw [hfv]
    exact deviance_plus hc.dist c.y c.w _
  rw [hdv, hfv]
  refine Py.Sim.bind (Py.sim_call (BothRel.of_eq rfl)) fun l _ hm => ?_
  subst hm
  refine Py.Sim.bind (fitInnerLoop_moved c hc hcond k itO l l 0 ⟨rfl, rfl, rfl, rfl, rfl, rfl, .none, hlen, hlen⟩) fun a b hab => ?_
  refine Py.Sim.bind (Py.sim_attr_rel hab.out _) fun o o' ho => ?_
  rw [hab.badState, ho.it, ho.dv]
  refine Py.Sim.bind (R' := MovedRel V δ f0 ok E (q ∨ (itO = 1 ∧ k = 0)) (· = n)) (Py.sim_set fun s t h => ?_) fun _ _ _ => ?_
  · split_ifs with hh
    · exact (commitFit_moved c k hab ho h).weaken (fun h => h.imp id fun h => h.2) fun _ h => h
    · exact h.weaken (fun h => h.elim id fun h => absurd (.inr h.1) hh) fun _ h => h
  refine Py.Sim.bind (Py.sim_set fun s t h => h.set (fun s => s.setItInner (Function.update s.itInner k o.it)) (fun _ => rfl)
    ⟨rfl, rfl, rfl, rfl, rfl, rfl⟩ ⟨rfl, rfl, rfl, rfl, rfl⟩) fun _ _ _ => ?_
  exact Py.sim_pure rfl

theorem paramLoop_moved {σ : Type} {R : Prop → σ → σ → Prop} (hR : ∀ q q' s t, (q' → q) → R q s t → R q' s t) {f g : ℕ → Py σ Flt}
    (h : ∀ q j, Py.Sim (R q) (R (q ∨ j = 0)) Eq (f j) (g j)) (l : List ℕ) (dev : Flt) (q : Prop) :
    Py.Sim (R q) (R (q ∨ 0 ∈ l)) Eq (paramLoop f l dev) (paramLoop g l dev) := by
  induction l generalizing dev q with
  | nil =>
    intro s t hst
    exact .inr ⟨dev, dev, s, t, rfl, rfl, rfl, hR q _ s t (by simp) hst⟩
  | cons j l ih =>
    unfold paramLoop
    refine Py.Sim.bind (h q j) fun d _ hd => ?_
    subst hd
    have := ih d (q ∨ j = 0)
    have e : (((q ∨ j = 0) ∨ 0 ∈ l) : Prop) = (q ∨ 0 ∈ j :: l) := by
      rw [List.mem_cons, or_assoc, eq_comm (a := j)]
    rw [e] at this
    exact this

theorem outerFit_moved {n : ℕ} (c : Call μ p) (hc : MoveCallOk V δ f0 ok n c) (hcond : c.cfg.condStartVal = false) {fuel : ℕ} (hfuel : 0 < fuel) :
    Py.Sim (fun s t => MovedRel V δ f0 ok E False (· = n) s t ∧ 1 ≤ s.minIt) (MovedRel V δ f0 ok E True (· = n)) Eq
      (outerFit c fuel) (outerFit (c.plus δ) fuel) := by
  unfold outerFit
  refine Py.Sim.bind_self fun s t hR => ?_
  obtain ⟨⟨⟨v, hv, rfl⟩, hopt, hlen⟩, hmin⟩ := hR
  have hfv : (s.moved v).fv = s.fv.map (locationPlus δ) := hv.1
  have hdv : deviance (c.plus δ).D (c.plus δ).y (c.plus δ).w (s.moved v).fv = deviance c.D c.y c.w s.fv := by
    rw [hfv]
    exact deviance_plus hc.dist c.y c.w _
  rw [hdv]
  obtain ⟨fuel, rfl⟩ := Nat.exists_eq_succ_of_ne_zero hfuel.ne'
  change Py.Sim _ _ _ (outerLoop _ _ _ _ _ _) (outerLoop (fitStops c.cfg s.minIt)
    (fun itO dev => paramLoop (innerFit (c.plus δ) itO) s.paramOrder dev) _ _ _ _)
  unfold outerLoop
  have hns : ∀ d d', ¬ fitStops c.cfg s.minIt 0 d d' := fun d d' h => absurd h.1 (by omega)
  rw [if_neg (hns _ _), if_neg (hns _ _)]
  refine Py.Sim.bind (R' := MovedRel V δ f0 ok E True (· = n)) (Q := Eq) ?_ fun d _ hd => ?_
  · have h1 := paramLoop_moved (R := fun q => MovedRel V δ f0 ok E q (· = n)) (fun q q' s t h hs => hs.weaken h fun _ h => h)
      (f := innerFit c 1) (g := innerFit (c.plus δ) 1)
      (fun q j => by
        have := innerFit_moved (V := V) (f0 := f0) (ok := ok) (E := E) (q := q) c hc hcond 1 j
        simpa using this) s.paramOrder (deviance c.D c.y c.w s.fv) False
    intro s' t' hst
    rcases h1 s' t' hst.1 with h | ⟨a, b, s2, t2, e1, e2, e3, h3⟩
    · exact .inl h
    · exact .inr ⟨a, b, s2, t2, e1, e2, e3, h3.weaken (fun _ => .inr hopt.3) fun _ h => h⟩
  · subst hd
    refine outerLoop_same (fun i d => paramLoop_same (fun j => ?_) _ d) _ _ _ _
    intro s' t' hst
    rcases innerFit_moved (q := True) c hc hcond i j s' t' hst with h | ⟨a, b, s2, t2, e1, e2, e3, h3⟩
    · exact .inl h
    · exact .inr ⟨a, b, s2, t2, e1, e2, e3, h3.weaken (fun _ => .inl trivial) fun _ h => h⟩

/-! ### `update` -/

theorem updateBeta_moved {M : MethodOps μ} (hM : V.Respects δ f0 ok M) (k : ℕ) {m : μ} (hm : ok m) {G : Arr2} {h h' b b' : Arr1}
    (reg : List Bool) (hh : V.HAt k G h h') (hb : k ≠ 0 → b' = b) :
    BothRel (fun r r' => V.BAt k r.1 r'.1 ∧ r'.2 = r.2 ∧ ok r.2) (M.updateBeta m G h b reg) (M.updateBeta m G h' b' reg) := by
  by_cases hk : k = 0
  · subst hk
    have hkeep := hM.updateKeeps m G h b reg
    rcases hM.updateBeta m G h h' b b' reg hm (HAt_zero.1 hh) with hb | ⟨r, r', h1, h2, h3, h4⟩
    · exact .inl hb
    · exact .inr ⟨r, r', h1, h2, BAt_zero.2 h3, h4, hkeep r hm h1⟩
  · rw [(HAt_other hk).1 hh, hb hk]
    cases hr : M.updateBeta m G h b reg with
    | error e => exact .inl ⟨e, rfl, rfl⟩
    | ok r => exact .inr ⟨r, r, rfl, rfl, (BAt_other hk).2 rfl, rfl, hM.updateKeeps m G h b reg r hm hr⟩

theorem updateCoefs_moved (c : Call μ p) (hM : V.Respects δ f0 ok c.M) (k : ℕ) {X : Arr2}
    (wk wk' : Working) {xg : Arr2} {yg yg' : Arr1} (hy : V.HAt k xg yg yg') :
    Py.Sim (MovedRel V δ f0 ok E q N) (MovedRel V δ f0 ok E q N) (CoefsMoved V k) (updateCoefs c k X wk xg yg)
      (updateCoefs (c.plus δ) k X wk' xg yg') := by
  unfold updateCoefs
  refine Py.Sim.bind_self fun s t hR => ?_
  have hR' := hR
  obtain ⟨⟨v, hv, rfl⟩, _⟩ := hR
  refine Py.Sim.bind (sim_movedMethod hR' _ k _) fun m _ hm => ?_
  obtain ⟨rfl, hok⟩ := hm
  refine Py.Sim.bind (Py.sim_attr rfl _) fun reg _ hm => ?_
  subst hm
  refine Py.Sim.bind (Py.sim_attr rfl _) fun f _ hm => ?_
  subst hm
  have hp : ¬ c.M.pathBased m = true := by rw [hM.notPath m hok]; simp
  have hp' : ¬ (c.plus δ).M.pathBased m = true := hp
  rw [if_neg hp, if_neg hp']
  refine Py.Sim.bind (Py.sim_attr_rel (hv.coef k) _) fun b b' hbb => ?_
  refine Py.Sim.bind (Py.sim_call (updateBeta_moved hM k hok reg hy hbb.1)) fun r r' hm => ?_
  obtain ⟨hb, e, hr⟩ := hm
  rw [e]
  refine Py.Sim.bind (Py.sim_set fun s t h => h.setMethod k hr) fun _ _ _ => ?_
  exact Py.sim_pure ⟨hb, rfl, rfl, rfl⟩

/-- The working weights of `update` are not negative. -/
def CurvesDown (c : Call μ p) : Prop :=
  ∀ k fv wk, working c.D updateClip c.y fv k = .ok wk → ∀ v ∈ wk.wt, GoodWeight v

theorem updateDeviance_plus (c : Call μ p) (hD : DistMoves c.D δ) (f : ℝ) (old : Flt) (fv : Fv) :
    updateDeviance (c.plus δ) f old (fv.map (locationPlus δ)) = updateDeviance c f old fv := by
  unfold updateDeviance
  have h : deviance (c.plus δ).D (c.plus δ).y (c.plus δ).w (fv.map (locationPlus δ)) = deviance c.D c.y c.w fv :=
    deviance_plus hD c.y c.w fv
  have hl : (c.plus δ).y.length = c.y.length := by simp [Call.plus]
  rw [h, hl]

set_option maxHeartbeats 1000000 in
theorem updateIteration_moved {n : ℕ} (c : Call μ p) (hc : MoveCallOk V δ f0 ok n c) (hcv : CurvesDown c)
    (k itO itI : ℕ) {a b : Inner} (hab : InnerMoved V δ n k a b) :
    Py.Sim (MovedRel V δ f0 ok E q N) (MovedRel V δ f0 ok E q N) (fun r r' => InnerMoved V δ n k r.1 r'.1 ∧ r'.2 = r.2)
      (updateIteration c k itO itI a) (updateIteration (c.plus δ) k itO itI b) := by
  obtain ⟨aIt, aNew, dv0, dv1, nn, bad, oa⟩ := a
  obtain ⟨bIt, bNew, dv0', dv1', nn', bad', ob⟩ := b
  obtain ⟨h1, h2, h3, h4, h5, h6, h7, hl1, hl2⟩ := hab
  simp only at h1 h2 h3 h4 h5 h6 h7 hl1 hl2
  subst h1 h2 h3 h4 h5 h6
  have hM := hc.methods
  have hD := hc.dist
  have hlen : (c.plus δ).y.length = c.y.length := by simp [Call.plus]
  unfold updateIteration
  refine Py.Sim.bind_self fun s t hR => ?_
  have hR' := hR
  obtain ⟨⟨v, hv, rfl⟩, _⟩ := hR
  refine Py.Sim.bind (Py.sim_call (BothRel.of_eq rfl)) fun step _ hm => ?_
  subst hm
  refine Py.Sim.bind (Py.sim_call (bothRel_ofMap (P := fun wk => working c.D updateClip c.y aIt k = .ok wk)
    (working_plus hD updateClip c.y aIt k) fun wk h => h)) fun wk wk' hm => ?_
  obtain ⟨rfl, hwk⟩ := hm
  have hsz := working_sized hD hwk (hc.ys.trans hl1.symm)
  rw [hc.ys] at hsz
  have hgood := wmul_good hc.nonneg (hcv k aIt wk hwk)
  have hwl := wmul_sized hc.ws hsz.wt
  refine Py.Sim.bind (Py.sim_set fun s t h => debugWork_moved h _ _ (wk := wk) (wk' := wk.plus δ k) rfl aIt _) fun _ _ _ => ?_
  refine Py.Sim.bind (Q := fun A A' => A = A' ∧ c.X k = some A) (Py.sim_attr_rel ?_ _) fun X _ hm => ?_
  · change (c.X k = none ∧ c.X k = none) ∨ ∃ a b, c.X k = some a ∧ c.X k = some b ∧ _
    cases c.X k with
    | none => exact .inl ⟨rfl, rfl⟩
    | some A => exact .inr ⟨A, A, rfl, rfl, rfl, rfl⟩
  obtain ⟨rfl, hXk⟩ := hm
  have hX0 : k = 0 → V.X n X := fun h => hc.designs.location X (by rw [← h]; exact hXk)
  have hXl := hc.designs.rows k X hXk
  refine Py.Sim.bind (sim_movedMethod hR' _ k _) fun m _ hm => ?_
  obtain ⟨rfl, hok⟩ := hm
  refine Py.Sim.bind (sim_movedForget hR' _ k _) fun f _ hm => ?_
  obtain ⟨rfl, hf⟩ := hm
  refine Py.Sim.bind (Q := fun x x' => x = x' ∧ s.xGram k = some x) (Py.sim_attr_rel ?_ _) fun x0 _ hm => ?_
  · change (s.xGram k = none ∧ s.xGram k = none) ∨ ∃ a b, s.xGram k = some a ∧ s.xGram k = some b ∧ _
    cases s.xGram k with
    | none => exact .inl ⟨rfl, rfl⟩
    | some A => exact .inr ⟨A, A, rfl, rfl, rfl, rfl⟩
  obtain ⟨rfl, hx0⟩ := hm
  refine Py.Sim.bind (Py.sim_call (bothRel_self (P := fun G => c.M.updateX m x0 X (wmul c.w wk.wt) f = .ok G) fun _ h => h)) fun xg _ hm => ?_
  obtain ⟨rfl, hxg⟩ := hm
  refine Py.Sim.bind (Q := fun y y' => V.HAt k x0 y y') (Py.sim_attr_rel ?_ _) fun y0 y0' hy0 => ?_
  · change (s.yGram k = none ∧ v.yGram k = none) ∨ ∃ a b, s.yGram k = some a ∧ v.yGram k = some b ∧ _
    by_cases hk : k = 0
    · subst hk
      rcases hv.yGram.2 with h | ⟨g, y, y', e1, e2, e3, e4⟩
      · exact .inl h
      · rw [hx0] at e1
        cases e1
        exact .inr ⟨y, y', e2, e3, e4⟩
    · rw [hv.yGram.1 k hk]
      cases s.yGram k with
      | none => exact .inl ⟨rfl, rfl⟩
      | some y => exact .inr ⟨y, y, rfl, rfl, (HAt_other hk).2 rfl⟩
  refine Py.Sim.bind (Py.sim_call (updateY_moved hM hok hX0 hsz.wv hwl hgood hf hy0 hxg)) fun yg yg' hyg => ?_
  refine Py.Sim.bind (updateCoefs_moved c hM k wk (wk.plus δ k) hyg) fun co co' hco => ?_
  refine Py.Sim.bind (Py.sim_set fun s t h => debugBeta_moved h _ _ co.beta co'.beta) fun _ _ _ => ?_
  refine Py.Sim.bind (Py.sim_call (bothRel_ofMap (P := fun r => r.length = n) (predict_moved hM hX0 hco.beta)
    fun r h => (matVec_sized h).trans hXl)) fun xb xb' hm => ?_
  obtain ⟨rfl, hxb⟩ := hm
  refine Py.Sim.bind (Py.sim_attr rfl _) fun meanW _ hm => ?_
  subst hm
  refine Py.Sim.bind (Py.sim_attr rfl _) fun nObs _ hm => ?_
  subst hm
  refine Py.Sim.bind (Py.sim_call (bothRel_ofMap (P := fun r => r.length = n) (hD.inverse k xb)
    fun r h => (hD.inverseLen _ _ _ h).trans hxb)) fun w w' hm => ?_
  obtain ⟨rfl, hw⟩ := hm
  refine Py.Sim.bind (Py.sim_attr rfl _) fun f1 _ hm => ?_
  subst hm
  refine Py.Sim.bind (Py.sim_attr rfl _) fun old _ hm => ?_
  subst hm
  have hdv : updateDeviance (c.plus δ) f1 old (Fv.setCol (aNew.map (locationPlus δ)) k (plusAt δ k w)) =
      updateDeviance c f1 old (aNew.setCol k w) := by
    rw [setCol_plus]
    exact updateDeviance_plus c hD f1 old _
  have hrss : weightedRss (c.plus δ).w (initForgetVector f c.y.length) (wk.plus δ k).wt (wk.plus δ k).wv (plusAt δ k xb) =
      weightedRss c.w (initForgetVector f c.y.length) wk.wt wk.wv xb := weightedRss_moved (k := k) rfl rfl _ _ _
  dsimp only
  rw [hdv, hlen, hrss]
  refine Py.Sim.bind (R' := MovedRel V δ f0 ok E q N) (Py.sim_set fun s t h => ?_) fun _ _ _ => ?_
  · split_ifs with hh
    · exact h.set (fun s => s.setScheduleStep fun o i j' => if o = itO - 1 ∧ i = itI ∧ j' = k then some (step / 2)
        else s.scheduleStep o i j') (fun _ => rfl) ⟨rfl, rfl, rfl, rfl, rfl, rfl⟩ ⟨rfl, rfl, rfl, rfl, rfl⟩
    · exact h
  · have hset : (aNew.setCol k w).length = n := by rw [setCol_sized, hl2, hw, min_self]
    have hcol : ((aNew.setCol k w).col k).length = n := by simp [Fv.col, hset]
    refine Py.sim_pure ⟨⟨?_, setCol_plus aNew k w, rfl, rfl, rfl, rfl, .inr ⟨_, _, rfl, rfl,
      ⟨rfl, rfl, rfl, hyg, hco.beta, hco.path, hco.selection, hco.bestIc, rfl, rfl⟩⟩, ?_, hset⟩, rfl⟩
    · dsimp only
      rw [setCol_plus, col_plus, setCol_plus]
      exact (apply_ite (List.map (locationPlus δ)) _ _ _).symm
    · exact ite_sized (by rw [setCol_sized, hl1, hcol, min_self]) hl1

theorem updateInnerLoop_moved {n : ℕ} (c : Call μ p) (hc : MoveCallOk V δ f0 ok n c) (hcv : CurvesDown c)
    (k itO l itI : ℕ) {a b : Inner} (hab : InnerMoved V δ n k a b) :
    Py.Sim (MovedRel V δ f0 ok E q N) (MovedRel V δ f0 ok E q N) (InnerMoved V δ n k)
      (updateInnerLoop c k itO l itI a) (updateInnerLoop (c.plus δ) k itO l itI b) := by
  induction l generalizing itI a b with
  | zero => exact Py.sim_pure hab
  | succ l ih =>
    unfold updateInnerLoop
    refine Py.Sim.bind (updateIteration_moved c hc hcv k itO itI hab) fun r r' hr => ?_
    obtain ⟨h1, h2⟩ := hr
    rw [h2]
    split_ifs
    · exact Py.sim_pure h1
    · exact ih (itI + 1) h1

theorem commitUpdate_moved {n : ℕ} (c : Call μ p) (k : ℕ) {a b : Inner} (hab : InnerMoved V δ n k a b) {o o' : IterOut}
    (ho : OutMoved V k o o') (f sw nt : Flt) {s t : GState μ p} (h : MovedRel V δ f0 ok E q (· = n) s t) :
    MovedRel V δ f0 ok E q (· = n) (commitUpdate c k a o f sw nt s) (commitUpdate (c.plus δ) k b o' f sw nt t) := by
  obtain ⟨⟨v, hv, rfl⟩, h2, h3⟩ := h
  obtain ⟨it, wt, wv, xg, yg, be, pa, se, bi, rs, dv⟩ := o
  obtain ⟨it', wt', wv', xg', yg', be', pa', se', bi', rs', dv'⟩ := o'
  obtain ⟨e1, e2, e3, e4, e5, e6, e7, e8, e9, e10⟩ := ho
  simp only at e1 e2 e3 e4 e5 e6 e7 e8 e9 e10
  subst e1 e2 e3 e6 e7 e8 e9 e10
  have hcol : (a.fvNew.col k).length = n := by simp [Fv.col, hab.lenNew]
  refine ⟨⟨⟨(s.fv.setCol k (a.fvNew.col k)).map (locationPlus δ), v.yGram, upd v.yGramNew k (some yg'), upd v.coef k (some be'),
    v.debugWorking, v.debugEta, v.debugFv, v.debugCoef⟩, ⟨rfl, hv.2, pairs_upd hv.3 k e4, coef_upd hv.4 k e5 .inl⟩, ?_⟩,
    h2.keep ⟨rfl, rfl, rfl, rfl, rfl⟩, ?_⟩
  · unfold commitUpdate
    rw [hab.fvNew, col_plus]
    have hfv : (s.moved v).fv = s.fv.map (locationPlus δ) := hv.1
    rw [hfv, setCol_plus]
    rfl
  · change (s.fv.setCol k (a.fvNew.col k)).length = n
    rw [setCol_sized, h3, hcol, min_self]

theorem innerUpdate_moved {n : ℕ} (c : Call μ p) (hc : MoveCallOk V δ f0 ok n c) (hcv : CurvesDown c) (itO k : ℕ) :
    Py.Sim (MovedRel V δ f0 ok E q (· = n)) (MovedRel V δ f0 ok E q (· = n)) Eq (innerUpdate c itO k) (innerUpdate (c.plus δ) itO k) := by
  unfold innerUpdate
  refine Py.Sim.bind_self fun s t hR => ?_
  obtain ⟨⟨v, hv, rfl⟩, _, hlen⟩ := hR
  have hfv : (s.moved v).fv = s.fv.map (locationPlus δ) := hv.1
  refine Py.Sim.bind (Py.sim_attr rfl _) fun f1 _ hm => ?_
  subst hm
  refine Py.Sim.bind (Py.sim_attr rfl _) fun old _ hm => ?_
  subst hm
  rw [hfv, updateDeviance_plus c hc.dist]
  refine Py.Sim.bind (Py.sim_call (BothRel.of_eq rfl)) fun l _ hm => ?_
  subst hm
  refine Py.Sim.bind (updateInnerLoop_moved c hc hcv k itO l 0 ⟨rfl, rfl, rfl, rfl, rfl, rfl, .none, hlen, hlen⟩) fun a b hab => ?_
  refine Py.Sim.bind (Py.sim_attr_rel hab.out _) fun o o' ho => ?_
  refine Py.Sim.bind (Py.sim_attr rfl _) fun f _ hm => ?_
  subst hm
  refine Py.Sim.bind (Py.sim_attr rfl _) fun sw _ hm => ?_
  subst hm
  refine Py.Sim.bind (Py.sim_attr rfl _) fun nt _ hm => ?_
  subst hm
  rw [ho.dv]
  refine Py.Sim.bind (Py.sim_set fun s t h => commitUpdate_moved c k hab ho _ _ _ h) fun _ _ _ => ?_
  exact Py.sim_pure rfl

theorem outerUpdate_moved {n : ℕ} (c : Call μ p) (hc : MoveCallOk V δ f0 ok n c) (hcv : CurvesDown c) (fuel : ℕ) :
    Py.Sim (MovedRel V δ f0 ok E q (· = n)) (MovedRel V δ f0 ok E q (· = n)) Eq (outerUpdate c fuel) (outerUpdate (c.plus δ) fuel) := by
  unfold outerUpdate
  refine Py.Sim.bind_self fun s t hR => ?_
  obtain ⟨⟨v, hv, rfl⟩, _⟩ := hR
  have hfv : (s.moved v).fv = s.fv.map (locationPlus δ) := hv.1
  refine Py.Sim.bind (Py.sim_attr rfl _) fun f1 _ hm => ?_
  subst hm
  refine Py.Sim.bind (Py.sim_attr rfl _) fun old _ hm => ?_
  subst hm
  rw [hfv, updateDeviance_plus c hc.dist]
  exact outerLoop_same (fun i d => paramLoop_same (fun j => innerUpdate_moved c hc hcv i j) _ d) _ _ _ _

end Ondil
