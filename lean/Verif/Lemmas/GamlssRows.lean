import Verif.Lemmas.Along
import Verif.Spec.RowOrder

/-!
# The order of the rows in the distributional regression

Without forgetting, two orders of the same observations lead to the same statistics: everything that is kept per observation is the
same array along the two orders, everything else is equal.
-/

namespace Ondil

variable {μ : Type} {p : ℕ} {data data' : List (Obs p)}

/-- The distribution object works row by row, and its starting values do not depend on the order. -/
structure RowwiseDist (D : DistOps) (data data' : List (Obs p)) : Prop where
  link : ∀ k a a', Along data data' a a' → BothRel (Along data data') (D.link k a) (D.link k a')
  linkInverse : ∀ k a a', Along data data' a a' → BothRel (Along data data') (D.linkInverse k a) (D.linkInverse k a')
  linkInverseDerivative : ∀ k a a', Along data data' a a' →
    BothRel (Along data data') (D.linkInverseDerivative k a) (D.linkInverseDerivative k a')
  dl1 : ∀ k fv fv', Along data data' fv fv' → BothRel (Along data data') (D.dl1 (ys data) fv k) (D.dl1 (ys data') fv' k)
  dl2 : ∀ k fv fv', Along data data' fv fv' → BothRel (Along data data') (D.dl2 (ys data) fv k) (D.dl2 (ys data') fv' k)
  logpdf : ∀ fv fv', Along data data' fv fv' → Along data data' (D.logpdf (ys data) fv) (D.logpdf (ys data') fv')
  ppf : ∀ q fv fv', Along data data' fv fv' → Along data data' (D.ppf q fv) (D.ppf q fv')

/-- Which method objects keep an inverse Gramian, what is known about it, and which distribution parameters use such a method. -/
structure GramKind (μ : Type) where
  inverse : μ → Bool
  Good : Arr2 → Prop
  uses : ℕ → Bool

variable {K : GramKind μ}

/-- Working weights times sample weights: not negative, or NaN. -/
def GoodWeight (v : Flt) : Prop := v = .nan ∨ ∃ x, 0 ≤ x ∧ v = .fin x

/-- The Gramians of the methods are sums over the rows when nothing is forgotten. -/
structure RowwiseMethods (K : GramKind μ) (M : MethodOps μ) (data data' : List (Obs p)) : Prop where
  initX : ∀ m (X X' : Arr2) w w', Along data data' X X' → Along data data' w w' → M.initX m X w 0 = M.initX m X' w' 0
  initY : ∀ m (X X' : Arr2) y y' w w', Along data data' X X' → Along data data' y y' → Along data data' w w' →
    M.initY m X y w 0 = M.initY m X' y' w' 0
  good : ∀ m (X X' : Arr2) w w' G, K.inverse m = true → Along data data' X X' → Along data data' w w' → (∀ v ∈ w, GoodWeight v) →
    M.initX m X w 0 = .ok G → K.Good G
  kindBeta : ∀ m G h reg r, M.fitBeta m G h reg = .ok r → K.inverse r.2 = K.inverse m
  kindPath : ∀ m G h reg r, M.fitPath m G h reg = .ok r → K.inverse r.2 = K.inverse m
  kindUpdatePath : ∀ m G h b reg r, M.updatePath m G h b reg = .ok r → K.inverse r.2 = K.inverse m

/-- The attributes with one entry per observation. -/
structure RowArrays where
  fv : Fv
  debugWeights : DebugKey → Option Arr1
  debugWorking : DebugKey → Option Arr1
  debugEta : DebugKey → Option Arr1
  debugFv : DebugKey → Option Fv

/-- Assign the attributes with one entry per observation. -/
def GState.setRows (v : RowArrays) (s : GState μ p) : GState μ p :=
  { s with fv := v.fv, debugWeights := v.debugWeights, debugWorking := v.debugWorking, debugEta := v.debugEta,
           debugFv := v.debugFv }

/-- The two estimators differ only in what is kept per observation. -/
def SameButRows (s t : GState μ p) : Prop := ∃ v, t = s.setRows v

/-- The inverse Gramians of an estimator. -/
structure RowGramInv (K : GramKind μ) (s : GState μ p) : Prop where
  kind : ∀ k m, s.method k = some m → K.inverse m = K.uses k
  gram : ∀ k G, K.uses k = true → s.xGram k = some G → K.Good G

/-- The two estimators have the same fitted values along the two orders, and nothing is forgotten. -/
def RowsRel (K : GramKind μ) (data data' : List (Obs p)) (s t : GState μ p) : Prop :=
  (∃ v, t = s.setRows v ∧ Along data data' s.fv v.fv) ∧ (∀ k f, s.forget.get? k = some f → f = 0) ∧ RowGramInv K s

theorem along_ys : Along data data' (ys data) (ys data') := ⟨fun o => o.y, rfl, rfl⟩

theorem along_ws : Along data data' (ws data) (ws data') := ⟨fun o => o.w, rfl, rfl⟩

theorem along_forget (hp : data.Perm data') : Along data data' (initForgetVector 0 (ys data).length) (initForgetVector 0 (ys data').length) := by
  rw [ys, ys, List.length_map, List.length_map, forget_ones, forget_ones]
  exact along_map _

theorem Along.wmul {w w' : List ℝ} {a a' : Arr1} (h : Along data data' w w') (k : Along data data' a a') :
    Along data data' (wmul w a) (wmul w' a') := Along.zipWith h k _

theorem Along.setCol {fv fv' : Fv} {a a' : Arr1} (h : Along data data' fv fv') (k : ℕ) (ha : Along data data' a a') :
    Along data data' (fv.setCol k a) (fv'.setCol k a') := Along.zipWith h ha _

theorem Along.col {fv fv' : Fv} (h : Along data data' fv fv') (k : ℕ) : Along data data' (fv.col k) (fv'.col k) := Along.map h _

theorem along_ite {α : Type} (b : Bool) {x x' y y' : List α} (h : Along data data' x x') (k : Along data data' y y') :
    Along data data' (if b = true then x else y) (if b = true then x' else y') := by
  cases b
  · exact k
  · exact h

theorem Along.matVec {X X' : Arr2} (h : Along data data' X X') (hp : data.Perm data') (b : Arr1) :
    BothRel (Along data data') (matVec X b) (matVec X' b) := by
  unfold Ondil.matVec
  have e : (∀ x ∈ X, x.length = b.length) = ∀ x ∈ X', x.length = b.length :=
    propext ⟨fun h1 x hx => h1 x ((h.perm hp).mem_iff.2 hx), fun h1 x hx => h1 x ((h.perm hp).mem_iff.1 hx)⟩
  simp only [e]
  split_ifs
  · exact BothRel.ok (h.map _)
  · exact .inl ⟨_, rfl, rfl⟩

theorem Along.weightedRss (hp : data.Perm data') {w w' f f' : List ℝ} {wt wt' wv wv' pr pr' : Arr1} (hw : Along data data' w w')
    (hf : Along data data' f f') (h1 : Along data data' wt wt') (h2 : Along data data' wv wv') (h3 : Along data data' pr pr') :
    weightedRss w f wt wv pr = weightedRss w' f' wt' wv' pr' :=
  Along.asum (hw.wmul (hf.wmul (h1.zipWith (h2.zipWith h3 _) _))) hp

theorem along_deviance {D : DistOps} (hD : RowwiseDist D data data') (hp : data.Perm data') {fv fv' : Fv}
    (h : Along data data' fv fv') : deviance D (ys data) (ws data) fv = deviance D (ys data') (ws data') fv' :=
  Along.asum (along_ws.wmul ((hD.logpdf _ _ h).map _)) hp

/-- The working quantities along the two orders. -/
structure WorkRel (lo : ℝ) (data data' : List (Obs p)) (a b : Working) : Prop where
  eta : Along data data' a.eta b.eta
  wt : Along data data' a.wt b.wt
  wv : Along data data' a.wv b.wv
  clip : ∀ v ∈ a.wt, v = .nan ∨ ∃ x, lo ≤ x ∧ v = .fin x

theorem clip_cases {lo hi : ℝ} (h : lo ≤ hi) (v : Flt) : Flt.clip lo hi v = .nan ∨ ∃ x, lo ≤ x ∧ Flt.clip lo hi v = .fin x := by
  cases v with
  | fin x => exact .inr ⟨_, le_min (le_max_right _ _) h, rfl⟩
  | pinf => exact .inr ⟨_, h, rfl⟩
  | ninf => exact .inr ⟨_, le_rfl, rfl⟩
  | nan => exact .inl rfl

theorem mem_zipWith {α β γ : Type} {f : α → β → γ} {a : List α} {b : List β} {v : γ} (h : v ∈ List.zipWith f a b) :
    ∃ x y, v = f x y := by
  induction a generalizing b with
  | nil => simp at h
  | cons x a ih =>
    cases b with
    | nil => simp at h
    | cons y b =>
      rw [List.zipWith_cons_cons, List.mem_cons] at h
      rcases h with h | h
      · exact ⟨x, y, h⟩
      · exact ih h

theorem working_along {D : DistOps} (hD : RowwiseDist D data data') {lo : ℝ} (hlo : lo ≤ 10000000000) (k : ℕ) {fv fv' : Fv}
    (h : Along data data' fv fv') : BothRel (WorkRel lo data data') (working D lo (ys data) fv k) (working D lo (ys data') fv' k) := by
  unfold working
  refine BothRel.bind (hD.link k _ _ (h.col k)) fun eta eta' h1 => ?_
  refine BothRel.bind (hD.linkInverseDerivative k _ _ h1) fun g g' h2 => ?_
  refine BothRel.bind (hD.dl1 k _ _ h) fun d1 d1' h3 => ?_
  refine BothRel.bind (hD.dl2 k _ _ h) fun d2 d2' h4 => ?_
  refine BothRel.ok ⟨h1, h4.zipWith (h2.map _) _, h1.zipWith (h3.zipWith ((h2.map _).zipWith (h4.zipWith (h2.map _) _) _) _) _, fun v hv => ?_⟩
  obtain ⟨a, b, rfl⟩ := mem_zipWith hv
  exact clip_cases hlo _

/-- Lists of arrays along the two orders. -/
abbrev AlongAll (data data' : List (Obs p)) (a b : List (List Flt)) : Prop := List.Forall₂ (Along data data') a b

theorem mapM_forall₂ {α β γ δ : Type} {P : α → β → Prop} {Q : γ → δ → Prop} {f : α → Except PyErr γ} {g : β → Except PyErr δ}
    {a : List α} {b : List β} (h : List.Forall₂ P a b) (hf : ∀ x y, P x y → BothRel Q (f x) (g y)) :
    BothRel (List.Forall₂ Q) (a.mapM f) (b.mapM g) := by
  induction h with
  | nil => exact BothRel.ok List.Forall₂.nil
  | cons h1 _ ih =>
    rw [List.mapM_cons, List.mapM_cons]
    exact BothRel.bind (hf _ _ h1) fun x y hxy => BothRel.bind ih fun r r' hr => BothRel.ok (List.Forall₂.cons hxy hr)

theorem forall₂_eq {α : Type} {a b : List α} (h : List.Forall₂ Eq a b) : a = b := List.forall₂_eq_eq_eq ▸ h

theorem preds_along {X X' : Arr2} (h : Along data data' X X') (hp : data.Perm data') (path : Arr2) :
    BothRel (AlongAll data data') (path.mapM (matVec X)) (path.mapM (matVec X')) :=
  mapM_forall₂ (P := Eq) (List.forall₂_same.2 fun _ _ => rfl) fun x y hxy => by
    subst hxy
    exact h.matVec hp x

/-- The two calls work on the two orders of the observations. -/
structure CallRel (data data' : List (Obs p)) (c c' : Call μ p) : Prop where
  D : c'.D = c.D
  M : c'.M = c.M
  cfg : c'.cfg = c.cfg
  y : c.y = ys data
  y' : c'.y = ys data'
  w : c.w = ws data
  w' : c'.w = ws data'
  X : ∀ k, (c.X k = none ∧ c'.X k = none) ∨ ∃ X X', c.X k = some X ∧ c'.X k = some X' ∧ Along data data' X X'

theorem map_congr_forall₂ {α β γ : Type} {P : α → β → Prop} {f : α → γ} {g : β → γ} {a : List α} {b : List β}
    (h : List.Forall₂ P a b) (hf : ∀ x y, P x y → f x = g y) : a.map f = b.map g := by
  induction h with
  | nil => rfl
  | cons h1 _ ih => rw [List.map_cons, List.map_cons, hf _ _ h1, ih]

variable {c c' : Call μ p}

theorem pathLL_along (hD : RowwiseDist c.D data data') (hp : data.Perm data') (hc : CallRel data data' c c') {s t : GState μ p}
    (hfv : Along data data' s.fv t.fv) (k : ℕ) {f f' w w' : List ℝ} (hf : Along data data' f f') (hw : Along data data' w w')
    {preds preds' : Arr2} (h : AlongAll data data' preds preds') : pathLL c s k f w preds = pathLL c' t k f' w' preds' := by
  unfold pathLL
  refine BothRel.eq (BothRel.mono (mapM_forall₂ (Q := Eq) h fun x y hxy => ?_) fun _ _ h => forall₂_eq h)
  rw [hc.D, hc.y, hc.y']
  refine BothRel.bind (hD.linkInverse k _ _ hxy) fun v v' hv => ?_
  exact BothRel.ok (Along.asum (hw.wmul (hf.wmul (hD.logpdf _ _ (hfv.setCol k hv)))) hp)

theorem countNonzeroOther_rows (n k : ℕ) {s t : GState μ p} (h : SameButRows s t) :
    countNonzeroOther n t k = countNonzeroOther n s k := by
  obtain ⟨v, rfl⟩ := h
  rfl

theorem fitSelectModel_along (hD : RowwiseDist c.D data data') (hp : data.Perm data') (hc : CallRel data data' c c') {s t : GState μ p}
    (hs : RowsRel K data data' s t) (k : ℕ) {X X' : Arr2} (hX : Along data data' X X') {lo : ℝ} {wk wk' : Working} (hwk : WorkRel lo data data' wk wk')
    (path : Arr2) (nt : ℝ) (ic : Criterion) :
    fitSelectModel c s k X wk.wv wk.wt path 0 nt ic = fitSelectModel c' t k X' wk'.wv wk'.wt path 0 nt ic := by
  obtain ⟨⟨v, ht, hfv⟩, _⟩ := hs
  have hfv' : Along data data' s.fv t.fv := by rw [ht]; exact hfv
  unfold fitSelectModel
  rw [countNonzeroOther_rows _ _ ⟨v, ht⟩, hc.D, hc.cfg]
  refine BothRel.eq ?_
  refine BothRel.bind (preds_along hX hp path) fun pr pr' hpr => ?_
  rw [hc.y, hc.y', hc.w, hc.w']
  cases c.cfg.modelSelection with
  | localRss =>
    simp only
    have e : (pr.map fun pr => Flt.div (weightedRss (ws data) (initForgetVector 0 (ys data).length) wk.wt wk.wv pr)
          (amean (wmul (initForgetVector 0 (ys data).length) (wmul (ws data) wk.wt)))) =
        pr'.map fun pr => Flt.div (weightedRss (ws data') (initForgetVector 0 (ys data').length) wk'.wt wk'.wv pr)
          (amean (wmul (initForgetVector 0 (ys data').length) (wmul (ws data') wk'.wt))) := by
      refine map_congr_forall₂ hpr fun x y hxy => ?_
      rw [Along.weightedRss hp along_ws (along_forget hp) hwk.wt hwk.wv hxy,
        Along.amean ((along_forget hp).wmul (along_ws.wmul hwk.wt)) hp]
    rw [e]
    exact BothRel.of_eq rfl
  | globalLL =>
    simp only
    have e := pathLL_along hD hp hc hfv' k (along_forget hp) (w := List.replicate (ys data).length 1)
      (w' := List.replicate (ys data').length 1) (by
      have e1 : (ys data).length = data.length := by simp [ys]
      have e2 : (ys data').length = data'.length := by simp [ys]
      rw [e1, e2]
      exact along_replicate hp (1 : ℝ)) hpr
    rw [e]
    exact BothRel.of_eq rfl

/-! ### The loops of `fit` -/

theorem sim_forget {s t : GState μ p} (h : RowsRel K data data' s t) (R : GState μ p → GState μ p → Prop) (k : ℕ) (e : PyErr) :
    Py.Sim R R (fun a b => a = 0 ∧ b = 0) (Py.attr (s.forget.get? k) e) (Py.attr (t.forget.get? k) e) := by
  obtain ⟨⟨v, rfl, _⟩, h0, _⟩ := h
  refine Py.sim_attr_rel ?_ e
  rcases hf : s.forget.get? k with _ | f
  · exact .inl ⟨rfl, hf⟩
  · exact .inr ⟨f, f, rfl, hf, h0 k f hf, h0 k f hf⟩

/-- Assigning an attribute that is not kept per observation. -/
theorem RowsRel.set {s t : GState μ p} (h : RowsRel K data data' s t) (f : GState μ p → GState μ p)
    (hf : ∀ v, f (s.setRows v) = (f s).setRows v) (h1 : (f s).fv = s.fv) (h2 : (f s).forget = s.forget)
    (h3 : (f s).method = s.method) (h4 : (f s).xGram = s.xGram) : RowsRel K data data' (f s) (f t) := by
  obtain ⟨⟨v, rfl, hfv⟩, h0, hk, hg⟩ := h
  exact ⟨⟨v, hf v, by rw [h1]; exact hfv⟩, by rw [h2]; exact h0, by rw [h3]; exact hk, by rw [h4]; exact hg⟩

theorem upd_self {α : Type} {d : ℕ → Option α} {k : ℕ} {v : Option α} : upd d k v k = v := by simp [upd]

theorem upd_other {α : Type} (d : ℕ → Option α) {j k : ℕ} {v : Option α} (h : j ≠ k) : upd d k v j = d j := by simp [upd, h]

/-- Assigning a method object of the same kind. -/
theorem RowsRel.setMethod {s t : GState μ p} (h : RowsRel K data data' s t) (k : ℕ) {m : μ} (hm : K.inverse m = K.uses k) :
    RowsRel K data data' (s.setMethod (upd s.method k (some m))) (t.setMethod (upd t.method k (some m))) := by
  obtain ⟨⟨v, rfl, hfv⟩, h0, hk, hg⟩ := h
  refine ⟨⟨v, rfl, hfv⟩, h0, fun j m' hj => ?_, hg⟩
  by_cases hjk : j = k
  · subst hjk
    have e : upd s.method j (some m) j = some m' := hj
    rw [upd_self] at e
    rw [← Option.some.inj e]
    exact hm
  · have e : upd s.method k (some m) j = some m' := hj
    rw [upd_other _ hjk] at e
    exact hk j m' e

/-- Reading the method object of a parameter. -/
theorem sim_method {s t : GState μ p} (h : RowsRel K data data' s t) (R : GState μ p → GState μ p → Prop) (k : ℕ) (e : PyErr) :
    Py.Sim R R (fun a b => a = b ∧ K.inverse a = K.uses k) (Py.attr (s.method k) e) (Py.attr (t.method k) e) := by
  obtain ⟨⟨v, rfl, _⟩, _, hk, _⟩ := h
  refine Py.sim_attr_rel ?_ e
  rcases hm : s.method k with _ | m
  · exact .inl ⟨rfl, hm⟩
  · exact .inr ⟨m, m, rfl, hm, rfl, hk k m hm⟩

/-- A call with the same arguments: what is known of its result. -/
theorem bothRel_self {α : Type} {x : Except PyErr α} {P : α → Prop} (h : ∀ a, x = .ok a → P a) :
    BothRel (fun a b => a = b ∧ P a) x x := by
  cases x with
  | error e => exact .inl ⟨e, rfl, rfl⟩
  | ok a => exact .inr ⟨a, a, rfl, rfl, rfl, h a rfl⟩

theorem fitPathFrom_kind {M : MethodOps μ} (hM : RowwiseMethods K M data data') {m : μ} {G : Arr2} {h : Arr1} {reg : List Bool}
    {first : Bool} {start : Option Arr2} {r : Arr2 × μ} (hr : fitPathFrom M m G h reg first start = .ok r) :
    K.inverse r.2 = K.inverse m := by
  unfold fitPathFrom at hr
  split_ifs at hr
  · exact hM.kindPath _ _ _ _ _ hr
  · cases start with
    | none => cases hr
    | some b => exact hM.kindUpdatePath _ _ _ _ _ _ hr

/-- The same coefficients. -/
theorem fitCoefs_along (hD : RowwiseDist c.D data data') (hM : RowwiseMethods K c.M data data') (hp : data.Perm data') (hc : CallRel data data' c c') (k itO itI : ℕ)
    (prev : Option Arr2) {X X' : Arr2} (hX : Along data data' X X') {lo : ℝ} {wk wk' : Working} (hwk : WorkRel lo data data' wk wk')
    (xg : Arr2) (yg : Arr1) :
    Py.Sim (RowsRel K data data') (RowsRel K data data') Eq (fitCoefs c k itO itI prev X wk xg yg) (fitCoefs c' k itO itI prev X' wk' xg yg) := by
  unfold fitCoefs
  refine Py.Sim.bind_self fun s t hR => ?_
  have hR' := hR
  obtain ⟨⟨v, rfl, hfv⟩, h0⟩ := hR
  refine Py.Sim.bind (sim_method hR' _ k _) fun m _ hm => ?_
  obtain ⟨rfl, hk⟩ := hm
  refine Py.Sim.bind (Py.sim_attr rfl _) fun reg _ hm => ?_
  subst hm
  refine Py.Sim.bind (sim_forget hR' _ k _) fun f f' hf => ?_
  obtain ⟨rfl, rfl⟩ := hf
  rw [hc.M]
  by_cases hpb : c.M.pathBased m = true
  · rw [if_pos hpb, if_pos hpb]
    refine Py.Sim.bind (Py.sim_call (bothRel_self (P := fun r => K.inverse r.2 = K.uses k) fun r hr => ?_)) fun r _ hm => ?_
    · rw [fitPathFrom_kind hM hr, hk]
    obtain ⟨rfl, hr⟩ := hm
    refine Py.Sim.bind (Py.sim_set fun s t h => h.setMethod k hr) fun _ _ _ => ?_
    refine Py.Sim.bind (Py.sim_attr rfl _) fun nt _ hm => ?_
    subst hm
    refine Py.Sim.bind (Py.sim_attr rfl _) fun ic _ hm => ?_
    subst hm
    refine Py.Sim.bind (Py.sim_call (BothRel.of_eq (fitSelectModel_along hD hp hc hR' k hX hwk r.1 nt ic))) fun sel _ hm => ?_
    subst hm
    exact Py.sim_pure rfl
  · rw [if_neg hpb, if_neg hpb]
    refine Py.Sim.bind (Py.sim_call (bothRel_self (P := fun r => K.inverse r.2 = K.uses k) fun r hr => ?_)) fun r _ hm => ?_
    · rw [hM.kindBeta _ _ _ _ _ hr, hk]
    obtain ⟨rfl, hr⟩ := hm
    refine Py.Sim.bind (Py.sim_set fun s t h => h.setMethod k hr) fun _ _ _ => ?_
    exact Py.sim_pure rfl

/-- What an iteration leaves, along the two orders. -/
structure OutRel (data data' : List (Obs p)) (a b : IterOut) : Prop where
  wt : Along data data' a.wt b.wt
  wv : Along data data' a.wv b.wv
  same : { b with wt := [], wv := [] } = { a with wt := [], wv := [] }

/-- The variables of the inner loop, along the two orders. -/
structure InnerRel (K : GramKind μ) (k : ℕ) (data data' : List (Obs p)) (a b : Inner) : Prop where
  fvIt : Along data data' a.fvIt b.fvIt
  fvNew : Along data data' a.fvNew b.fvNew
  same : { b with fvIt := [], fvNew := [], out := none } = { a with fvIt := [], fvNew := [], out := none }
  out : (a.out = none ∧ b.out = none) ∨ ∃ o o', a.out = some o ∧ b.out = some o' ∧ OutRel data data' o o' ∧
    (K.uses k = true → K.Good o.xGram)

theorem debugWork_rows {s t : GState μ p} (h : RowsRel K data data' s t) (debug : Bool) (key : DebugKey) (wk wk' : Working) (fv fv' : Fv) :
    RowsRel K data data' (debugWork debug key wk fv s) (debugWork debug key wk' fv' t) := by
  obtain ⟨⟨v, rfl, hfv⟩, h0⟩ := h
  cases debug with
  | false => exact ⟨⟨v, rfl, hfv⟩, h0⟩
  | true => exact ⟨⟨⟨v.fv, Function.update v.debugWeights key (some wk'.wt), Function.update v.debugWorking key (some wk'.wv),
      Function.update v.debugEta key (some wk'.eta), Function.update v.debugFv key (some fv')⟩, rfl, hfv⟩, h0.1, h0.2.1, h0.2.2⟩

theorem debugBeta_rows {s t : GState μ p} (h : RowsRel K data data' s t) (debug : Bool) (key : DebugKey) (b : Arr1) :
    RowsRel K data data' (debugBeta debug key b s) (debugBeta debug key b t) := by
  cases debug with
  | false => exact h
  | true => exact h.set (debugBeta true key b) (fun _ => rfl) rfl rfl rfl rfl

theorem mem_zipWith' {α β γ : Type} {f : α → β → γ} {a : List α} {b : List β} {v : γ} (h : v ∈ List.zipWith f a b) :
    ∃ x ∈ a, ∃ y ∈ b, v = f x y := by
  induction a generalizing b with
  | nil => simp at h
  | cons x a ih =>
    cases b with
    | nil => simp at h
    | cons y b =>
      rw [List.zipWith_cons_cons, List.mem_cons] at h
      rcases h with h | h
      · exact ⟨x, List.mem_cons_self, y, List.mem_cons_self, h⟩
      · obtain ⟨x', hx, y', hy, e⟩ := ih h
        exact ⟨x', List.mem_cons_of_mem _ hx, y', List.mem_cons_of_mem _ hy, e⟩

theorem goodWeight_wmul (hn : NonnegWeights data) {lo : ℝ} (hlo : 0 ≤ lo) {wt : Arr1}
    (h : ∀ v ∈ wt, v = .nan ∨ ∃ x, lo ≤ x ∧ v = .fin x) : ∀ v ∈ wmul (ws data) wt, GoodWeight v := by
  intro v hv
  obtain ⟨w, hw, y, hy, rfl⟩ := mem_zipWith' hv
  obtain ⟨o, ho, rfl⟩ := List.mem_map.1 hw
  rcases h y hy with e | ⟨x, hx, e⟩
  · rw [e]
    exact .inl rfl
  · rw [e]
    exact .inr ⟨_, mul_nonneg (hn o ho) (hlo.trans hx), rfl⟩

theorem fitIteration_along (hD : RowwiseDist c.D data data') (hM : RowwiseMethods K c.M data data') (hp : data.Perm data')
    (hc : CallRel data data' c c') (hcond : c.cfg.condStartVal = false) (hnn : ∀ k, K.uses k = true → NonnegWeights data) (k itO itI scheduled : ℕ) {a b : Inner}
    (hab : InnerRel K k data data' a b) :
    Py.Sim (RowsRel K data data') (RowsRel K data data') (fun r r' => InnerRel K k data data' r.1 r'.1 ∧ r'.2 = r.2)
      (fitIteration c k itO itI scheduled a) (fitIteration c' k itO itI scheduled b) := by
  obtain ⟨aIt, aNew, dv0, dv1, n, bad, oa⟩ := a
  obtain ⟨bIt, bNew, dv0', dv1', n', bad', ob⟩ := b
  obtain ⟨h1, h2, h3, h4⟩ := hab
  simp only [Inner.mk.injEq, true_and, and_true] at h3
  obtain ⟨rfl, rfl, rfl, rfl⟩ := h3
  simp only at h1 h2 h4
  have hprev : (ob.bind fun o => o.path) = oa.bind fun o => o.path := by
    rcases h4 with ⟨rfl, rfl⟩ | ⟨o, o', rfl, rfl, h, _⟩
    · rfl
    · have := congrArg IterOut.path h.same
      exact this
  unfold fitIteration
  refine Py.Sim.bind_self fun s t hR => ?_
  have hR' := hR
  obtain ⟨⟨v, rfl, hfv⟩, h0⟩ := hR
  rw [hc.cfg, hc.D, hc.M, hc.y, hc.y', hc.w, hc.w']
  refine Py.Sim.bind (Py.sim_call (BothRel.of_eq rfl)) fun step _ hm => ?_
  subst hm
  have e1 : startValues c k itO itI aIt = .ok aIt := by simp [startValues, hcond]
  have e2 : startValues c' k itO itI bIt = .ok bIt := by simp [startValues, hc.cfg, hcond]
  simp only
  rw [e1, e2]
  refine Py.Sim.bind (Q := Along data data') (Py.sim_call (BothRel.ok h1)) fun fi fi' hfi => ?_
  refine Py.Sim.bind (Py.sim_call (working_along hD (lo := fitClip) (by norm_num [fitClip]) k hfi)) fun wk wk' hwk => ?_
  refine Py.Sim.bind (Py.sim_set fun s t h => debugWork_rows h _ _ wk wk' fi fi') fun _ _ _ => ?_
  refine Py.Sim.bind (Py.sim_attr_rel (hc.X k) _) fun X X' hX => ?_
  refine Py.Sim.bind (sim_method hR' _ k _) fun m _ hm => ?_
  obtain ⟨rfl, hk⟩ := hm
  refine Py.Sim.bind (sim_forget hR' _ k _) fun f f' hf => ?_
  obtain ⟨rfl, rfl⟩ := hf
  have ex := hM.initX m X X' _ _ hX (along_ws.wmul hwk.wt)
  rw [← ex]
  refine Py.Sim.bind (Py.sim_call (bothRel_self (P := fun xg => K.uses k = true → K.Good xg) fun xg hxg hu => ?_)) fun xg _ hm => ?_
  · exact hM.good m X X' _ _ xg (hk.trans hu) hX (along_ws.wmul hwk.wt) (goodWeight_wmul (hnn k hu) (by norm_num [fitClip]) hwk.clip) hxg
  obtain ⟨rfl, hgood⟩ := hm
  refine Py.Sim.bind (Py.sim_call (BothRel.of_eq (hM.initY m X X' _ _ _ _ hX hwk.wv (along_ws.wmul hwk.wt)))) fun yg _ hm => ?_
  subst hm
  rw [hprev]
  refine Py.Sim.bind (fitCoefs_along hD hM hp hc k itO itI _ hX hwk xg yg) fun co _ hm => ?_
  subst hm
  refine Py.Sim.bind (Py.sim_set fun s t h => debugBeta_rows h _ _ co.beta) fun _ _ _ => ?_
  refine Py.Sim.bind (Py.sim_call (hX.matVec hp co.beta)) fun xb xb' hxb => ?_
  have hpred := hxb.zipWith hwk.eta fun u e => Flt.add (Flt.mul (.fin step) u) (Flt.mul (.fin (1 - step)) e)
  refine Py.Sim.bind (Py.sim_call (hD.linkInverse k _ _ hpred)) fun w w' hw => ?_
  have hnew := h2.setCol k hw
  rw [← along_deviance hD hp hnew, ← Along.weightedRss hp along_ws (along_forget hp) hwk.wt hwk.wv hpred,
    ← Along.amean ((along_forget hp).wmul (along_ws.wmul hwk.wt)) hp]
  refine Py.Sim.bind (R' := RowsRel K data data') (Py.sim_set fun s t h => ?_) fun _ _ _ => ?_
  · split_ifs with hh
    · exact h.set (fun s => s.setScheduleStep fun o i j => if o = itO - 1 ∧ i = itI + 1 ∧ j = k then some (step / 2)
        else s.scheduleStep o i j) (fun _ => rfl) rfl rfl rfl rfl
    · exact h
  · refine Py.sim_pure ⟨⟨?_, hnew, rfl, .inr ⟨_, _, rfl, rfl, ⟨hwk.wt, hwk.wv, rfl⟩, hgood⟩⟩, rfl⟩
    exact along_ite _ (hfi.setCol k (hnew.col k)) hfi

theorem fitInnerLoop_along (hD : RowwiseDist c.D data data') (hM : RowwiseMethods K c.M data data') (hp : data.Perm data')
    (hc : CallRel data data' c c') (hcond : c.cfg.condStartVal = false) (hnn : ∀ k, K.uses k = true → NonnegWeights data) (k itO scheduled n itI : ℕ) {a b : Inner}
    (hab : InnerRel K k data data' a b) :
    Py.Sim (RowsRel K data data') (RowsRel K data data') (InnerRel K k data data')
      (fitInnerLoop c k itO scheduled n itI a) (fitInnerLoop c' k itO scheduled n itI b) := by
  induction n generalizing itI a b with
  | zero => exact Py.sim_pure hab
  | succ n ih =>
    unfold fitInnerLoop
    refine Py.Sim.bind (fitIteration_along hD hM hp hc hcond hnn k itO itI scheduled hab) fun r r' hr => ?_
    obtain ⟨h1, h2⟩ := hr
    rw [h2]
    split_ifs
    · exact Py.sim_pure h1
    · exact ih (itI + 1) h1

theorem commitFit_along (hp : data.Perm data') (hc : CallRel data data' c c') (k : ℕ) {a b : Inner} (hab : InnerRel K k data data' a b)
    {o o' : IterOut} (ho : OutRel data data' o o') (hg : K.uses k = true → K.Good o.xGram) {s t : GState μ p} (h : RowsRel K data data' s t) :
    RowsRel K data data' (commitFit c k a o s) (commitFit c' k b o' t) := by
  obtain ⟨⟨v, rfl, hfv⟩, h0, hki, hgi⟩ := h
  refine ⟨⟨⟨v.fv.setCol k (b.fvNew.col k), v.debugWeights, v.debugWorking, v.debugEta, v.debugFv⟩, ?_, hfv.setCol k (hab.fvNew.col k)⟩, h0, hki, fun j G hj hG => ?_⟩
  swap
  · by_cases hjk : j = k
    · subst hjk
      have e : upd s.xGram j (some o.xGram) j = some G := hG
      rw [upd_self] at e
      rw [← Option.some.inj e]
      exact hg hj
    · have e : upd s.xGram k (some o.xGram) j = some G := hG
      rw [upd_other _ hjk] at e
      exact hgi j G hj e
  obtain ⟨h1, h2, h3⟩ := ho
  obtain ⟨it, wt, wv, xg, yg, be, pa, se, bi, rs, dv⟩ := o
  obtain ⟨it', wt', wv', xg', yg', be', pa', se', bi', rs', dv'⟩ := o'
  simp only [IterOut.mk.injEq, true_and] at h3
  obtain ⟨rfl, rfl, rfl, rfl, rfl, rfl, rfl, rfl, rfl⟩ := h3
  simp only at h1 h2
  unfold commitFit
  simp only
  rw [hc.w, hc.w', Along.asum (along_ws.wmul h1) hp, Along.amean (along_ws.wmul h1) hp]
  rfl

theorem innerFit_along (hD : RowwiseDist c.D data data') (hM : RowwiseMethods K c.M data data') (hp : data.Perm data')
    (hc : CallRel data data' c c') (hcond : c.cfg.condStartVal = false) (hnn : ∀ k, K.uses k = true → NonnegWeights data) (itO k : ℕ) :
    Py.Sim (RowsRel K data data') (RowsRel K data data') Eq (innerFit c itO k) (innerFit c' itO k) := by
  unfold innerFit
  refine Py.Sim.bind_self fun s t hR => ?_
  obtain ⟨⟨v, rfl, hfv⟩, h0⟩ := hR
  have hfv' : Along data data' s.fv (s.setRows v).fv := hfv
  rw [hc.cfg, hc.D, hc.y, hc.y', hc.w, hc.w', ← along_deviance hD hp hfv']
  refine Py.Sim.bind (Py.sim_call (BothRel.of_eq rfl)) fun n _ hm => ?_
  subst hm
  refine Py.Sim.bind (fitInnerLoop_along hD hM hp hc hcond hnn k itO n n 0 ⟨hfv', hfv', rfl, .inl ⟨rfl, rfl⟩⟩) fun a b hab => ?_
  refine Py.Sim.bind (Py.sim_attr_rel hab.out _) fun o o' hoo => ?_
  obtain ⟨ho, hgood⟩ := hoo
  have hbad : b.badState = a.badState := by
    have := congrArg Inner.badState hab.same
    exact this
  have hit : o'.it = o.it := by
    have := congrArg IterOut.it ho.same
    exact this
  have hdv : o'.dv = o.dv := by
    have := congrArg IterOut.dv ho.same
    exact this
  rw [hbad, hit, hdv]
  refine Py.Sim.bind (R' := RowsRel K data data') (Py.sim_set fun s t h => ?_) fun _ _ _ => ?_
  · split_ifs
    · exact commitFit_along hp hc k hab ho hgood h
    · exact h
  refine Py.Sim.bind (Py.sim_set fun s t h => h.set (fun s => s.setItInner (Function.update s.itInner k o.it)) (fun _ => rfl) rfl rfl rfl rfl)
    fun _ _ _ => ?_
  exact Py.sim_pure rfl

theorem paramLoop_sim {σ : Type} {R : σ → σ → Prop} {f g : ℕ → Py σ Flt} (h : ∀ k, Py.Sim R R Eq (f k) (g k)) (l : List ℕ) (dev : Flt) :
    Py.Sim R R Eq (paramLoop f l dev) (paramLoop g l dev) := by
  induction l generalizing dev with
  | nil => exact Py.sim_pure rfl
  | cons k l ih =>
    unfold paramLoop
    refine Py.Sim.bind (h k) fun d _ hd => ?_
    subst hd
    exact ih d

theorem outerLoop_sim {σ : Type} {R : σ → σ → Prop} (stops : ℕ → Flt → Flt → Prop) {f g : ℕ → Flt → Py σ Flt}
    (h : ∀ i d, Py.Sim R R Eq (f i d) (g i d)) (n itO : ℕ) (dev old : Flt) :
    Py.Sim R R Eq (outerLoop stops f n itO dev old) (outerLoop stops g n itO dev old) := by
  induction n generalizing itO dev old with
  | zero => exact Py.sim_pure rfl
  | succ n ih =>
    unfold outerLoop
    split_ifs
    · exact Py.sim_pure rfl
    · refine Py.Sim.bind (h _ _) fun d _ hd => ?_
      subst hd
      exact ih _ _ _

theorem outerFit_along (hD : RowwiseDist c.D data data') (hM : RowwiseMethods K c.M data data') (hp : data.Perm data')
    (hc : CallRel data data' c c') (hcond : c.cfg.condStartVal = false) (hnn : ∀ k, K.uses k = true → NonnegWeights data) (fuel : ℕ) :
    Py.Sim (RowsRel K data data') (RowsRel K data data') Eq (outerFit c fuel) (outerFit c' fuel) := by
  unfold outerFit
  refine Py.Sim.bind_self fun s t hR => ?_
  obtain ⟨⟨v, rfl, hfv⟩, h0⟩ := hR
  have hfv' : Along data data' s.fv (s.setRows v).fv := hfv
  rw [hc.cfg, hc.D, hc.y, hc.y', hc.w, hc.w', ← along_deviance hD hp hfv']
  exact outerLoop_sim _ (fun i d => paramLoop_sim (fun k => innerFit_along hD hM hp hc hcond hnn i k) _ d) _ _ _ _

/-! ### The whole fit -/

theorem SameButRows.set {s t : GState μ p} (h : SameButRows s t) (f : GState μ p → GState μ p)
    (hf : ∀ v, f (s.setRows v) = (f s).setRows v) : SameButRows (f s) (f t) := by
  obtain ⟨v, rfl⟩ := h
  exact ⟨v, hf v⟩

/-- Before the fitted values are there. -/
def StartRel (K : GramKind μ) (s t : GState μ p) : Prop :=
  SameButRows s t ∧ (∀ k f, s.forget.get? k = some f → f = 0) ∧ ∀ k m, s.method k = some m → K.inverse m = K.uses k

theorem StartRel.set {s t : GState μ p} (h : StartRel K s t) (f : GState μ p → GState μ p)
    (hf : ∀ v, f (s.setRows v) = (f s).setRows v) (h2 : (f s).forget = s.forget) (h3 : (f s).method = s.method) :
    StartRel K (f s) (f t) :=
  ⟨h.1.set f hf, by rw [h2]; exact h.2.1, by rw [h3]; exact h.2.2⟩

/-- The kinds of the methods are those of the options. -/
def KindsOf (D : DistOps) (M : MethodOps μ) (c : GConfig μ p) (K : GramKind μ) : Prop :=
  ∀ d, (c.method.process D.nParams (.value (some M.ols))).result = .ok d → ∀ k m, (d.get? k).bind id = some m → K.inverse m = K.uses k

theorem prepare_rows (frames : Bool) (D : DistOps) (M : MethodOps μ) (c : GConfig μ p) (h0 : NoForget D c) (hK : KindsOf D M c K) :
    Py.Sim SameButRows (StartRel K) Eq
      (prepare frames D M c) (prepare frames D M c) := by
  unfold prepare
  refine Py.Sim.bind (Py.sim_call (BothRel.of_eq rfl)) fun eq _ hm => ?_
  subst hm
  refine Py.Sim.bind (Py.sim_set fun s t h => h.set (GState.setEquation eq) fun _ => rfl) fun _ _ _ => ?_
  refine Py.Sim.bind (Py.sim_call (bothRel_self hK)) fun ms _ hm => ?_
  obtain ⟨rfl, hms⟩ := hm
  refine Py.Sim.bind (Py.sim_raiseIf Iff.rfl _) fun _ _ _ => ?_
  refine Py.Sim.bind (R' := fun s t => SameButRows s t ∧ ∀ k m, s.method k = some m → K.inverse m = K.uses k)
    (Py.sim_set fun s t h => ⟨h.set (GState.setMethod fun k => (ms.get? k).bind id) fun _ => rfl, hms⟩) fun _ _ _ => ?_
  refine Py.Sim.bind (Q := fun a b => a = b ∧ ∀ k f, a.get? k = some f → f = 0) (Py.sim_call ?_) fun fo _ hm => ?_
  · rcases hfo : (c.forget.process D.nParams (.value 0)).result with e | fo
    · exact .inl ⟨e, rfl, rfl⟩
    · exact .inr ⟨fo, fo, rfl, rfl, rfl, h0 fo hfo⟩
  obtain ⟨hm, hfo⟩ := hm
  subst hm
  refine Py.Sim.bind (R' := StartRel K)
    (Py.sim_set fun s t h => ⟨h.1.set (GState.setForget fo) fun _ => rfl, hfo, h.2⟩) fun _ _ _ => ?_
  refine Py.Sim.bind (Py.sim_call (BothRel.of_eq rfl)) fun ic _ hm => ?_
  subst hm
  refine Py.Sim.bind (Py.sim_set fun s t h => h.set (GState.setIc ic) (fun _ => rfl) rfl rfl) fun _ _ _ => ?_
  refine Py.Sim.bind (Py.sim_call (BothRel.of_eq rfl)) fun fi _ hm => ?_
  subst hm
  refine Py.Sim.bind (Py.sim_set fun s t h => h.set (GState.setFitIntercept fi) (fun _ => rfl) rfl rfl) fun _ _ _ => ?_
  refine Py.Sim.bind (Py.sim_call (BothRel.of_eq rfl)) fun ri _ hm => ?_
  subst hm
  refine Py.Sim.bind (Py.sim_set fun s t h => h.set (GState.setRegularizeIntercept ri) (fun _ => rfl) rfl rfl) fun _ _ _ => ?_
  refine Py.Sim.bind (Py.sim_call (BothRel.of_eq rfl)) fun st _ hm => ?_
  subst hm
  refine Py.Sim.bind (Py.sim_set fun s t h => h.set (GState.setStepSize st) (fun _ => rfl) rfl rfl) fun _ _ _ => ?_
  refine Py.Sim.bind (Py.sim_raiseIf Iff.rfl _) fun _ _ _ => ?_
  refine Py.Sim.bind (Py.sim_set fun s t h => h.set (GState.setParamOrder (c.paramOrder.getD (List.range D.nParams))) (fun _ => rfl) rfl rfl)
    fun _ _ _ => ?_
  exact Py.sim_set fun s t h => h.set (GState.setScaler none) (fun _ => rfl) rfl rfl

theorem outOfSupport_perm (D : DistOps) (hp : data.Perm data') : OutOfSupport D (ys data) ↔ OutOfSupport D (ys data') := by
  have h : ∀ v, v ∈ ys data ↔ v ∈ ys data' := fun v => (hp.map _).mem_iff
  unfold OutOfSupport
  simp only [h]

theorem transformFlt_maps (sc : Scaler p) : ∃ f : Row p → Fin p → Flt, ∀ X, sc.transformFlt X = X.map f := by
  cases sc with
  | off n => exact ⟨_, fun X => rfl⟩
  | on k sel st => exact ⟨_, fun X => rfl⟩

theorem npIndex_error {α : Type} {q : ℕ} (x : Fin q → α) (i : ℤ) (e : PyErr) (h : npIndex x i = .error e) : e = .indexError := by
  unfold npIndex at h
  simp only at h
  split_ifs at h <;> exact (Except.error.inj h).symm

theorem mapM_npIndex_error {α : Type} {q : ℕ} (x : Fin q → α) (l : List ℤ) (e : PyErr) (h : l.mapM (npIndex x) = .error e) :
    e = .indexError := by
  rcases mapM_cases (npIndex x) l with ⟨i, _, e', h1, h2⟩ | ⟨_, r, h2⟩
  · rw [h] at h2
    cases h2
    exact npIndex_error x i _ h1
  · rw [h] at h2
    cases h2

theorem selectColumns_error {α : Type} {q : ℕ} (eq : Equation) (x x' : Fin q → α) (e e' : PyErr) (h : selectColumns x eq = .error e)
    (h' : selectColumns x' eq = .error e') : e = e' := by
  unfold selectColumns npMask at h h'
  cases eq with
  | index l => rw [mapM_npIndex_error _ _ _ h, mapM_npIndex_error _ _ _ h']
  | intList l => rw [mapM_npIndex_error _ _ _ h, mapM_npIndex_error _ _ _ h']
  | _ =>
    simp only at h h'
    first
    | exact (Except.error.inj h).symm.trans (Except.error.inj h')
    | (split_ifs at h h' <;> exact (Except.error.inj h).symm.trans (Except.error.inj h'))

theorem modelRow_error {α : Type} {q : ℕ} (one : α) (fi : Bool) (eq : Equation) (x x' : Fin q → α) (e e' : PyErr)
    (h : modelRow one fi eq x = .error e) (h' : modelRow one fi eq x' = .error e') : e = e' := by
  unfold modelRow at h h'
  by_cases h1 : eq = .str "intercept"
  · rw [if_pos h1] at h h'
    cases fi
    · exact (Except.error.inj h).symm.trans (Except.error.inj h')
    · cases h
  · rw [if_neg h1] at h h'
    have key : ∀ (y : Fin q → α) (e : PyErr), (do
        let out ← selectColumns y eq
        pure (if fi = true then one :: out else out) : Except PyErr (List α)) = .error e → selectColumns y eq = .error e := by
      intro y e hy
      cases hs : selectColumns y eq with
      | error e1 => rw [hs] at hy; cases hy; rfl
      | ok o => rw [hs] at hy; cases hy
    exact selectColumns_error eq x x' e e' (key x e h) (key x' e' h')

theorem designFor_along (hp : data.Perm data') {s t : GState μ p} (he : t.equation = s.equation) (hf : t.fitIntercept = s.fitIntercept)
    (sc : Scaler p) (k : ℕ) : BothRel (Along data data') (designFor s sc (xs data) k) (designFor t sc (xs data') k) := by
  unfold designFor
  rw [he, hf]
  obtain ⟨g, hg⟩ := transformFlt_maps sc
  cases s.equation.get? k with
  | none => exact .inl ⟨_, rfl, rfl⟩
  | some eq =>
    cases s.fitIntercept.get? k with
    | none => exact .inl ⟨_, rfl, rfl⟩
    | some fi =>
      simp only [modelArray, hg]
      exact Along.mapM (Along.map (along_map Obs.x) g) hp _ fun x _ x' _ e e' => modelRow_error _ _ _ x x' e e'

theorem forParams_rel {α β : Type} {Q : α → β → Prop} (n : ℕ) {f : ℕ → Except PyErr α} {g : ℕ → Except PyErr β}
    (h : ∀ k, BothRel Q (f k) (g k)) :
    BothRel (fun d d' : PyDict _ => ∀ k, (PyDict.get? d k = none ∧ PyDict.get? d' k = none) ∨
      ∃ a b, PyDict.get? d k = some a ∧ PyDict.get? d' k = some b ∧ Q a b) (forParams n f) (forParams n g) := by
  unfold forParams
  refine BothRel.mono (mapM_forall₂ (P := Eq) (Q := fun (x : ℕ × α) (y : ℕ × β) => x.1 = y.1 ∧ Q x.2 y.2)
    (List.forall₂_same.2 fun _ _ => rfl) fun k _ hk => ?_) fun a b hab k => ?_
  · subst hk
    exact BothRel.bind (h k) fun x y hxy => BothRel.ok ⟨rfl, hxy⟩
  · induction hab with
    | nil => exact .inl ⟨rfl, rfl⟩
    | @cons x y l l' h1 _ ih =>
      obtain ⟨kx, vx⟩ := x
      obtain ⟨ky, vy⟩ := y
      obtain ⟨rfl, hQ⟩ := h1
      simp only [PyDict.get?]
      split_ifs
      · exact .inr ⟨vx, vy, rfl, rfl, hQ⟩
      · exact ih

set_option maxHeartbeats 1000000 in
/-- A fit on two orders of the same observations. -/
theorem fit_rows (frames : Bool) (D : DistOps) (M : MethodOps μ) (c : GConfig μ p) (hp : data.Perm data') (h0 : NoForget D c) (hK : KindsOf D M c K)
    (hcond : c.condStartVal = false) (hnn : ∀ k, K.uses k = true → NonnegWeights data) (hD : RowwiseDist D data data') (hM : RowwiseMethods K M data data')
    (hi : BothRel (Along data data') (D.initialValues (ys data)) (D.initialValues (ys data'))) :
    Py.Sim SameButRows (RowsRel K data data') Eq (GState.fit frames D M c data) (GState.fit frames D M c data') := by
  unfold GState.fit
  have hw : (ws data).sum = (ws data').sum := sum_perm hp _
  rw [← hw]
  refine Py.Sim.bind (Py.sim_raiseIf Iff.rfl _) fun _ _ _ => ?_
  refine Py.Sim.bind (prepare_rows frames D M c h0 hK) fun _ _ _ => ?_
  refine Py.Sim.bind (Py.sim_raiseIf (by rw [nil_or_perm hp]) _) fun _ _ _ => ?_
  refine Py.Sim.bind (Py.sim_raiseIf (outOfSupport_perm D hp) _) fun _ _ _ => ?_
  refine Py.Sim.bind (Py.sim_set fun s t h => h.set (GState.setNObs (some (ws data).sum)) (fun _ => rfl) rfl rfl) fun _ _ _ => ?_
  refine Py.Sim.bind_self fun s t hR => ?_
  obtain ⟨⟨v, rfl⟩, hs0, _⟩ := hR
  refine Py.Sim.bind (Py.sim_call (BothRel.of_eq rfl)) fun nt _ hm => ?_
  subst hm
  refine Py.Sim.bind (Py.sim_set fun s t h => h.set (GState.setNTraining nt) (fun _ => rfl) rfl rfl) fun _ _ _ => ?_
  refine Py.Sim.bind (Py.sim_call hi) fun fv fv' hfv => ?_
  refine Py.Sim.bind (R' := RowsRel { K with Good := fun _ => True } data data') (Py.sim_set fun s t h => ?_) fun _ _ _ => ?_
  · obtain ⟨⟨v, rfl⟩, h2, h3⟩ := h
    exact ⟨⟨⟨fv', v.debugWeights, v.debugWorking, v.debugEta, v.debugFv⟩, rfl, hfv⟩, h2, h3, fun _ _ _ _ => trivial⟩
  refine Py.Sim.bind (Py.sim_call (BothRel.of_eq rfl)) fun nf _ hm => ?_
  subst hm
  refine Py.Sim.bind (Py.sim_set fun s t h => h.set (GState.setNFeatures nf) (fun _ => rfl) rfl rfl rfl rfl) fun _ _ _ => ?_
  refine Py.Sim.bind (Q := fun a b => a = 0 ∧ b = 0) (Py.sim_attr_rel ?_ _) fun f f' hf => ?_
  · rcases hf : s.forget.get? 0 with _ | f
    · exact .inl ⟨rfl, hf⟩
    · exact .inr ⟨f, f, rfl, hf, hs0 0 f hf, hs0 0 f hf⟩
  obtain ⟨rfl, rfl⟩ := hf
  refine Py.Sim.bind (Py.sim_call (BothRel.of_eq (scaler_fit_perm c.scaleInputs hp))) fun sc _ hm => ?_
  subst hm
  refine Py.Sim.bind (Py.sim_set fun s t h => h.set (GState.setScaler (some sc)) (fun _ => rfl) rfl rfl rfl rfl) fun _ _ _ => ?_
  refine Py.Sim.bind (Py.sim_call (forParams_rel D.nParams fun k => designFor_along hp rfl rfl sc k)) fun X X' hX => ?_
  refine Py.Sim.bind (Py.sim_call (BothRel.of_eq rfl)) fun reg _ hm => ?_
  subst hm
  refine Py.Sim.bind (R' := RowsRel K data data') (Py.sim_set fun s t h => ?_) fun _ _ _ => ?_
  · obtain ⟨⟨v, rfl, hfv⟩, h2, h3, _⟩ := h
    exact ⟨⟨⟨v.fv, if c.debug then fun _ => none else v.debugWeights, if c.debug then fun _ => none else v.debugWorking,
      if c.debug then fun _ => none else v.debugEta, if c.debug then fun _ => none else v.debugFv⟩, rfl, hfv⟩, h2, h3, fun _ _ _ hG => nomatch hG⟩
  refine Py.Sim.bind_self fun s t hR => ?_
  obtain ⟨⟨v, rfl, hfv⟩, hs0⟩ := hR
  refine Py.Sim.bind (outerFit_along (c := ⟨D, M, c, X.get?, ys data, ws data⟩) (c' := ⟨D, M, c, X'.get?, ys data', ws data'⟩) hD hM hp
    ⟨rfl, rfl, rfl, rfl, rfl, rfl, rfl, hX⟩ hcond hnn _) fun r _ hm => ?_
  subst hm
  refine Py.Sim.bind (Py.sim_attr rfl _) fun r _ hm => ?_
  subst hm
  exact Py.sim_set fun s t h => h.set (GState.setResult r.1 r.2) (fun _ => rfl) rfl rfl rfl rfl

end Ondil
