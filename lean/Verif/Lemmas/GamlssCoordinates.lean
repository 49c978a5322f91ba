import Verif.Lemmas.GamlssWeightUnitsCalls
import Verif.Spec.GamlssCoordinates

/-!
# Two estimators that see the same regressions in different coordinates

The relations `DesignView` say how design matrices, Gramians, cross products and coefficients of the two estimators belong
together, per distribution parameter.
-/

namespace Ondil

variable {μ : Type} {p : ℕ}

/-- How the arrays of two estimators belong together. -/
structure DesignView where
  X : ℕ → Arr2 → Arr2 → Prop
  G : ℕ → Arr2 → Arr2 → Prop
  h : ℕ → Arr1 → Arr1 → Prop
  b : ℕ → Arr1 → Arr1 → Prop

/-- The methods `ok` have no path and respect the relations. -/
structure DesignView.Respects (V : DesignView) (ok : μ → Prop) (M : MethodOps μ) : Prop where
  notPath : ∀ m, ok m → M.pathBased m = false
  initX : ∀ k m X X' w f, ok m → V.X k X X' → BothRel (V.G k) (M.initX m X w f) (M.initX m X' w f)
  initY : ∀ k m X X' y w f, ok m → V.X k X X' → BothRel (V.h k) (M.initY m X y w f) (M.initY m X' y w f)
  updateX : ∀ k m G G' X X' w f, ok m → V.G k G G' → V.X k X X' → BothRel (V.G k) (M.updateX m G X w f) (M.updateX m G' X' w f)
  updateY : ∀ k m h h' X X' y w f, ok m → V.h k h h' → V.X k X X' →
    BothRel (V.h k) (M.updateY m h X y w f) (M.updateY m h' X' y w f)
  fitBeta : ∀ k m G G' h h' reg, ok m → V.G k G G' → V.h k h h' →
    BothRel (fun r r' => V.b k r.1 r'.1 ∧ r'.2 = r.2 ∧ ok r.2) (M.fitBeta m G h reg) (M.fitBeta m G' h' reg)
  updateBeta : ∀ k m G G' h h' b b' reg, ok m → V.G k G G' → V.h k h h' → V.b k b b' →
    BothRel (fun r r' => V.b k r.1 r'.1 ∧ r'.2 = r.2 ∧ ok r.2) (M.updateBeta m G h b reg) (M.updateBeta m G' h' b' reg)
  predict : ∀ k X X' b b', V.X k X X' → V.b k b b' → matVec X' b' = matVec X b
  zero : ∀ k n, V.b k (List.replicate n (.fin 0)) (List.replicate n (.fin 0))

/-- Both are missing, or both exist and belong together. -/
def OptRel {α β : Type} (Q : α → β → Prop) (x : Option α) (y : Option β) : Prop :=
  (x = none ∧ y = none) ∨ ∃ a b, x = some a ∧ y = some b ∧ Q a b

theorem OptRel.none {α β : Type} {Q : α → β → Prop} : OptRel Q Option.none Option.none := .inl ⟨rfl, rfl⟩

theorem OptRel.upd {α β : Type} {Q : ℕ → α → β → Prop} {f : ℕ → Option α} {g : ℕ → Option β} (h : ∀ i, OptRel (Q i) (f i) (g i)) (j : ℕ)
    {a : α} {b : β} (hab : Q j a b) (i : ℕ) : OptRel (Q i) (Ondil.upd f j (some a) i) (Ondil.upd g j (some b) i) := by
  by_cases hi : i = j
  · subst hi
    rw [upd_self, upd_self]
    exact .inr ⟨a, b, rfl, rfl, hab⟩
  · rw [upd_other _ hi, upd_other _ hi]
    exact h i

/-- The attributes that depend on the coordinates. -/
structure CodedParts where
  xGram : ℕ → Option Arr2
  yGram : ℕ → Option Arr1
  xGramNew : ℕ → Option Arr2
  yGramNew : ℕ → Option Arr1
  coef : ℕ → Option Arr1
  debugCoef : DebugKey → Option Arr1

/-- The attributes belong together. -/
structure CodedParts.Fits (V : DesignView) (v : CodedParts) (s : GState μ p) : Prop where
  xGram : ∀ j, OptRel (V.G j) (s.xGram j) (v.xGram j)
  yGram : ∀ j, OptRel (V.h j) (s.yGram j) (v.yGram j)
  xGramNew : ∀ j, OptRel (V.G j) (s.xGramNew j) (v.xGramNew j)
  yGramNew : ∀ j, OptRel (V.h j) (s.yGramNew j) (v.yGramNew j)
  coef : ∀ j, OptRel (V.b j) (s.coef j) (v.coef j)

/-- The estimator with other values of these attributes. -/
def GState.coded (v : CodedParts) (s : GState μ p) : GState μ p :=
  { s with
    xGram := v.xGram
    yGram := v.yGram
    xGramNew := v.xGramNew
    yGramNew := v.yGramNew
    coef := v.coef
    debugCoef := v.debugCoef }

/-- The second estimator sees the regressions in other coordinates. -/
def Coded (V : DesignView) (s t : GState μ p) : Prop := ∃ v : CodedParts, v.Fits V s ∧ t = s.coded v

/-- The same, for estimators with admitted methods and a property of equations, intercepts and scaler. -/
def CodedRel (V : DesignView) (ok : μ → Prop) (P : PyDict Equation → PyDict Bool → Option (Scaler p) → Prop) (s t : GState μ p) : Prop :=
  Coded V s t ∧ MethodsOk ok s ∧ P s.equation s.fitIntercept s.scaler

variable {V : DesignView} {ok : μ → Prop} {P : PyDict Equation → PyDict Bool → Option (Scaler p) → Prop}

theorem Fits.same {v : CodedParts} {s s' : GState μ p} (hv : v.Fits V s) (h1 : s'.xGram = s.xGram) (h2 : s'.yGram = s.yGram)
    (h3 : s'.xGramNew = s.xGramNew) (h4 : s'.yGramNew = s.yGramNew) (h5 : s'.coef = s.coef) : v.Fits V s' :=
  ⟨by rw [h1]; exact hv.1, by rw [h2]; exact hv.2, by rw [h3]; exact hv.3, by rw [h4]; exact hv.4, by rw [h5]; exact hv.5⟩

/-- Nothing of what the relation is about changes. -/
structure KeepsCoded (s s' : GState μ p) : Prop where
  xGram : s'.xGram = s.xGram
  yGram : s'.yGram = s.yGram
  xGramNew : s'.xGramNew = s.xGramNew
  yGramNew : s'.yGramNew = s.yGramNew
  coef : s'.coef = s.coef

theorem Coded.set {s t : GState μ p} (h : Coded V s t) (f : GState μ p → GState μ p)
    (hf : ∀ v, f (s.coded v) = (f s).coded v) (hk : KeepsCoded s (f s)) : Coded V (f s) (f t) := by
  obtain ⟨v, hv, rfl⟩ := h
  exact ⟨v, Fits.same hv hk.1 hk.2 hk.3 hk.4 hk.5, hf v⟩

theorem CodedRel.set {s t : GState μ p} (h : CodedRel V ok P s t) (f : GState μ p → GState μ p)
    (hf : ∀ v, f (s.coded v) = (f s).coded v) (hk : KeepsCoded s (f s)) (hm : (f s).method = s.method)
    (h1 : (f s).equation = s.equation) (h2 : (f s).fitIntercept = s.fitIntercept) (h3 : (f s).scaler = s.scaler) :
    CodedRel V ok P (f s) (f t) :=
  ⟨h.1.set f hf hk, by unfold MethodsOk; rw [hm]; exact h.2.1, by rw [h1, h2, h3]; exact h.2.2⟩

theorem CodedRel.setMethod {s t : GState μ p} (h : CodedRel V ok P s t) (j : ℕ) {m : μ} (hm : ok m) :
    CodedRel V ok P (s.setMethod (upd s.method j (some m))) (t.setMethod (upd t.method j (some m))) := by
  obtain ⟨⟨v, hv, rfl⟩, h2, h3⟩ := h
  refine ⟨⟨v, ⟨hv.1, hv.2, hv.3, hv.4, hv.5⟩, rfl⟩, fun i m' hi => ?_, h3⟩
  by_cases hij : i = j
  · subst hij
    have e : upd s.method i (some m) i = some m' := hi
    rw [upd_self] at e
    rw [← Option.some.inj e]
    exact hm
  · have e : upd s.method j (some m) i = some m' := hi
    rw [upd_other _ hij] at e
    exact h2 i m' e

/-- The call with the design matrices in other coordinates. -/
def Call.recode (X' : ℕ → Option Arr2) (c : Call μ p) : Call μ p := { c with X := X' }

theorem sim_codedMethod {s t : GState μ p} (h : CodedRel V ok P s t) (R : GState μ p → GState μ p → Prop) (j : ℕ) (e : PyErr) :
    Py.Sim R R (fun a b => a = b ∧ ok a) (Py.attr (s.method j) e) (Py.attr (t.method j) e) := by
  obtain ⟨⟨v, hv, rfl⟩, h2, _⟩ := h
  refine Py.sim_attr_rel ?_ e
  rcases hm : s.method j with _ | m
  · exact .inl ⟨rfl, hm⟩
  · exact .inr ⟨m, m, rfl, hm, rfl, h2 j m hm⟩

/-- The coefficients of an iteration in other coordinates. -/
structure CoefsCoded (V : DesignView) (j : ℕ) (o o' : Coefs) : Prop where
  beta : V.b j o.beta o'.beta
  path : o'.path = o.path
  selection : o'.selection = o.selection
  bestIc : o'.bestIc = o.bestIc

theorem fitCoefs_coded (c : Call μ p) (hM : V.Respects ok c.M) (X'' : ℕ → Option Arr2) (j itO itI : ℕ) (prev : Option Arr2) {X X' : Arr2}
    (wk : Working) {xg xg' : Arr2} {yg yg' : Arr1} (hx : V.G j xg xg') (hy : V.h j yg yg') :
    Py.Sim (CodedRel V ok P) (CodedRel V ok P) (CoefsCoded V j) (fitCoefs c j itO itI prev X wk xg yg)
      (fitCoefs (c.recode X'') j itO itI prev X' wk xg' yg') := by
  unfold fitCoefs
  refine Py.Sim.bind_self fun s t hR => ?_
  have hR' := hR
  obtain ⟨⟨v, hv, rfl⟩, _⟩ := hR
  refine Py.Sim.bind (sim_codedMethod hR' _ j _) fun m _ hm => ?_
  obtain ⟨rfl, hok⟩ := hm
  refine Py.Sim.bind (Py.sim_attr rfl _) fun reg _ hm => ?_
  subst hm
  refine Py.Sim.bind (Py.sim_attr rfl _) fun f _ hm => ?_
  subst hm
  have hp : ¬ c.M.pathBased m = true := by rw [hM.notPath m hok]; simp
  have hp' : ¬ (c.recode X'').M.pathBased m = true := hp
  rw [if_neg hp, if_neg hp']
  refine Py.Sim.bind (Py.sim_call (hM.fitBeta j m xg xg' yg yg' reg hok hx hy)) fun r r' hm => ?_
  obtain ⟨hb, e, hr⟩ := hm
  rw [e]
  refine Py.Sim.bind (Py.sim_set fun s t h => h.setMethod j hr) fun _ _ _ => ?_
  exact Py.sim_pure ⟨hb, rfl, rfl, rfl⟩

/-- The results of an iteration in other coordinates. -/
structure OutCoded (V : DesignView) (j : ℕ) (o o' : IterOut) : Prop where
  it : o'.it = o.it
  wt : o'.wt = o.wt
  xGram : V.G j o.xGram o'.xGram
  yGram : V.h j o.yGram o'.yGram
  beta : V.b j o.beta o'.beta
  path : o'.path = o.path
  selection : o'.selection = o.selection
  bestIc : o'.bestIc = o.bestIc
  rss : o'.rss = o.rss
  dv : o'.dv = o.dv

/-- The variables of an inner loop in other coordinates. -/
structure InnerCoded (V : DesignView) (j : ℕ) (a b : Inner) : Prop where
  fvIt : b.fvIt = a.fvIt
  fvNew : b.fvNew = a.fvNew
  dvStart : b.dvStart = a.dvStart
  dvOld : b.dvOld = a.dvOld
  stepDecrease : b.stepDecrease = a.stepDecrease
  badState : b.badState = a.badState
  out : OptRel (OutCoded V j) a.out b.out

theorem debugWork_coded {s t : GState μ p} (h : CodedRel V ok P s t) (b : Bool) (key : DebugKey) (wk : Working) (fv : Fv) :
    CodedRel V ok P (debugWork b key wk fv s) (debugWork b key wk fv t) := by
  cases b
  · exact h
  · exact h.set (debugWork true key wk fv) (fun _ => rfl) ⟨rfl, rfl, rfl, rfl, rfl⟩ rfl rfl rfl rfl

theorem debugBeta_coded {s t : GState μ p} (h : CodedRel V ok P s t) (b : Bool) (key : DebugKey) (be be' : Arr1) :
    CodedRel V ok P (debugBeta b key be s) (debugBeta b key be' t) := by
  cases b
  · exact h
  · obtain ⟨⟨v, hv, rfl⟩, h2, h3⟩ := h
    exact ⟨⟨{ v with debugCoef := Function.update v.debugCoef key (some be') }, ⟨hv.1, hv.2, hv.3, hv.4, hv.5⟩, rfl⟩, h2, h3⟩

set_option maxHeartbeats 1000000 in
theorem fitIteration_coded (c : Call μ p) (hM : V.Respects ok c.M) {X' : ℕ → Option Arr2} (hX : ∀ j, OptRel (V.X j) (c.X j) (X' j))
    (j itO itI scheduled : ℕ) {a b : Inner} (hab : InnerCoded V j a b) :
    Py.Sim (CodedRel V ok P) (CodedRel V ok P) (fun r r' => InnerCoded V j r.1 r'.1 ∧ r'.2 = r.2)
      (fitIteration c j itO itI scheduled a) (fitIteration (c.recode X') j itO itI scheduled b) := by
  obtain ⟨aIt, aNew, dv0, dv1, n, bad, oa⟩ := a
  obtain ⟨bIt, bNew, dv0', dv1', n', bad', ob⟩ := b
  obtain ⟨h1, h2, h3, h4, h5, h6, h7⟩ := hab
  simp only at h1 h2 h3 h4 h5 h6 h7
  subst h1 h2 h3 h4 h5 h6
  have hpath : (ob.bind fun o => o.path) = oa.bind fun o => o.path := by
    rcases h7 with ⟨rfl, rfl⟩ | ⟨o, o', rfl, rfl, ho⟩
    · rfl
    · exact ho.path
  unfold fitIteration
  refine Py.Sim.bind_self fun s t hR => ?_
  have hR' := hR
  obtain ⟨⟨v, hv, rfl⟩, _⟩ := hR
  refine Py.Sim.bind (Py.sim_call (BothRel.of_eq rfl)) fun step _ hm => ?_
  subst hm
  refine Py.Sim.bind (Py.sim_call (BothRel.of_eq rfl)) fun fvIt _ hm => ?_
  subst hm
  refine Py.Sim.bind (Py.sim_call (BothRel.of_eq rfl)) fun wk _ hm => ?_
  subst hm
  refine Py.Sim.bind (Py.sim_set fun s t h => debugWork_coded h _ _ wk fvIt) fun _ _ _ => ?_
  refine Py.Sim.bind (Py.sim_attr_rel (hX j) _) fun X X1 hXX => ?_
  refine Py.Sim.bind (sim_codedMethod hR' _ j _) fun m _ hm => ?_
  obtain ⟨rfl, hok⟩ := hm
  refine Py.Sim.bind (Py.sim_attr rfl _) fun f _ hm => ?_
  subst hm
  refine Py.Sim.bind (Py.sim_call (hM.initX j m X X1 _ f hok hXX)) fun xg xg' hxg => ?_
  refine Py.Sim.bind (Py.sim_call (hM.initY j m X X1 wk.wv _ f hok hXX)) fun yg yg' hyg => ?_
  rw [hpath]
  refine Py.Sim.bind (fitCoefs_coded c hM X' j itO itI _ wk hxg hyg) fun co co' hco => ?_
  refine Py.Sim.bind (Py.sim_set fun s t h => debugBeta_coded h _ _ co.beta co'.beta) fun _ _ _ => ?_
  refine Py.Sim.bind (Py.sim_call (BothRel.of_eq (hM.predict j X X1 _ _ hXX hco.beta).symm)) fun xb _ hm => ?_
  subst hm
  refine Py.Sim.bind (Py.sim_call (BothRel.of_eq rfl)) fun w _ hm => ?_
  subst hm
  have hdv : deviance (c.recode X').D (c.recode X').y (c.recode X').w (bNew.setCol j w) =
      deviance c.D c.y c.w (bNew.setCol j w) := rfl
  dsimp only
  rw [hdv]
  refine Py.Sim.bind (R' := CodedRel V ok P) (Py.sim_set fun s t h => ?_) fun _ _ _ => ?_
  · split_ifs with hh
    · exact h.set (fun s => s.setScheduleStep fun o i j' => if o = itO - 1 ∧ i = itI + 1 ∧ j' = j then some (step / 2)
        else s.scheduleStep o i j') (fun _ => rfl) ⟨rfl, rfl, rfl, rfl, rfl⟩ rfl rfl rfl rfl
    · exact h
  · exact Py.sim_pure ⟨⟨rfl, rfl, rfl, rfl, rfl, rfl, .inr ⟨_, _, rfl, rfl,
      ⟨rfl, rfl, hxg, hyg, hco.beta, hco.path, hco.selection, hco.bestIc, rfl, rfl⟩⟩⟩, rfl⟩

theorem fitInnerLoop_coded (c : Call μ p) (hM : V.Respects ok c.M) {X' : ℕ → Option Arr2} (hX : ∀ j, OptRel (V.X j) (c.X j) (X' j))
    (j itO scheduled n itI : ℕ) {a b : Inner} (hab : InnerCoded V j a b) :
    Py.Sim (CodedRel V ok P) (CodedRel V ok P) (InnerCoded V j)
      (fitInnerLoop c j itO scheduled n itI a) (fitInnerLoop (c.recode X') j itO scheduled n itI b) := by
  induction n generalizing itI a b with
  | zero => exact Py.sim_pure hab
  | succ n ih =>
    unfold fitInnerLoop
    refine Py.Sim.bind (fitIteration_coded c hM hX j itO itI scheduled hab) fun r r' hr => ?_
    obtain ⟨h1, h2⟩ := hr
    rw [h2]
    split_ifs
    · exact Py.sim_pure h1
    · exact ih (itI + 1) h1

theorem commitFit_coded (c : Call μ p) (X' : ℕ → Option Arr2) (j : ℕ) {a b : Inner} (hab : InnerCoded V j a b) {o o' : IterOut}
    (ho : OutCoded V j o o') {s t : GState μ p} (h : CodedRel V ok P s t) :
    CodedRel V ok P (commitFit c j a o s) (commitFit (c.recode X') j b o' t) := by
  obtain ⟨⟨v, hv, rfl⟩, h2, h3⟩ := h
  obtain ⟨it, wt, wv, xg, yg, be, pa, se, bi, rs, dv⟩ := o
  obtain ⟨it', wt', wv', xg', yg', be', pa', se', bi', rs', dv'⟩ := o'
  obtain ⟨e1, e2, e3, e4, e5, e6, e7, e8, e9, e10⟩ := ho
  simp only at e1 e2 e3 e4 e5 e6 e7 e8 e9 e10
  subst e1 e2 e6 e7 e8 e9 e10
  refine ⟨⟨⟨upd v.xGram j (some xg'), upd v.yGram j (some yg'), v.xGramNew, v.yGramNew, upd v.coef j (some be'), v.debugCoef⟩,
    ⟨OptRel.upd hv.1 j e3, OptRel.upd hv.2 j e4, hv.3, hv.4, OptRel.upd hv.5 j e5⟩, ?_⟩, h2, h3⟩
  unfold commitFit
  simp only [GState.coded, hab.fvNew, Call.recode]

theorem innerFit_coded (c : Call μ p) (hM : V.Respects ok c.M) {X' : ℕ → Option Arr2} (hX : ∀ j, OptRel (V.X j) (c.X j) (X' j)) (itO j : ℕ) :
    Py.Sim (CodedRel V ok P) (CodedRel V ok P) Eq (innerFit c itO j) (innerFit (c.recode X') itO j) := by
  unfold innerFit
  refine Py.Sim.bind_self fun s t hR => ?_
  obtain ⟨⟨v, hv, rfl⟩, _⟩ := hR
  refine Py.Sim.bind (Py.sim_call (BothRel.of_eq rfl)) fun n _ hm => ?_
  subst hm
  refine Py.Sim.bind (fitInnerLoop_coded c hM hX j itO n n 0 ⟨rfl, rfl, rfl, rfl, rfl, rfl, .none⟩) fun a b hab => ?_
  refine Py.Sim.bind (Py.sim_attr_rel hab.out _) fun o o' ho => ?_
  rw [hab.badState, ho.it, ho.dv]
  refine Py.Sim.bind (R' := CodedRel V ok P) (Py.sim_set fun s t h => ?_) fun _ _ _ => ?_
  · split_ifs
    · exact commitFit_coded c X' j hab ho h
    · exact h
  refine Py.Sim.bind (Py.sim_set fun s t h => h.set (fun s => s.setItInner (Function.update s.itInner j o.it)) (fun _ => rfl)
    ⟨rfl, rfl, rfl, rfl, rfl⟩ rfl rfl rfl rfl) fun _ _ _ => ?_
  exact Py.sim_pure rfl

theorem paramLoop_same {σ : Type} {R : σ → σ → Prop} {f g : ℕ → Py σ Flt} (h : ∀ j, Py.Sim R R Eq (f j) (g j)) (l : List ℕ) (dev : Flt) :
    Py.Sim R R Eq (paramLoop f l dev) (paramLoop g l dev) := by
  induction l generalizing dev with
  | nil => exact Py.sim_pure rfl
  | cons j l ih =>
    unfold paramLoop
    refine Py.Sim.bind (h j) fun d _ hd => ?_
    subst hd
    exact ih d

theorem outerLoop_same {σ : Type} {R : σ → σ → Prop} {stops : ℕ → Flt → Flt → Prop} {f g : ℕ → Flt → Py σ Flt}
    (h : ∀ i d, Py.Sim R R Eq (f i d) (g i d)) (n itO : ℕ) (dev old : Flt) :
    Py.Sim R R Eq (outerLoop stops f n itO dev old) (outerLoop stops g n itO dev old) := by
  induction n generalizing itO dev old with
  | zero => exact Py.sim_pure rfl
  | succ n ih =>
    unfold outerLoop
    split_ifs
    · exact Py.sim_pure rfl
    · refine Py.Sim.bind (h _ _) fun d _ hd => ?_
      subst hd
      exact ih _ _ _

theorem outerFit_coded (c : Call μ p) (hM : V.Respects ok c.M) {X' : ℕ → Option Arr2} (hX : ∀ j, OptRel (V.X j) (c.X j) (X' j)) (fuel : ℕ) :
    Py.Sim (CodedRel V ok P) (CodedRel V ok P) Eq (outerFit c fuel) (outerFit (c.recode X') fuel) := by
  unfold outerFit
  refine Py.Sim.bind_self fun s t hR => ?_
  obtain ⟨⟨v, hv, rfl⟩, _⟩ := hR
  exact outerLoop_same (fun i d => paramLoop_same (fun j => innerFit_coded c hM hX i j) _ d) _ _ _ _

/-! ### `update` -/

theorem updateCoefs_coded (c : Call μ p) (hM : V.Respects ok c.M) (X'' : ℕ → Option Arr2) (j : ℕ) {X X' : Arr2}
    (wk : Working) {xg xg' : Arr2} {yg yg' : Arr1} (hx : V.G j xg xg') (hy : V.h j yg yg') :
    Py.Sim (CodedRel V ok P) (CodedRel V ok P) (CoefsCoded V j) (updateCoefs c j X wk xg yg)
      (updateCoefs (c.recode X'') j X' wk xg' yg') := by
  unfold updateCoefs
  refine Py.Sim.bind_self fun s t hR => ?_
  have hR' := hR
  obtain ⟨⟨v, hv, rfl⟩, _⟩ := hR
  refine Py.Sim.bind (sim_codedMethod hR' _ j _) fun m _ hm => ?_
  obtain ⟨rfl, hok⟩ := hm
  refine Py.Sim.bind (Py.sim_attr rfl _) fun reg _ hm => ?_
  subst hm
  refine Py.Sim.bind (Py.sim_attr rfl _) fun f _ hm => ?_
  subst hm
  have hp : ¬ c.M.pathBased m = true := by rw [hM.notPath m hok]; simp
  have hp' : ¬ (c.recode X'').M.pathBased m = true := hp
  rw [if_neg hp, if_neg hp']
  refine Py.Sim.bind (Py.sim_attr_rel (hv.coef j) _) fun b b' hbb => ?_
  refine Py.Sim.bind (Py.sim_call (hM.updateBeta j m xg xg' yg yg' b b' reg hok hx hy hbb)) fun r r' hm => ?_
  obtain ⟨hb, e, hr⟩ := hm
  rw [e]
  refine Py.Sim.bind (Py.sim_set fun s t h => h.setMethod j hr) fun _ _ _ => ?_
  exact Py.sim_pure ⟨hb, rfl, rfl, rfl⟩

set_option maxHeartbeats 1000000 in
theorem updateIteration_coded (c : Call μ p) (hM : V.Respects ok c.M) {X' : ℕ → Option Arr2} (hX : ∀ j, OptRel (V.X j) (c.X j) (X' j))
    (j itO itI : ℕ) {a b : Inner} (hab : InnerCoded V j a b) :
    Py.Sim (CodedRel V ok P) (CodedRel V ok P) (fun r r' => InnerCoded V j r.1 r'.1 ∧ r'.2 = r.2)
      (updateIteration c j itO itI a) (updateIteration (c.recode X') j itO itI b) := by
  obtain ⟨aIt, aNew, dv0, dv1, n, bad, oa⟩ := a
  obtain ⟨bIt, bNew, dv0', dv1', n', bad', ob⟩ := b
  obtain ⟨h1, h2, h3, h4, h5, h6, h7⟩ := hab
  simp only at h1 h2 h3 h4 h5 h6 h7
  subst h1 h2 h3 h4 h5 h6
  unfold updateIteration
  refine Py.Sim.bind_self fun s t hR => ?_
  have hR' := hR
  obtain ⟨⟨v, hv, rfl⟩, _⟩ := hR
  refine Py.Sim.bind (Py.sim_call (BothRel.of_eq rfl)) fun step _ hm => ?_
  subst hm
  refine Py.Sim.bind (Py.sim_call (BothRel.of_eq rfl)) fun wk _ hm => ?_
  subst hm
  refine Py.Sim.bind (Py.sim_set fun s t h => debugWork_coded h _ _ wk _) fun _ _ _ => ?_
  refine Py.Sim.bind (Py.sim_attr_rel (hX j) _) fun X X1 hXX => ?_
  refine Py.Sim.bind (sim_codedMethod hR' _ j _) fun m _ hm => ?_
  obtain ⟨rfl, hok⟩ := hm
  refine Py.Sim.bind (Py.sim_attr rfl _) fun f _ hm => ?_
  subst hm
  refine Py.Sim.bind (Py.sim_attr_rel (hv.xGram j) _) fun x0 x0' hx0 => ?_
  refine Py.Sim.bind (Py.sim_call (hM.updateX j m x0 x0' X X1 _ f hok hx0 hXX)) fun xg xg' hxg => ?_
  refine Py.Sim.bind (Py.sim_attr_rel (hv.yGram j) _) fun y0 y0' hy0 => ?_
  refine Py.Sim.bind (Py.sim_call (hM.updateY j m y0 y0' X X1 wk.wv _ f hok hy0 hXX)) fun yg yg' hyg => ?_
  refine Py.Sim.bind (updateCoefs_coded c hM X' j wk hxg hyg) fun co co' hco => ?_
  refine Py.Sim.bind (Py.sim_set fun s t h => debugBeta_coded h _ _ co.beta co'.beta) fun _ _ _ => ?_
  refine Py.Sim.bind (Py.sim_call (BothRel.of_eq (hM.predict j X X1 _ _ hXX hco.beta).symm)) fun xb _ hm => ?_
  subst hm
  refine Py.Sim.bind (Py.sim_attr rfl _) fun meanW _ hm => ?_
  subst hm
  refine Py.Sim.bind (Py.sim_attr rfl _) fun nObs _ hm => ?_
  subst hm
  refine Py.Sim.bind (Py.sim_call (BothRel.of_eq rfl)) fun w _ hm => ?_
  subst hm
  refine Py.Sim.bind (Py.sim_attr rfl _) fun f0 _ hm => ?_
  subst hm
  refine Py.Sim.bind (Py.sim_attr rfl _) fun old _ hm => ?_
  subst hm
  dsimp only
  refine Py.Sim.bind (R' := CodedRel V ok P) (Py.sim_set fun s t h => ?_) fun _ _ _ => ?_
  · have e : ∀ d, updateDeviance (c.recode X') f0 old d = updateDeviance c f0 old d := fun _ => rfl
    rw [e]
    split_ifs with hh
    · exact h.set (fun s => s.setScheduleStep fun o i j' => if o = itO - 1 ∧ i = itI ∧ j' = j then some (step / 2)
        else s.scheduleStep o i j') (fun _ => rfl) ⟨rfl, rfl, rfl, rfl, rfl⟩ rfl rfl rfl rfl
    · exact h
  · exact Py.sim_pure ⟨⟨rfl, rfl, rfl, rfl, rfl, rfl, .inr ⟨_, _, rfl, rfl,
      ⟨rfl, rfl, hxg, hyg, hco.beta, hco.path, hco.selection, hco.bestIc, rfl, rfl⟩⟩⟩, rfl⟩

theorem updateInnerLoop_coded (c : Call μ p) (hM : V.Respects ok c.M) {X' : ℕ → Option Arr2} (hX : ∀ j, OptRel (V.X j) (c.X j) (X' j))
    (j itO n itI : ℕ) {a b : Inner} (hab : InnerCoded V j a b) :
    Py.Sim (CodedRel V ok P) (CodedRel V ok P) (InnerCoded V j)
      (updateInnerLoop c j itO n itI a) (updateInnerLoop (c.recode X') j itO n itI b) := by
  induction n generalizing itI a b with
  | zero => exact Py.sim_pure hab
  | succ n ih =>
    unfold updateInnerLoop
    refine Py.Sim.bind (updateIteration_coded c hM hX j itO itI hab) fun r r' hr => ?_
    obtain ⟨h1, h2⟩ := hr
    rw [h2]
    split_ifs
    · exact Py.sim_pure h1
    · exact ih (itI + 1) h1

theorem commitUpdate_coded (c : Call μ p) (X' : ℕ → Option Arr2) (j : ℕ) {a b : Inner} (hab : InnerCoded V j a b) {o o' : IterOut}
    (ho : OutCoded V j o o') (f sw nt : Flt) {s t : GState μ p} (h : CodedRel V ok P s t) :
    CodedRel V ok P (commitUpdate c j a o f sw nt s) (commitUpdate (c.recode X') j b o' f sw nt t) := by
  obtain ⟨⟨v, hv, rfl⟩, h2, h3⟩ := h
  obtain ⟨it, wt, wv, xg, yg, be, pa, se, bi, rs, dv⟩ := o
  obtain ⟨it', wt', wv', xg', yg', be', pa', se', bi', rs', dv'⟩ := o'
  obtain ⟨e1, e2, e3, e4, e5, e6, e7, e8, e9, e10⟩ := ho
  simp only at e1 e2 e3 e4 e5 e6 e7 e8 e9 e10
  subst e1 e2 e6 e7 e8 e9 e10
  refine ⟨⟨⟨v.xGram, v.yGram, upd v.xGramNew j (some xg'), upd v.yGramNew j (some yg'), upd v.coef j (some be'), v.debugCoef⟩,
    ⟨hv.1, hv.2, OptRel.upd hv.3 j e3, OptRel.upd hv.4 j e4, OptRel.upd hv.5 j e5⟩, ?_⟩, h2, h3⟩
  unfold commitUpdate
  simp only [GState.coded, hab.fvNew, Call.recode]

theorem innerUpdate_coded (c : Call μ p) (hM : V.Respects ok c.M) {X' : ℕ → Option Arr2} (hX : ∀ j, OptRel (V.X j) (c.X j) (X' j)) (itO j : ℕ) :
    Py.Sim (CodedRel V ok P) (CodedRel V ok P) Eq (innerUpdate c itO j) (innerUpdate (c.recode X') itO j) := by
  unfold innerUpdate
  refine Py.Sim.bind_self fun s t hR => ?_
  obtain ⟨⟨v, hv, rfl⟩, _⟩ := hR
  refine Py.Sim.bind (Py.sim_attr rfl _) fun f0 _ hm => ?_
  subst hm
  refine Py.Sim.bind (Py.sim_attr rfl _) fun old _ hm => ?_
  subst hm
  refine Py.Sim.bind (Py.sim_call (BothRel.of_eq rfl)) fun n _ hm => ?_
  subst hm
  refine Py.Sim.bind (updateInnerLoop_coded c hM hX j itO n 0 ⟨rfl, rfl, rfl, rfl, rfl, rfl, .none⟩) fun a b hab => ?_
  refine Py.Sim.bind (Py.sim_attr_rel hab.out _) fun o o' ho => ?_
  refine Py.Sim.bind (Py.sim_attr rfl _) fun f _ hm => ?_
  subst hm
  refine Py.Sim.bind (Py.sim_attr rfl _) fun sw _ hm => ?_
  subst hm
  refine Py.Sim.bind (Py.sim_attr rfl _) fun nt _ hm => ?_
  subst hm
  rw [ho.dv]
  refine Py.Sim.bind (Py.sim_set fun s t h => commitUpdate_coded c X' j hab ho _ _ _ h) fun _ _ _ => ?_
  exact Py.sim_pure rfl

theorem outerUpdate_coded (c : Call μ p) (hM : V.Respects ok c.M) {X' : ℕ → Option Arr2} (hX : ∀ j, OptRel (V.X j) (c.X j) (X' j)) (fuel : ℕ) :
    Py.Sim (CodedRel V ok P) (CodedRel V ok P) Eq (outerUpdate c fuel) (outerUpdate (c.recode X') fuel) := by
  unfold outerUpdate
  refine Py.Sim.bind_self fun s t hR => ?_
  obtain ⟨⟨v, hv, rfl⟩, _⟩ := hR
  refine Py.Sim.bind (Py.sim_attr rfl _) fun f0 _ hm => ?_
  subst hm
  refine Py.Sim.bind (Py.sim_attr rfl _) fun old _ hm => ?_
  subst hm
  exact outerLoop_same (fun i d => paramLoop_same (fun j => innerUpdate_coded c hM hX i j) _ d) _ _ _ _

end Ondil
