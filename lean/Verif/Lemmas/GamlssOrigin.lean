import Verif.Lemmas.GamlssCoordinates
import Verif.Lemmas.GamlssRows
import Verif.Spec.GamlssOrigin

/-!
# Two estimators whose responses are measured from different origins
-/

namespace Ondil

variable {μ : Type} {p : ℕ} {δ : ℝ}

/-! ### Floats -/

theorem plus_sub_plus (δ : ℝ) (a b : Flt) : Flt.sub (Flt.plus δ a) (Flt.plus δ b) = Flt.sub a b := by
  cases a <;> cases b <;> simp [Flt.sub, Flt.plus, Flt.add, Flt.neg]

theorem add_plus (δ : ℝ) (a b : Flt) : Flt.add (Flt.plus δ a) b = Flt.plus δ (Flt.add a b) := by
  cases a <;> cases b <;> simp [Flt.plus, Flt.add] <;> ring

theorem infSigned_cases (x : ℝ) : Flt.infSigned x = .pinf ∨ Flt.infSigned x = .ninf ∨ Flt.infSigned x = .nan := by
  unfold Flt.infSigned
  split_ifs <;> simp

theorem damp_plus (δ s : ℝ) (u e : Flt) :
    Flt.add (Flt.mul (.fin s) (Flt.plus δ u)) (Flt.mul (.fin (1 - s)) (Flt.plus δ e)) =
      Flt.plus δ (Flt.add (Flt.mul (.fin s) u) (Flt.mul (.fin (1 - s)) e)) := by
  rcases infSigned_cases s with h1 | h1 | h1 <;> rcases infSigned_cases (1 - s) with h2 | h2 | h2 <;>
    cases u <;> cases e <;> simp [Flt.plus, Flt.add, Flt.mul, h1, h2, Flt.neg] <;> ring

/-! ### Arrays -/

theorem plusAt_length (δ : ℝ) (k : ℕ) (a : Arr1) : (plusAt δ k a).length = a.length := by
  unfold plusAt
  split_ifs <;> simp

theorem plusAt_zero (δ : ℝ) (a : Arr1) : plusAt δ 0 a = a.map (Flt.plus δ) := if_pos rfl

theorem plusAt_other (δ : ℝ) {k : ℕ} (h : k ≠ 0) (a : Arr1) : plusAt δ k a = a := if_neg h

theorem col_plus (fv : Fv) (k : ℕ) : Fv.col (fv.map (locationPlus δ)) k = plusAt δ k (fv.col k) := by
  unfold Fv.col plusAt
  by_cases h : k = 0
  · subst h
    rw [if_pos rfl, List.map_map, List.map_map]
    exact List.map_congr_left fun r _ => by simp [locationPlus]
  · rw [if_neg h, List.map_map]
    exact List.map_congr_left fun r _ => by simp [locationPlus, h]

theorem update_plus (r : ℕ → Flt) (k : ℕ) (v : Flt) :
    Function.update (locationPlus δ r) k (if k = 0 then Flt.plus δ v else v) = locationPlus δ (Function.update r k v) := by
  by_cases h : k = 0
  · subst h
    simp [locationPlus]
  · unfold locationPlus
    rw [if_neg h, Function.update_of_ne (Ne.symm h), Function.update_comm h]

theorem setCol_plus (fv : Fv) (k : ℕ) (a : Arr1) :
    Fv.setCol (fv.map (locationPlus δ)) k (plusAt δ k a) = (fv.setCol k a).map (locationPlus δ) := by
  have h : plusAt δ k a = a.map fun v => if k = 0 then Flt.plus δ v else v := by
    unfold plusAt
    split_ifs with h
    · simp
    · simp
  rw [h]
  unfold Fv.setCol
  rw [List.zipWith_map, List.map_zipWith]
  congr 1
  funext r v
  exact update_plus r k v

theorem setCol_sized (fv : Fv) (k : ℕ) (a : Arr1) : (fv.setCol k a).length = min fv.length a.length := by
  simp [Fv.setCol]

theorem damp_plusAt (δ s : ℝ) (k : ℕ) (a b : Arr1) :
    List.zipWith (fun u e => Flt.add (Flt.mul (.fin s) u) (Flt.mul (.fin (1 - s)) e)) (plusAt δ k a) (plusAt δ k b) =
      plusAt δ k (List.zipWith (fun u e => Flt.add (Flt.mul (.fin s) u) (Flt.mul (.fin (1 - s)) e)) a b) := by
  unfold plusAt
  split_ifs
  · rw [List.zipWith_map, List.map_zipWith]
    congr 1
    funext u e
    exact damp_plus δ s u e
  · rfl

theorem weightedRss_plus (δ : ℝ) (k : ℕ) (w f : List ℝ) (wt wv pred : Arr1) :
    weightedRss w f wt (plusAt δ k wv) (plusAt δ k pred) = weightedRss w f wt wv pred := by
  unfold weightedRss plusAt
  split_ifs
  · rw [List.zipWith_map]
    simp only [plus_sub_plus]
  · rfl

theorem matVec_sized {X : Arr2} {b r : Arr1} (h : matVec X b = .ok r) : r.length = X.length := by
  unfold matVec at h
  split_ifs at h
  cases h
  simp

/-! ### The distribution -/

/-- The distribution moves with its first parameter. -/
structure DistMoves (D : DistOps) (δ : ℝ) : Prop where
  link : ∀ k a, D.link k (plusAt δ k a) = (D.link k a).map (plusAt δ k)
  inverse : ∀ k a, D.linkInverse k (plusAt δ k a) = (D.linkInverse k a).map (plusAt δ k)
  derivative : ∀ k a, D.linkInverseDerivative k (plusAt δ k a) = D.linkInverseDerivative k a
  dl1 : ∀ y fv k, D.dl1 (y.map (· + δ)) (fv.map (locationPlus δ)) k = D.dl1 y fv k
  dl2 : ∀ y fv k, D.dl2 (y.map (· + δ)) (fv.map (locationPlus δ)) k = D.dl2 y fv k
  logpdf : ∀ y fv, D.logpdf (y.map (· + δ)) (fv.map (locationPlus δ)) = D.logpdf y fv
  initial : ∀ y, y ≠ [] → D.initialValues (y.map (· + δ)) = (D.initialValues y).map (List.map (locationPlus δ))
  support : ∀ y, OutOfSupport D (y.map (· + δ)) ↔ OutOfSupport D y
  ppf : ∀ q fv, D.ppf q (fv.map (locationPlus δ)) = (D.ppf q fv).map (Flt.plus δ)
  linkLen : ∀ k a r, D.link k a = .ok r → r.length = a.length
  inverseLen : ∀ k a r, D.linkInverse k a = .ok r → r.length = a.length
  derivativeLen : ∀ k a r, D.linkInverseDerivative k a = .ok r → r.length = a.length
  dl1Len : ∀ y fv k r, D.dl1 y fv k = .ok r → y.length = fv.length → r.length = fv.length
  dl2Len : ∀ y fv k r, D.dl2 y fv k = .ok r → y.length = fv.length → r.length = fv.length
  initialLen : ∀ y r, D.initialValues y = .ok r → r.length = y.length

/-- The working quantities for another origin. -/
noncomputable def Working.plus (δ : ℝ) (k : ℕ) (wk : Working) : Working := ⟨plusAt δ k wk.eta, wk.wt, plusAt δ k wk.wv⟩

theorem add_plusAt (δ : ℝ) (k : ℕ) (a b : Arr1) :
    List.zipWith (fun e d => Flt.add e d) (plusAt δ k a) b = plusAt δ k (List.zipWith (fun e d => Flt.add e d) a b) := by
  unfold plusAt
  split_ifs
  · rw [List.zipWith_map_left, List.map_zipWith]
    congr 1
    funext u e
    exact add_plus δ u e
  · rfl

theorem working_plus {D : DistOps} (hD : DistMoves D δ) (lo : ℝ) (y : List ℝ) (fv : Fv) (k : ℕ) :
    working D lo (y.map (· + δ)) (fv.map (locationPlus δ)) k = (working D lo y fv k).map (Working.plus δ k) := by
  unfold working
  rw [col_plus, hD.link]
  cases h1 : D.link k (fv.col k) with
  | error e => rfl
  | ok eta =>
    change (D.linkInverseDerivative k (plusAt δ k eta) >>= _) = ((D.linkInverseDerivative k eta >>= _) : Except PyErr Working).map _
    rw [hD.derivative]
    cases h2 : D.linkInverseDerivative k eta with
    | error e => rfl
    | ok g =>
      change (D.dl1 _ _ k >>= _) = ((D.dl1 y fv k >>= _) : Except PyErr Working).map _
      rw [hD.dl1]
      cases h3 : D.dl1 y fv k with
      | error e => rfl
      | ok d1 =>
        change (D.dl2 _ _ k >>= _) = ((D.dl2 y fv k >>= _) : Except PyErr Working).map _
        rw [hD.dl2]
        cases h4 : D.dl2 y fv k with
        | error e => rfl
        | ok d2 =>
          change Except.ok _ = Except.ok _
          congr 1
          unfold Working.plus
          simp only [add_plusAt]

/-- The working quantities have one entry per observation. -/
structure Working.Sized (n : ℕ) (wk : Working) : Prop where
  eta : wk.eta.length = n
  wt : wk.wt.length = n
  wv : wk.wv.length = n

theorem working_sized {D : DistOps} (hD : DistMoves D δ) {lo : ℝ} {y : List ℝ} {fv : Fv} {k : ℕ} {wk : Working}
    (h : working D lo y fv k = .ok wk) (hl : y.length = fv.length) : wk.Sized y.length := by
  unfold working at h
  cases h1 : D.link k (fv.col k) with
  | error e => rw [h1] at h; cases h
  | ok eta =>
    rw [h1] at h
    change (D.linkInverseDerivative k eta >>= _) = _ at h
    cases h2 : D.linkInverseDerivative k eta with
    | error e => rw [h2] at h; cases h
    | ok g =>
      rw [h2] at h
      change (D.dl1 y fv k >>= _) = _ at h
      cases h3 : D.dl1 y fv k with
      | error e => rw [h3] at h; cases h
      | ok d1 =>
        rw [h3] at h
        change (D.dl2 y fv k >>= _) = _ at h
        cases h4 : D.dl2 y fv k with
        | error e => rw [h4] at h; cases h
        | ok d2 =>
          rw [h4] at h
          cases h
          have e1 : eta.length = fv.length := (hD.linkLen _ _ _ h1).trans (by simp [Fv.col])
          have e2 : g.length = fv.length := (hD.derivativeLen _ _ _ h2).trans e1
          have e3 := hD.dl1Len _ _ _ _ h3 hl
          have e4 := hD.dl2Len _ _ _ _ h4 hl
          constructor <;> simp [e1, e2, e3, e4, hl]

theorem deviance_plus {D : DistOps} (hD : DistMoves D δ) (y w : List ℝ) (fv : Fv) :
    deviance D (y.map (· + δ)) w (fv.map (locationPlus δ)) = deviance D y w fv := by
  unfold deviance
  rw [hD.logpdf]

/-! ### The methods -/

/-- How the cross products and the coefficients of the location belong together, given the common Gramian. -/
structure MoveView where
  X : ℕ → Arr2 → Prop
  H : Arr2 → Arr1 → Arr1 → Prop
  B : Arr1 → Arr1 → Prop

/-- The methods `ok` have no path and respect the relations. -/
structure MoveView.Respects (V : MoveView) (δ f0 : ℝ) (ok : μ → Prop) (M : MethodOps μ) : Prop where
  notPath : ∀ m, ok m → M.pathBased m = false
  init : ∀ m n X y w G, ok m → V.X n X → y.length = n → w.length = n → (∀ v ∈ w, GoodWeight v) → M.initX m X w f0 = .ok G →
    BothRel (V.H G) (M.initY m X y w f0) (M.initY m X (y.map (Flt.plus δ)) w f0)
  update : ∀ m n X y w G0 G h h', ok m → V.X n X → y.length = n → w.length = n → (∀ v ∈ w, GoodWeight v) → V.H G0 h h' →
    M.updateX m G0 X w f0 = .ok G → BothRel (V.H G) (M.updateY m h X y w f0) (M.updateY m h' X (y.map (Flt.plus δ)) w f0)
  fitBeta : ∀ m G h h' reg, ok m → V.H G h h' →
    BothRel (fun r r' => V.B r.1 r'.1 ∧ r'.2 = r.2) (M.fitBeta m G h reg) (M.fitBeta m G h' reg)
  updateBeta : ∀ m G h h' b b' reg, ok m → V.H G h h' →
    BothRel (fun r r' => V.B r.1 r'.1 ∧ r'.2 = r.2) (M.updateBeta m G h b reg) (M.updateBeta m G h' b' reg)
  fitKeeps : ∀ m G h reg r, ok m → M.fitBeta m G h reg = .ok r → ok r.2
  updateKeeps : ∀ m G h b reg r, ok m → M.updateBeta m G h b reg = .ok r → ok r.2
  predict : ∀ n X b b', V.X n X → V.B b b' → matVec X b' = (matVec X b).map (List.map (Flt.plus δ))

variable {V : MoveView}

/-- The cross products of the parameter `k`. -/
def MoveView.HAt (V : MoveView) (k : ℕ) (G : Arr2) (h h' : Arr1) : Prop := if k = 0 then V.H G h h' else h' = h

/-- The coefficients of the parameter `k`. -/
def MoveView.BAt (V : MoveView) (k : ℕ) (b b' : Arr1) : Prop := if k = 0 then V.B b b' else b' = b

theorem HAt_zero {G : Arr2} {h h' : Arr1} : V.HAt 0 G h h' ↔ V.H G h h' := by simp [MoveView.HAt]

theorem HAt_other {k : ℕ} (hk : k ≠ 0) {G : Arr2} {h h' : Arr1} : V.HAt k G h h' ↔ h' = h := by simp [MoveView.HAt, hk]

theorem BAt_zero {h h' : Arr1} : V.BAt 0 h h' ↔ V.B h h' := by simp [MoveView.BAt]

theorem BAt_other {k : ℕ} (hk : k ≠ 0) {h h' : Arr1} : V.BAt k h h' ↔ h' = h := by simp [MoveView.BAt, hk]

/-- Both are missing, or both exist and belong to the Gramian. -/
def MoveView.Pair (V : MoveView) (k : ℕ) (G : Option Arr2) (h h' : Option Arr1) : Prop :=
  (h = none ∧ h' = none) ∨ ∃ g a a', G = some g ∧ h = some a ∧ h' = some a' ∧ V.HAt k g a a'

/-! ### Attributes -/

/-- The attributes that depend on the origin. -/
structure MovedParts where
  fv : Fv
  yGram : ℕ → Option Arr1
  yGramNew : ℕ → Option Arr1
  coef : ℕ → Option Arr1
  debugWorking : DebugKey → Option Arr1
  debugEta : DebugKey → Option Arr1
  debugFv : DebugKey → Option Fv
  debugCoef : DebugKey → Option Arr1

/-- Cross products exist only with Gramians, for parameters other than the location they are the same. -/
def MoveView.Pairs (V : MoveView) (G : ℕ → Option Arr2) (h h' : ℕ → Option Arr1) : Prop :=
  (∀ k, k ≠ 0 → h' k = h k) ∧ V.Pair 0 (G 0) (h 0) (h' 0)

/-- The attributes belong together; the coefficients of the location only if `q`. -/
structure MovedParts.Fits (V : MoveView) (δ : ℝ) (q : Prop) (v : MovedParts) (s : GState μ p) : Prop where
  fv : v.fv = s.fv.map (locationPlus δ)
  yGram : V.Pairs s.xGram s.yGram v.yGram
  yGramNew : V.Pairs s.xGramNew s.yGramNew v.yGramNew
  coef : ∀ k, OptRel (fun b b' => (k ≠ 0 → b' = b) ∧ (k = 0 → q → V.B b b')) (s.coef k) (v.coef k)

/-- The estimator with other values of these attributes. -/
def GState.moved (v : MovedParts) (s : GState μ p) : GState μ p :=
  { s with
    fv := v.fv
    yGram := v.yGram
    yGramNew := v.yGramNew
    coef := v.coef
    debugWorking := v.debugWorking
    debugEta := v.debugEta
    debugFv := v.debugFv
    debugCoef := v.debugCoef }

/-- The second estimator sees the responses from another origin. -/
def MovedBy (V : MoveView) (δ : ℝ) (q : Prop) (s t : GState μ p) : Prop := ∃ v : MovedParts, v.Fits V δ q s ∧ t = s.moved v

/-- The options the relation relies on. -/
structure MoveOptions (ok : μ → Prop) (f0 : ℝ) (E : Equation → Prop) (s : GState μ p) : Prop where
  methods : MethodsOk ok s
  forget : ∀ f, s.forget.get? 0 = some f → f = f0
  order : 0 ∈ s.paramOrder
  equation : ∀ eq, s.equation.get? 0 = some eq → E eq
  intercept : ∀ b, s.fitIntercept.get? 0 = some b → b = true

/-- Estimators with admitted options and with fitted values of an admitted number. -/
def MovedRel (V : MoveView) (δ f0 : ℝ) (ok : μ → Prop) (E : Equation → Prop) (q : Prop) (N : ℕ → Prop) (s t : GState μ p) : Prop :=
  MovedBy V δ q s t ∧ MoveOptions ok f0 E s ∧ N s.fv.length

variable {f0 : ℝ} {ok : μ → Prop} {E : Equation → Prop} {q : Prop} {N : ℕ → Prop}

/-- Nothing of what the relation is about changes. -/
structure KeepsMoved (s s' : GState μ p) : Prop where
  fv : s'.fv = s.fv
  xGram : s'.xGram = s.xGram
  yGram : s'.yGram = s.yGram
  xGramNew : s'.xGramNew = s.xGramNew
  yGramNew : s'.yGramNew = s.yGramNew
  coef : s'.coef = s.coef

theorem Fits.keep {v : MovedParts} {s s' : GState μ p} (hv : v.Fits V δ q s) (hk : KeepsMoved s s') : v.Fits V δ q s' :=
  ⟨by rw [hk.fv]; exact hv.1, by rw [hk.xGram, hk.yGram]; exact hv.2, by rw [hk.xGramNew, hk.yGramNew]; exact hv.3,
    by rw [hk.coef]; exact hv.4⟩

theorem MovedBy.set {s t : GState μ p} (h : MovedBy V δ q s t) (f : GState μ p → GState μ p)
    (hf : ∀ v, f (s.moved v) = (f s).moved v) (hk : KeepsMoved s (f s)) : MovedBy V δ q (f s) (f t) := by
  obtain ⟨v, hv, rfl⟩ := h
  exact ⟨v, Fits.keep hv hk, hf v⟩

/-- The options do not change. -/
structure KeepsOptions (s s' : GState μ p) : Prop where
  method : s'.method = s.method
  forget : s'.forget = s.forget
  order : s'.paramOrder = s.paramOrder
  equation : s'.equation = s.equation
  intercept : s'.fitIntercept = s.fitIntercept

theorem MoveOptions.keep {s s' : GState μ p} (h : MoveOptions ok f0 E s) (hk : KeepsOptions s s') : MoveOptions ok f0 E s' :=
  ⟨by unfold MethodsOk; rw [hk.method]; exact h.1, by rw [hk.forget]; exact h.2, by rw [hk.order]; exact h.3,
    by rw [hk.equation]; exact h.4, by rw [hk.intercept]; exact h.5⟩

theorem MovedRel.set {s t : GState μ p} (h : MovedRel V δ f0 ok E q N s t) (f : GState μ p → GState μ p)
    (hf : ∀ v, f (s.moved v) = (f s).moved v) (hk : KeepsMoved s (f s)) (ho : KeepsOptions s (f s)) :
    MovedRel V δ f0 ok E q N (f s) (f t) :=
  ⟨h.1.set f hf hk, h.2.1.keep ho, by rw [hk.fv]; exact h.2.2⟩

theorem MovedRel.weaken {q' : Prop} {N' : ℕ → Prop} {s t : GState μ p} (h : MovedRel V δ f0 ok E q N s t) (hq : q' → q)
    (hN : ∀ n, N n → N' n) : MovedRel V δ f0 ok E q' N' s t := by
  obtain ⟨⟨v, hv, rfl⟩, h2, h3⟩ := h
  refine ⟨⟨v, ⟨hv.1, hv.2, hv.3, fun k => ?_⟩, rfl⟩, h2, hN _ h3⟩
  rcases hv.coef k with h | ⟨a, b, e1, e2, h1, h2⟩
  · exact .inl h
  · exact .inr ⟨a, b, e1, e2, h1, fun hk hq' => h2 hk (hq hq')⟩

theorem MovedRel.setMethod {s t : GState μ p} (h : MovedRel V δ f0 ok E q N s t) (j : ℕ) {m : μ} (hm : ok m) :
    MovedRel V δ f0 ok E q N (s.setMethod (upd s.method j (some m))) (t.setMethod (upd t.method j (some m))) := by
  obtain ⟨⟨v, hv, rfl⟩, h2, h3⟩ := h
  refine ⟨⟨v, ⟨hv.1, hv.2, hv.3, hv.4⟩, rfl⟩, ⟨fun i m' hi => ?_, h2.2, h2.3, h2.4, h2.5⟩, h3⟩
  by_cases hij : i = j
  · subst hij
    have e : upd s.method i (some m) i = some m' := hi
    rw [upd_self] at e
    rw [← Option.some.inj e]
    exact hm
  · have e : upd s.method j (some m) i = some m' := hi
    rw [upd_other _ hij] at e
    exact h2.1 i m' e

theorem sim_movedMethod {s t : GState μ p} (h : MovedRel V δ f0 ok E q N s t) (R : GState μ p → GState μ p → Prop) (j : ℕ) (e : PyErr) :
    Py.Sim R R (fun a b => a = b ∧ ok a) (Py.attr (s.method j) e) (Py.attr (t.method j) e) := by
  obtain ⟨⟨v, hv, rfl⟩, h2, _⟩ := h
  refine Py.sim_attr_rel ?_ e
  rcases hm : s.method j with _ | m
  · exact .inl ⟨rfl, hm⟩
  · exact .inr ⟨m, m, rfl, hm, rfl, h2.1 j m hm⟩

theorem sim_movedForget {s t : GState μ p} (h : MovedRel V δ f0 ok E q N s t) (R : GState μ p → GState μ p → Prop) (j : ℕ) (e : PyErr) :
    Py.Sim R R (fun a b => a = b ∧ (j = 0 → a = f0)) (Py.attr (s.forget.get? j) e) (Py.attr (t.forget.get? j) e) := by
  obtain ⟨⟨v, hv, rfl⟩, h2, _⟩ := h
  refine Py.sim_attr_rel ?_ e
  change (s.forget.get? j = none ∧ s.forget.get? j = none) ∨ ∃ a b, s.forget.get? j = some a ∧ s.forget.get? j = some b ∧ _
  rcases hm : s.forget.get? j with _ | f
  · exact .inl ⟨rfl, rfl⟩
  · refine .inr ⟨f, f, rfl, rfl, rfl, fun hj => ?_⟩
    subst hj
    exact h2.2 f hm

/-- The call with responses from another origin. -/
noncomputable def Call.plus (δ : ℝ) (c : Call μ p) : Call μ p := { c with y := c.y.map (· + δ) }

/-- The coefficients of an iteration. -/
structure CoefsMoved (V : MoveView) (k : ℕ) (o o' : Coefs) : Prop where
  beta : V.BAt k o.beta o'.beta
  path : o'.path = o.path
  selection : o'.selection = o.selection
  bestIc : o'.bestIc = o.bestIc

theorem fitBeta_moved {M : MethodOps μ} (hM : V.Respects δ f0 ok M) (k : ℕ) {m : μ} (hm : ok m) {G : Arr2} {h h' : Arr1} (reg : List Bool)
    (hh : V.HAt k G h h') :
    BothRel (fun r r' => V.BAt k r.1 r'.1 ∧ r'.2 = r.2 ∧ ok r.2) (M.fitBeta m G h reg) (M.fitBeta m G h' reg) := by
  by_cases hk : k = 0
  · subst hk
    have hb := hM.fitBeta m G h h' reg hm (HAt_zero.1 hh)
    have hkeep := hM.fitKeeps m G h reg
    rcases hb with hb | ⟨r, r', h1, h2, h3, h4⟩
    · exact .inl hb
    · exact .inr ⟨r, r', h1, h2, BAt_zero.2 h3, h4, hkeep r hm h1⟩
  · rw [(HAt_other hk).1 hh]
    cases hr : M.fitBeta m G h reg with
    | error e => exact .inl ⟨e, rfl, rfl⟩
    | ok r => exact .inr ⟨r, r, rfl, rfl, (BAt_other hk).2 rfl, rfl, hM.fitKeeps m G h reg r hm hr⟩

theorem fitCoefs_moved (c : Call μ p) (hM : V.Respects δ f0 ok c.M) (k itO itI : ℕ) (prev : Option Arr2) {X : Arr2}
    (wk wk' : Working) {xg : Arr2} {yg yg' : Arr1} (hy : V.HAt k xg yg yg') :
    Py.Sim (MovedRel V δ f0 ok E q N) (MovedRel V δ f0 ok E q N) (CoefsMoved V k) (fitCoefs c k itO itI prev X wk xg yg)
      (fitCoefs (c.plus δ) k itO itI prev X wk' xg yg') := by
  unfold fitCoefs
  refine Py.Sim.bind_self fun s t hR => ?_
  have hR' := hR
  obtain ⟨⟨v, hv, rfl⟩, _⟩ := hR
  refine Py.Sim.bind (sim_movedMethod hR' _ k _) fun m _ hm => ?_
  obtain ⟨rfl, hok⟩ := hm
  refine Py.Sim.bind (Py.sim_attr rfl _) fun reg _ hm => ?_
  subst hm
  refine Py.Sim.bind (Py.sim_attr rfl _) fun f _ hm => ?_
  subst hm
  have hp : ¬ c.M.pathBased m = true := by rw [hM.notPath m hok]; simp
  have hp' : ¬ (c.plus δ).M.pathBased m = true := hp
  rw [if_neg hp, if_neg hp']
  refine Py.Sim.bind (Py.sim_call (fitBeta_moved hM k hok reg hy)) fun r r' hm => ?_
  obtain ⟨hb, e, hr⟩ := hm
  rw [e]
  refine Py.Sim.bind (Py.sim_set fun s t h => h.setMethod k hr) fun _ _ _ => ?_
  exact Py.sim_pure ⟨hb, rfl, rfl, rfl⟩

/-- The results of an iteration. -/
structure OutMoved (V : MoveView) (k : ℕ) (o o' : IterOut) : Prop where
  it : o'.it = o.it
  wt : o'.wt = o.wt
  xGram : o'.xGram = o.xGram
  yGram : V.HAt k o.xGram o.yGram o'.yGram
  beta : V.BAt k o.beta o'.beta
  path : o'.path = o.path
  selection : o'.selection = o.selection
  bestIc : o'.bestIc = o.bestIc
  rss : o'.rss = o.rss
  dv : o'.dv = o.dv

/-- The variables of an inner loop. -/
structure InnerMoved (V : MoveView) (δ : ℝ) (n k : ℕ) (a b : Inner) : Prop where
  fvIt : b.fvIt = a.fvIt.map (locationPlus δ)
  fvNew : b.fvNew = a.fvNew.map (locationPlus δ)
  dvStart : b.dvStart = a.dvStart
  dvOld : b.dvOld = a.dvOld
  stepDecrease : b.stepDecrease = a.stepDecrease
  badState : b.badState = a.badState
  out : OptRel (OutMoved V k) a.out b.out
  lenIt : a.fvIt.length = n
  lenNew : a.fvNew.length = n

theorem debugWork_moved {s t : GState μ p} (h : MovedRel V δ f0 ok E q N s t) (b : Bool) (key : DebugKey) {wk wk' : Working}
    (hw : wk'.wt = wk.wt) (fv fv' : Fv) :
    MovedRel V δ f0 ok E q N (debugWork b key wk fv s) (debugWork b key wk' fv' t) := by
  cases b
  · exact h
  · obtain ⟨⟨v, hv, rfl⟩, h2, h3⟩ := h
    refine ⟨⟨{ v with
      debugWorking := Function.update v.debugWorking key (some wk'.wv)
      debugEta := Function.update v.debugEta key (some wk'.eta)
      debugFv := Function.update v.debugFv key (some fv') }, ⟨hv.1, hv.2, hv.3, hv.4⟩, ?_⟩, h2.keep ⟨rfl, rfl, rfl, rfl, rfl⟩, h3⟩
    unfold debugWork GState.moved
    rw [hw]
    rfl

theorem debugBeta_moved {s t : GState μ p} (h : MovedRel V δ f0 ok E q N s t) (b : Bool) (key : DebugKey) (be be' : Arr1) :
    MovedRel V δ f0 ok E q N (debugBeta b key be s) (debugBeta b key be' t) := by
  cases b
  · exact h
  · obtain ⟨⟨v, hv, rfl⟩, h2, h3⟩ := h
    exact ⟨⟨{ v with debugCoef := Function.update v.debugCoef key (some be') }, ⟨hv.1, hv.2, hv.3, hv.4⟩, rfl⟩,
      h2.keep ⟨rfl, rfl, rfl, rfl, rfl⟩, h3⟩

/-- The design matrices of a call. -/
structure DesignsOk (V : MoveView) (n : ℕ) (X : ℕ → Option Arr2) : Prop where
  rows : ∀ k A, X k = some A → A.length = n
  location : ∀ A, X 0 = some A → V.X n A

theorem predict_moved {M : MethodOps μ} (hM : V.Respects δ f0 ok M) {n k : ℕ} {X : Arr2} (hX : k = 0 → V.X n X) {b b' : Arr1}
    (hb : V.BAt k b b') : matVec X b' = (matVec X b).map (plusAt δ k) := by
  by_cases hk : k = 0
  · subst hk
    rw [hM.predict n X b b' (hX rfl) (BAt_zero.1 hb)]
    congr 1
  · rw [(BAt_other hk).1 hb]
    cases matVec X b with
    | error e => rfl
    | ok r => exact congrArg Except.ok (plusAt_other δ hk r).symm

theorem initY_moved {M : MethodOps μ} (hM : V.Respects δ f0 ok M) {n k : ℕ} {m : μ} (hm : ok m) {X : Arr2} (hX : k = 0 → V.X n X)
    {y w : Arr1} (hy : y.length = n) (hw : w.length = n) (hg : ∀ v ∈ w, GoodWeight v) {f : ℝ} (hf : k = 0 → f = f0) {G : Arr2}
    (hG : M.initX m X w f = .ok G) : BothRel (V.HAt k G) (M.initY m X y w f) (M.initY m X (plusAt δ k y) w f) := by
  by_cases hk : k = 0
  · subst hk
    obtain rfl := hf rfl
    rw [plusAt_zero]
    exact (hM.init m n X y w G hm (hX rfl) hy hw hg hG).mono fun _ _ h => HAt_zero.2 h
  · rw [plusAt_other δ hk]
    exact (BothRel.of_eq rfl).mono fun _ _ h => (HAt_other hk).2 h.symm

theorem updateY_moved {M : MethodOps μ} (hM : V.Respects δ f0 ok M) {n k : ℕ} {m : μ} (hm : ok m) {X : Arr2} (hX : k = 0 → V.X n X)
    {y w : Arr1} (hy : y.length = n) (hw : w.length = n) (hg : ∀ v ∈ w, GoodWeight v) {f : ℝ} (hf : k = 0 → f = f0) {G0 G : Arr2}
    {h h' : Arr1} (hh : V.HAt k G0 h h') (hG : M.updateX m G0 X w f = .ok G) :
    BothRel (V.HAt k G) (M.updateY m h X y w f) (M.updateY m h' X (plusAt δ k y) w f) := by
  by_cases hk : k = 0
  · subst hk
    obtain rfl := hf rfl
    rw [plusAt_zero]
    exact (hM.update m n X y w G0 G h h' hm (hX rfl) hy hw hg (HAt_zero.1 hh) hG).mono fun _ _ h => HAt_zero.2 h
  · rw [plusAt_other δ hk, (HAt_other hk).1 hh]
    exact (BothRel.of_eq rfl).mono fun _ _ h => (HAt_other hk).2 h.symm

theorem bothRel_ofMap {α β : Type} {x : Except PyErr α} {y : Except PyErr β} {g : α → β} (h : y = x.map g) {P : α → Prop}
    (hP : ∀ a, x = .ok a → P a) : BothRel (fun a b => b = g a ∧ P a) x y := by
  subst h
  cases x with
  | error e => exact .inl ⟨e, rfl, rfl⟩
  | ok a => exact .inr ⟨a, g a, rfl, rfl, rfl, hP a rfl⟩

theorem wmul_sized {w : List ℝ} {a : Arr1} {n : ℕ} (hw : w.length = n) (ha : a.length = n) : (wmul w a).length = n := by
  simp [wmul, hw, ha]

theorem wmul_good {w : List ℝ} (hw : ∀ u ∈ w, 0 ≤ u) {a : Arr1} (ha : ∀ v ∈ a, GoodWeight v) : ∀ v ∈ wmul w a, GoodWeight v := by
  induction w generalizing a with
  | nil => intro v hv; simp [wmul] at hv
  | cons u w ih =>
    cases a with
    | nil => intro v hv; simp [wmul] at hv
    | cons b a =>
      intro v hv
      change v ∈ Flt.mul (.fin u) b :: wmul w a at hv
      rcases List.mem_cons.1 hv with rfl | hv
      · rcases ha b (by simp) with h | ⟨x, hx, h⟩
        · rw [h]
          exact .inl rfl
        · rw [h]
          exact .inr ⟨u * x, mul_nonneg (hw u (by simp)) hx, rfl⟩
      · exact ih (fun u' h' => hw u' (by simp [h'])) (fun b' h' => ha b' (by simp [h'])) v hv

theorem working_fitGood {D : DistOps} {y : List ℝ} {fv : Fv} {k : ℕ} {wk : Working} (h : working D fitClip y fv k = .ok wk) :
    ∀ v ∈ wk.wt, GoodWeight v := by
  unfold working at h
  cases h1 : D.link k (fv.col k) with
  | error e => rw [h1] at h; cases h
  | ok eta =>
    rw [h1] at h
    change (D.linkInverseDerivative k eta >>= _) = _ at h
    cases h2 : D.linkInverseDerivative k eta with
    | error e => rw [h2] at h; cases h
    | ok g =>
      rw [h2] at h
      change (D.dl1 y fv k >>= _) = _ at h
      cases h3 : D.dl1 y fv k with
      | error e => rw [h3] at h; cases h
      | ok d1 =>
        rw [h3] at h
        change (D.dl2 y fv k >>= _) = _ at h
        cases h4 : D.dl2 y fv k with
        | error e => rw [h4] at h; cases h
        | ok d2 =>
          rw [h4] at h
          cases h
          intro v hv
          obtain ⟨a, b, rfl⟩ := mem_zipWith hv
          rcases clip_cases (lo := fitClip) (hi := 10000000000) (by norm_num [fitClip]) (Flt.neg (Flt.div a (Flt.mul b b))) with h | ⟨x, hx, h⟩
          · exact .inl h
          · exact .inr ⟨x, le_trans (by norm_num [fitClip]) hx, h⟩

end Ondil
