import Verif.Lemmas.GamlssLoops

/-!
# Runs of the distributional regression that raise nothing

`Py.Total P m Q`: from every state in `P` the computation returns, and ends in `Q`.
-/

namespace Ondil

namespace Py

variable {σ α β : Type}

/-- Every run from a state in `P` returns a value and ends in `Q`. -/
def Total (P : σ → Prop) (m : Py σ α) (Q : α → σ → Prop) : Prop := ∀ s, P s → ∃ a t, m s = (.ok a, t) ∧ Q a t

theorem Total.bind {P : σ → Prop} {m : Py σ α} {R : α → σ → Prop} {f : α → Py σ β} {Q : β → σ → Prop}
    (hm : Total P m R) (hf : ∀ a, Total (R a) (f a) Q) : Total P (m >>= f) Q := by
  intro s hs
  obtain ⟨a, t, h, hr⟩ := hm s hs
  obtain ⟨b, u, h', hq⟩ := hf a t hr
  exact ⟨b, u, by rw [bind_of_ok h, h'], hq⟩

theorem Total.pre {P P' : σ → Prop} {m : Py σ α} {Q : α → σ → Prop} (h : Total P m Q) (hP : ∀ s, P' s → P s) :
    Total P' m Q := fun s hs => h s (hP s hs)

theorem Total.post {P : σ → Prop} {m : Py σ α} {Q Q' : α → σ → Prop} (h : Total P m Q) (hQ : ∀ a t, Q a t → Q' a t) :
    Total P m Q' := fun s hs => by
  obtain ⟨a, t, h1, h2⟩ := h s hs
  exact ⟨a, t, h1, hQ a t h2⟩

theorem Total.of_state {P : σ → Prop} {m : Py σ α} {Q : α → σ → Prop} (h : ∀ s, P s → Total (fun t => t = s) m Q) :
    Total P m Q := fun s hs => h s hs s rfl

theorem Total.bind_self {P : σ → Prop} {f : σ → Py σ β} {Q : β → σ → Prop}
    (h : ∀ s, P s → Total (fun t => t = s) (f s) Q) : Total P (Py.self >>= f) Q := by
  intro s hs
  obtain ⟨b, u, h', hq⟩ := h s hs s rfl
  exact ⟨b, u, by rw [← h']; rfl, hq⟩

theorem Total.bind_set {P P' : σ → Prop} {g : σ → σ} {f : Unit → Py σ β} {Q : β → σ → Prop}
    (hg : ∀ s, P s → P' (g s)) (h : Total P' (f ()) Q) : Total P (Py.set g >>= f) Q := by
  intro s hs
  obtain ⟨b, u, h', hq⟩ := h (g s) (hg s hs)
  exact ⟨b, u, by rw [← h']; rfl, hq⟩

theorem Total.bind_set_eq {s : σ} {g : σ → σ} {f : Unit → Py σ β} {Q : β → σ → Prop}
    (h : Total (fun t => t = g s) (f ()) Q) : Total (fun t => t = s) (Py.set g >>= f) Q :=
  Total.bind_set (fun _ h => by rw [h]) h

theorem Total.bind_self_eq {s : σ} {f : σ → Py σ β} {Q : β → σ → Prop} (h : Total (fun t => t = s) (f s) Q) :
    Total (fun t => t = s) (Py.self >>= f) Q := Total.bind_self fun _ ht => by rw [ht]; exact h

theorem Total.set {P : σ → Prop} {g : σ → σ} {Q : Unit → σ → Prop} (h : ∀ s, P s → Q () (g s)) : Total P (Py.set g) Q :=
  fun s hs => ⟨(), g s, rfl, h s hs⟩

theorem Total.bind_call {P : σ → Prop} {x : Except PyErr α} {a : α} {f : α → Py σ β} {Q : β → σ → Prop} (hx : x = .ok a)
    (h : Total P (f a) Q) : Total P (Py.call x >>= f) Q := by
  intro s hs
  obtain ⟨b, u, h', hq⟩ := h s hs
  exact ⟨b, u, by rw [← h', hx]; rfl, hq⟩

theorem Total.bind_attr {P : σ → Prop} {x : Option α} {a : α} {e : PyErr} {f : α → Py σ β} {Q : β → σ → Prop}
    (hx : x = some a) (h : Total P (f a) Q) : Total P (Py.attr x e >>= f) Q := by
  intro s hs
  obtain ⟨b, u, h', hq⟩ := h s hs
  exact ⟨b, u, by rw [← h', hx]; rfl, hq⟩

theorem Total.bind_raiseIf {P : σ → Prop} {c : Prop} {e : PyErr} {f : Unit → Py σ β} {Q : β → σ → Prop}
    (hx : ¬ c) (h : Total P (f ()) Q) : Total P (Py.raiseIf c e >>= f) Q := by
  intro s hs
  obtain ⟨b, u, h', hq⟩ := h s hs
  exact ⟨b, u, by rw [Py.bind_raiseIf_neg hx, h'], hq⟩

theorem Total.pure {P : σ → Prop} {a : α} {Q : α → σ → Prop} (h : ∀ s, P s → Q a s) : Total P (pure a : Py σ α) Q :=
  fun s hs => ⟨a, s, rfl, h s hs⟩

end Py

/-! ### Lists and arrays -/

theorem bind_ok_eq {α β : Type} (a : α) (f : α → Except PyErr β) : (Except.ok a >>= f) = f a := rfl

theorem mapM_ok_of_forall {β γ : Type} {f : β → Except PyErr γ} {Q : γ → Prop} {l : List β}
    (h : ∀ a ∈ l, ∃ b, f a = .ok b ∧ Q b) : ∃ r, l.mapM f = .ok r ∧ r.length = l.length ∧ ∀ b ∈ r, Q b := by
  induction l with
  | nil => exact ⟨[], rfl, rfl, by simp⟩
  | cons a l ih =>
    obtain ⟨b, hb, hq⟩ := h a (by simp)
    obtain ⟨r, hr, hl, hQ⟩ := ih fun x hx => h x (by simp [hx])
    refine ⟨b :: r, ?_, by simp [hl], ?_⟩
    · rw [List.mapM_cons, hb]
      change (do let x ← List.mapM f l; pure (b :: x)) = _
      rw [hr]
      rfl
    · intro x hx
      rcases List.mem_cons.1 hx with rfl | hx
      · exact hq
      · exact hQ x hx

theorem matVec_ok {X : Arr2} {b : Arr1} (h : ∀ x ∈ X, x.length = b.length) :
    ∃ v, matVec X b = .ok v ∧ v.length = X.length := by
  unfold matVec
  rw [if_pos h]
  exact ⟨_, rfl, by simp⟩

theorem selectModel_ok {ic : Arr1} {path : Arr2} (hl : ic.length = path.length) (h0 : 0 < path.length) :
    ∃ b ∈ path, ∃ i, selectModel ic path = .ok (b, i) := by
  obtain ⟨i, hi, h⟩ := argminFlt_ok (l := ic) (by rw [← List.length_pos_iff_ne_nil, hl]; exact h0)
  have hi' : i < path.length := hl ▸ hi
  refine ⟨path[i], List.getElem_mem hi', i, ?_⟩
  unfold selectModel
  rw [h]
  change (match path[i]? with
    | some b => Pure.pure (b, i)
    | none => throw PyErr.indexError : Except PyErr (Arr1 × ℕ)) = _
  rw [List.getElem?_eq_getElem hi']
  rfl

theorem icFromLL_ok {c : Criterion} (hc : c ≠ .aicc) (n k : ℝ) (ll : Flt) : ∃ v, icFromLL c n k ll = .ok v := by
  unfold icFromLL
  cases c <;> first | exact absurd rfl hc | exact ⟨_, rfl⟩

/-! ### What is asked of the distribution and of the methods -/

/-- A distribution object that raises nothing on arrays of one shape and returns arrays of that shape. -/
structure Regular (D : DistOps) : Prop where
  pos : 0 < D.nParams
  link : ∀ k < D.nParams, ∀ a, ∃ r, D.link k a = .ok r ∧ r.length = a.length
  linkInverse : ∀ k < D.nParams, ∀ a, ∃ r, D.linkInverse k a = .ok r ∧ r.length = a.length
  linkInverseDerivative : ∀ k < D.nParams, ∀ a, ∃ r, D.linkInverseDerivative k a = .ok r ∧ r.length = a.length
  dl1 : ∀ k < D.nParams, ∀ y fv, fv.length = y.length → ∃ r, D.dl1 y fv k = .ok r ∧ r.length = y.length
  dl2 : ∀ k < D.nParams, ∀ y fv, fv.length = y.length → ∃ r, D.dl2 y fv k = .ok r ∧ r.length = y.length
  initialValues : ∀ y, y ≠ [] → ∃ fv, D.initialValues y = .ok fv ∧ fv.length = y.length

/-- A distribution object whose conditional start values raise nothing. -/
def ConditionalRegular (D : DistOps) : Prop :=
  ∀ k < D.nParams, ∀ y fv, fv.length = y.length →
    ∃ r, D.conditionalInitialValues y fv k = .ok r ∧ r.length = y.length

/-- What the estimator relies on when it uses a method object for `J` coefficients: `Ok` are the states of the object,
`Gx`, `Gy` what it keeps as sufficient statistics, `L` the length of its coefficient paths, `FitArrays`, `UpdateArrays`
the designs, responses and weights it can take in and `Flags` the flags of the penalised coefficients.  The functions raise nothing on
such arrays of the right shape, return arrays of the right shape and keep this up. -/
structure MethodContract {μ : Type} (M : MethodOps μ) (J : ℕ) where
  Ok : μ → Prop
  Gx : Arr2 → Prop
  Gy : Arr1 → Prop
  FitArrays : Arr2 → Arr1 → Arr1 → Prop := fun _ _ _ => True
  UpdateArrays : Arr2 → Arr1 → Arr1 → Prop := fun _ _ _ => True
  Flags : List Bool → Prop := fun _ => True
  L : ℕ
  isPath : Bool
  pos : 0 < L
  path : ∀ m, Ok m → M.pathBased m = isPath
  initX : ∀ m, Ok m → ∀ X : Arr2, X ≠ [] → (∀ x ∈ X, x.length = J) → ∀ w : Arr1, w.length = X.length →
    (∃ y, FitArrays X y w) → ∀ f : ℝ, 0 ≤ f → f < 1 → ∃ g, M.initX m X w f = .ok g ∧ Gx g
  initY : ∀ m, Ok m → ∀ X : Arr2, X ≠ [] → (∀ x ∈ X, x.length = J) → ∀ y w : Arr1, y.length = X.length →
    w.length = X.length → FitArrays X y w → ∀ f : ℝ, 0 ≤ f → f < 1 → ∃ g, M.initY m X y w f = .ok g ∧ Gy g
  updateX : ∀ m, Ok m → ∀ g, Gx g → ∀ X : Arr2, X ≠ [] → (∀ x ∈ X, x.length = J) → ∀ w : Arr1, w.length = X.length →
    (∃ y, UpdateArrays X y w) → ∀ f : ℝ, 0 ≤ f → f < 1 → ∃ g', M.updateX m g X w f = .ok g' ∧ Gx g'
  updateY : ∀ m, Ok m → ∀ g, Gy g → ∀ X : Arr2, X ≠ [] → (∀ x ∈ X, x.length = J) → ∀ y w : Arr1, y.length = X.length →
    w.length = X.length → UpdateArrays X y w → ∀ f : ℝ, 0 ≤ f → f < 1 → ∃ g', M.updateY m g X y w f = .ok g' ∧ Gy g'
  fitBeta : isPath = false → ∀ m, Ok m → ∀ g h, Gx g → Gy h → ∀ reg : List Bool, reg.length = J → Flags reg →
    ∃ b m', M.fitBeta m g h reg = .ok (b, m') ∧ b.length = J ∧ Ok m'
  updateBeta : isPath = false → ∀ m, Ok m → ∀ g h, Gx g → Gy h → ∀ b : Arr1, b.length = J → ∀ reg : List Bool,
    reg.length = J → Flags reg → ∃ b' m', M.updateBeta m g h b reg = .ok (b', m') ∧ b'.length = J ∧ Ok m'
  fitPath : isPath = true → ∀ m, Ok m → ∀ g h, Gx g → Gy h → ∀ reg : List Bool, reg.length = J → Flags reg →
    ∃ q m', M.fitPath m g h reg = .ok (q, m') ∧ (q.length = L ∧ ∀ b ∈ q, b.length = J) ∧ Ok m'
  updatePath : isPath = true → ∀ m, Ok m → ∀ g h, Gx g → Gy h → ∀ q : Arr2, q.length = L → (∀ b ∈ q, b.length = J) →
    ∀ reg : List Bool, reg.length = J → Flags reg →
    ∃ q' m', M.updatePath m g h q reg = .ok (q', m') ∧ (q'.length = L ∧ ∀ b ∈ q', b.length = J) ∧ Ok m'

variable {μ : Type} {p : ℕ}

theorem wmul_length {w : List ℝ} {a : Arr1} {n : ℕ} (hw : w.length = n) (ha : a.length = n) : (wmul w a).length = n := by
  simp [wmul, hw, ha]

theorem setCol_length {fv : Fv} {k : ℕ} {a : Arr1} {n : ℕ} (hf : fv.length = n) (ha : a.length = n) :
    (fv.setCol k a).length = n := by simp [Fv.setCol, hf, ha]

theorem col_length {fv : Fv} {k : ℕ} {n : ℕ} (hf : fv.length = n) : (fv.col k).length = n := by simp [Fv.col, hf]

theorem ite_length {b : Bool} {x y : Fv} {n : ℕ} (hx : x.length = n) (hy : y.length = n) :
    (if b then x else y).length = n := by split <;> assumption

theorem working_ok {D : DistOps} (hD : Regular D) {lo : ℝ} {y : List ℝ} {fv : Fv} {k : ℕ} (hk : k < D.nParams)
    (hfv : fv.length = y.length) : ∃ wk, working D lo y fv k = .ok wk ∧ wk.eta.length = y.length ∧
      wk.wt.length = y.length ∧ wk.wv.length = y.length := by
  obtain ⟨eta, he, hel⟩ := hD.link k hk (fv.col k)
  obtain ⟨g, hg, hgl⟩ := hD.linkInverseDerivative k hk eta
  obtain ⟨d1, h1, h1l⟩ := hD.dl1 k hk y fv hfv
  obtain ⟨d2, h2, h2l⟩ := hD.dl2 k hk y fv hfv
  have hel' : eta.length = y.length := by rw [hel, col_length hfv]
  unfold working
  rw [he, bind_ok_eq, hg, bind_ok_eq, h1, bind_ok_eq, h2, bind_ok_eq]
  exact ⟨_, rfl, hel', by simp [h2l, hgl, hel'], by simp [h1l, h2l, hgl, hel']⟩

theorem preds_ok {X : Arr2} {path : Arr2} {J : ℕ} (hX : ∀ x ∈ X, x.length = J) (hp : ∀ b ∈ path, b.length = J) :
    ∃ preds, path.mapM (matVec X) = .ok preds ∧ preds.length = path.length ∧ ∀ v ∈ preds, v.length = X.length :=
  mapM_ok_of_forall fun b hb => matVec_ok fun x hx => by rw [hX x hx, hp b hb]

theorem pathLL_ok {c : Call μ p} (hD : Regular c.D) (s : GState μ p) {k : ℕ} (hk : k < c.D.nParams) (f w : List ℝ)
    (preds : Arr2) : ∃ ll, pathLL c s k f w preds = .ok ll ∧ ll.length = preds.length := by
  obtain ⟨r, h, hl, _⟩ := mapM_ok_of_forall (l := preds) (Q := fun _ => True) (f := fun pr => do
    let v ← c.D.linkInverse k pr
    pure (asum (wmul w (wmul f (c.D.logpdf c.y (s.fv.setCol k v)))))) (by
      intro pr _
      obtain ⟨v, hv, _⟩ := hD.linkInverse k hk pr
      rw [hv, bind_ok_eq]
      exact ⟨_, rfl, trivial⟩)
  exact ⟨r, h, hl⟩

theorem ics_rss_ok {ic : Criterion} (hic : ic ≠ .aicc) (nT : ℝ) (n : List ℕ) (rss : Arr1) :
    ∃ r, (List.zip n rss).mapM (fun nr => icFromRss ic nT nr.1 nr.2) = .ok r ∧ r.length = (List.zip n rss).length := by
  obtain ⟨r, h, hl, _⟩ := mapM_ok_of_forall (l := List.zip n rss) (Q := fun _ => True)
    (f := fun nr => icFromRss ic nT nr.1 nr.2) fun nr _ => by
      obtain ⟨v, hv⟩ := icFromLL_ok hic nT nr.1 (Flt.add (Flt.mul (.fin (-nT / 2)) (Flt.log (Flt.div nr.2 (.fin nT))))
        (.fin (-nT / 2 * (1 + Real.log (2 * Real.pi)))))
      exact ⟨v, hv, trivial⟩
  exact ⟨r, h, hl⟩

theorem ics_ll_ok {ic : Criterion} (hic : ic ≠ .aicc) (nT : ℝ) (n : List ℕ) (rss : Arr1) :
    ∃ r, (List.zip n rss).mapM (fun nr => icFromLL ic nT nr.1 nr.2) = .ok r ∧ r.length = (List.zip n rss).length := by
  obtain ⟨r, h, hl, _⟩ := mapM_ok_of_forall (l := List.zip n rss) (Q := fun _ => True)
    (f := fun nr => icFromLL ic nT nr.1 nr.2) fun nr _ => by
      obtain ⟨v, hv⟩ := icFromLL_ok hic nT nr.1 nr.2
      exact ⟨v, hv, trivial⟩
  exact ⟨r, h, hl⟩

theorem fitSelectModel_ok {c : Call μ p} (hD : Regular c.D) (s : GState μ p) {k : ℕ} (hk : k < c.D.nParams) {X : Arr2}
    {path : Arr2} {J : ℕ} (hX : ∀ x ∈ X, x.length = J) (hp : ∀ b ∈ path, b.length = J) (h0 : 0 < path.length)
    (wv wt : Arr1) (forget nT : ℝ) {ic : Criterion} (hic : ic ≠ .aicc) :
    ∃ b d i, fitSelectModel c s k X wv wt path forget nT ic = .ok (b, d, i) ∧ b.length = J ∧ d.length = path.length := by
  obtain ⟨preds, hpr, hpl, _⟩ := preds_ok hX hp
  unfold fitSelectModel
  simp only
  rw [hpr, bind_ok_eq]
  split
  · obtain ⟨ics, hics, hl⟩ := ics_rss_ok hic nT (path.map fun b => (nonzeroCount b + countNonzeroOther c.D.nParams s k : ℕ))
      (preds.map fun pr => Flt.div (weightedRss c.w (initForgetVector forget c.y.length) wt wv pr)
        (amean (wmul (initForgetVector forget c.y.length) (wmul c.w wt))))
    obtain ⟨b, hb, i, hsel⟩ := selectModel_ok (ic := ics) (path := path) (by simp [hl, hpl]) h0
    rw [hics, bind_ok_eq, hsel, bind_ok_eq]
    exact ⟨b, _, i, rfl, hp b hb, by simp [hpl]⟩
  · obtain ⟨ll, hll, hlll⟩ := pathLL_ok hD s hk (initForgetVector forget c.y.length) (List.replicate c.y.length 1) preds
    obtain ⟨ics, hics, hl⟩ := ics_ll_ok hic nT (path.map fun b => (nonzeroCount b + countNonzeroOther c.D.nParams s k : ℕ)) ll
    obtain ⟨b, hb, i, hsel⟩ := selectModel_ok (ic := ics) (path := path) (by simp [hl, hpl, hlll]) h0
    rw [hll, bind_ok_eq, hics, bind_ok_eq, hsel, bind_ok_eq]
    exact ⟨b, _, i, rfl, hp b hb, by simp [hpl, hlll]⟩

theorem updateSelectModel_ok {c : Call μ p} (hD : Regular c.D) (s : GState μ p) {k : ℕ} (hk : k < c.D.nParams) {X : Arr2}
    {path : Arr2} {J : ℕ} (hX : ∀ x ∈ X, x.length = J) (hp : ∀ b ∈ path, b.length = J) (h0 : 0 < path.length)
    (wv wt : Arr1) {old : Arr1} (hold : old.length = path.length) (meanW : Flt) (forget nObs nT : ℝ) {ic : Criterion}
    (hic : ic ≠ .aicc) :
    ∃ b d i, updateSelectModel c s k X wv wt path old meanW forget nObs nT ic = .ok (b, d, i) ∧ b.length = J ∧
      d.length = path.length := by
  obtain ⟨preds, hpr, hpl, _⟩ := preds_ok hX hp
  unfold updateSelectModel
  simp only
  rw [hpr, bind_ok_eq]
  split
  · obtain ⟨ics, hics, hl⟩ := ics_rss_ok hic nT (path.map fun b => (nonzeroCount b + countNonzeroOther c.D.nParams s k : ℕ))
      (List.zipWith (fun pr o => Flt.div (Flt.add (weightedRss c.w (initForgetVector forget c.y.length) wt wv pr)
        (Flt.mul (.fin (batchDiscount forget c.y.length)) (Flt.mul o meanW)))
        (onlineMeanLoopFlt forget nObs meanW wt)) preds old)
    obtain ⟨b, hb, i, hsel⟩ := selectModel_ok (ic := ics) (path := path) (by simp [hl, hpl, hold]) h0
    rw [hics, bind_ok_eq, hsel, bind_ok_eq]
    exact ⟨b, _, i, rfl, hp b hb, by simp [hpl, hold]⟩
  · obtain ⟨ll, hll, hlll⟩ := pathLL_ok hD s hk (initForgetVector forget c.y.length) c.w preds
    obtain ⟨ics, hics, hl⟩ := ics_ll_ok hic nT (path.map fun b => (nonzeroCount b : ℕ))
      (List.zipWith (fun a o => Flt.add a (Flt.mul (.fin (batchDiscount forget c.y.length)) o)) ll old)
    obtain ⟨b, hb, i, hsel⟩ := selectModel_ok (ic := ics) (path := path) (by simp [hl, hpl, hlll, hold]) h0
    rw [hll, bind_ok_eq, hics, bind_ok_eq, hsel, bind_ok_eq]
    exact ⟨b, _, i, rfl, hp b hb, by simp [hpl, hlll, hold]⟩

/-! ### The fit -/

variable {M : MethodOps μ} {J : ℕ → ℕ}

/-- A coefficient path of the right shape. -/
def PathOk {j : ℕ} (C : MethodContract M j) (q : Arr2) : Prop := q.length = C.L ∧ ∀ b ∈ q, b.length = j

/-- What the estimator has stored for a distribution parameter once its inner loop was accepted. -/
structure Stored (K : ∀ k, MethodContract M (J k)) (k : ℕ) (s : GState μ p) : Prop where
  xGram : ∃ g, s.xGram k = some g ∧ (K k).Gx g
  yGram : ∃ g, s.yGram k = some g ∧ (K k).Gy g
  coef : ∃ b, s.coef k = some b ∧ b.length = J k
  path : (K k).isPath = true → ∃ q, s.coefPath k = some q ∧ PathOk (K k) q
  selection : (K k).isPath = true → ∃ d, s.selection k = some d ∧ d.length = (K k).L
  sumW : ∃ v, s.sumW k = some v
  meanW : ∃ v, s.meanW k = some v

/-- The attributes set before the loops, for `n` parameters and at most `mi` inner iterations. -/
structure Setup (K : ∀ k, MethodContract M (J k)) (n mi : ℕ) (s : GState μ p) : Prop where
  method : ∀ k < n, ∃ m, s.method k = some m ∧ (K k).Ok m
  forget : ∀ k < n, ∃ f, s.forget.get? k = some f ∧ 0 ≤ f ∧ f < 1
  reg : ∀ k < n, ∃ r, s.isRegularized.get? k = some r ∧ r.length = J k ∧ (K k).Flags r
  nTraining : ∀ k < n, ∃ v, s.nTraining.get? k = some v
  ic : ∀ k < n, ∃ v, s.ic.get? k = some v ∧ v ≠ .aicc
  steps : n ≤ s.stepSize.values.length
  schedule : ∀ i, 1 ≤ s.scheduleIteration i ∧ s.scheduleIteration i ≤ mi
  order : ∀ k ∈ s.paramOrder, k < n

/-- The arrays one call works on. -/
structure CallOk (c : Call μ p) (J : ℕ → ℕ) : Prop where
  regular : Regular c.D
  conditional : c.cfg.condStartVal = true → ConditionalRegular c.D
  y : c.y ≠ []
  w : c.w.length = c.y.length
  X : ∀ k < c.D.nParams, ∃ X, c.X k = some X ∧ X.length = c.y.length ∧ ∀ x ∈ X, x.length = J k

/-- The methods can take in the designs and weights of a fit. -/
def FitArraysOk (c : Call μ p) {J : ℕ → ℕ} (K : ∀ k, MethodContract c.M (J k)) : Prop :=
  ∀ k < c.D.nParams, ∀ X, c.X k = some X → ∀ fv wk, working c.D fitClip c.y fv k = .ok wk →
    (K k).FitArrays X wk.wv (wmul c.w wk.wt)

/-- The methods can take in the designs and weights of an update. -/
def UpdateArraysOk (c : Call μ p) {J : ℕ → ℕ} (K : ∀ k, MethodContract c.M (J k)) : Prop :=
  ∀ k < c.D.nParams, ∀ X, c.X k = some X → ∀ fv wk, working c.D updateClip c.y fv k = .ok wk →
    (K k).UpdateArrays X wk.wv (wmul c.w wk.wt)

/-- The invariant of the fit: the parameters in `S` are stored. -/
structure FitInv (K : ∀ k, MethodContract M (J k)) (n mi N : ℕ) (S : Set ℕ) (s : GState μ p) : Prop where
  setup : Setup K n mi s
  fv : s.fv.length = N
  stored : ∀ k ∈ S, Stored K k s

theorem Setup.setMethod {K : ∀ k, MethodContract M (J k)} {n mi : ℕ} {s : GState μ p} (h : Setup K n mi s) {k : ℕ} {m : μ}
    (hm : (K k).Ok m) : Setup K n mi (s.setMethod (upd s.method k (some m))) where
  method := by
    intro j hj
    change ∃ m', upd s.method k (some m) j = some m' ∧ (K j).Ok m'
    unfold upd
    by_cases hjk : j = k
    · subst hjk
      exact ⟨m, by simp, hm⟩
    · simpa [Function.update_of_ne hjk] using h.method j hj
  forget := h.forget
  reg := h.reg
  nTraining := h.nTraining
  ic := h.ic
  steps := h.steps
  schedule := h.schedule
  order := h.order

theorem FitInv.setMethod {K : ∀ k, MethodContract M (J k)} {n mi N : ℕ} {S : Set ℕ} {s : GState μ p}
    (h : FitInv K n mi N S s) {k : ℕ} {m : μ} (hm : (K k).Ok m) :
    FitInv K n mi N S (s.setMethod (upd s.method k (some m))) :=
  ⟨h.setup.setMethod hm, h.fv, fun j hj => by
    obtain ⟨h1, h2, h3, h4, h5, h6, h7⟩ := h.stored j hj
    exact ⟨h1, h2, h3, h4, h5, h6, h7⟩⟩

theorem FitInv.congr {K : ∀ k, MethodContract M (J k)} {n mi N : ℕ} {S : Set ℕ} {s : GState μ p}
    (h : FitInv K n mi N S s) (t : GState μ p)
    (ht : (t.method, t.forget, t.isRegularized, t.nTraining, t.ic, t.stepSize, t.scheduleIteration, t.paramOrder) =
      (s.method, s.forget, s.isRegularized, s.nTraining, s.ic, s.stepSize, s.scheduleIteration, s.paramOrder))
    (ht' : (t.fv, t.xGram, t.yGram, t.coef, t.coefPath, t.selection, t.sumW, t.meanW) =
      (s.fv, s.xGram, s.yGram, s.coef, s.coefPath, s.selection, s.sumW, s.meanW)) : FitInv K n mi N S t := by
  simp only [Prod.mk.injEq] at ht ht'
  obtain ⟨a1, a2, a3, a4, a5, a6, a7, a8⟩ := ht
  obtain ⟨b1, b2, b3, b4, b5, b6, b7, b8⟩ := ht'
  obtain ⟨⟨h1, h2, h3, h4, h5, h6, h7, h8⟩, h9, h10⟩ := h
  refine ⟨⟨by rwa [a1], by rwa [a2], by rwa [a3], by rwa [a4], by rwa [a5], by rwa [a6], by rwa [a7], by rwa [a8]⟩,
    by rwa [b1], fun k hk => ?_⟩
  obtain ⟨c1, c2, c3, c4, c5, c6, c7⟩ := h10 k hk
  exact ⟨by rwa [b2], by rwa [b3], by rwa [b4], by rwa [b5], by rwa [b6], by rwa [b7], by rwa [b8]⟩

/-- The coefficients of one inner iteration have the right shapes. -/
structure CoefsOk {j : ℕ} (C : MethodContract M j) (co : Coefs) : Prop where
  beta : co.beta.length = j
  path : C.isPath = true → ∃ q, co.path = some q ∧ PathOk C q
  selection : C.isPath = true → ∃ d, co.selection = some d ∧ d.length = C.L

theorem fitPathFrom_ok {j : ℕ} (C : MethodContract M j) (hp : C.isPath = true) {m : μ} (hm : C.Ok m) {xg : Arr2} {yg : Arr1}
    (hx : C.Gx xg) (hy : C.Gy yg) {reg : List Bool} (hr : reg.length = j) (hrf : C.Flags reg) (first : Bool) (start : Option Arr2)
    (hs : first = false → ∃ q, start = some q ∧ PathOk C q) :
    ∃ q m', fitPathFrom M m xg yg reg first start = .ok (q, m') ∧ PathOk C q ∧ C.Ok m' := by
  unfold fitPathFrom
  cases first with
  | true =>
    obtain ⟨q, m', h, hq, hm'⟩ := C.fitPath hp m hm xg yg hx hy reg hr hrf
    exact ⟨q, m', h, hq, hm'⟩
  | false =>
    obtain ⟨q0, rfl, hq0⟩ := hs rfl
    obtain ⟨q, m', h, hq, hm'⟩ := C.updatePath hp m hm xg yg hx hy q0 hq0.1 hq0.2 reg hr hrf
    exact ⟨q, m', h, hq, hm'⟩

theorem fitCoefs_total {c : Call μ p} {K : ∀ k, MethodContract c.M (J k)} (hc : CallOk c J) {S : Set ℕ} {mi N : ℕ} {k : ℕ}
    (hk : k < c.D.nParams) (itO itI : ℕ) (prev : Option Arr2)
    (hprev : 0 < itI → (K k).isPath = true → ∃ q, prev = some q ∧ PathOk (K k) q) (hS : itO ≠ 1 → k ∈ S)
    {X : Arr2} (hX : ∀ x ∈ X, x.length = J k) (wk : Working) {xg : Arr2} {yg : Arr1} (hx : (K k).Gx xg) (hy : (K k).Gy yg) :
    Py.Total (FitInv K c.D.nParams mi N S) (fitCoefs c k itO itI prev X wk xg yg)
      (fun co s => FitInv K c.D.nParams mi N S s ∧ CoefsOk (K k) co) := by
  unfold fitCoefs
  refine Py.Total.bind_self fun s hs => ?_
  obtain ⟨m, hm, hmok⟩ := hs.setup.method k hk
  obtain ⟨reg, hreg, hrl, hrf⟩ := hs.setup.reg k hk
  obtain ⟨forget, hforget, _, _⟩ := hs.setup.forget k hk
  obtain ⟨nT, hnT⟩ := hs.setup.nTraining k hk
  obtain ⟨ic, hic, hica⟩ := hs.setup.ic k hk
  refine Py.Total.bind_attr hm (Py.Total.bind_attr hreg (Py.Total.bind_attr hforget ?_))
  cases hp : (K k).isPath with
  | true =>
    rw [if_pos (by rw [(K k).path m hmok, hp])]
    obtain ⟨q, m', hq, hqo, hm'⟩ := fitPathFrom_ok (K k) hp hmok hx hy hrl hrf (decide (itI = 0 ∧ itO = 1))
      (if 0 < itI then prev else s.coefPath k) (by
        intro hfirst
        by_cases h0 : 0 < itI
        · rw [if_pos h0]
          exact hprev h0 hp
        · rw [if_neg h0]
          have hO : itO ≠ 1 := by
            intro h1
            simp [h1, Nat.eq_zero_of_not_pos h0] at hfirst
          exact (hs.stored k (hS hO)).path hp)
    obtain ⟨b, d, i, hsel, hb, hd⟩ := fitSelectModel_ok hc.regular s hk hX hqo.2 (by rw [hqo.1]; exact (K k).pos) wk.wv wk.wt
      forget nT hica
    refine Py.Total.bind_call hq (Py.Total.bind_set (P' := FitInv K c.D.nParams mi N S) ?_ (Py.Total.bind_attr hnT
      (Py.Total.bind_attr hic (Py.Total.bind_call hsel (Py.Total.pure ?_)))))
    · rintro _ rfl
      exact hs.setMethod hm'
    · exact fun t ht => ⟨ht, hb, fun _ => ⟨q, rfl, hqo⟩, fun _ => ⟨d, rfl, by rw [hd, hqo.1]⟩⟩
  | false =>
    rw [if_neg (by rw [(K k).path m hmok, hp]; simp)]
    obtain ⟨b, m', hb, hbl, hm'⟩ := (K k).fitBeta hp m hmok xg yg hx hy reg hrl hrf
    refine Py.Total.bind_call hb (Py.Total.bind_set (P' := FitInv K c.D.nParams mi N S) ?_ (Py.Total.pure ?_))
    · rintro _ rfl
      exact hs.setMethod hm'
    · exact fun t ht => ⟨ht, hbl, fun h => absurd (hp.symm.trans h) (by simp), fun h => absurd (hp.symm.trans h) (by simp)⟩

/-- What an inner iteration leaves has the right shapes. -/
structure OutOk {j : ℕ} (C : MethodContract M j) (o : IterOut) : Prop where
  xGram : C.Gx o.xGram
  yGram : C.Gy o.yGram
  beta : o.beta.length = j
  path : C.isPath = true → ∃ q, o.path = some q ∧ PathOk C q
  selection : C.isPath = true → ∃ d, o.selection = some d ∧ d.length = C.L

/-- The variables of an inner loop have the right shapes. -/
structure InnerOk {j : ℕ} (C : MethodContract M j) (N : ℕ) (itI : ℕ) (a : Inner) : Prop where
  fvIt : a.fvIt.length = N
  fvNew : a.fvNew.length = N
  out : 0 < itI → ∃ o, a.out = some o ∧ OutOk C o

theorem stepAt_ok {c : GConfig μ p} {K : ∀ k, MethodContract M (J k)} {n : ℕ} {s : GState μ p}
    (hs : Setup K n c.maxInner s) {itO itI k : ℕ} (hO : itO - 1 < c.maxOuter) (hI : itI < c.maxInner) (hk : k < n) :
    ∃ v, stepAt c s itO itI k = .ok v := by
  have hlt : k < s.stepSize.values.length := lt_of_lt_of_le hk hs.steps
  unfold stepAt stepSchedule
  rw [if_pos ⟨hO, hI⟩, List.getElem?_eq_getElem hlt]
  exact ⟨_, rfl⟩

theorem fitIteration_total {c : Call μ p} {K : ∀ k, MethodContract c.M (J k)} (hc : CallOk c J) (hF : FitArraysOk c K) {S : Set ℕ} {k : ℕ}
    (hk : k < c.D.nParams) {itO itI scheduled : ℕ} (hO : itO - 1 < c.cfg.maxOuter) (hI : itI < c.cfg.maxInner)
    (hS : itO ≠ 1 → k ∈ S) {a : Inner} (ha : InnerOk (K k) c.y.length itI a) :
    Py.Total (FitInv K c.D.nParams c.cfg.maxInner c.y.length S) (fitIteration c k itO itI scheduled a)
      (fun r s => FitInv K c.D.nParams c.cfg.maxInner c.y.length S s ∧ InnerOk (K k) c.y.length (itI + 1) r.1) := by
  unfold fitIteration
  refine Py.Total.bind_self fun s hs => ?_
  obtain ⟨step, hstep⟩ := stepAt_ok hs.setup hO hI hk
  obtain ⟨fvIt, hfvIt, hfl⟩ : ∃ r, startValues c k itO itI a.fvIt = .ok r ∧ r.length = c.y.length := by
    unfold startValues
    split
    · next h => exact hc.conditional h.2.2.2 k hk c.y a.fvIt ha.fvIt
    · exact ⟨_, rfl, ha.fvIt⟩
  obtain ⟨wk, hwk, hel, hwl, hvl⟩ := working_ok hc.regular (lo := fitClip) (y := c.y) hk hfl
  obtain ⟨X, hX, hXl, hXr⟩ := hc.X k hk
  obtain ⟨m, hm, hmok⟩ := hs.setup.method k hk
  obtain ⟨forget, hforget, hf0, hf1⟩ := hs.setup.forget k hk
  have hX0 : X ≠ [] := by
    rw [← List.length_pos_iff_ne_nil, hXl, List.length_pos_iff_ne_nil]
    exact hc.y
  have hww : (wmul c.w wk.wt).length = X.length := by rw [hXl]; exact wmul_length hc.w hwl
  obtain ⟨xg, hxg, hxok⟩ := (K k).initX m hmok X hX0 hXr (wmul c.w wk.wt) hww ⟨_, hF k hk X hX _ _ hwk⟩ forget hf0 hf1
  obtain ⟨yg, hyg, hyok⟩ := (K k).initY m hmok X hX0 hXr wk.wv (wmul c.w wk.wt) (by rw [hXl, hvl]) hww (hF k hk X hX _ _ hwk) forget hf0 hf1
  refine Py.Total.bind_call hstep (Py.Total.bind_call hfvIt (Py.Total.bind_call hwk (Py.Total.bind_set
    (P' := FitInv K c.D.nParams c.cfg.maxInner c.y.length S) ?_ ?_)))
  · rintro _ rfl
    refine hs.congr _ ?_ ?_ <;> (unfold debugWork; split <;> rfl)
  refine Py.Total.bind_attr hX (Py.Total.bind_attr hm (Py.Total.bind_attr hforget (Py.Total.bind_call hxg
    (Py.Total.bind_call hyg ?_))))
  refine Py.Total.bind (fitCoefs_total hc hk itO itI _ ?_ hS hXr wk hxok hyok) fun co => ?_
  · intro h0 hp
    obtain ⟨o, ho, hok⟩ := ha.out h0
    rw [ho]
    exact hok.path hp
  refine Py.Total.bind_set (P' := fun t => FitInv K c.D.nParams c.cfg.maxInner c.y.length S t ∧ CoefsOk (K k) co) ?_ ?_
  · rintro t ⟨ht, hco⟩
    refine ⟨ht.congr _ ?_ ?_, hco⟩ <;> (unfold debugBeta; split <;> rfl)
  refine Py.Total.of_state fun t ht => ?_
  have hco := ht.2
  obtain ⟨xb, hxb, hxbl⟩ := matVec_ok (X := X) (b := co.beta) fun x hx => by rw [hXr x hx, hco.beta]
  obtain ⟨v, hv, hvlen⟩ := hc.regular.linkInverse k hk
    (List.zipWith (fun u e => Flt.add (Flt.mul (.fin step) u) (Flt.mul (.fin (1 - step)) e)) xb wk.eta)
  have hvlen' : v.length = c.y.length := by simp [hvlen, hxbl, hXl, hel]
  have hnew : (a.fvNew.setCol k v).length = c.y.length := setCol_length ha.fvNew hvlen'
  refine Py.Total.bind_call hxb ?_
  refine Py.Total.bind_call hv ?_
  refine Py.Total.bind_set (P' := FitInv K c.D.nParams c.cfg.maxInner c.y.length S) ?_ (Py.Total.pure ?_)
  · rintro _ rfl
    refine ht.1.congr _ ?_ ?_ <;> (split <;> rfl)
  · intro u hu
    exact ⟨hu, ite_length (setCol_length hfl (col_length hnew)) hfl, hnew,
      fun _ => ⟨_, rfl, hxok, hyok, hco.beta, hco.path, hco.selection⟩⟩

theorem fitInnerLoop_total {c : Call μ p} {K : ∀ k, MethodContract c.M (J k)} (hc : CallOk c J) (hF : FitArraysOk c K) {S : Set ℕ} {k : ℕ}
    (hk : k < c.D.nParams) {itO scheduled : ℕ} (hO : itO - 1 < c.cfg.maxOuter) (hS : itO ≠ 1 → k ∈ S) (n itI : ℕ)
    (hn : itI + n ≤ c.cfg.maxInner) (hpos : 0 < itI + n) (a : Inner) (ha : InnerOk (K k) c.y.length itI a) :
    Py.Total (FitInv K c.D.nParams c.cfg.maxInner c.y.length S) (fitInnerLoop c k itO scheduled n itI a)
      (fun r s => FitInv K c.D.nParams c.cfg.maxInner c.y.length S s ∧ InnerOk (K k) c.y.length 1 r) := by
  induction n generalizing itI a with
  | zero =>
    unfold fitInnerLoop
    exact Py.Total.pure fun s hs => ⟨hs, ha.fvIt, ha.fvNew, fun _ => ha.out (by omega)⟩
  | succ n ih =>
    unfold fitInnerLoop
    refine Py.Total.bind (fitIteration_total hc hF hk hO (by omega) hS ha) fun r => ?_
    intro s ⟨hs, hr⟩
    by_cases h : r.2 = true
    · rw [if_pos h]
      exact ⟨r.1, s, rfl, hs, hr.fvIt, hr.fvNew, fun _ => hr.out (by omega)⟩
    · rw [if_neg h]
      exact ih (itI + 1) (by omega) (by omega) r.1 hr s hs

theorem commitFit_inv {c : Call μ p} {K : ∀ k, MethodContract c.M (J k)} {n mi N : ℕ} {S : Set ℕ} {s : GState μ p}
    (h : FitInv K n mi N S s) {k : ℕ} {a : Inner} (ha : a.fvNew.length = N) {o : IterOut} (ho : OutOk (K k) o) :
    FitInv K n mi N (insert k S) (commitFit c k a o s) := by
  obtain ⟨⟨h1, h2, h3, h4, h5, h6, h7, h8⟩, h9, h10⟩ := h
  refine ⟨⟨h1, h2, h3, h4, h5, h6, h7, h8⟩, setCol_length h9 (col_length ha), fun j hj => ?_⟩
  by_cases hjk : j = k
  · subst hjk
    refine ⟨⟨o.xGram, by simp [commitFit, upd], ho.xGram⟩, ⟨o.yGram, by simp [commitFit, upd], ho.yGram⟩,
      ⟨o.beta, by simp [commitFit, upd], ho.beta⟩, fun hp => ?_, fun hp => ?_, ⟨_, by simp [commitFit, upd]; rfl⟩,
      ⟨_, by simp [commitFit, upd]; rfl⟩⟩
    · obtain ⟨q, hq, hqo⟩ := ho.path hp
      exact ⟨q, by simp [commitFit, upd, hq], hqo⟩
    · obtain ⟨d, hd, hdl⟩ := ho.selection hp
      exact ⟨d, by simp [commitFit, upd, hd], hdl⟩
  · obtain ⟨c1, c2, c3, c4, c5, c6, c7⟩ := h10 j (by
      rcases hj with hj | hj
      · exact absurd hj hjk
      · exact hj)
    refine ⟨?_, ?_, ?_, ?_, ?_, ?_, ?_⟩
    · simpa [commitFit, upd, Function.update_of_ne hjk] using c1
    · simpa [commitFit, upd, Function.update_of_ne hjk] using c2
    · simpa [commitFit, upd, Function.update_of_ne hjk] using c3
    · simpa [commitFit, upd, Function.update_of_ne hjk] using c4
    · simp only [commitFit]
      split
      · simpa [upd, Function.update_of_ne hjk] using c5
      · exact c5
    · simpa [commitFit, upd, Function.update_of_ne hjk] using c6
    · simpa [commitFit, upd, Function.update_of_ne hjk] using c7

theorem innerFit_total {c : Call μ p} {K : ∀ k, MethodContract c.M (J k)} (hc : CallOk c J) (hF : FitArraysOk c K) {S : Set ℕ} {k : ℕ}
    (hk : k < c.D.nParams) {itO : ℕ} (hO : itO - 1 < c.cfg.maxOuter) (hS : itO ≠ 1 → k ∈ S) :
    Py.Total (FitInv K c.D.nParams c.cfg.maxInner c.y.length S) (innerFit c itO k)
      (fun _ s => FitInv K c.D.nParams c.cfg.maxInner c.y.length (insert k S) s) := by
  unfold innerFit
  refine Py.Total.bind_self fun s hs => ?_
  have hn : iterationsAt c.cfg s itO = .ok (s.scheduleIteration (itO - 1)) := by
    unfold iterationsAt
    rw [if_pos hO]
  refine Py.Total.bind_call hn (Py.Total.bind ((fitInnerLoop_total (K := K) hc hF hk hO hS _ 0 ?_ ?_ _ ?_).pre ?_) fun a => ?_)
  · rw [Nat.zero_add]
    exact (hs.setup.schedule _).2
  · rw [Nat.zero_add]
    exact (hs.setup.schedule _).1
  · exact ⟨hs.fv, hs.fv, fun h => absurd h (by simp)⟩
  · rintro _ rfl
    exact hs
  · refine Py.Total.of_state fun t ⟨ht, ha⟩ => ?_
    obtain ⟨o, ho, hok⟩ := ha.out (by simp)
    refine Py.Total.bind_attr ho (Py.Total.bind_set
      (P' := FitInv K c.D.nParams c.cfg.maxInner c.y.length (insert k S)) ?_
      (Py.Total.bind_set (P' := FitInv K c.D.nParams c.cfg.maxInner c.y.length (insert k S)) ?_ (Py.Total.pure ?_)))
    · rintro _ rfl
      split
      · exact commitFit_inv ht ha.fvNew hok
      · next hnot =>
        have hkS : k ∈ S := hS fun h => hnot (.inr h)
        rwa [Set.insert_eq_of_mem hkS]
    · exact fun u hu => hu.congr _ rfl rfl
    · exact fun u hu => hu

theorem paramLoop_total {σ : Type} {f : ℕ → Py σ Flt} {I : Set ℕ → σ → Prop} (ks : List ℕ) (S : Set ℕ)
    (h : ∀ k ∈ ks, ∀ S' ⊇ S, Py.Total (I S') (f k) (fun _ => I (insert k S'))) (dev : Flt) :
    Py.Total (I S) (paramLoop f ks dev) (fun _ => I (S ∪ {k | k ∈ ks})) := by
  induction ks generalizing S dev with
  | nil =>
    unfold paramLoop
    exact Py.Total.pure fun s hs => by simpa using hs
  | cons k ks ih =>
    unfold paramLoop
    refine Py.Total.bind (h k (by simp) S subset_rfl) fun d => ?_
    refine (ih (insert k S) (fun j hj S' hS' => h j (by simp [hj]) S' ((Set.subset_insert k S).trans hS')) d).post ?_
    intro _ t ht
    convert ht using 1
    ext j
    simp only [List.mem_cons, Set.mem_union, Set.mem_setOf_eq, Set.mem_insert_iff]
    tauto

theorem outerLoop_total {σ : Type} {stops : ℕ → Flt → Flt → Prop} {body : ℕ → Flt → Py σ Flt} {I : ℕ → σ → Prop}
    {top : ℕ} (hstop : ∀ it dev devOld, top ≤ it → stops it dev devOld) (hbody : ∀ it dev, 1 ≤ it → it ≤ top →
      Py.Total (I (it - 1)) (body it dev) (fun _ => I it)) (fuel it : ℕ) (dev devOld : Flt) (hf : top < fuel + it) (hit : it ≤ top) :
    Py.Total (I it) (outerLoop stops body fuel it dev devOld) (fun r s => ∃ d i dO, r = some (d, i) ∧ it ≤ i ∧
      stops i d dO ∧ I i s) := by
  induction fuel generalizing it dev devOld with
  | zero => omega
  | succ n ih =>
    unfold outerLoop
    by_cases h : stops it dev devOld
    · rw [if_pos h]
      exact Py.Total.pure fun s hs => ⟨dev, it, devOld, rfl, le_rfl, h, hs⟩
    · rw [if_neg h]
      have hlt : it < top := lt_of_not_ge fun hge => h (hstop it dev devOld hge)
      refine Py.Total.bind (hbody (it + 1) dev (by omega) hlt) fun d => ?_
      refine (ih (it + 1) d dev (by omega) hlt).post ?_
      rintro r s ⟨d', i, dO, h1, h2, h3, h4⟩
      exact ⟨d', i, dO, h1, by omega, h3, h4⟩

theorem outerFit_total {c : Call μ p} {K : ∀ k, MethodContract c.M (J k)} (hc : CallOk c J) (hF : FitArraysOk c K) {ks : List ℕ} {m : ℕ}
    (hm1 : 1 ≤ m) (hm : m ≤ c.cfg.maxOuter) (fuel : ℕ) (hf : c.cfg.maxOuter < fuel) :
    Py.Total (fun s => FitInv K c.D.nParams c.cfg.maxInner c.y.length ∅ s ∧ s.minIt = m ∧ s.paramOrder = ks)
      (outerFit c fuel) (fun r s => (∃ d i, r = some (d, i)) ∧
        FitInv K c.D.nParams c.cfg.maxInner c.y.length {k | k ∈ ks} s) := by
  unfold outerFit
  refine Py.Total.bind_self ?_
  rintro s ⟨hs, rfl, rfl⟩
  refine ((outerLoop_total (top := c.cfg.maxOuter)
    (I := fun it => FitInv K c.D.nParams c.cfg.maxInner c.y.length (if it = 0 then ∅ else {k | k ∈ s.paramOrder}))
    ?_ ?_ fuel 0 _ _ hf (Nat.zero_le _)).pre ?_).post ?_
  · exact fun it dev devOld h => ⟨hm.trans h, .inr (.inl h)⟩
  · intro it dev h1 h2
    have hS : ∀ k ∈ s.paramOrder, it ≠ 1 → k ∈ (if it - 1 = 0 then (∅ : Set ℕ) else {k | k ∈ s.paramOrder}) := by
      intro k hk hit
      rw [if_neg (by omega)]
      exact hk
    refine (paramLoop_total (I := FitInv K c.D.nParams c.cfg.maxInner c.y.length) s.paramOrder _ ?_ dev).post ?_
    · exact fun k hk S' hS' => innerFit_total hc hF (hs.setup.order k hk) (by omega) fun h => hS' (hS k hk h)
    · intro _ t ht
      rw [if_neg (by omega)]
      refine ⟨ht.setup, ht.fv, fun k hk => ht.stored k (.inr hk)⟩
  · rintro _ rfl
    exact hs
  · rintro r t ⟨d, i, dO, rfl, _, hstop, ht⟩
    refine ⟨⟨d, i, rfl⟩, ?_⟩
    have : i ≠ 0 := by
      have := hstop.1
      omega
    rwa [if_neg this] at ht

/-! ### The update -/

/-- The invariant of the update. -/
structure UpdInv (K : ∀ k, MethodContract M (J k)) (n mi N : ℕ) (s : GState μ p) : Prop where
  setup : Setup K n mi s
  fv : s.fv.length = N
  stored : ∀ k < n, Stored K k s
  nObs : ∃ v, s.nObs = some v
  globalDev : ∃ v, s.globalDev = some v
  selectionOld : ∀ k < n, (K k).isPath = true → ∃ d, s.selectionOld k = some d ∧ d.length = (K k).L
  xGramNew : ∀ k < n, ∃ g, s.xGramNew k = some g ∧ (K k).Gx g
  yGramNew : ∀ k < n, ∃ g, s.yGramNew k = some g ∧ (K k).Gy g
  sumWNew : ∀ k < n, ∃ v, s.sumWNew k = some v
  meanWNew : ∀ k < n, ∃ v, s.meanWNew k = some v

theorem UpdInv.setMethod {K : ∀ k, MethodContract M (J k)} {n mi N : ℕ} {s : GState μ p}
    (h : UpdInv K n mi N s) {k : ℕ} {m : μ} (hm : (K k).Ok m) :
    UpdInv K n mi N (s.setMethod (upd s.method k (some m))) :=
  ⟨h.setup.setMethod hm, h.fv, fun j hj => by
    obtain ⟨h1, h2, h3, h4, h5, h6, h7⟩ := h.stored j hj
    exact ⟨h1, h2, h3, h4, h5, h6, h7⟩, h.nObs, h.globalDev, h.selectionOld, h.xGramNew, h.yGramNew, h.sumWNew, h.meanWNew⟩

theorem UpdInv.congr {K : ∀ k, MethodContract M (J k)} {n mi N : ℕ} {s : GState μ p}
    (h : UpdInv K n mi N s) (t : GState μ p)
    (ht : (t.method, t.forget, t.isRegularized, t.nTraining, t.ic, t.stepSize, t.scheduleIteration, t.paramOrder) =
      (s.method, s.forget, s.isRegularized, s.nTraining, s.ic, s.stepSize, s.scheduleIteration, s.paramOrder))
    (ht' : (t.fv, t.xGram, t.yGram, t.coef, t.coefPath, t.selection, t.sumW, t.meanW) =
      (s.fv, s.xGram, s.yGram, s.coef, s.coefPath, s.selection, s.sumW, s.meanW))
    (hu : (t.nObs, t.globalDev, t.selectionOld, t.xGramNew, t.yGramNew, t.sumWNew, t.meanWNew) =
      (s.nObs, s.globalDev, s.selectionOld, s.xGramNew, s.yGramNew, s.sumWNew, s.meanWNew)) : UpdInv K n mi N t := by
  have hf : FitInv K n mi N {k | k < n} t := FitInv.congr ⟨h.setup, h.fv, h.stored⟩ t ht ht'
  simp only [Prod.mk.injEq] at hu
  obtain ⟨a1, a2, a3, a4, a5, a6, a7⟩ := hu
  obtain ⟨_, _, _, h4, h5, h6, h7, h8, h9, h10⟩ := h
  exact ⟨hf.setup, hf.fv, hf.stored, by rwa [a1], by rwa [a2], by rwa [a3], by rwa [a4], by rwa [a5], by rwa [a6],
    by rwa [a7]⟩

theorem updateCoefs_total {c : Call μ p} {K : ∀ k, MethodContract c.M (J k)} (hc : CallOk c J) {mi N : ℕ} {k : ℕ}
    (hk : k < c.D.nParams) {X : Arr2} (hX : ∀ x ∈ X, x.length = J k) (wk : Working) {xg : Arr2} {yg : Arr1}
    (hx : (K k).Gx xg) (hy : (K k).Gy yg) :
    Py.Total (UpdInv K c.D.nParams mi N) (updateCoefs c k X wk xg yg)
      (fun co s => UpdInv K c.D.nParams mi N s ∧ CoefsOk (K k) co) := by
  unfold updateCoefs
  refine Py.Total.bind_self fun s hs => ?_
  obtain ⟨m, hm, hmok⟩ := hs.setup.method k hk
  obtain ⟨reg, hreg, hrl, hrf⟩ := hs.setup.reg k hk
  obtain ⟨forget, hforget, _, _⟩ := hs.setup.forget k hk
  obtain ⟨nT, hnT⟩ := hs.setup.nTraining k hk
  obtain ⟨ic, hic, hica⟩ := hs.setup.ic k hk
  obtain ⟨nO, hnO⟩ := hs.nObs
  obtain ⟨mW, hmW⟩ := (hs.stored k hk).meanW
  obtain ⟨b0, hb0, hb0l⟩ := (hs.stored k hk).coef
  refine Py.Total.bind_attr hm (Py.Total.bind_attr hreg (Py.Total.bind_attr hforget ?_))
  cases hp : (K k).isPath with
  | true =>
    rw [if_pos (by rw [(K k).path m hmok, hp])]
    obtain ⟨q0, hq0, hq0o⟩ := (hs.stored k hk).path hp
    obtain ⟨old, hold, holdl⟩ := hs.selectionOld k hk hp
    obtain ⟨q, m', hq, hqo, hm'⟩ := (K k).updatePath hp m hmok xg yg hx hy q0 hq0o.1 hq0o.2 reg hrl hrf
    obtain ⟨b, d, i, hsel, hb, hd⟩ := updateSelectModel_ok hc.regular s hk hX hqo.2 (by rw [hqo.1]; exact (K k).pos)
      wk.wv wk.wt (old := old) (by rw [holdl, hqo.1]) mW forget nO nT hica
    refine Py.Total.bind_attr hq0 (Py.Total.bind_call hq (Py.Total.bind_set (P' := UpdInv K c.D.nParams mi N) ?_
      (Py.Total.bind_attr hold (Py.Total.bind_attr hmW (Py.Total.bind_attr hnO (Py.Total.bind_attr hnT (Py.Total.bind_attr
        hic (Py.Total.bind_call hsel (Py.Total.bind_set (P' := UpdInv K c.D.nParams mi N) ?_ (Py.Total.pure ?_))))))))))
    · rintro _ rfl
      exact hs.setMethod hm'
    · exact fun t ht => ht.congr _ rfl rfl rfl
    · exact fun t ht => ⟨ht, hb, fun _ => ⟨q, rfl, hqo⟩, fun _ => ⟨d, rfl, by rw [hd, hqo.1]⟩⟩
  | false =>
    rw [if_neg (by rw [(K k).path m hmok, hp]; simp)]
    obtain ⟨b, m', hb, hbl, hm'⟩ := (K k).updateBeta hp m hmok xg yg hx hy b0 hb0l reg hrl hrf
    refine Py.Total.bind_attr hb0 (Py.Total.bind_call hb (Py.Total.bind_set (P' := UpdInv K c.D.nParams mi N) ?_
      (Py.Total.pure ?_)))
    · rintro _ rfl
      exact hs.setMethod hm'
    · exact fun t ht => ⟨ht, hbl, fun h => absurd (hp.symm.trans h) (by simp), fun h => absurd (hp.symm.trans h) (by simp)⟩

theorem updateIteration_total {c : Call μ p} {K : ∀ k, MethodContract c.M (J k)} (hc : CallOk c J) (hF : UpdateArraysOk c K) {k : ℕ}
    (hk : k < c.D.nParams) {itO itI : ℕ} (hO : itO - 1 < c.cfg.maxOuter) (hI : itI < c.cfg.maxInner)
    {a : Inner} (ha : InnerOk (K k) c.y.length itI a) :
    Py.Total (UpdInv K c.D.nParams c.cfg.maxInner c.y.length) (updateIteration c k itO itI a)
      (fun r s => UpdInv K c.D.nParams c.cfg.maxInner c.y.length s ∧ InnerOk (K k) c.y.length (itI + 1) r.1) := by
  unfold updateIteration
  refine Py.Total.bind_self fun s hs => ?_
  obtain ⟨step, hstep⟩ := stepAt_ok hs.setup hO hI hk
  obtain ⟨wk, hwk, hel, hwl, hvl⟩ := working_ok hc.regular (lo := updateClip) (y := c.y) hk ha.fvIt
  obtain ⟨X, hX, hXl, hXr⟩ := hc.X k hk
  obtain ⟨m, hm, hmok⟩ := hs.setup.method k hk
  obtain ⟨forget, hforget, hf0, hf1⟩ := hs.setup.forget k hk
  obtain ⟨forget0, hforget0, _, _⟩ := hs.setup.forget 0 hc.regular.pos
  obtain ⟨x0, hx0, hx0o⟩ := (hs.stored k hk).xGram
  obtain ⟨y0, hy0, hy0o⟩ := (hs.stored k hk).yGram
  obtain ⟨mW, hmW⟩ := (hs.stored k hk).meanW
  obtain ⟨nO, hnO⟩ := hs.nObs
  obtain ⟨gd, hgd⟩ := hs.globalDev
  have hX0 : X ≠ [] := by
    rw [← List.length_pos_iff_ne_nil, hXl, List.length_pos_iff_ne_nil]
    exact hc.y
  have hww : (wmul c.w wk.wt).length = X.length := by rw [hXl]; exact wmul_length hc.w hwl
  obtain ⟨xg, hxg, hxok⟩ := (K k).updateX m hmok x0 hx0o X hX0 hXr (wmul c.w wk.wt) hww ⟨_, hF k hk X hX _ _ hwk⟩ forget hf0 hf1
  obtain ⟨yg, hyg, hyok⟩ := (K k).updateY m hmok y0 hy0o X hX0 hXr wk.wv (wmul c.w wk.wt) (by rw [hXl, hvl]) hww (hF k hk X hX _ _ hwk) forget
    hf0 hf1
  refine Py.Total.bind_call hstep (Py.Total.bind_call hwk (Py.Total.bind_set
    (P' := UpdInv K c.D.nParams c.cfg.maxInner c.y.length) ?_ ?_))
  · rintro _ rfl
    refine hs.congr _ ?_ ?_ ?_ <;> (unfold debugWork; split <;> rfl)
  refine Py.Total.bind_attr hX (Py.Total.bind_attr hm (Py.Total.bind_attr hforget (Py.Total.bind_attr hx0
    (Py.Total.bind_call hxg (Py.Total.bind_attr hy0 (Py.Total.bind_call hyg ?_))))))
  refine Py.Total.bind (updateCoefs_total hc hk hXr wk hxok hyok) fun co => ?_
  refine Py.Total.bind_set (P' := fun t => UpdInv K c.D.nParams c.cfg.maxInner c.y.length t ∧ CoefsOk (K k) co) ?_ ?_
  · rintro t ⟨ht, hco⟩
    refine ⟨ht.congr _ ?_ ?_ ?_, hco⟩ <;> (unfold debugBeta; split <;> rfl)
  refine Py.Total.of_state fun t ht => ?_
  have hco := ht.2
  obtain ⟨xb, hxb, hxbl⟩ := matVec_ok (X := X) (b := co.beta) fun x hx => by rw [hXr x hx, hco.beta]
  obtain ⟨v, hv, hvlen⟩ := hc.regular.linkInverse k hk xb
  have hvlen' : v.length = c.y.length := by rw [hvlen, hxbl, hXl]
  have hnew : (a.fvNew.setCol k v).length = c.y.length := setCol_length ha.fvNew hvlen'
  refine Py.Total.bind_call hxb ?_
  refine Py.Total.bind_attr hmW ?_
  refine Py.Total.bind_attr hnO ?_
  refine Py.Total.bind_call hv ?_
  refine Py.Total.bind_attr hforget0 ?_
  refine Py.Total.bind_attr hgd ?_
  refine Py.Total.bind_set (P' := UpdInv K c.D.nParams c.cfg.maxInner c.y.length) ?_ (Py.Total.pure ?_)
  · rintro _ rfl
    refine ht.1.congr _ ?_ ?_ ?_ <;> (split <;> rfl)
  · intro u hu
    exact ⟨hu, ite_length (setCol_length ha.fvIt (col_length hnew)) ha.fvIt, hnew,
      fun _ => ⟨_, rfl, hxok, hyok, hco.beta, hco.path, hco.selection⟩⟩

theorem updateInnerLoop_total {c : Call μ p} {K : ∀ k, MethodContract c.M (J k)} (hc : CallOk c J) (hF : UpdateArraysOk c K) {k : ℕ}
    (hk : k < c.D.nParams) {itO : ℕ} (hO : itO - 1 < c.cfg.maxOuter) (n itI : ℕ)
    (hn : itI + n ≤ c.cfg.maxInner) (hpos : 0 < itI + n) (a : Inner) (ha : InnerOk (K k) c.y.length itI a) :
    Py.Total (UpdInv K c.D.nParams c.cfg.maxInner c.y.length) (updateInnerLoop c k itO n itI a)
      (fun r s => UpdInv K c.D.nParams c.cfg.maxInner c.y.length s ∧ InnerOk (K k) c.y.length 1 r) := by
  induction n generalizing itI a with
  | zero =>
    unfold updateInnerLoop
    exact Py.Total.pure fun s hs => ⟨hs, ha.fvIt, ha.fvNew, fun _ => ha.out (by omega)⟩
  | succ n ih =>
    unfold updateInnerLoop
    refine Py.Total.bind (updateIteration_total hc hF hk hO (by omega) ha) fun r => ?_
    intro s ⟨hs, hr⟩
    by_cases h : r.2 = true
    · rw [if_pos h]
      exact ⟨r.1, s, rfl, hs, hr.fvIt, hr.fvNew, fun _ => hr.out (by omega)⟩
    · rw [if_neg h]
      exact ih (itI + 1) (by omega) (by omega) r.1 hr s hs

theorem commitUpdate_inv {c : Call μ p} {K : ∀ k, MethodContract c.M (J k)} {n mi N : ℕ} {s : GState μ p}
    (h : UpdInv K n mi N s) {k : ℕ} {a : Inner} (ha : a.fvNew.length = N) {o : IterOut} (ho : OutOk (K k) o)
    (f w nT : Flt) : UpdInv K n mi N (commitUpdate c k a o f w nT s) := by
  obtain ⟨⟨h1, h2, h3, h4, h5, h6, h7, h8⟩, h9, h10, h11, h12, h13, h14, h15, h16, h17⟩ := h
  refine ⟨⟨h1, h2, h3, h4, h5, h6, h7, h8⟩, setCol_length h9 (col_length ha), fun j hj => ?_, h11, h12, h13,
    fun j hj => ?_, fun j hj => ?_, fun j hj => ?_, fun j hj => ?_⟩
  · obtain ⟨c1, c2, c3, c4, c5, c6, c7⟩ := h10 j hj
    by_cases hjk : j = k
    · subst hjk
      refine ⟨c1, c2, ⟨o.beta, by simp [commitUpdate, upd], ho.beta⟩, fun hp => ?_, fun hp => ?_, c6, c7⟩
      · obtain ⟨q, hq, hqo⟩ := ho.path hp
        exact ⟨q, by simp [commitUpdate, upd, hq], hqo⟩
      · obtain ⟨d, hd, hdl⟩ := ho.selection hp
        exact ⟨d, by simp [commitUpdate, upd, hd], hdl⟩
    · refine ⟨c1, c2, ?_, ?_, ?_, c6, c7⟩
      · simpa [commitUpdate, upd, Function.update_of_ne hjk] using c3
      · simpa [commitUpdate, upd, Function.update_of_ne hjk] using c4
      · simpa [commitUpdate, upd, Function.update_of_ne hjk] using c5
  · by_cases hjk : j = k
    · subst hjk
      exact ⟨o.xGram, by simp [commitUpdate, upd], ho.xGram⟩
    · simpa [commitUpdate, upd, Function.update_of_ne hjk] using h14 j hj
  · by_cases hjk : j = k
    · subst hjk
      exact ⟨o.yGram, by simp [commitUpdate, upd], ho.yGram⟩
    · simpa [commitUpdate, upd, Function.update_of_ne hjk] using h15 j hj
  · by_cases hjk : j = k
    · subst hjk
      exact ⟨_, by simp [commitUpdate, upd]; rfl⟩
    · simpa [commitUpdate, upd, Function.update_of_ne hjk] using h16 j hj
  · by_cases hjk : j = k
    · subst hjk
      exact ⟨_, by simp [commitUpdate, upd]; rfl⟩
    · simpa [commitUpdate, upd, Function.update_of_ne hjk] using h17 j hj

theorem innerUpdate_total {c : Call μ p} {K : ∀ k, MethodContract c.M (J k)} (hc : CallOk c J) (hF : UpdateArraysOk c K) {k : ℕ}
    (hk : k < c.D.nParams) {itO : ℕ} (hO : itO - 1 < c.cfg.maxOuter) :
    Py.Total (UpdInv K c.D.nParams c.cfg.maxInner c.y.length) (innerUpdate c itO k)
      (fun _ s => UpdInv K c.D.nParams c.cfg.maxInner c.y.length s) := by
  unfold innerUpdate
  refine Py.Total.bind_self fun s hs => ?_
  have hn : iterationsAt c.cfg s itO = .ok (s.scheduleIteration (itO - 1)) := by
    unfold iterationsAt
    rw [if_pos hO]
  obtain ⟨forget, hforget, _, _⟩ := hs.setup.forget k hk
  obtain ⟨forget0, hforget0, _, _⟩ := hs.setup.forget 0 hc.regular.pos
  obtain ⟨gd, hgd⟩ := hs.globalDev
  obtain ⟨sW, hsW⟩ := (hs.stored k hk).sumW
  obtain ⟨nT, hnT⟩ := hs.setup.nTraining k hk
  refine Py.Total.bind_attr hforget0 (Py.Total.bind_attr hgd (Py.Total.bind_call hn (Py.Total.bind
    ((updateInnerLoop_total (K := K) hc hF hk hO _ 0 ?_ ?_ _ ?_).pre ?_) fun a => ?_)))
  · rw [Nat.zero_add]
    exact (hs.setup.schedule _).2
  · rw [Nat.zero_add]
    exact (hs.setup.schedule _).1
  · exact ⟨hs.fv, hs.fv, fun h => absurd h (by simp)⟩
  · rintro _ rfl
    exact hs
  · refine Py.Total.of_state fun t ⟨ht, ha⟩ => ?_
    obtain ⟨o, ho, hok⟩ := ha.out (by simp)
    refine Py.Total.bind_attr ho (Py.Total.bind_attr hforget (Py.Total.bind_attr hsW (Py.Total.bind_attr hnT
      (Py.Total.bind_set (P' := UpdInv K c.D.nParams c.cfg.maxInner c.y.length) ?_ (Py.Total.pure ?_)))))
    · rintro _ rfl
      exact commitUpdate_inv ht ha.fvNew hok _ _ _
    · exact fun u hu => hu

theorem outerUpdate_total {c : Call μ p} {K : ∀ k, MethodContract c.M (J k)} (hc : CallOk c J) (hF : UpdateArraysOk c K) (fuel : ℕ)
    (hf : c.cfg.maxOuter < fuel) :
    Py.Total (fun s => UpdInv K c.D.nParams c.cfg.maxInner c.y.length s ∧ s.minIt ≤ c.cfg.maxOuter)
      (outerUpdate c fuel) (fun r s => (∃ d i, r = some (d, i)) ∧
        UpdInv K c.D.nParams c.cfg.maxInner c.y.length s) := by
  unfold outerUpdate
  refine Py.Total.bind_self ?_
  rintro s ⟨hs, hm⟩
  obtain ⟨forget0, hforget0, _, _⟩ := hs.setup.forget 0 hc.regular.pos
  obtain ⟨gd, hgd⟩ := hs.globalDev
  refine Py.Total.bind_attr hforget0 (Py.Total.bind_attr hgd ?_)
  refine ((outerLoop_total (top := c.cfg.maxOuter)
    (I := fun _ => UpdInv K c.D.nParams c.cfg.maxInner c.y.length) ?_ ?_ fuel 0 _ _ hf (Nat.zero_le _)).pre ?_).post ?_
  · exact fun it dev devOld h => ⟨hm.trans h, .inr h⟩
  · intro it dev h1 h2
    exact (paramLoop_total (I := fun _ => UpdInv K c.D.nParams c.cfg.maxInner c.y.length) s.paramOrder ∅
      (fun k hk S' hS' => innerUpdate_total hc hF (hs.setup.order k hk) (by omega)) dev)
  · rintro _ rfl
    exact hs
  · rintro r t ⟨d, i, dO, rfl, _, _, ht⟩
    exact ⟨⟨d, i, rfl⟩, ht⟩

end Ondil
