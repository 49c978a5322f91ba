import Verif.Lemmas.GamlssRowsCalls
import Verif.Lemmas.GamlssOls
import Verif.Props.Scores

/-!
# The distributions and methods of the package work row by row
-/

namespace Ondil

open Dist

variable {p : ℕ} {data data' : List (Obs p)}

/-! ### Distributions -/

/-- A derivative that is a number or raises `ValueError`. -/
def NumberOrValueError (r : Except PyErr (Option ℝ)) : Prop := r = .error .valueError ∨ ∃ v, r = .ok (some v)

theorem checked_number (n : ℕ) (l : List ℝ) (hl : l.length = n) (k : ℕ) : NumberOrValueError (checked n l k) := by
  unfold checked validateIndex
  by_cases h : (k : ℤ) ≥ n
  · rw [if_pos h]
    exact .inl rfl
  · rw [if_neg h]
    refine .inr ⟨l[k]'(by omega), ?_⟩
    change Except.ok (chain l k) = _
    unfold chain
    rw [if_neg (by omega)]
    simp

theorem orRaise_number (l : List ℝ) (k : ℕ) : NumberOrValueError (orRaise l k) := by
  unfold orRaise
  cases chain l k with
  | none => exact .inl rfl
  | some v => exact .inr ⟨v, rfl⟩

theorem validate_number (n : ℕ) (k : ℕ) {r : Except PyErr (Option ℝ)} (h : NumberOrValueError r) :
    NumberOrValueError ((validateIndex n k).bind fun _ => r) := by
  unfold validateIndex
  split_ifs
  · exact .inl rfl
  · exact h

theorem Dist.dl1_number (d : Dist) (y : ℝ) (θ : ℕ → ℝ) (k : ℕ) : NumberOrValueError (d.dl1 y θ k) := by
  cases d <;> first
    | (refine checked_number _ _ ?_ k; rfl)
    | exact orRaise_number _ k
    | exact validate_number _ k (.inr ⟨_, rfl⟩)

theorem Dist.dl2_number (d : Dist) (y : ℝ) (θ : ℕ → ℝ) (k : ℕ) : NumberOrValueError (d.dl2 y θ k) := by
  cases d <;> first
    | (refine checked_number _ _ ?_ k; rfl)
    | exact orRaise_number _ k
    | exact validate_number _ k (.inr ⟨_, rfl⟩)
    | exact validate_number _ k (orRaise_number _ k)

theorem derivativeAt_error {real : (ℕ → ℝ) → Except PyErr (Option ℝ)} (h : ∀ θ, NumberOrValueError (real θ)) {other : Flt}
    {row : Option (ℕ → ℝ)} {e : PyErr} (he : derivativeAt real other row = .error e) : e = .valueError := by
  unfold derivativeAt at he
  cases row with
  | none => cases he
  | some θ =>
    rcases h θ with h | ⟨v, h⟩
    · simp only [h] at he
      cases he
      rfl
    · simp only [h] at he
      cases he

theorem withLink_along (links : List LinkClass) (f : LinkClass → Flt → Flt) (k : ℕ) {a a' : Arr1} (h : Along data data' a a') :
    BothRel (Along data data') (withLink links f k a) (withLink links f k a') := by
  unfold withLink
  cases links[k]? with
  | none => exact .inl ⟨_, rfl, rfl⟩
  | some l => exact BothRel.ok (h.map _)

instance : Inhabited Flt := ⟨.nan⟩

theorem ops_rowwise (tiny ulp : ℝ) (o : ScipyOracles) (e : Elsewhere) (d : Dist) (links : List LinkClass) (hp : data.Perm data') :
    RowwiseDist (d.ops tiny ulp o e links) data data' where
  link := fun k _ _ h => withLink_along links _ k h
  linkInverse := fun k _ _ h => withLink_along links _ k h
  linkInverseDerivative := fun k _ _ h => withLink_along links _ k h
  dl1 := fun k fv fv' h => by
    refine Along.mapM (α := ℝ × (ℕ → Flt)) ((along_ys (data := data)).zipWith h Prod.mk) hp _ fun x _ x' _ e1 e2 h1 h2 => ?_
    rw [derivativeAt_error (fun θ => d.dl1_number x.1 θ k) h1, derivativeAt_error (fun θ => d.dl1_number x'.1 θ k) h2]
  dl2 := fun k fv fv' h => by
    refine Along.mapM (α := ℝ × (ℕ → Flt)) ((along_ys (data := data)).zipWith h Prod.mk) hp _ fun x _ x' _ e1 e2 h1 h2 => ?_
    rw [derivativeAt_error (fun θ => d.dl2_number x.1 θ k) h1, derivativeAt_error (fun θ => d.dl2_number x'.1 θ k) h2]
  logpdf := fun fv fv' h => along_ys.zipWith h _
  ppf := fun q fv fv' h => h.map _

/-- The starting values are computed from symmetric statistics. -/
theorem initialRow_perm (fit : List ℝ → ℕ → Flt) (d : Dist) {l l' : List ℝ} (h : l.Perm l') (hf : fit l = fit l') (y : ℝ) :
    d.initialRow fit l y = d.initialRow fit l' y := by
  have hx : (l.map Flt.fin).Perm (l'.map Flt.fin) := h.map _
  have hl : ((l.map Flt.fin).map Flt.log).Perm ((l'.map Flt.fin).map Flt.log) := hx.map _
  unfold Dist.initialRow
  simp only [npMean_perm hx, npMean_perm hl, npStd_perm _ hx, npStd_perm _ hl, npVar_perm _ hx, npMedian_perm hl, hf]

theorem ops_initial (tiny ulp : ℝ) (o : ScipyOracles) (e : Elsewhere) (d : Dist) (links : List LinkClass) (hp : data.Perm data')
    (ho : o.fit (ys data) = o.fit (ys data')) :
    BothRel (Along data data') ((d.ops tiny ulp o e links).initialValues (ys data))
      ((d.ops tiny ulp o e links).initialValues (ys data')) := by
  refine BothRel.ok ?_
  change Along data data' (((ys data).map (d.initialRow o.fit (ys data))).map rowFn) (((ys data').map (d.initialRow o.fit (ys data'))).map rowFn)
  rw [show d.initialRow o.fit (ys data') = d.initialRow o.fit (ys data) from
    funext fun y => (initialRow_perm o.fit d (hp.map _) ho y).symm]
  exact (along_ys.map _).map _

/-! ### The curvature -/

theorem realRow_support {tiny ulp : ℝ} {d : Dist} {r : ℕ → Flt} {θ : ℕ → ℝ} (h : d.realRow? tiny ulp r = some θ) :
    d.InParameterSupport tiny ulp θ := by
  unfold Dist.realRow? at h
  split_ifs at h with hc
  cases h
  intro k sup hs
  have hk : k < d.nParams := by
    by_contra hk
    cases d <;> simp only [Dist.nParams] at hk <;>
      (match k, hk, hs with
       | 0, hk, _ => omega
       | 1, hk, hs => first | omega | simp [Dist.parameterSupport] at hs
       | 2, hk, hs => first | omega | simp [Dist.parameterSupport] at hs
       | 3, hk, hs => first | omega | simp [Dist.parameterSupport] at hs
       | n + 4, hk, hs => simp [Dist.parameterSupport] at hs)
  obtain ⟨x, sup', hx, hs', h1, h2⟩ := hc k hk
  rw [hs] at hs'
  cases hs'
  simp only [hx, Flt.real?, Option.getD_some]
  exact ⟨h1, h2⟩

theorem clip_good {lo : ℝ} (hlo : lo ≤ 10000000000) {a : Flt} (h : ¬ Flt.lt a (.fin 0)) : GoodWeight (Flt.clip lo 10000000000 a) := by
  have h0 : (0 : ℝ) ≤ 10000000000 := by norm_num
  cases a with
  | fin x => exact .inr ⟨_, le_min (le_max_of_le_left (not_lt.1 h)) h0, rfl⟩
  | pinf => exact .inr ⟨_, h0, rfl⟩
  | ninf => exact absurd trivial h
  | nan => exact .inl rfl

/-- Minus a number that is not positive over a square, clipped. -/
theorem weight_good {lo : ℝ} (hlo : lo ≤ 10000000000) {a : Flt} (h : ¬ Flt.lt (.fin 0) a) (b : Flt) :
    GoodWeight (Flt.clip lo 10000000000 (Flt.neg (Flt.div a (Flt.mul b b)))) := by
  have hb : Flt.mul b b = .nan ∨ Flt.mul b b = .pinf ∨ ∃ y, 0 ≤ y ∧ Flt.mul b b = .fin y := by
    cases b with
    | fin x => exact .inr (.inr ⟨x * x, mul_self_nonneg x, rfl⟩)
    | pinf => exact .inr (.inl rfl)
    | ninf => exact .inr (.inl rfl)
    | nan => exact .inl rfl
  refine clip_good hlo ?_
  rcases hb with hb | hb | ⟨y, hy, hb⟩
  · rw [hb]
    cases a <;> exact id
  · rw [hb]
    cases a <;> simp [Flt.div, Flt.neg, Flt.lt]
  · rw [hb]
    cases a with
    | fin x =>
      have hx : x ≤ 0 := not_lt.1 h
      simp only [Flt.div]
      split_ifs with hy0
      · unfold Flt.infSigned
        rw [if_neg (not_lt.2 hx)]
        split_ifs <;> simp [Flt.neg, Flt.lt]
      · have := div_nonpos_of_nonpos_of_nonneg hx hy
        simpa [Flt.neg, Flt.lt] using this
    | pinf => exact absurd trivial h
    | ninf => simp [Flt.div, hy, Flt.neg, Flt.lt]
    | nan => exact id

theorem mapM_mem {α β : Type} {f : α → Except PyErr β} {l : List α} {r : List β} (h : l.mapM f = .ok r) : ∀ v ∈ r, ∃ x ∈ l, f x = .ok v := by
  induction l generalizing r with
  | nil =>
    cases h
    simp
  | cons x l ih =>
    rw [List.mapM_cons] at h
    cases hx : f x with
    | error e =>
      rw [hx] at h
      cases h
    | ok y =>
      rw [hx] at h
      cases hl : l.mapM f with
      | error e =>
        rw [hl] at h
        cases h
      | ok r' =>
        rw [hl] at h
        cases h
        intro v hv
        rcases List.mem_cons.1 hv with rfl | hv
        · exact ⟨x, by simp, hx⟩
        · obtain ⟨z, hz, h1⟩ := ih hl v hv
          exact ⟨z, by simp [hz], h1⟩

theorem mem_zipWith_left {α β γ : Type} {f : α → β → γ} {a : List α} {b : List β} {v : γ} (h : v ∈ List.zipWith f a b) :
    ∃ x ∈ a, ∃ y, v = f x y := by
  induction a generalizing b with
  | nil => simp at h
  | cons x a ih =>
    cases b with
    | nil => simp at h
    | cons y b =>
      rw [List.zipWith_cons_cons, List.mem_cons] at h
      rcases h with h | h
      · exact ⟨x, by simp, y, h⟩
      · obtain ⟨x', hx', h1⟩ := ih h
        exact ⟨x', by simp [hx'], h1⟩

theorem ops_dl2_nonpos {tiny ulp : ℝ} (ht : 0 < tiny) (hu : 0 < ulp) {o : ScipyOracles} {e : Elsewhere} {d : Dist} {links : List LinkClass}
    (he : ∀ y r k, ¬ Flt.lt (.fin 0) (e.dl2 y r k)) {y : List ℝ} {fv : Fv} {k : ℕ} {r : Arr1}
    (h : (d.ops tiny ulp o e links).dl2 y fv k = .ok r) : ∀ v ∈ r, ¬ Flt.lt (.fin 0) v := by
  intro v hv
  obtain ⟨x, _, hx⟩ := mapM_mem (f := fun r : ℝ × (ℕ → Flt) =>
    derivativeAt (fun θ => d.dl2 r.1 θ k) (d.outside r.1 k (e.dl2 r.1 r.2 k)) (d.realRow? tiny ulp r.2)) h v hv
  unfold derivativeAt at hx
  cases hr : d.realRow? tiny ulp x.2 with
  | none =>
    simp only [hr] at hx
    cases hx
    unfold Dist.outside
    split_ifs
    · simp [Flt.lt]
    · exact he _ _ _
  | some θ =>
    simp only [hr] at hx
    by_cases hk : k < d.nParams
    · obtain ⟨w, hw, hw0⟩ := C47_nonpositive d x.1 θ (admissible_of_inParameterSupport tiny ulp ht hu d θ (realRow_support hr)) k hk
      rw [hw] at hx
      cases hx
      exact not_lt.2 hw0
    · have : d.dl2 x.1 θ k = .error .valueError := by
        have hc : ∀ (n : ℕ) (r : Except PyErr (Option ℝ)), n ≤ k → ((validateIndex n k).bind fun _ => r) = .error .valueError := by
          intro n r hn
          unfold validateIndex
          rw [if_pos (by exact_mod_cast hn)]
          rfl
        have ho : ∀ l : List ℝ, l.length ≤ k → orRaise l k = .error .valueError := by
          intro l hl
          unfold orRaise chain
          rw [if_neg (by omega)]
          simp [hl]
        cases d <;> simp only [Dist.nParams, not_lt] at hk <;> first
          | exact hc _ _ hk
          | exact ho _ hk
      rw [this] at hx
      cases hx

theorem ops_curvature (tiny ulp : ℝ) (ht : 0 < tiny) (hu : 0 < ulp) (o : ScipyOracles) (e : Elsewhere) (d : Dist) (links : List LinkClass)
    (he : ∀ y r k, ¬ Flt.lt (.fin 0) (e.dl2 y r k)) (K : GramKind MethodState) (data : List (Obs p)) :
    NonnegCurvature K (d.ops tiny ulp o e links) data := by
  intro k _ fv wk hw v hv
  unfold working at hw
  cases h1 : (d.ops tiny ulp o e links).link k (fv.col k) with
  | error x => rw [h1] at hw; cases hw
  | ok eta =>
    rw [h1] at hw
    change ((d.ops tiny ulp o e links).linkInverseDerivative k eta >>= _) = _ at hw
    cases h2 : (d.ops tiny ulp o e links).linkInverseDerivative k eta with
    | error x => rw [h2] at hw; cases hw
    | ok g =>
      rw [h2] at hw
      change ((d.ops tiny ulp o e links).dl1 (ys data) fv k >>= _) = _ at hw
      cases h3 : (d.ops tiny ulp o e links).dl1 (ys data) fv k with
      | error x => rw [h3] at hw; cases hw
      | ok s1 =>
        rw [h3] at hw
        change ((d.ops tiny ulp o e links).dl2 (ys data) fv k >>= _) = _ at hw
        cases h4 : (d.ops tiny ulp o e links).dl2 (ys data) fv k with
        | error x => rw [h4] at hw; cases hw
        | ok s2 =>
          rw [h4] at hw
          cases hw
          obtain ⟨a, ha, b, rfl⟩ := mem_zipWith_left hv
          exact weight_good (by unfold updateClip; norm_num) (ops_dl2_nonpos ht hu he h4 a ha) b

/-! ### Estimation methods -/

/-- The inverse Gramians of ordinary least squares: the inverse for some data, or an array that is not a finite square matrix. -/
def GoodInverse (G : Arr2) : Prop :=
  (∃ (J : ℕ) (d : List (Obs J)), NonnegWeights d ∧ IsUnit (initGram (xs d) (ws d) 0).det ∧ G = ofMat (initGram (xs d) (ws d) 0)⁻¹) ∨
    ∀ J, mat? J G = none

/-- Ordinary least squares keeps the inverse Gramian. -/
def MethodState.isOls : MethodState → Bool
  | .ols => true
  | _ => false

/-- The Gramians of the package. -/
def pkgKind (uses : ℕ → Bool) : GramKind MethodState where
  inverse := MethodState.isOls
  Good := GoodInverse
  uses := uses

theorem mapM_vec_mem {J : ℕ} {X : Arr2} {Xr : List (Row J)} (h : X.mapM (vec? J) = some Xr) {x : Arr1} (hx : x ∈ X) : x.length = J := by
  by_contra hne
  have h0 : vec? J x = none := by
    unfold vec?
    rw [if_neg hne]
  have : ∀ l : Arr2, x ∈ l → l.mapM (vec? J) = none := by
    intro l
    induction l with
    | nil => simp
    | cons z l ih =>
      intro hm
      rw [List.mapM_cons]
      rcases List.mem_cons.1 hm with rfl | hm
      · rw [h0]
        rfl
      · rw [ih hm]
        cases vec? J z <;> rfl
  rw [this X hx] at h
  cases h

/-- Two orders of a design: neither is a finite matrix, or both are, with the same rows. -/
theorem design_cases (hp : data.Perm data') {X X' : Arr2} (h : Along data data' X X') :
    (X.mapM (vec? (width X)) = none ∧ X'.mapM (vec? (width X')) = none) ∨
      ∃ J, width X = J ∧ width X' = J ∧ ∃ f : Obs p → Row J, X.mapM (vec? J) = some (data.map f) ∧ X'.mapM (vec? J) = some (data'.map f) := by
  by_cases hw : width X' = width X
  · rcases Along.mapM_option h hp (vec? (width X)) with ⟨h1, h2⟩ | ⟨b, b', h1, h2, f, rfl, rfl⟩
    · exact .inl ⟨h1, by rw [hw]; exact h2⟩
    · exact .inr ⟨_, rfl, hw, f, h1, h2⟩
  · have hperm := h.perm hp
    have key : ∀ a b : Arr2, a.Perm b → width b ≠ width a → a.mapM (vec? (width a)) = none := by
      intro a b hab hne
      cases hm : a.mapM (vec? (width a)) with
      | none => rfl
      | some Xr =>
        exfalso
        cases b with
        | nil =>
          rw [List.perm_nil.1 hab] at hne
          exact hne rfl
        | cons z b => exact hne (mapM_vec_mem hm (hab.mem_iff.2 (by simp)))
    exact .inl ⟨key _ _ hperm hw, key _ _ hperm.symm (Ne.symm hw)⟩

theorem reals_cases (hp : data.Perm data') {w w' : Arr1} (h : Along data data' w w') :
    (w.mapM Flt.real? = none ∧ w'.mapM Flt.real? = none) ∨
      ∃ f : Obs p → ℝ, w.mapM Flt.real? = some (data.map f) ∧ w'.mapM Flt.real? = some (data'.map f) := by
  rcases Along.mapM_option h hp Flt.real? with h | ⟨b, b', h1, h2, f, rfl, rfl⟩
  · exact .inl h
  · exact .inr ⟨f, h1, h2⟩

theorem mapM_real_eq {w : Arr1} {r : List ℝ} (h : w.mapM Flt.real? = some r) : w = r.map Flt.fin := by
  induction w generalizing r with
  | nil =>
    cases h
    rfl
  | cons v w ih =>
    rw [List.mapM_cons] at h
    cases v with
    | fin x =>
      cases hw : w.mapM Flt.real? with
      | none =>
        rw [hw] at h
        cases h
      | some r' =>
        rw [hw] at h
        cases h
        rw [ih hw]
        rfl
    | pinf => cases h
    | ninf => cases h
    | nan => cases h

/-- Rows, weights and no response as observations. -/
def asObs {J : ℕ} (f : Obs p → Row J) (g : Obs p → ℝ) (l : List (Obs p)) : List (Obs J) := l.map fun o => ⟨f o, 0, g o⟩

theorem asObs_xs {J : ℕ} (f : Obs p → Row J) (g : Obs p → ℝ) (l : List (Obs p)) : xs (asObs f g l) = l.map f := by
  simp [xs, asObs, Function.comp_def]

theorem asObs_ws {J : ℕ} (f : Obs p → Row J) (g : Obs p → ℝ) (l : List (Obs p)) : ws (asObs f g l) = l.map g := by
  simp [ws, asObs, Function.comp_def]

theorem asObs_nonneg {J : ℕ} {f : Obs p → Row J} {g : Obs p → ℝ} {l : List (Obs p)} {w : Arr1} (h : w.mapM Flt.real? = some (l.map g))
    (hw : ∀ v ∈ w, GoodWeight v) : NonnegWeights (asObs f g l) := by
  intro o ho
  obtain ⟨o', ho', rfl⟩ := List.mem_map.1 ho
  rw [mapM_real_eq h] at hw
  rcases hw (.fin (g o')) (List.mem_map.2 ⟨g o', List.mem_map.2 ⟨o', ho', rfl⟩, rfl⟩) with h | ⟨x, hx, h⟩
  · cases h
  · cases h
    exact hx

theorem ofMat_map_ok {J : ℕ} {r : Except PyErr (Matrix (Fin J) (Fin J) ℝ)} {G : Arr2} (h : r.map ofMat = .ok G) :
    ∃ A, r = .ok A ∧ G = ofMat A := by
  cases r with
  | error e => cases h
  | ok A =>
    cases h
    exact ⟨A, rfl, rfl⟩

variable {perm : ∀ J : ℕ, ℕ → ℕ → List (Fin J)} {other : MethodOps MethodState}

theorem pkg_initX_at {J : ℕ} (m : MethodState) {X : Arr2} (hJ : width X = J) (w : Arr1) (f : ℝ) :
    (packageMethods perm other).initX m X w f =
      match X.mapM (vec? J), w.mapM Flt.real? with
      | some Xr, some wr => (m.initXReal Xr wr f).map ofMat
      | _, _ => other.initX m X w f := by
  subst hJ
  simp only [packageMethods]
  cases X.mapM (vec? (width X)) <;> cases w.mapM Flt.real? <;> rfl

theorem pkg_initY_at {J : ℕ} (m : MethodState) {X : Arr2} (hJ : width X = J) (y w : Arr1) (f : ℝ) :
    (packageMethods perm other).initY m X y w f =
      match X.mapM (vec? J), y.mapM Flt.real?, w.mapM Flt.real? with
      | some Xr, some yr, some wr => .ok (ofVec (initYGram Xr yr wr f))
      | _, _, _ => other.initY m X y w f := by
  subst hJ
  simp only [packageMethods]
  cases X.mapM (vec? (width X)) <;> cases y.mapM Flt.real? <;> cases w.mapM Flt.real? <;> rfl

theorem pkg_updateX_at {J : ℕ} (m : MethodState) (G : Arr2) {X : Arr2} (hJ : width X = J) (w : Arr1) (f : ℝ) :
    (packageMethods perm other).updateX m G X w f =
      match mat? J G, X.mapM (vec? J), w.mapM Flt.real? with
      | some Gr, some Xr, some wr => (m.updateXReal Gr Xr wr f).map ofMat
      | _, _, _ => other.updateX m G X w f := by
  subst hJ
  simp only [packageMethods]
  cases mat? (width X) G <;> cases X.mapM (vec? (width X)) <;> cases w.mapM Flt.real? <;> rfl

theorem pkg_updateY_at {J : ℕ} (m : MethodState) (h : Arr1) {X : Arr2} (hJ : width X = J) (y w : Arr1) (f : ℝ) :
    (packageMethods perm other).updateY m h X y w f =
      match vec? J h, X.mapM (vec? J), y.mapM Flt.real?, w.mapM Flt.real? with
      | some hr, some Xr, some yr, some wr => .ok (ofVec (updateYGram hr Xr yr f (.array wr)))
      | _, _, _, _ => other.updateY m h X y w f := by
  subst hJ
  simp only [packageMethods]
  cases vec? (width X) h <;> cases X.mapM (vec? (width X)) <;> cases y.mapM Flt.real? <;> cases w.mapM Flt.real? <;> rfl

theorem pkg_initX (hp : data.Perm data') (m : MethodState) {X X' : Arr2} {w w' : Arr1} (hX : Along data data' X X')
    (hw : Along data data' w w') (ho : other.initX m X w 0 = other.initX m X' w' 0) :
    (packageMethods perm other).initX m X w 0 = (packageMethods perm other).initX m X' w' 0 := by
  rcases design_cases hp hX with ⟨h1, h2⟩ | ⟨J, hJ, hJ', f, h1, h2⟩
  · rw [pkg_initX_at m rfl, pkg_initX_at m rfl, h1, h2]
    exact ho
  · rcases reals_cases hp hw with ⟨h3, h4⟩ | ⟨g, h3, h4⟩
    · rw [pkg_initX_at m hJ, pkg_initX_at m hJ', h1, h2, h3, h4]
      exact ho
    · rw [pkg_initX_at m hJ, pkg_initX_at m hJ', h1, h2, h3, h4]
      cases m with
      | ols => exact congrArg (fun r => Except.map ofMat r) (initInvertedGram_perm hp f g)
      | path a => exact congrArg (fun r => Except.ok (ofMat r)) (initGram_perm hp f g)
      | ridge a => exact congrArg (fun r => Except.ok (ofMat r)) (initGram_perm hp f g)

theorem pkg_initY (hp : data.Perm data') (m : MethodState) {X X' : Arr2} {y y' w w' : Arr1} (hX : Along data data' X X')
    (hy : Along data data' y y') (hw : Along data data' w w') (ho : other.initY m X y w 0 = other.initY m X' y' w' 0) :
    (packageMethods perm other).initY m X y w 0 = (packageMethods perm other).initY m X' y' w' 0 := by
  rcases design_cases hp hX with ⟨h1, h2⟩ | ⟨J, hJ, hJ', f, h1, h2⟩
  · rw [pkg_initY_at m rfl, pkg_initY_at m rfl, h1, h2]
    exact ho
  · rw [pkg_initY_at m hJ, pkg_initY_at m hJ', h1, h2]
    rcases reals_cases hp hy with ⟨h5, h6⟩ | ⟨k, h5, h6⟩
    · rw [h5, h6]
      exact ho
    · rcases reals_cases hp hw with ⟨h3, h4⟩ | ⟨g, h3, h4⟩
      · rw [h3, h4, h5, h6]
        exact ho
      · rw [h3, h4, h5, h6]
        exact congrArg (fun r => Except.ok (ofVec r)) (initYGram_perm hp f k g)

theorem pkg_good_init (hp : data.Perm data') {X X' : Arr2} {w w' : Arr1} {G : Arr2} (hX : Along data data' X X')
    (hw : Along data data' w w') (hg : ∀ v ∈ w, GoodWeight v) (ho : other.initX .ols X w 0 = .ok G → GoodInverse G)
    (h : (packageMethods perm other).initX .ols X w 0 = .ok G) : GoodInverse G := by
  rcases design_cases hp hX with ⟨h1, h2⟩ | ⟨J, hJ, hJ', f, h1, h2⟩
  · rw [pkg_initX_at _ rfl, h1] at h
    exact ho h
  · rcases reals_cases hp hw with ⟨h3, h4⟩ | ⟨g, h3, h4⟩
    · rw [pkg_initX_at _ hJ, h1, h3] at h
      exact ho h
    · rw [pkg_initX_at _ hJ, h1, h3] at h
      obtain ⟨A, hA, rfl⟩ := ofMat_map_ok h
      obtain ⟨hu, rfl⟩ := initInvertedGram_ok (show initInvertedGram (data.map f) (data.map g) 0 = .ok A from hA)
      refine .inl ⟨J, asObs f g data, asObs_nonneg h3 hg, ?_, ?_⟩
      · rw [asObs_xs, asObs_ws]
        exact hu
      · rw [asObs_xs, asObs_ws]

theorem mat_ofMat_ne {J J' : ℕ} (A : Matrix (Fin J') (Fin J') ℝ) {B : Matrix (Fin J) (Fin J) ℝ} (h : mat? J (ofMat A) = some B) : J' = J := by
  by_contra hne
  unfold mat? at h
  rw [if_neg (by rw [ofMat_length]; exact hne)] at h
  cases h

theorem pkg_updateX (hp : data.Perm data') (m : MethodState) {G : Arr2} {X X' : Arr2} {w w' : Arr1}
    (hG : m.isOls = true → GoodInverse G ∧ ∀ v ∈ w, GoodWeight v) (hX : Along data data' X X') (hw : Along data data' w w')
    (ho : other.updateX m G X w 0 = other.updateX m G X' w' 0) :
    (packageMethods perm other).updateX m G X w 0 = (packageMethods perm other).updateX m G X' w' 0 := by
  rcases design_cases hp hX with ⟨h1, h2⟩ | ⟨J, hJ, hJ', f, h1, h2⟩
  · rw [pkg_updateX_at m _ rfl, pkg_updateX_at m _ rfl, h1, h2]
    cases mat? (width X) G <;> cases mat? (width X') G <;> exact ho
  · rw [pkg_updateX_at m _ hJ, pkg_updateX_at m _ hJ', h1, h2]
    cases hm : mat? J G with
    | none => exact ho
    | some A =>
      rcases reals_cases hp hw with ⟨h3, h4⟩ | ⟨g, h3, h4⟩
      · rw [h3, h4]
        exact ho
      · rw [h3, h4]
        cases m with
        | ols =>
          obtain ⟨hg, hwt⟩ := hG rfl
          rcases hg with ⟨J', d, hd, hu, rfl⟩ | hg
          · obtain rfl := mat_ofMat_ne _ hm
            rw [mat_ofMat] at hm
            cases hm
            have hperm : (asObs f g data).Perm (asObs f g data') := hp.map _
            have := updateInvertedGram_perm hperm hd (asObs_nonneg h3 hwt) hu Obs.x
            change updateInvertedGram _ (xs (asObs f g data)) 0 (.array (ws (asObs f g data))) =
              updateInvertedGram _ (xs (asObs f g data')) 0 (.array (ws (asObs f g data'))) at this
            rw [asObs_xs, asObs_ws, asObs_xs, asObs_ws] at this
            exact congrArg (fun r => Except.map ofMat r) this
          · rw [hg J] at hm
            cases hm
        | path a => exact congrArg (fun r => Except.ok (ofMat r)) (updateGram_perm hp A f g)
        | ridge a => exact congrArg (fun r => Except.ok (ofMat r)) (updateGram_perm hp A f g)

theorem pkg_updateY (hp : data.Perm data') (m : MethodState) {h : Arr1} {X X' : Arr2} {y y' w w' : Arr1} (hX : Along data data' X X')
    (hy : Along data data' y y') (hw : Along data data' w w') (ho : other.updateY m h X y w 0 = other.updateY m h X' y' w' 0) :
    (packageMethods perm other).updateY m h X y w 0 = (packageMethods perm other).updateY m h X' y' w' 0 := by
  rcases design_cases hp hX with ⟨h1, h2⟩ | ⟨J, hJ, hJ', f, h1, h2⟩
  · rw [pkg_updateY_at m _ rfl, pkg_updateY_at m _ rfl, h1, h2]
    cases vec? (width X) h <;> cases vec? (width X') h <;> exact ho
  · rw [pkg_updateY_at m _ hJ, pkg_updateY_at m _ hJ', h1, h2]
    cases vec? J h with
    | none => exact ho
    | some hr =>
      rcases reals_cases hp hy with ⟨h5, h6⟩ | ⟨k, h5, h6⟩
      · rw [h5, h6]
        exact ho
      · rcases reals_cases hp hw with ⟨h3, h4⟩ | ⟨g, h3, h4⟩
        · rw [h3, h4, h5, h6]
          exact ho
        · rw [h3, h4, h5, h6]
          exact congrArg (fun r => Except.ok (ofVec r)) (updateYGram_perm hp hr f k g)

theorem pkg_good_update (hp : data.Perm data') {G : Arr2} {X X' : Arr2} {w w' : Arr1} {G' : Arr2} (hG : GoodInverse G)
    (hX : Along data data' X X') (hw : Along data data' w w') (hg : ∀ v ∈ w, GoodWeight v)
    (ho : other.updateX .ols G X w 0 = .ok G' → GoodInverse G')
    (h : (packageMethods perm other).updateX .ols G X w 0 = .ok G') : GoodInverse G' := by
  rcases design_cases hp hX with ⟨h1, h2⟩ | ⟨J, hJ, hJ', f, h1, h2⟩
  · rw [pkg_updateX_at _ _ rfl, h1] at h
    cases hm : mat? (width X) G <;> rw [hm] at h <;> exact ho h
  · rw [pkg_updateX_at _ _ hJ, h1] at h
    cases hm : mat? J G with
    | none =>
      rw [hm] at h
      exact ho h
    | some A =>
      rcases reals_cases hp hw with ⟨h3, h4⟩ | ⟨g, h3, h4⟩
      · rw [hm, h3] at h
        exact ho h
      · rw [hm, h3] at h
        obtain ⟨B, hB, rfl⟩ := ofMat_map_ok h
        rcases hG with ⟨J', d, hd, hu, rfl⟩ | hG
        · obtain rfl := mat_ofMat_ne _ hm
          rw [mat_ofMat] at hm
          cases hm
          have hB' : updateInvertedGram (initGram (xs d) (ws d) 0)⁻¹ (data.map f) 0 (.array (data.map g)) = .ok B := hB
          rcases eq_or_ne data [] with rfl | hne
          · -- no rows: no columns either
            have hX0 : X = [] := by
              obtain ⟨k, rfl, _⟩ := hX
              rfl
            subst hX0
            have : J' = 0 := hJ.symm
            subst this
            exact .inl ⟨0, d, hd, hu, congrArg ofMat (Subsingleton.elim _ _)⟩
          · have hb := inverted_batch (forget := 0) (by norm_num) (asObs f g data) d (by simpa [asObs] using hne) hd (asObs_nonneg h3 hg) hu
            rw [asObs_xs, asObs_ws] at hb
            rw [hb.2] at hB'
            cases hB'
            refine .inl ⟨J', d ++ asObs f g data, ?_, hb.1, rfl⟩
            intro o ho'
            rcases List.mem_append.1 ho' with h' | h'
            · exact hd o h'
            · exact asObs_nonneg h3 hg o h'
        · rw [hG J] at hm
          cases hm

theorem pkg_kindUpdatePath {m : MethodState} {G : Arr2} {h : Arr1} {b : Arr2} {reg : List Bool} {r : Arr2 × MethodState}
    (ho : other.updatePath m G h b reg = .ok r → r.2.isOls = m.isOls) (hr : (packageMethods perm other).updatePath m G h b reg = .ok r) :
    r.2.isOls = m.isOls := by
  simp only [packageMethods] at hr
  cases m with
  | ols => cases hr
  | ridge a => cases hr
  | path a =>
    simp only at hr
    cases hm : mat? G.length G with
    | none =>
      simp only [hm] at hr
      exact ho hr
    | some A =>
      cases hv : vec? G.length h with
      | none =>
        simp only [hm, hv] at hr
        exact ho hr
      | some v =>
        cases hb : a.oldRows G.length b with
        | none =>
          simp only [hm, hv, hb] at hr
          exact ho hr
        | some pr =>
          simp only [hm, hv, hb] at hr
          cases hf : a.updateBetaPath A v pr (flags G.length reg) (perm G.length) with
          | error e =>
            simp only [hf] at hr
            cases hr
          | ok q =>
            simp only [hf] at hr
            cases hr
            rfl

theorem pkg_kindUpdateBeta {m : MethodState} {G : Arr2} {h b : Arr1} {reg : List Bool} {r : Arr1 × MethodState}
    (ho : other.updateBeta m G h b reg = .ok r → r.2.isOls = m.isOls) (hr : (packageMethods perm other).updateBeta m G h b reg = .ok r) :
    r.2.isOls = m.isOls := by
  cases m with
  | ols =>
    simp only [packageMethods] at hr
    split at hr
    · cases hr
      rfl
    · exact ho hr
  | path a => cases hr
  | ridge a =>
    simp only [packageMethods] at hr
    split at hr
    · rename_i A v br _ _ _
      cases hl : a.lambdaReg with
      | none =>
        simp only [hl] at hr
        cases hr
      | some lam =>
        simp only [hl] at hr
        cases hf : (a.args G.length).updateBeta lam A v br (flags G.length reg) (perm G.length 0) with
        | error e =>
          simp only [hf] at hr
          cases hr
        | ok q =>
          simp only [hf] at hr
          cases hr
          rfl
    · exact ho hr

theorem pkg_rowwise (uses : ℕ → Bool) (hp : data.Perm data') (ho : RowwiseMethods (pkgKind uses) other data data') :
    RowwiseMethods (pkgKind uses) (packageMethods perm other) data data' where
  initX := fun m X X' w w' hX hw => pkg_initX hp m hX hw (ho.initX m X X' w w' hX hw)
  initY := fun m X X' y y' w w' hX hy hw => pkg_initY hp m hX hy hw (ho.initY m X X' y y' w w' hX hy hw)
  good := fun m X X' w w' G hm hX hw hg h => by
    cases m with
    | ols => exact pkg_good_init hp hX hw hg (ho.good .ols X X' w w' G rfl hX hw hg) h
    | path a => cases hm
    | ridge a => cases hm
  kindBeta := fun m G h reg r hr => by
    simp only [packageMethods] at hr
    cases hm : mat? G.length G with
    | none =>
      simp only [hm] at hr
      exact ho.kindBeta m G h reg r hr
    | some A =>
      cases hv : vec? G.length h with
      | none =>
        simp only [hm, hv] at hr
        exact ho.kindBeta m G h reg r hr
      | some b =>
        simp only [hm, hv] at hr
        cases m with
        | ols =>
          cases hr
          rfl
        | path a => cases hr
        | ridge a =>
          cases hf : (a.args G.length).fitBeta A b (flags G.length reg) (perm G.length 0) with
          | error e =>
            simp only [hf] at hr
            cases hr
          | ok q =>
            simp only [hf] at hr
            cases hr
            rfl
  kindPath := fun m G h reg r hr => by
    simp only [packageMethods] at hr
    cases hm : mat? G.length G with
    | none =>
      simp only [hm] at hr
      exact ho.kindPath m G h reg r hr
    | some A =>
      cases hv : vec? G.length h with
      | none =>
        simp only [hm, hv] at hr
        exact ho.kindPath m G h reg r hr
      | some b =>
        simp only [hm, hv] at hr
        cases m with
        | ols => cases hr
        | ridge a => cases hr
        | path a =>
          cases hf : a.fitBetaPath A b (flags G.length reg) (perm G.length) with
          | error e =>
            simp only [hf] at hr
            cases hr
          | ok q =>
            simp only [hf] at hr
            cases hr
            rfl
  kindUpdatePath := fun m G h b reg r hr => pkg_kindUpdatePath (fun h' => ho.kindUpdatePath m G h b reg r h') hr

theorem pkg_updates (uses : ℕ → Bool) (hp : data.Perm data') (ho : RowwiseUpdates (pkgKind uses) other data data') :
    RowwiseUpdates (pkgKind uses) (packageMethods perm other) data data' where
  updateX := fun m G X X' w w' hG hX hw => pkg_updateX hp m hG hX hw (ho.updateX m G X X' w w' hG hX hw)
  updateY := fun m h X X' y y' w w' hX hy hw => pkg_updateY hp m hX hy hw (ho.updateY m h X X' y y' w w' hX hy hw)
  good := fun m G X X' w w' G' hm hG hX hw hg h => by
    cases m with
    | ols => exact pkg_good_update hp hG hX hw hg (ho.good .ols G X X' w w' G' rfl hG hX hw hg) h
    | path a => cases hm
    | ridge a => cases hm
  kindUpdateBeta := fun m G h b reg r hr => pkg_kindUpdateBeta (fun h' => ho.kindUpdateBeta m G h b reg r h') hr
  kindUpdatePath := fun m G h b reg r hr => pkg_kindUpdatePath (fun h' => ho.kindUpdatePath m G h b reg r h') hr

/-- The parameters that the configuration estimates by ordinary least squares. -/
def usesOls (D : DistOps) (c : GConfig MethodState p) (k : ℕ) : Bool :=
  match (c.method.process D.nParams (.value (some MethodState.ols))).result with
  | .ok d => ((d.get? k).bind id).elim false MethodState.isOls
  | .error _ => false

theorem kindsOf_usesOls (D : DistOps) (c : GConfig MethodState p) : KindsOf D (packageMethods perm other) c (pkgKind (usesOls D c)) := by
  intro d hd k m hm
  change m.isOls = usesOls D c k
  unfold usesOls
  rw [show (c.method.process D.nParams (.value (some MethodState.ols))).result = .ok d from hd]
  simp only [hm]
  rfl

end Ondil
