import Verif.Lemmas.GamlssSource
import Verif.Lemmas.GamlssOls
import Verif.Props.Penalty
import Verif.Spec.WorkingRegression

/-!
# The estimation methods of the package within the distributional regression
-/

open scoped BigOperators Matrix

namespace Ondil

variable {p J : ℕ} {perm : ∀ J : ℕ, ℕ → ℕ → List (Fin J)} {other : MethodOps MethodState}

/-! ### Calls with finite arrays -/

theorem initX_gram {X : List (Row J)} (hX : X ≠ []) (w : List ℝ) (f : ℝ) {m : MethodState} (hm : m ≠ .ols) :
    (packageMethods perm other).initX m (X.map ofVec) (w.map Flt.fin) f = .ok (ofMat (initGram X w f)) := by
  rw [initX_width (width_map hX) (mapM_vec X) (mapM_real w)]
  cases m with
  | ols => exact absurd rfl hm
  | path a => rfl
  | ridge a => rfl

theorem updateX_width {X : Arr2} (h : width X = J) {G : Arr2} {w : Arr1} {Gr : Matrix (Fin J) (Fin J) ℝ} {Xr : List (Row J)}
    {wr : List ℝ} (hG : mat? J G = some Gr) (hX : X.mapM (vec? J) = some Xr) (hw : w.mapM Flt.real? = some wr) (f : ℝ)
    (m : MethodState) : (packageMethods perm other).updateX m G X w f = (m.updateXReal Gr Xr wr f).map ofMat := by
  subst h
  simp only [packageMethods, hG, hX, hw]

theorem updateX_real {X : List (Row J)} (hX : X ≠ []) (G : Matrix (Fin J) (Fin J) ℝ) (w : List ℝ) (f : ℝ) (m : MethodState) :
    (packageMethods perm other).updateX m (ofMat G) (X.map ofVec) (w.map Flt.fin) f = (m.updateXReal G X w f).map ofMat :=
  updateX_width (width_map hX) (mat_ofMat G) (mapM_vec X) (mapM_real w) f m

theorem updateY_width {X : Arr2} (h : width X = J) {g y w : Arr1} {gr : Row J} {Xr : List (Row J)} {yr wr : List ℝ}
    (hg : vec? J g = some gr) (hX : X.mapM (vec? J) = some Xr) (hy : y.mapM Flt.real? = some yr) (hw : w.mapM Flt.real? = some wr) (f : ℝ)
    (m : MethodState) : (packageMethods perm other).updateY m g X y w f = .ok (ofVec (updateYGram gr Xr yr f (.array wr))) := by
  subst h
  simp only [packageMethods, hg, hX, hy, hw]

theorem updateY_real {X : List (Row J)} (hX : X ≠ []) (g : Row J) (y w : List ℝ) (f : ℝ) (m : MethodState) :
    (packageMethods perm other).updateY m (ofVec g) (X.map ofVec) (y.map Flt.fin) (w.map Flt.fin) f =
      .ok (ofVec (updateYGram g X y f (.array w))) :=
  updateY_width (width_map hX) (vec_ofVec g) (mapM_vec X) (mapM_real y) (mapM_real w) f m

theorem updateBeta_ols (G : Matrix (Fin J) (Fin J) ℝ) (h : Row J) (b : Arr1) (reg : List Bool) :
    (packageMethods perm other).updateBeta .ols (ofMat G) (ofVec h) b reg = .ok (ofVec (olsBeta G h), .ols) := by
  have aux : ∀ {A : Arr2} {v : Arr1} {Gr : Matrix (Fin J) (Fin J) ℝ} {hr : Row J}, A.length = J → mat? J A = some Gr → vec? J v = some hr →
      (packageMethods perm other).updateBeta .ols A v b reg = .ok (ofVec (olsBeta Gr hr), .ols) := by
    intro A v Gr hr hl hA hv
    subst hl
    simp only [packageMethods, hA, hv]
  exact aux (ofMat_length G) (mat_ofMat G) (vec_ofVec h)

theorem fitBeta_ridge (a : RidgeObj) (G : Matrix (Fin J) (Fin J) ℝ) (h : Row J) (reg : List Bool) :
    (packageMethods perm other).fitBeta (.ridge a) (ofMat G) (ofVec h) reg =
      ((a.args J).fitBeta G h (flags J reg) (perm J 0)).map fun r => (ofVec r.1, .ridge { a with lambdaReg := some r.2 }) := by
  have aux : ∀ {A : Arr2} {v : Arr1} {Gr : Matrix (Fin J) (Fin J) ℝ} {hr : Row J}, A.length = J → mat? J A = some Gr → vec? J v = some hr →
      (packageMethods perm other).fitBeta (.ridge a) A v reg =
        ((a.args J).fitBeta Gr hr (flags J reg) (perm J 0)).map fun r => (ofVec r.1, .ridge { a with lambdaReg := some r.2 }) := by
    intro A v Gr hr hl hA hv
    subst hl
    simp only [packageMethods, hA, hv]
    cases (a.args A.length).fitBeta Gr hr (flags A.length reg) (perm A.length 0) <;> rfl
  exact aux (ofMat_length G) (mat_ofMat G) (vec_ofVec h)

theorem updateBeta_ridge (a : RidgeObj) {lam : ℝ} (hl : a.lambdaReg = some lam) (G : Matrix (Fin J) (Fin J) ℝ) (h b : Row J) (reg : List Bool) :
    (packageMethods perm other).updateBeta (.ridge a) (ofMat G) (ofVec h) (ofVec b) reg =
      ((a.args J).updateBeta lam G h b (flags J reg) (perm J 0)).map fun r => (ofVec r, .ridge a) := by
  have aux : ∀ {A : Arr2} {v u : Arr1} {Gr : Matrix (Fin J) (Fin J) ℝ} {hr br : Row J}, A.length = J → mat? J A = some Gr →
      vec? J v = some hr → vec? J u = some br → (packageMethods perm other).updateBeta (.ridge a) A v u reg =
        ((a.args J).updateBeta lam Gr hr br (flags J reg) (perm J 0)).map fun r => (ofVec r, .ridge a) := by
    intro A v u Gr hr br hA' hA hv hu
    subst hA'
    simp only [packageMethods, hA, hv, hu, hl]
    cases (a.args A.length).updateBeta lam Gr hr br (flags A.length reg) (perm A.length 0) <;> rfl
  exact aux (ofMat_length G) (mat_ofMat G) (vec_ofVec h) (vec_ofVec b)

theorem fitPath_real (a : EnetArgs) (G : Matrix (Fin J) (Fin J) ℝ) (h : Row J) (reg : List Bool) :
    (packageMethods perm other).fitPath (.path a) (ofMat G) (ofVec h) reg =
      (a.fitBetaPath G h (flags J reg) (perm J)).map fun r => (r.map ofVec, .path a) := by
  have aux : ∀ {A : Arr2} {v : Arr1} {Gr : Matrix (Fin J) (Fin J) ℝ} {hr : Row J}, A.length = J → mat? J A = some Gr → vec? J v = some hr →
      (packageMethods perm other).fitPath (.path a) A v reg =
        (a.fitBetaPath Gr hr (flags J reg) (perm J)).map fun r => (r.map ofVec, .path a) := by
    intro A v Gr hr hl hA hv
    subst hl
    simp only [packageMethods, hA, hv]
    cases a.fitBetaPath Gr hr (flags A.length reg) (perm A.length) <;> rfl
  exact aux (ofMat_length G) (mat_ofMat G) (vec_ofVec h)

/-- With `"previous_lambda"` the old path gives the number of rows only. -/
theorem cdPathLoop_old (c : PathConfig J) (hc : c.which = .previousLambda) (G : Matrix (Fin J) (Fin J) ℝ) (h : Row J) {olds olds' : List (Row J)}
    (hl : olds.length = olds'.length) (i : ℕ) (prev : Row J) (lams : List ℝ) :
    cdPathLoop c G h i prev lams olds = cdPathLoop c G h i prev lams olds' := by
  induction olds generalizing olds' i prev lams with
  | nil =>
    obtain rfl : olds' = [] := List.eq_nil_of_length_eq_zero hl.symm
    rfl
  | cons o olds ih =>
    cases olds' with
    | nil => cases hl
    | cons o' olds' =>
      cases lams with
      | nil => rfl
      | cons lam lams =>
        have e : cdPathRow c G h i lam prev o = cdPathRow c G h i lam prev o' := by
          unfold cdPathRow startValue
          simp only [hc, if_true]
        simp only [cdPathLoop, e]
        cases cdPathRow c G h i lam prev o' with
        | error e => rfl
        | ok r =>
          simp only
          rw [ih (by simpa using hl)]

theorem updateBetaPath_old {a : EnetArgs} (ha : a.startUpdate = .previousLambda) (G : Matrix (Fin J) (Fin J) ℝ) (h : Row J)
    {olds olds' : List (Row J)} (hl : olds.length = olds'.length) (reg : Fin J → Bool) (prm : ℕ → ℕ → List (Fin J)) :
    a.updateBetaPath G h olds reg prm = a.updateBetaPath G h olds' reg prm := by
  unfold EnetArgs.updateBetaPath onlineCDPath
  simp only [cdPathLoop_old _ (show (a.pathConfig a.startUpdate reg _ _ prm).which = .previousLambda from ha) G h hl]

theorem updatePath_rows (a : EnetArgs) (G : Matrix (Fin J) (Fin J) ℝ) (h : Row J) {o : Arr2} {old : List (Row J)} (reg : List Bool)
    (ho : a.oldRows J o = some old) : (packageMethods perm other).updatePath (.path a) (ofMat G) (ofVec h) o reg =
      (a.updateBetaPath G h old (flags J reg) (perm J)).map fun r => (r.map ofVec, .path a) := by
  have aux : ∀ {A : Arr2} {v : Arr1} {Gr : Matrix (Fin J) (Fin J) ℝ} {hr : Row J} {o : Arr2}, A.length = J → mat? J A = some Gr →
      vec? J v = some hr → a.oldRows J o = some old → (packageMethods perm other).updatePath (.path a) A v o reg =
        (a.updateBetaPath Gr hr old (flags J reg) (perm J)).map fun r => (r.map ofVec, .path a) := by
    intro A v Gr hr o hl hA hv ho
    subst hl
    simp only [packageMethods, hA, hv, ho]
    cases a.updateBetaPath Gr hr old (flags A.length reg) (perm A.length) <;> rfl
  exact aux (ofMat_length G) (mat_ofMat G) (vec_ofVec h) ho

theorem updatePath_real (a : EnetArgs) (G : Matrix (Fin J) (Fin J) ℝ) (h : Row J) (old : List (Row J)) (reg : List Bool) :
    (packageMethods perm other).updatePath (.path a) (ofMat G) (ofVec h) (old.map ofVec) reg =
      (a.updateBetaPath G h old (flags J reg) (perm J)).map fun r => (r.map ofVec, .path a) := by
  by_cases ha : a.startUpdate = .previousLambda
  · rw [updatePath_rows (old := (old.map ofVec).map fun _ => 0) a G h reg (by unfold EnetArgs.oldRows; rw [if_pos ha]),
      updateBetaPath_old ha G h (olds' := old) (by simp)]
  · exact updatePath_rows a G h reg (by unfold EnetArgs.oldRows; rw [if_neg ha]; exact mapM_vec old)

theorem map_ok_iff {α β ε : Type} {f : α → β} {x : Except ε α} {b : β} : x.map f = .ok b ↔ ∃ a, x = .ok a ∧ f a = b := by
  cases x <;> simp [Except.map]

/-! ### The objects -/

theorem methodStep_mayBecome (ho : KeepsObjects other) {m m' : MethodState} (h : MethodStep (packageMethods perm other) m m') :
    m.MayBecome m' := by
  obtain ⟨G, v, reg, ⟨b, h⟩ | ⟨b0, b, h⟩ | ⟨b, h⟩ | ⟨b0, b, h⟩⟩ := h
  · simp only [packageMethods] at h
    split at h
    · cases m with
      | ols => cases h; rfl
      | path a => cases h
      | ridge a =>
        simp only at h
        obtain ⟨r, hr, h⟩ := bind_ok.1 h
        cases h
        refine ⟨r.2, rfl, fun l hl => ?_⟩
        unfold RidgeArgs.fitBeta at hr
        simp only [bind_ok] at hr
        obtain ⟨lo, _, up, _, q, _, h3⟩ := hr
        cases h3
        simp [RidgeArgs.penalty, RidgeObj.args, hl]
    · exact ho.fitBeta _ _ _ _ _ _ h
  · cases m with
    | ols =>
      simp only [packageMethods] at h
      split at h
      · cases h; rfl
      · exact ho.updateBeta _ _ _ _ _ _ _ h
    | path a => cases h
    | ridge a =>
      simp only [packageMethods] at h
      split at h
      · split at h
        · rename_i lam hl
          obtain ⟨r, _, h⟩ := bind_ok.1 h
          cases h
          refine ⟨lam, ?_, fun l h => Option.some.inj (hl.symm.trans h)⟩
          rw [← hl]
        · cases h
      · exact ho.updateBeta _ _ _ _ _ _ _ h
  · simp only [packageMethods] at h
    split at h
    · cases m with
      | ols => cases h
      | ridge a => cases h
      | path a =>
        obtain ⟨r, _, h⟩ := bind_ok.1 h
        cases h
        rfl
    · exact ho.fitPath _ _ _ _ _ _ h
  · simp only [packageMethods] at h
    cases m with
    | ols => cases h
    | ridge a => cases h
    | path a =>
      simp only at h
      split at h
      · obtain ⟨r, _, h⟩ := bind_ok.1 h
        cases h
        rfl
      · exact ho.updatePath _ _ _ _ _ _ _ h

theorem later_ols (ho : KeepsObjects other) {m : MethodState} (h : Later (packageMethods perm other) .ols m) : m = .ols := by
  induction h with
  | refl => rfl
  | tail _ h ih => subst ih; exact methodStep_mayBecome ho h

theorem later_path (ho : KeepsObjects other) {a : EnetArgs} {m : MethodState} (h : Later (packageMethods perm other) (.path a) m) :
    m = .path a := by
  induction h with
  | refl => rfl
  | tail _ h ih => subst ih; exact methodStep_mayBecome ho h

theorem later_ridge (ho : KeepsObjects other) {a : RidgeObj} {m : MethodState} (h : Later (packageMethods perm other) (.ridge a) m) :
    ∃ l, m = .ridge { a with lambdaReg := l } ∧ ∀ lam, a.lambdaReg = some lam → l = some lam := by
  induction h with
  | refl => exact ⟨a.lambdaReg, rfl, fun _ h => h⟩
  | tail _ h ih =>
    obtain ⟨l, rfl, hl⟩ := ih
    obtain ⟨lam, rfl, hlam⟩ := methodStep_mayBecome ho h
    exact ⟨some lam, rfl, fun l' h' => by rw [hlam l' (hl l' h')]⟩

/-! ### The criterion -/

theorem penalisedError_eq {forget : ℝ} (hf : forget ≤ 1) (d : List (Obs J)) (hw : NonnegWeights d) (lam alpha : ℝ) (reg : Fin J → Bool)
    {pen : ℕ → Prop} (hp : ∀ j : Fin J, reg j = true ↔ pen j) (b : Row J) :
    enetObjective (initGram (xs d) (ws d) forget) (initYGram (xs d) (ys d) (ws d) forget) lam alpha reg b =
      penalisedError forget lam alpha pen d b - 1 / 2 * discSum forget d fun o => o.w * o.y ^ 2 := by
  unfold enetObjective penalisedError
  rw [discSSE_quad hf d hw]
  have e1 : (∑ i, ∑ j, b i * initGram (xs d) (ws d) forget i j * b j) = b ⬝ᵥ (initGram (xs d) (ws d) forget *ᵥ b) := by
    simp only [dotProduct, Matrix.mulVec, Finset.mul_sum, mul_assoc]
  have e2 : (∑ j, if reg j = true then alpha * |b j| + (1 - alpha) / 2 * b j ^ 2 else 0) =
      ∑ j : Fin J, (open Classical in if pen j then coefPenalty alpha (b j) else 0) := by
    refine Finset.sum_congr rfl fun j _ => ?_
    by_cases h : reg j = true
    · rw [if_pos h, if_pos ((hp j).1 h)]; rfl
    · rw [if_neg h, if_neg fun h' => h ((hp j).2 h')]
  rw [e1, e2]
  simp only [dotProduct]
  ring

theorem onlineCD_penalisedError {forget : ℝ} (hf : forget ≤ 1) (d : List (Obs J)) (hw : NonnegWeights d) (lam alpha : ℝ) (hlam : 0 ≤ lam)
    (ha0 : 0 ≤ alpha) (ha1 : alpha ≤ 1) (reg : Fin J → Bool) {pen : ℕ → Prop} (hp : ∀ j : Fin J, reg j = true ↔ pen j)
    (lower upper : Fin J → Option ℝ) (hb : BoundsOk lower upper) (sel : Selection) (prm : ℕ → List (Fin J)) (tol : ℝ) (m : ℕ) (b : Row J)
    (hfeas : Feasible lower upper b) (r : Row J × ℕ)
    (hr : onlineCD ⟨initGram (xs d) (ws d) forget, initYGram (xs d) (ys d) (ws d) forget, lam, alpha, reg, lower, upper⟩ sel prm tol m b =
      .ok r) : penalisedError forget lam alpha pen d r.1 ≤ penalisedError forget lam alpha pen d b := by
  obtain ⟨hs, hpsd⟩ := gram_psd hf d hw
  have := C21_objective_nonincreasing ⟨initGram (xs d) (ws d) forget, initYGram (xs d) (ys d) (ws d) forget, lam, alpha, reg, lower, upper⟩
    hs (psd_diag hpsd) hlam ha0 ha1 hb sel prm tol m b hfeas r.1 r.2 hr
  rw [penalisedError_eq hf d hw lam alpha reg hp, penalisedError_eq hf d hw lam alpha reg hp] at this
  linarith

/-! ### The flags -/

theorem regularizedFlags_iff (K : ℕ) (fi ri : Bool) (eq : Equation) (j : Fin K) :
    flags K (regularizedFlags K fi ri eq) j = true ↔ Penalised fi ri eq j := by
  unfold flags regularizedFlags Penalised
  have hj := j.isLt
  split
  · rename_i h
    simp only [Bool.and_eq_true, Bool.not_eq_true', Bool.or_eq_false_iff, decide_eq_false_iff_not] at h
    obtain ⟨h1, h2, h3⟩ := h
    by_cases h0 : j.val = 0
    · simp [List.getD_eq_getElem?_getD, h0, h1, h2, h3, List.getElem?_set]
      split <;> rfl
    · simp [List.getD_eq_getElem?_getD, List.getElem?_set, h0, Ne.symm h0, hj]
  · rename_i h
    simp only [Bool.and_eq_true, Bool.not_eq_true', Bool.or_eq_false_iff, decide_eq_false_iff_not, not_and] at h
    simp only [List.getD_eq_getElem?_getD, List.getElem?_replicate, hj, if_true, Option.getD_some, true_iff, not_and]
    exact fun _ h1 h2 => h h1 h2

end Ondil
