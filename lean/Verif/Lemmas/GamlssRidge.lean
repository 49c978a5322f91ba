import Verif.Lemmas.GamlssPackage
import Verif.Lemmas.GamlssToy
import Verif.Lemmas.RowOrderInstances

/-!
# `Ridge` within the distributional regression raises nothing
-/

open scoped BigOperators Matrix

namespace Ondil

variable {p J : ℕ} {perm : ∀ J : ℕ, ℕ → ℕ → List (Fin J)} {other : MethodOps MethodState}

/-! ### The diagonal of the Gramian -/

theorem tDot_self_nonneg (A : List (Row J)) (j : Fin J) : 0 ≤ tDot A A j j := by
  unfold tDot
  induction A with
  | nil => simp
  | cons x A ih =>
    rw [List.zipWith_cons_cons, List.sum_cons]
    have := mul_self_nonneg (x j)
    linarith

theorem tDot_self_pos {A : List (Row J)} {j : Fin J} (hA : A ≠ []) (h : ∀ x ∈ A, x j ≠ 0) : 0 < tDot A A j j := by
  obtain ⟨x, A, rfl⟩ := List.exists_cons_of_ne_nil hA
  have h1 : tDot (x :: A) (x :: A) j j = x j * x j + tDot A A j j := by
    unfold tDot
    rw [List.zipWith_cons_cons, List.sum_cons]
  rw [h1]
  have h2 := tDot_self_nonneg A j
  have h3 : 0 < x j * x j := mul_self_pos.2 (h x (List.mem_cons_self ..))
  linarith

theorem initForget_allPos {f : ℝ} (hf : f < 1) (n : ℕ) : ∀ v ∈ initForgetVector f n, 0 < v := by
  induction n with
  | zero => simp [initForgetVector_zero]
  | succ n ih =>
    rw [initForgetVector_succ]
    intro v hv
    rcases List.mem_cons.1 hv with rfl | hv
    · exact pow_pos (by linarith) _
    · exact ih v hv

theorem initGram_pos {X : List (Row J)} {w : List ℝ} {f : ℝ} (hf : f < 1) (hX : X ≠ []) (hl : w.length = X.length)
    (hw : ∀ v ∈ w, 0 < v) {j : Fin J} (h1 : ∀ x ∈ X, x j = 1) : 0 < initGram X w f j j := by
  have hs : ∀ s ∈ sqrtVec ((WeightArg.array w).mul (initForgetVector f X.length)), 0 < s := by
    intro s hs
    obtain ⟨u, hu, rfl⟩ := List.mem_map.1 hs
    refine Real.sqrt_pos.2 ?_
    simp only [WeightArg.mul, ← List.map_uncurry_zip_eq_zipWith] at hu
    obtain ⟨ab, hab, rfl⟩ := List.mem_map.1 hu
    exact mul_pos (hw _ (List.of_mem_zip hab).1) (initForget_allPos hf _ _ (List.of_mem_zip hab).2)
  have hsl : (sqrtVec ((WeightArg.array w).mul (initForgetVector f X.length))).length = X.length := by
    simp [sqrtVec, WeightArg.mul, length_initForgetVector, hl]
  unfold initGram
  refine tDot_self_pos ?_ ?_
  · rw [← List.length_pos_iff_ne_nil]
    simp only [scaleRows, List.length_zipWith, hsl, min_self]
    exact List.length_pos_iff_ne_nil.2 hX
  · intro x hx
    simp only [scaleRows, ← List.map_uncurry_zip_eq_zipWith] at hx
    obtain ⟨ab, hab, rfl⟩ := List.mem_map.1 hx
    change ab.1 j * ab.2 ≠ 0
    rw [h1 _ (List.of_mem_zip hab).1, one_mul]
    exact (hs _ (List.of_mem_zip hab).2).ne'

theorem updateGram_diag {G : Matrix (Fin J) (Fin J) ℝ} {X : List (Row J)} {w : List ℝ} {f : ℝ} (hf : f < 1)
    (hw : ∀ v ∈ w, 0 ≤ v) (j : Fin J) : ∃ c > 0, c * G j j ≤ updateGram G X f (.array w) j j := by
  unfold updateGram
  split
  · rename_i x
    refine ⟨1 - f, by linarith, ?_⟩
    simp only [Matrix.add_apply, Matrix.smul_apply, smul_eq_mul, Matrix.vecMulVec_apply, WeightArg.one, le_add_iff_nonneg_right]
    refine mul_nonneg ?_ (mul_self_nonneg _)
    cases w with
    | nil => exact le_rfl
    | cons a w => exact hw a (List.mem_cons_self ..)
  · refine ⟨(1 - f) ^ X.length, pow_pos (by linarith) _, ?_⟩
    simp only [Matrix.add_apply, Matrix.smul_apply, smul_eq_mul, le_add_iff_nonneg_right]
    exact tDot_self_nonneg _ _

/-! ### What happens for arrays that are not finite -/

/-- Arrays of matching shapes with NaN or infinite entries raise nothing either; the results have the shapes of numpy, the Gramian
then is not finite, and `Ridge` keeps its options. -/
structure TotalElsewhere (other : MethodOps MethodState) : Prop where
  initX : ∀ a X w f, ∃ g, other.initX (.ridge a) X w f = .ok g ∧ g.length = width X ∧ (width X ≠ 0 → mat? (width X) g = none)
  initY : ∀ a X y w f, ∃ g, other.initY (.ridge a) X y w f = .ok g ∧ g.length = width X
  updateX : ∀ a G X w f, G.length = width X → ∃ g, other.updateX (.ridge a) G X w f = .ok g ∧ g.length = width X ∧
    (width X ≠ 0 → mat? (width X) g = none)
  updateY : ∀ a h X y w f, h.length = width X → ∃ g, other.updateY (.ridge a) h X y w f = .ok g ∧ g.length = width X
  fitBeta : ∀ a G h reg, a.lambdaReg ≠ none → h.length = G.length →
    ∃ b, other.fitBeta (.ridge a) G h reg = .ok (b, .ridge a) ∧ b.length = G.length
  updateBeta : ∀ a G h b reg, a.lambdaReg ≠ none → h.length = G.length → b.length = G.length →
    ∃ b', other.updateBeta (.ridge a) G h b reg = .ok (b', .ridge a) ∧ b'.length = G.length

theorem diag_of_not_finite {g : Arr2} {J : ℕ} (h : J ≠ 0 → mat? J g = none) (fi : Bool) : ∀ G, mat? J g = some G →
    (∀ j, 0 ≤ G j j) ∧ (fi = true → ∀ j : Fin J, j.val = 0 → 0 < G j j) := by
  intro G hG
  by_cases hJ : J = 0
  · subst hJ
    exact ⟨fun j => j.elim0, fun _ j => j.elim0⟩
  · rw [h hJ] at hG
    cases hG

/-- The bounds have the right length. -/
def BoundsFit (J : ℕ) (b : Option (List (Option ℝ))) : Prop := ∀ l, b = some l → l.length = J

theorem setBound_ok {b : Option (List (Option ℝ))} (h : BoundsFit J b) : ∃ r, setBound J b = .ok r := by
  unfold setBound
  cases b with
  | none => exact ⟨_, rfl⟩
  | some l =>
    simp only
    rw [dif_pos (h l rfl)]
    exact ⟨_, rfl⟩

theorem ridgeUse_noZero {G : Matrix (Fin J) (Fin J) ℝ} {h : Row J} {lam : ℝ} (hlam : 0 < lam) {fi : Bool} {reg : List Bool}
    {lower upper : Fin J → Option ℝ} (hG : ∀ j, 0 ≤ G j j) (h0 : fi = true → ∀ j : Fin J, j.val = 0 → 0 < G j j)
    (hr : ∀ j : Fin J, (j.val ≠ 0 ∨ fi = false) → flags J reg j = true) :
    (⟨G, h, lam, 0, flags J reg, lower, upper⟩ : CDProblem J).NoZero := by
  intro j
  unfold CDProblem.denom
  simp only
  split
  · have := hG j
    nlinarith
  · rename_i hn
    have hj : j.val = 0 ∧ fi = true := by
      by_contra hc
      refine hn (hr j ?_)
      rcases not_and_or.1 hc with h | h
      · exact .inl h
      · exact .inr (by simpa using h)
    exact (h0 hj.2 j hj.1).ne'

theorem vec_get {x : Arr1} {xr : Row J} (h : vec? J x = some xr) : x = ofVec xr := by
  unfold vec? at h
  split at h
  · rename_i hl
    obtain ⟨r, hr, rfl⟩ := Option.map_eq_some_iff.1 h
    have := mapM_real_eq hr
    subst this
    rw [ofVec_eq_map]
    congr 1
    refine List.ext_getElem (by simpa using hl) fun i h1 h2 => ?_
    simp [List.getD_eq_getElem?_getD, List.getElem?_eq_getElem h1]
  · cases h

theorem mapM_vec_first {X : Arr2} {Xr : List (Row J)} (h : X.mapM (vec? J) = some Xr) (h1 : ∀ x ∈ X, ∃ t, x = .fin 1 :: t) {j : Fin J}
    (hj : j.val = 0) : ∀ x ∈ Xr, x j = 1 := by
  induction X generalizing Xr with
  | nil => cases h; simp
  | cons x X ih =>
    rw [List.mapM_cons] at h
    obtain ⟨xr, hx, h⟩ := Option.bind_eq_some_iff.1 h
    obtain ⟨Xr', hX, h⟩ := Option.bind_eq_some_iff.1 h
    cases h
    intro z hz
    rcases List.mem_cons.1 hz with rfl | hz
    · obtain ⟨t, ht⟩ := h1 x (List.mem_cons_self ..)
      have e := vec_get hx
      have : (ofVec z)[0]? = some (.fin (z j)) := by
        have h0 : 0 < J := hj ▸ j.isLt
        have : j = ⟨0, h0⟩ := Fin.ext hj
        subst this
        simp [ofVec, List.getElem?_eq_getElem, h0]
      rw [← e, ht] at this
      simpa using this.symm
    · exact ih hX (fun x hx => h1 x (List.mem_cons_of_mem _ hx)) z hz

theorem mapM_some_length {α β : Type} {f : α → Option β} {l : List α} {r : List β} (h : l.mapM f = some r) : r.length = l.length := by
  induction l generalizing r with
  | nil => cases h; rfl
  | cons a l ih =>
    rw [List.mapM_cons] at h
    obtain ⟨b, _, h⟩ := Option.bind_eq_some_iff.1 h
    obtain ⟨r', hr, h⟩ := Option.bind_eq_some_iff.1 h
    cases h
    simp [ih hr]

/-- `Ridge` with a given positive penalty, as the estimator uses it: weights that are positive in the fit and not negative in the
updates, a column of ones if there is an intercept, and no other column exempt from the penalty. -/
noncomputable def ridgeContract (perm : ∀ J : ℕ, ℕ → ℕ → List (Fin J)) (ho : TotalElsewhere other) (fi : Bool) {a0 : RidgeObj} {lam : ℝ}
    (hlam : 0 < lam) (ha : a0.lambdaReg = some lam) (hlo : BoundsFit J a0.lower) (hup : BoundsFit J a0.upper) :
    MethodContract (packageMethods perm other) J where
  Ok := fun m => m = .ridge a0
  Gx := fun g => g.length = J ∧ ∀ G, mat? J g = some G → (∀ j, 0 ≤ G j j) ∧ (fi = true → ∀ j : Fin J, j.val = 0 → 0 < G j j)
  Gy := fun h => h.length = J
  FitArrays := fun X _ w => (∀ r, .fin r ∈ w → 0 < r) ∧ (fi = true → ∀ x ∈ X, ∃ t, x = .fin 1 :: t)
  UpdateArrays := fun _ _ w => ∀ r, .fin r ∈ w → 0 ≤ r
  Flags := fun reg => ∀ j : Fin J, (j.val ≠ 0 ∨ fi = false) → flags J reg j = true
  L := 1
  isPath := false
  pos := Nat.one_pos
  path := by rintro _ rfl; rfl
  initX := by
    rintro _ rfl X hX hXr w hwl ⟨_, hw, h1⟩ f hf0 hf1
    have hwd := width_of hX hXr
    subst hwd
    cases hXm : X.mapM (vec? (width X)) with
    | none =>
      obtain ⟨g, hg, hl, hn⟩ := ho.initX a0 X w f
      exact ⟨g, by simp only [packageMethods, hXm]; exact hg, hl, diag_of_not_finite hn fi⟩
    | some Xr =>
      cases hwm : w.mapM Flt.real? with
      | none =>
        obtain ⟨g, hg, hl, hn⟩ := ho.initX a0 X w f
        exact ⟨g, by simp only [packageMethods, hXm, hwm]; exact hg, hl, diag_of_not_finite hn fi⟩
      | some wr =>
        refine ⟨ofMat (initGram Xr wr f), by rw [initX_width rfl hXm hwm]; rfl, ofMat_length _, fun G hG => ?_⟩
        rw [mat_ofMat] at hG
        cases hG
        refine ⟨fun j => tDot_self_nonneg _ _, fun hfi j hj => ?_⟩
        have hwr := mapM_real_eq hwm
        have hlen := mapM_some_length hXm
        refine initGram_pos hf1 ?_ ?_ ?_ (mapM_vec_first hXm (h1 hfi) hj)
        · rw [← List.length_pos_iff_ne_nil, hlen, List.length_pos_iff_ne_nil]
          exact hX
        · rw [hlen, ← hwl, hwr, List.length_map]
        · exact fun v hv => hw v (by rw [hwr]; exact List.mem_map_of_mem hv)
  initY := by
    rintro _ rfl X hX hXr y w _ _ _ f _ _
    have hwd := width_of hX hXr
    subst hwd
    simp only [packageMethods]
    split
    · exact ⟨_, rfl, by simp [ofVec_length]⟩
    · obtain ⟨g, hg, hl⟩ := ho.initY a0 X y w f
      exact ⟨g, hg, hl⟩
  updateX := by
    rintro _ rfl g ⟨hgl, hg⟩ X hX hXr w hwl ⟨_, hw⟩ f hf0 hf1
    have hwd := width_of hX hXr
    subst hwd
    obtain ⟨g', hg', hl', hn'⟩ := ho.updateX a0 g X w f hgl
    cases hGm : mat? (width X) g with
    | none => exact ⟨g', by simp only [packageMethods, hGm]; exact hg', hl', diag_of_not_finite hn' fi⟩
    | some G =>
      cases hXm : X.mapM (vec? (width X)) with
      | none => exact ⟨g', by simp only [packageMethods, hGm, hXm]; exact hg', hl', diag_of_not_finite hn' fi⟩
      | some Xr =>
        cases hwm : w.mapM Flt.real? with
        | none => exact ⟨g', by simp only [packageMethods, hGm, hXm, hwm]; exact hg', hl', diag_of_not_finite hn' fi⟩
        | some wr =>
          refine ⟨ofMat (updateGram G Xr f (.array wr)), by rw [updateX_width rfl hGm hXm hwm]; rfl, ofMat_length _, fun G' hG' => ?_⟩
          rw [mat_ofMat] at hG'
          cases hG'
          have hwr := mapM_real_eq hwm
          have key := updateGram_diag (G := G) (X := Xr) hf1 (w := wr) fun v hv => hw v (by rw [hwr]; exact List.mem_map_of_mem hv)
          obtain ⟨d1, d2⟩ := hg G hGm
          refine ⟨fun j => ?_, fun hfi j hj => ?_⟩
          · obtain ⟨c, hc, h⟩ := key j
            exact (mul_nonneg hc.le (d1 j)).trans h
          · obtain ⟨c, hc, h⟩ := key j
            exact (mul_pos hc (d2 hfi j hj)).trans_le h
  updateY := by
    rintro _ rfl g hg X hX hXr y w _ _ _ f _ _
    have hwd := width_of hX hXr
    subst hwd
    simp only [packageMethods]
    split
    · exact ⟨_, rfl, by simp [ofVec_length]⟩
    · obtain ⟨g, hg, hl⟩ := ho.updateY a0 g X y w f hg
      exact ⟨g, hg, hl⟩
  fitBeta := by
    rintro _ _ rfl g h ⟨hgl, hg⟩ hh reg hrl hr
    subst hgl
    cases hGm : mat? g.length g with
    | none =>
      obtain ⟨b, hb, hl⟩ := ho.fitBeta a0 g h reg (by simp [ha]) hh
      exact ⟨b, .ridge a0, by simp only [packageMethods, hGm]; exact hb, hl, rfl⟩
    | some G =>
      cases hhm : vec? g.length h with
      | none =>
        obtain ⟨b, hb, hl⟩ := ho.fitBeta a0 g h reg (by simp [ha]) hh
        exact ⟨b, .ridge a0, by simp only [packageMethods, hGm, hhm]; exact hb, hl, rfl⟩
      | some hr' =>
        obtain ⟨lo, hlo'⟩ := setBound_ok hlo
        obtain ⟨up, hup'⟩ := setBound_ok hup
        obtain ⟨d1, d2⟩ := hg G hGm
        have hpen : (a0.args g.length).penalty G = lam := by simp [RidgeArgs.penalty, RidgeObj.args, ha]
        have e : (a0.args g.length).fitBeta G hr' (flags g.length reg) (perm g.length 0) =
            .ok ((pureCD ⟨G, hr', lam, 0, flags g.length reg, lo, up⟩ a0.selection (perm g.length 0) a0.tolerance a0.maxIterations
              ((a0.args g.length).start G hr')).1, lam) := by
          unfold RidgeArgs.fitBeta
          have e1 : setBound g.length (a0.args g.length).lower = .ok lo := hlo'
          have e2 : setBound g.length (a0.args g.length).upper = .ok up := hup'
          rw [e1, e2, hpen]
          simp only [bind_ok_eq]
          rw [onlineCD_eq _ (ridgeUse_noZero hlam d1 d2 hr)]
          rfl
        refine ⟨ofVec (pureCD ⟨G, hr', lam, 0, flags g.length reg, lo, up⟩ a0.selection (perm g.length 0) a0.tolerance a0.maxIterations
              ((a0.args g.length).start G hr')).1, .ridge a0, ?_, ofVec_length _, rfl⟩
        simp only [packageMethods, hGm, hhm, e, bind_ok_eq]
        rw [← ha]
        rfl
  updateBeta := by
    rintro _ _ rfl g h ⟨hgl, hg⟩ hh b hb reg hrl hr
    subst hgl
    obtain ⟨b', hb', hl'⟩ := ho.updateBeta a0 g h b reg (by simp [ha]) hh hb
    cases hGm : mat? g.length g with
    | none => exact ⟨b', .ridge a0, by simp only [packageMethods, hGm]; exact hb', hl', rfl⟩
    | some G =>
      cases hhm : vec? g.length h with
      | none => exact ⟨b', .ridge a0, by simp only [packageMethods, hGm, hhm]; exact hb', hl', rfl⟩
      | some hr' =>
        cases hbm : vec? g.length b with
        | none => exact ⟨b', .ridge a0, by simp only [packageMethods, hGm, hhm, hbm]; exact hb', hl', rfl⟩
        | some br =>
          obtain ⟨lo, hlo'⟩ := setBound_ok hlo
          obtain ⟨up, hup'⟩ := setBound_ok hup
          obtain ⟨d1, d2⟩ := hg G hGm
          have e : (a0.args g.length).updateBeta lam G hr' br (flags g.length reg) (perm g.length 0) =
              .ok (pureCD ⟨G, hr', lam, 0, flags g.length reg, lo, up⟩ a0.selection (perm g.length 0) a0.tolerance a0.maxIterations
                br).1 := by
            unfold RidgeArgs.updateBeta
            have e1 : setBound g.length (a0.args g.length).lower = .ok lo := hlo'
            have e2 : setBound g.length (a0.args g.length).upper = .ok up := hup'
            rw [e1, e2]
            simp only [bind_ok_eq]
            rw [onlineCD_eq _ (ridgeUse_noZero hlam d1 d2 hr)]
            rfl
          refine ⟨ofVec (pureCD ⟨G, hr', lam, 0, flags g.length reg, lo, up⟩ a0.selection (perm g.length 0) a0.tolerance a0.maxIterations
                br).1, .ridge a0, ?_, ofVec_length _, rfl⟩
          simp only [packageMethods, hGm, hhm, hbm, ha, e, bind_ok_eq]
          rfl
  fitPath := fun h => by cases h
  updatePath := fun h => by cases h

/-! ### Ordinary least squares -/

/-- The same for ordinary least squares: arrays with NaN or infinite entries raise nothing. -/
structure OlsElsewhere (other : MethodOps MethodState) : Prop where
  initX : ∀ X w f, ∃ g, other.initX .ols X w f = .ok g ∧ g.length = width X
  initY : ∀ X y w f, ∃ g, other.initY .ols X y w f = .ok g ∧ g.length = width X
  updateX : ∀ G X w f, G.length = width X → ∃ g, other.updateX .ols G X w f = .ok g ∧ g.length = width X
  updateY : ∀ h X y w f, h.length = width X → ∃ g, other.updateY .ols h X y w f = .ok g ∧ g.length = width X
  fitBeta : ∀ G h reg, h.length = G.length → ∃ b, other.fitBeta .ols G h reg = .ok (b, .ols) ∧ b.length = G.length
  updateBeta : ∀ G h b reg, h.length = G.length → b.length = G.length →
    ∃ b', other.updateBeta .ols G h b reg = .ok (b', .ols) ∧ b'.length = G.length

/-- No combination of the columns vanishes on all rows. -/
def ColumnsIndependent (X : List (Row J)) : Prop := ∀ v : Row J, (∀ x ∈ X, linPred x v = 0) → v = 0

theorem mapM_vec_eq {X : Arr2} {Xr : List (Row J)} (h : X.mapM (vec? J) = some Xr) : X = Xr.map ofVec := by
  induction X generalizing Xr with
  | nil => cases h; rfl
  | cons x X ih =>
    rw [List.mapM_cons] at h
    cases hx : vec? J x with
    | none => rw [hx] at h; cases h
    | some xr =>
      cases hX : X.mapM (vec? J) with
      | none => rw [hx, hX] at h; cases h
      | some Xr' =>
        rw [hx, hX] at h
        cases h
        rw [List.map_cons, ← ih hX, ← vec_get hx]

theorem zipObs (Xr : List (Row J)) (wr : List ℝ) (h : wr.length = Xr.length) :
    ∃ d : List (Obs J), xs d = Xr ∧ ws d = wr := by
  refine ⟨List.zipWith (fun x w => ⟨x, 0, w⟩) Xr wr, ?_, ?_⟩
  · induction Xr generalizing wr with
    | nil => rfl
    | cons x Xr ih =>
      obtain ⟨w, wr, rfl⟩ : ∃ w wr', wr = w :: wr' := by
        cases wr with
        | nil => cases h
        | cons w wr => exact ⟨w, wr, rfl⟩
      simp only [List.zipWith_cons_cons, xs, List.map_cons, List.cons.injEq, true_and] at ih ⊢
      exact ih wr (by simpa using h)
  · induction Xr generalizing wr with
    | nil =>
      obtain rfl := List.length_eq_zero_iff.1 h
      rfl
    | cons x Xr ih =>
      obtain ⟨w, wr, rfl⟩ : ∃ w wr', wr = w :: wr' := by
        cases wr with
        | nil => cases h
        | cons w wr => exact ⟨w, wr, rfl⟩
      simp only [List.zipWith_cons_cons, ws, List.map_cons, List.cons.injEq, true_and] at ih ⊢
      exact ih wr (by simpa using h)

theorem initGram_unit {Xr : List (Row J)} {wr : List ℝ} (hl : wr.length = Xr.length) (hw : ∀ w ∈ wr, 0 < w) (hX : ColumnsIndependent Xr)
    {f : ℝ} (hf : f < 1) : IsUnit (initGram Xr wr f).det := by
  obtain ⟨d, rfl, rfl⟩ := zipObs Xr wr hl
  refine (isUnit_det_iff_fullRank hf d fun o ho => (hw o.w (List.mem_map_of_mem ho)).le).2 fun v hv => hX v fun x hx => ?_
  obtain ⟨o, ho, rfl⟩ := List.mem_map.1 hx
  exact hv o ho (hw o.w (List.mem_map_of_mem ho))

/-- `OrdinaryLeastSquares` as the estimator uses it: positive weights and linearly independent columns in the fit; the updates
need nothing. -/
noncomputable def olsContract (perm : ∀ J : ℕ, ℕ → ℕ → List (Fin J)) (ho : OlsElsewhere other) :
    MethodContract (packageMethods perm other) J where
  Ok := fun m => m = .ols
  Gx := fun g => g.length = J
  Gy := fun h => h.length = J
  FitArrays := fun X _ w => (∀ r, .fin r ∈ w → 0 < r) ∧ ∀ Xr : List (Row J), X = Xr.map ofVec → ColumnsIndependent Xr
  L := 1
  isPath := false
  pos := Nat.one_pos
  path := by rintro _ rfl; rfl
  initX := by
    rintro _ rfl X hX hXr w hwl ⟨_, hw, h1⟩ f hf0 hf1
    have hwd := width_of hX hXr
    subst hwd
    obtain ⟨g, hg, hl⟩ := ho.initX X w f
    cases hXm : X.mapM (vec? (width X)) with
    | none => exact ⟨g, by simp only [packageMethods, hXm]; exact hg, hl⟩
    | some Xr =>
      cases hwm : w.mapM Flt.real? with
      | none => exact ⟨g, by simp only [packageMethods, hXm, hwm]; exact hg, hl⟩
      | some wr =>
        have hwr := mapM_real_eq hwm
        have hu : IsUnit (initGram Xr wr f).det := by
          refine initGram_unit ?_ (fun v hv => hw v (by rw [hwr]; exact List.mem_map_of_mem hv)) (h1 Xr (mapM_vec_eq hXm)) hf1
          rw [mapM_some_length hXm, ← hwl, hwr, List.length_map]
        refine ⟨ofMat (initGram Xr wr f)⁻¹, ?_, ofMat_length _⟩
        rw [initX_width rfl hXm hwm]
        change (initInvertedGram Xr wr f).map ofMat = _
        rw [initInvertedGram_of_isUnit hu]
        rfl
  initY := by
    rintro _ rfl X hX hXr y w _ _ _ f _ _
    have hwd := width_of hX hXr
    subst hwd
    simp only [packageMethods]
    split
    · exact ⟨_, rfl, by simp [ofVec_length]⟩
    · exact ho.initY X y w f
  updateX := by
    rintro _ rfl g hgl X hX hXr w hwl _ f hf0 hf1
    have hwd := width_of hX hXr
    subst hwd
    obtain ⟨g', hg', hl'⟩ := ho.updateX g X w f hgl
    cases hGm : mat? (width X) g with
    | none => exact ⟨g', by simp only [packageMethods, hGm]; exact hg', hl'⟩
    | some G =>
      cases hXm : X.mapM (vec? (width X)) with
      | none => exact ⟨g', by simp only [packageMethods, hGm, hXm]; exact hg', hl'⟩
      | some Xr =>
        cases hwm : w.mapM Flt.real? with
        | none => exact ⟨g', by simp only [packageMethods, hGm, hXm, hwm]; exact hg', hl'⟩
        | some wr =>
          have hlen : wr.length = Xr.length := by
            rw [mapM_some_length hXm, ← hwl, mapM_real_eq hwm, List.length_map]
          have hne : Xr ≠ [] := by
            rw [← List.length_pos_iff_ne_nil, mapM_some_length hXm, List.length_pos_iff_ne_nil]; exact hX
          obtain ⟨A, hA⟩ : ∃ A, updateInvertedGram G Xr f (.array wr) = .ok A := by
            unfold updateInvertedGram
            split
            · exact ⟨_, rfl⟩
            · simp only
              rw [if_neg (by simp [hne, hlen])]
              exact ⟨_, rfl⟩
          refine ⟨ofMat A, ?_, ofMat_length _⟩
          rw [updateX_width rfl hGm hXm hwm]
          change (updateInvertedGram G Xr f (.array wr)).map ofMat = _
          rw [hA]
          rfl
  updateY := by
    rintro _ rfl g hg X hX hXr y w _ _ _ f _ _
    have hwd := width_of hX hXr
    subst hwd
    simp only [packageMethods]
    split
    · exact ⟨_, rfl, by simp [ofVec_length]⟩
    · exact ho.updateY g X y w f hg
  fitBeta := by
    rintro _ _ rfl g h hgl hh reg hrl _
    subst hgl
    obtain ⟨b, hb, hl⟩ := ho.fitBeta g h reg hh
    cases hGm : mat? g.length g with
    | none => exact ⟨b, .ols, by simp only [packageMethods, hGm]; exact hb, hl, rfl⟩
    | some G =>
      cases hhm : vec? g.length h with
      | none => exact ⟨b, .ols, by simp only [packageMethods, hGm, hhm]; exact hb, hl, rfl⟩
      | some hr => exact ⟨ofVec (olsBeta G hr), .ols, by simp only [packageMethods, hGm, hhm], ofVec_length _, rfl⟩
  updateBeta := by
    rintro _ _ rfl g h hgl hh b0 hb0 reg hrl _
    subst hgl
    obtain ⟨b, hb, hl⟩ := ho.updateBeta g h b0 reg hh hb0
    cases hGm : mat? g.length g with
    | none => exact ⟨b, .ols, by simp only [packageMethods, hGm]; exact hb, hl, rfl⟩
    | some G =>
      cases hhm : vec? g.length h with
      | none => exact ⟨b, .ols, by simp only [packageMethods, hGm, hhm]; exact hb, hl, rfl⟩
      | some hr => exact ⟨ofVec (olsBeta G hr), .ols, by simp only [packageMethods, hGm, hhm], ofVec_length _, rfl⟩
  fitPath := fun h => by cases h
  updatePath := fun h => by cases h

end Ondil
