import Verif.Lemmas.GamlssOriginLoops
import Verif.Lemmas.GamlssCoordinatesOls
import Verif.Lemmas.RowOrderInstances

/-!
# Least squares with the response from another origin
-/

open scoped Matrix

namespace Ondil

section Real

variable {K : ℕ} {δ f : ℝ}

theorem threeColumns (rows : List (Row K)) (y w : List ℝ) (hy : y.length = rows.length) (hw : w.length = rows.length) :
    ∃ d : List (Obs K), xs d = rows ∧ ys d = y ∧ ws d = w := by
  induction rows generalizing y w with
  | nil =>
    rw [List.length_nil, List.length_eq_zero_iff] at hy hw
    exact ⟨[], rfl, hy.symm, hw.symm⟩
  | cons x rows ih =>
    cases y with
    | nil => simp at hy
    | cons a y =>
      cases w with
      | nil => simp at hw
      | cons b w =>
        obtain ⟨d, h1, h2, h3⟩ := ih y w (by simpa using hy) (by simpa using hw)
        exact ⟨⟨x, a, b⟩ :: d, by simp [xs, ← h1], by simp [ys, ← h2], by simp [ws, ← h3]⟩

/-- The same data with the response one everywhere. -/
def constantResponse (d : List (Obs K)) : List (Obs K) := d.map fun o => { o with y := 1 }

theorem constantResponse_xs (d : List (Obs K)) : xs (constantResponse d) = xs d := by
  simp [xs, constantResponse, List.map_map, Function.comp_def]

theorem constantResponse_ws (d : List (Obs K)) : ws (constantResponse d) = ws d := by
  simp [ws, constantResponse, List.map_map, Function.comp_def]

theorem constantResponse_nonneg {d : List (Obs K)} (h : NonnegWeights d) : NonnegWeights (constantResponse d) := by
  intro o ho
  obtain ⟨a, ha, rfl⟩ := List.mem_map.1 ho
  exact h a ha

theorem moved_nonneg {d : List (Obs K)} (h : NonnegWeights d) : NonnegWeights (d.map (Obs.respondingFrom δ)) := by
  intro o ho
  obtain ⟨a, ha, rfl⟩ := List.mem_map.1 ho
  exact h a ha

theorem respondingFrom_xs (d : List (Obs K)) : xs (d.map (Obs.respondingFrom δ)) = xs d := by
  simp [xs, Obs.respondingFrom, List.map_map, Function.comp_def]

theorem respondingFrom_ws (d : List (Obs K)) : ws (d.map (Obs.respondingFrom δ)) = ws d := by
  simp [ws, Obs.respondingFrom, List.map_map, Function.comp_def]

theorem respondingFrom_ys (d : List (Obs K)) : ys (d.map (Obs.respondingFrom δ)) = (ys d).map (· + δ) := by
  simp [ys, Obs.respondingFrom, List.map_map, Function.comp_def]

theorem initYGram_plus (hf : f ≤ 1) {d : List (Obs K)} (h : NonnegWeights d) :
    initYGram (xs d) ((ys d).map (· + δ)) (ws d) f =
      initYGram (xs d) (ys d) (ws d) f + δ • initYGram (xs (constantResponse d)) (ys (constantResponse d)) (ws (constantResponse d)) f := by
  funext a
  have h1 := initYGram_apply hf (d.map (Obs.respondingFrom δ)) (moved_nonneg h) a
  rw [respondingFrom_xs, respondingFrom_ws, respondingFrom_ys] at h1
  rw [h1, Pi.add_apply, Pi.smul_apply, smul_eq_mul, initYGram_apply hf d h, initYGram_apply hf _ (constantResponse_nonneg h),
    ← discSum_mul_left, constantResponse, discSum_map, discSum_map, ← discSum_add]
  refine discSum_congr _ _ fun o _ => ?_
  simp only [Obs.respondingFrom]
  ring

theorem updateYGram_plus (hf : f ≤ 1) (h g : Row K) {d : List (Obs K)} (hd : NonnegWeights d) :
    updateYGram (h + δ • g) (xs d) ((ys d).map (· + δ)) f (.array (ws d)) = updateYGram h (xs d) (ys d) f (.array (ws d)) +
      δ • updateYGram g (xs (constantResponse d)) (ys (constantResponse d)) f (.array (ws (constantResponse d))) := by
  funext a
  have h1 := updateYGram_apply hf (h + δ • g) (d.map (Obs.respondingFrom δ)) (moved_nonneg hd) a
  rw [respondingFrom_xs, respondingFrom_ws, respondingFrom_ys] at h1
  rw [h1, Pi.add_apply (updateYGram _ _ _ _ _), Pi.smul_apply, smul_eq_mul, updateYGram_apply hf h d hd,
    updateYGram_apply hf g _ (constantResponse_nonneg hd), constantResponse, discSum_map, discSum_map, mul_add δ, ← discSum_mul_left f δ]
  simp only [Obs.respondingFrom, List.length_map, Pi.add_apply, Pi.smul_apply, smul_eq_mul]
  have h2 : discSum f d (fun o => o.w * (o.y + δ) * o.x a) = discSum f d (fun o => o.w * o.y * o.x a) + discSum f d (fun o => δ * (o.w * 1 * o.x a)) := by
    rw [← discSum_add]
    exact discSum_congr _ _ fun o _ => by ring
  rw [h2]
  ring

end Real

section Columns

variable {J : ℕ} {δ f : ℝ}

/-- Data with an intercept in the first column and the response one everywhere. -/
def AllOnes (d : List (Obs (J + 1))) : Prop := ∀ o ∈ d, o.x 0 = 1 ∧ o.y = 1

theorem gram_first (hf : f ≤ 1) {d : List (Obs (J + 1))} (hw : NonnegWeights d) (h1 : AllOnes d) :
    initGram (xs d) (ws d) f *ᵥ Pi.single 0 1 = initYGram (xs d) (ys d) (ws d) f := by
  funext a
  rw [gram_mulVec hf d hw, initYGram_apply hf d hw]
  refine discSum_congr _ _ fun o ho => ?_
  rw [dotProduct_single, (h1 o ho).1, (h1 o ho).2]
  ring

theorem olsBeta_first (hf : f ≤ 1) {d : List (Obs (J + 1))} (hw : NonnegWeights d) (h1 : AllOnes d)
    (hu : IsUnit (initGram (xs d) (ws d) f).det) (h : Row (J + 1)) :
    olsBeta (initGram (xs d) (ws d) f)⁻¹ (h + δ • initYGram (xs d) (ys d) (ws d) f) =
      olsBeta (initGram (xs d) (ws d) f)⁻¹ h + δ • Pi.single 0 1 := by
  unfold olsBeta
  rw [← gram_first hf hw h1, Matrix.mulVec_add, Matrix.mulVec_smul, Matrix.mulVec_mulVec, Matrix.nonsing_inv_mul _ hu, Matrix.one_mulVec]

theorem ofVec_first (b : Row (J + 1)) : ofVec (b + δ • Pi.single 0 1) = interceptPlus δ (ofVec b) := by
  unfold ofVec
  rw [List.finRange_succ, List.map_cons, List.map_cons, interceptPlus]
  congr 1
  · simp [Flt.plus, Flt.add]
  · rw [List.map_map, List.map_map]
    refine List.map_congr_left fun j _ => ?_
    simp [Function.comp]

theorem nan_first : interceptPlus δ (List.replicate (J + 1) .nan) = List.replicate (J + 1) .nan := rfl

theorem asum_nans : asum (List.replicate (J + 1) .nan) = .nan := by
  rw [List.replicate_succ]
  rfl

/-- Rows with an intercept in the first column; the other entries need not be finite. -/
def InterceptRows (J : ℕ) (n : ℕ) (X : Arr2) : Prop :=
  X.length = n ∧ X ≠ [] ∧ ∀ x ∈ X, ∃ t, x = .fin 1 :: t ∧ t.length = J

theorem InterceptRows.width_eq {n : ℕ} {X : Arr2} (h : InterceptRows J n X) : width X = J + 1 := by
  obtain ⟨x, X, rfl⟩ := List.exists_cons_of_ne_nil h.2.1
  obtain ⟨t, rfl, ht⟩ := h.2.2 x (List.mem_cons_self ..)
  simp [width, ht]

theorem vec_finite {K : ℕ} {a : Arr1} {v : Row K} (h : vec? K a = some v) : a = ofVec v := by
  unfold vec? at h
  split_ifs at h with hl
  obtain ⟨r, h1, h2⟩ := Option.map_eq_some_iff.1 h
  have ha := mapM_real_eq h1
  subst ha
  subst h2
  rw [ofVec_eq_map]
  congr 1
  have hr : r.length = K := by simpa using hl
  subst hr
  exact List.ext_getElem (by simp) fun i h1 h2 => by simp

theorem mapM_vec_finite {K : ℕ} {X : Arr2} {rows : List (Row K)} (h : X.mapM (vec? K) = some rows) : X = rows.map ofVec := by
  induction X generalizing rows with
  | nil =>
    cases h
    rfl
  | cons x X ih =>
    rw [List.mapM_cons] at h
    cases h1 : vec? K x with
    | none => rw [h1] at h; cases h
    | some v =>
      cases h2 : X.mapM (vec? K) with
      | none => rw [h1, h2] at h; cases h
      | some l =>
        rw [h1, h2] at h
        cases h
        rw [List.map_cons, ← ih h2, ← vec_finite h1]

theorem InterceptRows.finite {n : ℕ} {X : Arr2} (h : InterceptRows J n X) {rows : List (Row (J + 1))}
    (hr : X.mapM (vec? (J + 1)) = some rows) : rows.length = n ∧ rows ≠ [] ∧ X = rows.map ofVec ∧ ∀ x ∈ rows, x 0 = 1 := by
  have hX := mapM_vec_finite hr
  subst hX
  refine ⟨by rw [← h.1, List.length_map], fun h0 => h.2.1 (by rw [h0]; rfl), rfl, fun x hx => ?_⟩
  obtain ⟨t, ht, _⟩ := h.2.2 (ofVec x) (List.mem_map_of_mem hx)
  unfold ofVec at ht
  rw [List.finRange_succ, List.map_cons] at ht
  injection ht with h1 _
  injection h1

/-- The square array of NaN. -/
def nanSquare (K : ℕ) : Arr2 := List.replicate K (List.replicate K .nan)

/-- Cross products from both origins. -/
def MovedCross (J : ℕ) (δ f : ℝ) (G : Arr2) (h h' : Arr1) : Prop :=
  (h = List.replicate (J + 1) .nan ∧ h' = List.replicate (J + 1) .nan ∧
    (G = nanSquare (J + 1) ∨ ∃ Gr : Matrix (Fin (J + 1)) (Fin (J + 1)) ℝ, G = ofMat Gr)) ∨
  ∃ (d : List (Obs (J + 1))) (hr : Row (J + 1)), AllOnes d ∧ NonnegWeights d ∧ IsUnit (initGram (xs d) (ws d) f).det ∧
    G = ofMat (initGram (xs d) (ws d) f)⁻¹ ∧ h = ofVec hr ∧ h' = ofVec (hr + δ • initYGram (xs d) (ys d) (ws d) f)

/-- Coefficients from both origins. -/
def MovedCoef (J : ℕ) (δ : ℝ) (b b' : Arr1) : Prop :=
  b' = interceptPlus δ b ∧ b.length = J + 1

/-- The relations of least squares. -/
def originView (J : ℕ) (δ f : ℝ) : MoveView where
  X := InterceptRows J
  H := MovedCross J δ f
  B := MovedCoef J δ

theorem MovedCross.length_eq {G : Arr2} {h h' : Arr1} (hh : MovedCross J δ f G h h') : G.length = J + 1 := by
  rcases hh with ⟨_, _, rfl | ⟨Gr, rfl⟩⟩ | ⟨d, hr, _, _, _, rfl, _⟩
  · exact List.length_replicate
  · exact ofMat_length _
  · exact ofMat_length _

theorem mapM_real_plus (y : Arr1) : (y.map (Flt.plus δ)).mapM Flt.real? = (y.mapM Flt.real?).map (List.map (· + δ)) := by
  induction y with
  | nil => rfl
  | cons v y ih =>
    rw [List.map_cons, List.mapM_cons, List.mapM_cons, ih]
    cases v <;> cases y.mapM Flt.real? <;> simp [Flt.plus, Flt.add, Flt.real?]

theorem good_weights {w : Arr1} {wr : List ℝ} (h : w.mapM Flt.real? = some wr) (hg : ∀ v ∈ w, GoodWeight v) : ∀ x ∈ wr, 0 ≤ x := by
  intro x hx
  have hm : Flt.fin x ∈ w := by
    rw [mapM_real_eq h]
    exact List.mem_map_of_mem hx
  rcases hg _ hm with h | ⟨y, hy, h⟩
  · cases h
  · cases h
    exact hy

theorem real_length {w : Arr1} {wr : List ℝ} (h : w.mapM Flt.real? = some wr) : wr.length = w.length := by
  rw [mapM_real_eq h, List.length_map]

variable {perm : ∀ J : ℕ, ℕ → ℕ → List (Fin J)} {other : MethodOps MethodState}

theorem initX_nonfinite {X : Arr2} {w : Arr1} {f : ℝ} (h : X.mapM (vec? (width X)) = none ∨ w.mapM Flt.real? = none) :
    (packageMethods perm other).initX .ols X w f = other.initX .ols X w f := by
  simp only [packageMethods]
  split
  · simp_all
  · rfl

theorem initY_nonfinite {X : Arr2} {y w : Arr1} {f : ℝ}
    (h : X.mapM (vec? (width X)) = none ∨ y.mapM Flt.real? = none ∨ w.mapM Flt.real? = none) :
    (packageMethods perm other).initY .ols X y w f = other.initY .ols X y w f := by
  simp only [packageMethods]
  split
  · simp_all
  · rfl

theorem updateX_nonfinite {G X : Arr2} {w : Arr1} {f : ℝ}
    (h : mat? (width X) G = none ∨ X.mapM (vec? (width X)) = none ∨ w.mapM Flt.real? = none) :
    (packageMethods perm other).updateX .ols G X w f = other.updateX .ols G X w f := by
  simp only [packageMethods]
  split
  · simp_all
  · rfl

theorem updateY_nonfinite {g : Arr1} {X : Arr2} {y w : Arr1} {f : ℝ}
    (h : vec? (width X) g = none ∨ X.mapM (vec? (width X)) = none ∨ y.mapM Flt.real? = none ∨ w.mapM Flt.real? = none) :
    (packageMethods perm other).updateY .ols g X y w f = other.updateY .ols g X y w f := by
  simp only [packageMethods]
  split
  · simp_all
  · rfl

theorem init_origin (hf : f < 1) (ho : NanOrRaise other) (hb : ResponseBlind other) {n : ℕ} {X : Arr2} {y w : Arr1} {G : Arr2}
    (hX : InterceptRows J n X) (hy : y.length = n) (hw : w.length = n) (hg : ∀ v ∈ w, GoodWeight v)
    (hG : (packageMethods perm other).initX .ols X w f = .ok G) :
    BothRel (MovedCross J δ f G) ((packageMethods perm other).initY .ols X y w f)
      ((packageMethods perm other).initY .ols X (y.map (Flt.plus δ)) w f) := by
  have hwd := hX.width_eq
  have hnone : (X.mapM (vec? (J + 1)) = none ∨ y.mapM Flt.real? = none ∨ w.mapM Flt.real? = none) →
      (G = nanSquare (J + 1) ∨ ∃ Gr : Matrix (Fin (J + 1)) (Fin (J + 1)) ℝ, G = ofMat Gr) →
      BothRel (MovedCross J δ f G) ((packageMethods perm other).initY .ols X y w f)
        ((packageMethods perm other).initY .ols X (y.map (Flt.plus δ)) w f) := by
    intro h hGG
    rw [initY_nonfinite (by rw [hwd]; exact h),
      initY_nonfinite (by rw [hwd]; exact h.imp id (Or.imp (fun h => by rw [mapM_real_plus, h]; rfl) id))]
    rcases hb.initY (J + 1) w f with ⟨e, he⟩ | he
    · exact .inl ⟨e, he _ _ hwd, he _ _ hwd⟩
    · exact .inr ⟨_, _, he _ _ hwd, he _ _ hwd, .inl ⟨rfl, rfl, hGG⟩⟩
  have hnan : (X.mapM (vec? (J + 1)) = none ∨ w.mapM Flt.real? = none) → G = nanSquare (J + 1) := by
    intro h
    rw [initX_nonfinite (by rw [hwd]; exact h)] at hG
    rcases ho.initX (J + 1) w f with ⟨e, he⟩ | he
    · rw [he _ hwd] at hG
      cases hG
    · rw [he _ hwd] at hG
      cases hG
      rfl
  cases hXr : X.mapM (vec? (J + 1)) with
  | none => exact hnone (.inl hXr) (.inl (hnan (.inl hXr)))
  | some rows =>
  obtain ⟨hn, h0, rfl, h1⟩ := hX.finite hXr
  cases hwr : w.mapM Flt.real? with
  | none => exact hnone (.inr (.inr hwr)) (.inl (hnan (.inr hwr)))
  | some wr =>
    rw [initX_width hwd (mapM_vec _) hwr] at hG
    change (initInvertedGram rows wr f).map ofMat = _ at hG
    have hG' : IsUnit (initGram rows wr f).det ∧ G = ofMat (initGram rows wr f)⁻¹ := by
      unfold initInvertedGram at hG
      simp only at hG
      split_ifs at hG with hr
      · cases hG
        exact ⟨(rank_eq_iff_isUnit_det _).1 hr, rfl⟩
      · cases hG
    cases hyr : y.mapM Flt.real? with
    | none => exact hnone (.inr (.inl hyr)) (.inr ⟨_, hG'.2⟩)
    | some yr =>
      have hyr' : (y.map (Flt.plus δ)).mapM Flt.real? = some (yr.map (· + δ)) := by rw [mapM_real_plus, hyr]; rfl
      rw [initY_width hwd (mapM_vec _) hyr hwr, initY_width hwd (mapM_vec _) hyr' hwr]
      obtain ⟨d, e1, e2, e3⟩ := threeColumns rows yr wr ((real_length hyr).trans (hy.trans hn.symm))
        ((real_length hwr).trans (hw.trans hn.symm))
      subst e1 e2 e3
      have hd : NonnegWeights d := fun o ho => good_weights hwr hg _ (List.mem_map_of_mem ho)
      refine .inr ⟨_, _, rfl, rfl, .inr ⟨constantResponse d, _, ?_, constantResponse_nonneg hd, ?_, ?_, rfl, ?_⟩⟩
      · intro o ho
        obtain ⟨a, ha, rfl⟩ := List.mem_map.1 ho
        exact ⟨h1 a.x (List.mem_map_of_mem (f := Obs.x) ha), rfl⟩
      · rw [constantResponse_xs, constantResponse_ws]
        exact hG'.1
      · rw [constantResponse_xs, constantResponse_ws]
        exact hG'.2
      · rw [initYGram_plus hf.le hd]

theorem update_origin (hf : f < 1) (ho : NanOrRaise other) (hb : ResponseBlind other) {n : ℕ} {X : Arr2} {y w h h' : Arr1} {G0 G : Arr2}
    (hX : InterceptRows J n X) (hy : y.length = n) (hw : w.length = n) (hg : ∀ v ∈ w, GoodWeight v) (hh : MovedCross J δ f G0 h h')
    (hG : (packageMethods perm other).updateX .ols G0 X w f = .ok G) :
    BothRel (MovedCross J δ f G) ((packageMethods perm other).updateY .ols h X y w f)
      ((packageMethods perm other).updateY .ols h' X (y.map (Flt.plus δ)) w f) := by
  have hwd := hX.width_eq
  have hGG : G = nanSquare (J + 1) ∨ ∃ Gr : Matrix (Fin (J + 1)) (Fin (J + 1)) ℝ, G = ofMat Gr := by
    have hnan : (mat? (J + 1) G0 = none ∨ X.mapM (vec? (J + 1)) = none ∨ w.mapM Flt.real? = none) → G = nanSquare (J + 1) := by
      intro h
      rw [updateX_nonfinite (by rw [hwd]; exact h)] at hG
      rcases ho.updateX (J + 1) w f with ⟨e, he⟩ | he
      · rw [he _ _ hwd] at hG
        cases hG
      · rw [he _ _ hwd] at hG
        cases hG
        rfl
    cases hGr : mat? (J + 1) G0 with
    | none => exact .inl (hnan (.inl hGr))
    | some Gr =>
      cases hXr : X.mapM (vec? (J + 1)) with
      | none => exact .inl (hnan (.inr (.inl hXr)))
      | some rows =>
      cases hwr : w.mapM Flt.real? with
      | none => exact .inl (hnan (.inr (.inr hwr)))
      | some wr =>
        rw [updateX_width hwd hGr hXr hwr] at hG
        cases hu : MethodState.ols.updateXReal Gr rows wr f with
        | error e =>
          rw [hu] at hG
          cases hG
        | ok A =>
          rw [hu] at hG
          cases hG
          exact .inr ⟨A, rfl⟩
  have hnone : (vec? (J + 1) h = none ∧ vec? (J + 1) h' = none ∨ X.mapM (vec? (J + 1)) = none ∨ y.mapM Flt.real? = none ∨ w.mapM Flt.real? = none) →
      BothRel (MovedCross J δ f G) ((packageMethods perm other).updateY .ols h X y w f)
        ((packageMethods perm other).updateY .ols h' X (y.map (Flt.plus δ)) w f) := by
    intro hc
    rw [updateY_nonfinite (by rw [hwd]; exact hc.imp And.left id),
      updateY_nonfinite (by rw [hwd]; exact hc.imp And.right (Or.imp id (Or.imp (fun h => by rw [mapM_real_plus, h]; rfl) id)))]
    rcases hb.updateY (J + 1) w f with ⟨e, he⟩ | he
    · exact .inl ⟨e, he _ _ _ hwd, he _ _ _ hwd⟩
    · exact .inr ⟨_, _, he _ _ _ hwd, he _ _ _ hwd, .inl ⟨rfl, rfl, hGG⟩⟩
  rcases hh with ⟨rfl, rfl, _⟩ | ⟨d0, hr, ha, hd0, hu, rfl, rfl, rfl⟩
  · exact hnone (.inl ⟨nan_vec (by omega), nan_vec (by omega)⟩)
  · cases hXr : X.mapM (vec? (J + 1)) with
    | none => exact hnone (.inr (.inl hXr))
    | some rows =>
    obtain ⟨hn, h0, rfl, h1⟩ := hX.finite hXr
    cases hwr : w.mapM Flt.real? with
    | none => exact hnone (.inr (.inr (.inr hwr)))
    | some wr =>
      cases hyr : y.mapM Flt.real? with
      | none => exact hnone (.inr (.inr (.inl hyr)))
      | some yr =>
        have hyr' : (y.map (Flt.plus δ)).mapM Flt.real? = some (yr.map (· + δ)) := by rw [mapM_real_plus, hyr]; rfl
        rw [updateY_width hwd (vec_ofVec _) (mapM_vec _) hyr hwr, updateY_width hwd (vec_ofVec _) (mapM_vec _) hyr' hwr]
        obtain ⟨d, e1, e2, e3⟩ := threeColumns rows yr wr ((real_length hyr).trans (hy.trans hn.symm))
          ((real_length hwr).trans (hw.trans hn.symm))
        subst e1 e2 e3
        have hd : NonnegWeights d := fun o ho => good_weights hwr hg _ (List.mem_map_of_mem ho)
        have hc := constantResponse_nonneg hd
        have hne : constantResponse d ≠ [] := by
          intro h
          rw [constantResponse, List.map_eq_nil_iff] at h
          exact h0 (by rw [h]; rfl)
        have hB := inverted_batch hf (constantResponse d) d0 hne hd0 hc hu
        rw [updateX_width hwd (mat_ofMat _) (mapM_vec _) hwr] at hG
        change (updateInvertedGram _ (xs d) f (.array (ws d))).map ofMat = _ at hG
        rw [← constantResponse_xs d, ← constantResponse_ws d, hB.2] at hG
        refine .inr ⟨_, _, rfl, rfl, .inr ⟨d0 ++ constantResponse d, _, ?_, hd0.append hc, hB.1, ?_, rfl, ?_⟩⟩
        · intro o ho
          rcases List.mem_append.1 ho with ho | ho
          · exact ha o ho
          · obtain ⟨a, ha, rfl⟩ := List.mem_map.1 ho
            exact ⟨h1 a.x (List.mem_map_of_mem (f := Obs.x) ha), rfl⟩
        · injection hG with hG
          exact hG.symm
        · rw [updateYGram_plus hf.le _ _ hd, updateYGram_initYGram hf.le d0 _ hd0 hc]

theorem fitBeta_origin (hf : f < 1) (ho : NanOrRaise other) {G : Arr2} {h h' : Arr1} (reg : List Bool) (hh : MovedCross J δ f G h h') :
    BothRel (fun r r' => MovedCoef J δ r.1 r'.1 ∧ r'.2 = r.2) ((packageMethods perm other).fitBeta .ols G h reg)
      ((packageMethods perm other).fitBeta .ols G h' reg) := by
  have hl := hh.length_eq
  rcases hh with ⟨rfl, rfl, _⟩ | ⟨d, hr, ha, hd, hu, rfl, rfl, rfl⟩
  · rw [fitBeta_other hl (.inr (nan_vec (by omega)))]
    rcases ho.fitBeta (J + 1) reg with ⟨e, he⟩ | he
    · exact .inl ⟨e, he _ _ hl, he _ _ hl⟩
    · exact .inr ⟨_, _, he _ _ hl, he _ _ hl, ⟨nan_first.symm, List.length_replicate⟩, rfl⟩
  · rw [fitBeta_width hl (mat_ofMat _) (vec_ofVec _), fitBeta_width hl (mat_ofMat _) (vec_ofVec _), olsBeta_first hf.le hd ha hu]
    exact .inr ⟨_, _, rfl, rfl, ⟨ofVec_first _, ofVec_length _⟩, rfl⟩

theorem updateBeta_origin (hf : f < 1) (ho : NanOrRaise other) {G : Arr2} {h h' : Arr1} (b b' : Arr1) (reg : List Bool)
    (hh : MovedCross J δ f G h h') :
    BothRel (fun r r' => MovedCoef J δ r.1 r'.1 ∧ r'.2 = r.2) ((packageMethods perm other).updateBeta .ols G h b reg)
      ((packageMethods perm other).updateBeta .ols G h' b' reg) := by
  have hl := hh.length_eq
  rcases hh with ⟨rfl, rfl, _⟩ | ⟨d, hr, ha, hd, hu, rfl, rfl, rfl⟩
  · rw [updateBeta_other hl (.inr (nan_vec (by omega))), updateBeta_other hl (.inr (nan_vec (by omega)))]
    rcases ho.updateBeta (J + 1) reg with ⟨e, he⟩ | he
    · exact .inl ⟨e, he _ _ _ hl, he _ _ _ hl⟩
    · exact .inr ⟨_, _, he _ _ _ hl, he _ _ _ hl, ⟨nan_first.symm, List.length_replicate⟩, rfl⟩
  · rw [updateBeta_finite hl (mat_ofMat _) (vec_ofVec _), updateBeta_finite hl (mat_ofMat _) (vec_ofVec _), olsBeta_first hf.le hd ha hu]
    exact .inr ⟨_, _, rfl, rfl, ⟨ofVec_first _, ofVec_length _⟩, rfl⟩

theorem mul_one_left (v : Flt) : Flt.mul (.fin 1) v = v := by
  cases v <;> simp [Flt.mul, Flt.infSigned, Flt.neg]

theorem dot_first (t : Arr1) (b : Flt) (bs : Arr1) : dot (.fin 1 :: t) (Flt.plus δ b :: bs) = Flt.plus δ (dot (.fin 1 :: t) (b :: bs)) := by
  unfold dot asum Dist.npSum
  rw [List.zipWith_cons_cons, List.zipWith_cons_cons, List.foldr_cons, List.foldr_cons, mul_one_left, mul_one_left, add_plus]

theorem predict_origin {n : ℕ} {X : Arr2} {b b' : Arr1} (hX : InterceptRows J n X) (hb : MovedCoef J δ b b') :
    matVec X b' = (matVec X b).map (List.map (Flt.plus δ)) := by
  obtain ⟨rfl, hl⟩ := hb
  cases b with
  | nil => simp at hl
  | cons b0 bs =>
    have h1 : ∀ x ∈ X, x.length = (b0 :: bs).length := fun x hx => by
      obtain ⟨t, rfl, ht⟩ := hX.2.2 x hx
      rw [hl, List.length_cons, ht]
    have h2 : ∀ x ∈ X, x.length = (interceptPlus δ (b0 :: bs)).length := h1
    unfold matVec
    rw [if_pos h1, if_pos h2]
    simp only [Except.map, List.map_map]
    congr 1
    refine List.map_congr_left fun x hx => ?_
    obtain ⟨t, rfl, _⟩ := hX.2.2 x hx
    exact dot_first t b0 bs

end Columns

theorem ols_origin (J : ℕ) (δ : ℝ) {f : ℝ} (hf : f < 1) (perm : ∀ J : ℕ, ℕ → ℕ → List (Fin J)) {other : MethodOps MethodState}
    (ho : NanOrRaise other) (hb : ResponseBlind other) :
    (originView J δ f).Respects δ f (· = .ols) (packageMethods perm other) where
  notPath := by rintro _ rfl; rfl
  init := by
    rintro _ n X y w G rfl hX hy hw hg hG
    exact init_origin hf ho hb hX hy hw hg hG
  update := by
    rintro _ n X y w G0 G h h' rfl hX hy hw hg hh hG
    exact update_origin hf ho hb hX hy hw hg hh hG
  fitBeta := by
    rintro _ G h h' reg rfl hh
    exact fitBeta_origin hf ho reg hh
  updateBeta := by
    rintro _ G h h' b b' reg rfl hh
    exact updateBeta_origin hf ho b b' reg hh
  fitKeeps := by
    rintro _ G h reg r rfl hr
    by_cases hn : mat? G.length G = none ∨ vec? G.length h = none
    · rw [fitBeta_other rfl hn] at hr
      rcases ho.fitBeta G.length reg with ⟨e, he⟩ | he
      · rw [he G h rfl] at hr
        cases hr
      · rw [he G h rfl] at hr
        cases hr
        rfl
    · push Not at hn
      obtain ⟨Gr, h1⟩ := Option.ne_none_iff_exists'.1 hn.1
      obtain ⟨hr', h2⟩ := Option.ne_none_iff_exists'.1 hn.2
      rw [fitBeta_width rfl h1 h2] at hr
      cases hr
      rfl
  updateKeeps := by
    rintro _ G h b reg r rfl hr
    by_cases hn : mat? G.length G = none ∨ vec? G.length h = none
    · rw [updateBeta_other rfl hn] at hr
      rcases ho.updateBeta G.length reg with ⟨e, he⟩ | he
      · rw [he G h b rfl] at hr
        cases hr
      · rw [he G h b rfl] at hr
        cases hr
        rfl
    · push Not at hn
      obtain ⟨Gr, h1⟩ := Option.ne_none_iff_exists'.1 hn.1
      obtain ⟨hr', h2⟩ := Option.ne_none_iff_exists'.1 hn.2
      rw [updateBeta_finite rfl h1 h2] at hr
      cases hr
      rfl
  predict := fun _ _ _ _ hX hb => predict_origin hX hb

end Ondil
