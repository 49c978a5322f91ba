import Verif.Spec.Coordinates
import Verif.Props.Fading
import Verif.Props.LinearModel

/-!
# C106: least squares does not depend on the coordinates
-/

open scoped BigOperators Matrix

namespace Ondil

variable {p : ℕ} {fi : Bool}

/-- The coefficients of the original features that give the same predictions. -/
def pullCoef : (fi : Bool) → Matrix (Fin p) (Fin p) ℝ → Row p → Row (designDim p fi) → Row (designDim p fi)
  | false, A, _, b => Matrix.vecMul (m := Fin p) b A
  | true, A, v, b => (Fin.cons (b (0 : Fin (p + 1)) + v ⬝ᵥ fun j : Fin p => b (j.succ : Fin (p + 1)))
      (Matrix.vecMul (fun j : Fin p => b (j.succ : Fin (p + 1))) A) : Fin (p + 1) → ℝ)

theorem linPred_recode (A : Matrix (Fin p) (Fin p) ℝ) (v : Row p) (hv : fi = false → v = 0) (x : Row p) (b : Row (designDim p fi)) :
    linPred (designRow fi (Row.recode A v x)) b = linPred (designRow fi x) (pullCoef fi A v b) := by
  cases fi with
  | false =>
    rw [hv rfl]
    have key : ∀ b : Row p, linPred (Row.recode A 0 x) b = linPred x (Matrix.vecMul b A) := by
      intro b
      unfold Row.recode
      rw [add_zero, linPred_eq_dotProduct, linPred_eq_dotProduct, dotProduct_comm, Matrix.dotProduct_mulVec, dotProduct_comm]
    exact key b
  | true =>
    change linPred (p := p + 1) (Fin.cons 1 (Row.recode A v x) : Fin (p + 1) → ℝ) b =
      linPred (p := p + 1) (Fin.cons 1 x : Fin (p + 1) → ℝ) (Fin.cons (b (0 : Fin (p + 1)) + v ⬝ᵥ fun j : Fin p => b (j.succ : Fin (p + 1)))
      (Matrix.vecMul (fun j : Fin p => b (j.succ : Fin (p + 1))) A) : Fin (p + 1) → ℝ)
    unfold linPred
    rw [Fin.sum_univ_succ, Fin.sum_univ_succ]
    simp only [Fin.cons_zero, Fin.cons_succ, one_mul]
    change b (0 : Fin (p + 1)) + (Row.recode A v x ⬝ᵥ fun j : Fin p => b (j.succ : Fin (p + 1))) =
      _ + (x ⬝ᵥ Matrix.vecMul (fun j : Fin p => b (j.succ : Fin (p + 1))) A)
    unfold Row.recode
    rw [add_dotProduct, dotProduct_comm (A *ᵥ x), Matrix.dotProduct_mulVec, dotProduct_comm x]
    ring

theorem pullCoef_left (A : Matrix (Fin p) (Fin p) ℝ) (hA : IsUnit A.det) (v : Row p) (b : Row (designDim p fi)) :
    pullCoef fi A v (pullCoef fi A⁻¹ (-(A⁻¹ *ᵥ v)) b) = b := by
  cases fi with
  | false =>
    have key : ∀ b : Row p, Matrix.vecMul (Matrix.vecMul b A⁻¹) A = b := by
      intro b
      rw [Matrix.vecMul_vecMul, Matrix.nonsing_inv_mul _ hA, Matrix.vecMul_one]
    exact key b
  | true =>
    set u : Fin p → ℝ := fun j : Fin p => b (j.succ : Fin (p + 1)) with hu
    change (Fin.cons ((b (0 : Fin (p + 1)) + -(A⁻¹ *ᵥ v) ⬝ᵥ u) + v ⬝ᵥ Matrix.vecMul u A⁻¹)
      (Matrix.vecMul (Matrix.vecMul u A⁻¹) A) : Fin (p + 1) → ℝ) = b
    rw [Matrix.vecMul_vecMul, Matrix.nonsing_inv_mul _ hA, Matrix.vecMul_one]
    funext j
    refine Fin.cases ?_ (fun i => ?_) j
    · rw [Fin.cons_zero, neg_dotProduct, dotProduct_comm v, ← Matrix.dotProduct_mulVec, dotProduct_comm u]
      ring
    · rw [Fin.cons_succ]

theorem pullCoef_right (A : Matrix (Fin p) (Fin p) ℝ) (hA : IsUnit A.det) (v : Row p) (b : Row (designDim p fi)) :
    pullCoef fi A⁻¹ (-(A⁻¹ *ᵥ v)) (pullCoef fi A v b) = b := by
  have hA' : IsUnit (A⁻¹).det := Matrix.isUnit_nonsing_inv_det A hA
  have := pullCoef_left A⁻¹ hA' (-(A⁻¹ *ᵥ v)) b
  rwa [Matrix.nonsing_inv_nonsing_inv A hA, Matrix.mulVec_neg, neg_neg, Matrix.mulVec_mulVec, Matrix.mul_nonsing_inv _ hA,
    Matrix.one_mulVec] at this

theorem pullCoef_zero (B : Matrix (Fin p) (Fin p) ℝ) (u : Row p) : pullCoef fi B u 0 = 0 := by
  cases fi with
  | false => exact Matrix.zero_vecMul (m := Fin p) B
  | true =>
    change (Fin.cons ((0 : ℝ) + u ⬝ᵥ (0 : Row p)) (Matrix.vecMul (0 : Row p) B) : Fin (p + 1) → ℝ) = 0
    rw [Matrix.zero_vecMul, dotProduct_zero, add_zero]
    funext j
    refine Fin.cases ?_ (fun i => ?_) j
    · rw [Fin.cons_zero]; rfl
    · rw [Fin.cons_succ]; rfl

theorem pullCoef_one (b : Row (designDim p fi)) : pullCoef fi (1 : Matrix (Fin p) (Fin p) ℝ) 0 b = b := by
  cases fi with
  | false => exact Matrix.vecMul_one (m := Fin p) b
  | true =>
    change (Fin.cons (b (0 : Fin (p + 1)) + (0 : Row p) ⬝ᵥ _) (Matrix.vecMul (fun j : Fin p => b (j.succ : Fin (p + 1))) 1) :
      Fin (p + 1) → ℝ) = b
    rw [Matrix.vecMul_one, zero_dotProduct, add_zero]
    funext j
    refine Fin.cases ?_ (fun i => ?_) j
    · rw [Fin.cons_zero]
    · rw [Fin.cons_succ]

theorem linPred_add' {q : ℕ} (x a b : Row q) : linPred x (a + b) = linPred x a + linPred x b := by
  simp only [linPred_eq_dotProduct, dotProduct_add]

theorem linPred_smul' {q : ℕ} (k : ℝ) (x a : Row q) : linPred x (k • a) = k * linPred x a := by
  simp only [linPred_eq_dotProduct, dotProduct_smul, smul_eq_mul]

section

variable {A : Matrix (Fin p) (Fin p) ℝ} {v : Row p} {k : ℝ} {g : Row (designDim p fi)}

theorem recode_nonneg {d : List (Obs p)} (h : NonnegWeights d) : NonnegWeights (d.map (Obs.recode fi A v k g)) := by
  intro o ho
  obtain ⟨o', ho', rfl⟩ := List.mem_map.1 ho
  exact h o' ho'

theorem ws_recode (d : List (Obs p)) : ws (d.map (Obs.recode fi A v k g)) = ws d := by
  simp [ws, Obs.recode]

theorem fullRank_recode (hA : IsUnit A.det) (hv : fi = false → v = 0) (d : List (Obs p)) :
    FullRank (plainObs fi (d.map (Obs.recode fi A v k g))) ↔ FullRank (plainObs fi d) := by
  have hmem : ∀ b : Row (designDim p fi), (∀ o ∈ plainObs fi (d.map (Obs.recode fi A v k g)), 0 < o.w → linPred o.x b = 0) ↔
      ∀ o ∈ plainObs fi d, 0 < o.w → linPred o.x (pullCoef fi A v b) = 0 := by
    intro b
    unfold plainObs
    simp only [List.mem_map, forall_exists_index, and_imp, forall_apply_eq_imp_iff₂]
    refine forall₂_congr fun o _ => ?_
    simp only [Obs.recode, linPred_recode A v hv]
  constructor
  · intro h b hb
    have := h (pullCoef fi A⁻¹ (-(A⁻¹ *ᵥ v)) b) ((hmem _).2 (by rw [pullCoef_left A hA]; exact hb))
    rw [← pullCoef_left A hA v b, this]
    exact pullCoef_zero A v
  · intro h b hb
    have h1 := h _ ((hmem b).1 hb)
    rw [← pullCoef_right A hA v b, h1]
    exact pullCoef_zero ..

/-- Whether least squares accepts the data does not depend on the coordinates. -/
theorem C106_accepted (hA : IsUnit A.det) (hv : fi = false → v = 0) (c : LMConfig p fi) (hm : c.method = .str "ols")
    (hs : c.scaleInputs = .off) (perm perm' : ℕ → ℕ → List (Fin (designDim p fi))) (data : List (Obs p)) (hw : NonnegWeights data)
    (s₀ s₀' : LM p fi) :
    (∃ s, LM.fit c perm data s₀ = (.ok (), s)) ↔ ∃ s, LM.fit c perm' (data.map (Obs.recode fi A v k g)) s₀' = (.ok (), s) := by
  have hm' : getEstimationMethod c.method = .ok .ols := by rw [hm]; exact getEstimationMethod_ols
  have hsel : c.scaleInputs.selection = none := by rw [hs]; rfl
  have key : ∀ (d d' : List (Obs p)) (perm perm' : ℕ → ℕ → List (Fin (designDim p fi))) (s s' : LM p fi), NonnegWeights d →
      NonnegWeights d' → ws d' = ws d → (FullRank (plainObs fi d) → FullRank (plainObs fi d')) →
      (∃ t, LM.fit c perm d s = (.ok (), t)) → ∃ t, LM.fit c perm' d' s' = (.ok (), t) := by
    rintro d d' perm perm' s s' hw hw' hww hr ⟨t, ht⟩
    obtain ⟨hv, h2, h3, h4, h5, m, sc, G, hm2, hsc, hG, _⟩ := LM.fit_ok ht
    have inv := OlsInv.of_fit hm' hw ht
    rw [designObs_off hsel] at inv
    have hlen : d'.length = d.length := by simpa [ws] using congrArg List.length hww
    have hu := (isUnit_det_iff_fullRank hv.2.1 _ (nonneg_plainObs hw')).2
      (hr ((isUnit_det_iff_fullRank hv.2.1 _ (nonneg_plainObs hw)).1 inv.isUnit))
    have hlen2 : ¬ (xs d).length < 2 := by
      intro h
      rw [hs] at hsc
      simp only [Scaler.fit, ToScale.selection, h, if_true] at hsc
      cases hsc
    refine LM.fit_ols_succeeds c perm' d' s' hv h2 ?_ (by rw [hww]; exact h4) (by rw [hww]; exact h5) hm'
      (.off (ws d').sum) ?_ (initGram (xs (plainObs fi d')) (ws (plainObs fi d')) c.forget)⁻¹ ?_
    · rintro (h | h)
      · exact h3 (.inl (List.length_eq_zero_iff.1 (by rw [← hlen, h]; rfl)))
      · exact h3 (.inr h)
    · rw [hs]
      have : ¬ (xs d').length < 2 := by
        simp only [xs, List.length_map] at hlen2 ⊢
        rw [hlen]; exact hlen2
      simp only [Scaler.fit, ToScale.selection, this, if_false]
    · have h1 : scaledDesign fi (Scaler.off (ws d').sum) (xs d') = xs (plainObs fi d') := by
        simp [scaledDesign, Scaler.transform, xs, plainObs]
      have h2 : ws (plainObs fi d') = ws d' := by simp [ws, plainObs]
      rw [h1, ← h2]
      exact initInvertedGram_of_isUnit hu
  constructor
  · exact key _ _ _ _ _ _ hw (recode_nonneg hw) (ws_recode data) (fullRank_recode hA hv data).2
  · exact key _ _ _ _ _ _ (recode_nonneg hw) hw (ws_recode data).symm (fullRank_recode hA hv data).1

theorem discSSE_recode (hv : fi = false → v = 0) (f : ℝ) (d : List (Obs p)) (b b' : Row (designDim p fi))
    (hb : pullCoef fi A v b' = k • b + g) :
    discSSE f (plainObs fi (d.map (Obs.recode fi A v k g))) b' = k ^ 2 * discSSE f (plainObs fi d) b := by
  unfold discSSE plainObs
  rw [List.map_map, discSum_map, discSum_map, ← discSum_mul_left]
  refine discSum_congr _ _ fun o _ => ?_
  simp only [Function.comp, Obs.recode]
  rw [linPred_recode A v hv, hb, linPred_add', linPred_smul']
  ring

theorem isLeastSquares_recode (hA : IsUnit A.det) (hv : fi = false → v = 0) (hk : k ≠ 0) {f : ℝ} {d : List (Obs p)}
    {b b' : Row (designDim p fi)} (hb : pullCoef fi A v b' = k • b + g) (h : IsLeastSquares f (plainObs fi d) b) :
    IsLeastSquares f (plainObs fi (d.map (Obs.recode fi A v k g))) b' := by
  intro c hc
  set a : Row (designDim p fi) := k⁻¹ • (pullCoef fi A v c - g) with ha
  have hca : pullCoef fi A v c = k • a + g := by
    rw [ha, smul_smul, mul_inv_cancel₀ hk, one_smul, sub_add_cancel]
  rw [discSSE_recode hv f d b b' hb, discSSE_recode hv f d a c hca]
  refine mul_lt_mul_of_pos_left (h a fun hab => hc ?_) (by positivity)
  rw [← pullCoef_right A hA v c, hca, hab, ← hb, pullCoef_right A hA v]

/-- Least squares without scaling, fitted and updated with data in other coordinates: `A x + v` for the features `x`, with an
invertible matrix `A`, and `k y + g · x` for the response `y`.  All calls succeed alike, and the predictions are those of the
original model in the new coordinates.  If only the response changes, the coefficients `b` become `k b + g`. -/
theorem C106_coordinates (hA : IsUnit A.det) (hv : fi = false → v = 0) (hk : k ≠ 0) (c : LMConfig p fi) (hm : c.method = .str "ols")
    (hs : c.scaleInputs = .off) (rng rng' : ℕ → ℕ → ℕ → List (Fin (designDim p fi)))
    (perm perm' : ℕ → ℕ → List (Fin (designDim p fi))) (data : List (Obs p)) (batches : List (List (Obs p)))
    (hne : ∀ b ∈ batches, b ≠ []) (hi : NonnegWeights data) (hb : ∀ b ∈ batches, NonnegWeights b) (s₀ s₀' s s' : LM p fi)
    (hfit : LM.fit c perm data s₀ = (.ok (), s))
    (hfit' : LM.fit c perm' (data.map (Obs.recode fi A v k g)) s₀' = (.ok (), s')) :
    ∃ (t t' : LM p fi) (b b' : Row (designDim p fi)), LM.updates c rng 0 batches s = (.ok (), t) ∧
      LM.updates c rng' 0 (batches.map fun d => d.map (Obs.recode fi A v k g)) s' = (.ok (), t') ∧
      t.coef = some b ∧ t'.coef = some b' ∧ (A = 1 → v = 0 → b' = k • b + g) ∧
      ∀ X, t.predict X = .ok (X.map fun x => linPred (designRow fi x) b) ∧
        t'.predict (X.map (Row.recode A v)) = .ok (X.map fun x => k * linPred (designRow fi x) b + linPred (designRow fi x) g) := by
  have hm' : getEstimationMethod c.method = .ok .ols := by rw [hm]; exact getEstimationMethod_ols
  have hsel : c.scaleInputs.selection = none := by rw [hs]; rfl
  obtain ⟨hval, _, h3, _⟩ := LM.fit_ok hfit
  have run : ∀ (d : List (Obs p)) (bs : List (List (Obs p))) (rng : ℕ → ℕ → ℕ → List (Fin (designDim p fi)))
      (perm : ℕ → ℕ → List (Fin (designDim p fi))) (s₀ s : LM p fi), (∀ b ∈ bs, b ≠ []) → NonnegWeights d →
      (∀ b ∈ bs, NonnegWeights b) → LM.fit c perm d s₀ = (.ok (), s) → ∃ t b, LM.updates c rng 0 bs s = (.ok (), t) ∧
        t.coef = some b ∧ IsLeastSquares c.forget (plainObs fi (d ++ bs.flatten)) b ∧
        ∀ X, t.predict X = .ok (X.map fun x => linPred (designRow fi x) b) := by
    intro d bs rng perm s₀ s h1 h2 h4 h5
    have inv0 := OlsInv.of_fit hm' h2 h5
    obtain ⟨t, ht, inv⟩ := inv0.updates hval (fun h => h3 (.inr h)) rng bs h1 h4 0
    rw [designObs_off hsel, mixedDesign_off hsel] at inv
    obtain ⟨b, hb1, hb2⟩ := inv.leastSquares hval
    obtain ⟨t', b', ht', hb', _, hp⟩ := ols_run c hm hs rng perm h1 h2 h4 h5
    rw [ht] at ht'
    cases ht'
    rw [hb1] at hb'
    cases hb'
    refine ⟨t, b, ht, hb1, ?_, hp⟩
    rw [show plainObs fi (d ++ bs.flatten) = plainObs fi d ++ plainObs fi bs.flatten by simp [plainObs]]
    exact hb2
  obtain ⟨t, b, ht, hbt, hls, hp⟩ := run data batches rng perm s₀ s hne hi hb hfit
  obtain ⟨t', b', ht', hbt', hls', hp'⟩ := run (data.map (Obs.recode fi A v k g)) (batches.map fun d => d.map (Obs.recode fi A v k g))
    rng' perm' s₀' s' (by
      intro x hx
      obtain ⟨y, hy, rfl⟩ := List.mem_map.1 hx
      simpa using hne y hy) (recode_nonneg hi) (by
      intro x hx
      obtain ⟨y, hy, rfl⟩ := List.mem_map.1 hx
      exact recode_nonneg (hb y hy)) hfit'
  have hflat : data.map (Obs.recode fi A v k g) ++ (batches.map fun d => d.map (Obs.recode fi A v k g)).flatten =
      (data ++ batches.flatten).map (Obs.recode fi A v k g) := by
    rw [List.map_append, List.map_flatten]
  rw [hflat] at hls'
  have hc := pullCoef_left A hA v (k • b + g)
  have hls2 := isLeastSquares_recode hA hv hk hc hls
  have hbb : b' = pullCoef fi A⁻¹ (-(A⁻¹ *ᵥ v)) (k • b + g) := by
    by_contra hne
    exact lt_asymm (hls2 b' hne) (hls' _ (Ne.symm hne))
  have hpull : pullCoef fi A v b' = k • b + g := by rw [hbb, hc]
  refine ⟨t, t', b, b', ht, ht', hbt, hbt', ?_, fun X => ⟨hp X, ?_⟩⟩
  · rintro rfl rfl
    rw [← hpull, pullCoef_one]
  · rw [hp', List.map_map]
    refine congrArg Except.ok (List.map_congr_left fun x _ => ?_)
    simp only [Function.comp]
    rw [linPred_recode A v hv, hpull, linPred_add', linPred_smul']

end

/-- A line through four points with an update, the feature in degrees Fahrenheit instead of Celsius, and the feature subtracted
from the response. -/
example (perm : ℕ → ℕ → List (Fin (designDim 1 true))) (rng : ℕ → ℕ → ℕ → List (Fin (designDim 1 true))) :
    ∃ (s s' t t' : LM 1 true) (f : Row 1 → ℝ),
      LM.fit (olsConfig .off) perm lineInit (LM.new 1 true) = (.ok (), s) ∧
      LM.fit (olsConfig .off) perm (lineInit.map (Obs.recode true !![9 / 5] ![32] 1 (![0, -1] : Fin 2 → ℝ))) (LM.new 1 true) =
        (.ok (), s') ∧
      LM.updates (olsConfig .off) rng 0 [lineInit] s = (.ok (), t) ∧
      LM.updates (olsConfig .off) rng 0 [lineInit.map (Obs.recode true !![9 / 5] ![32] 1 (![0, -1] : Fin 2 → ℝ))] s' = (.ok (), t') ∧
      ∀ X, t.predict X = .ok (X.map f) ∧ t'.predict (X.map (Row.recode !![9 / 5] ![32])) = .ok (X.map fun x => f x - x 0) := by
  have hA : IsUnit (!![9 / 5] : Matrix (Fin 1) (Fin 1) ℝ).det := by
    rw [Matrix.det_fin_one]
    norm_num
  obtain ⟨s, hs⟩ := lineInit_fit perm .off (.inr rfl) (LM.new 1 true)
  obtain ⟨s', hs'⟩ := (C106_accepted (fi := true) (k := 1) (v := ![32]) (g := (![0, -1] : Fin 2 → ℝ)) hA (fun h => by cases h) (olsConfig .off) rfl
    rfl perm perm lineInit lineInit_nonneg (LM.new 1 true) (LM.new 1 true)).1 ⟨s, hs⟩
  obtain ⟨t, t', b, b', h1, h2, _, _, _, h3⟩ := C106_coordinates (fi := true) (k := 1) (v := ![32]) (g := (![0, -1] : Fin 2 → ℝ)) hA
    (fun h => by cases h) one_ne_zero (olsConfig .off) rfl rfl rng rng perm perm lineInit [lineInit]
    (by intro b hb; rw [List.mem_singleton] at hb; subst hb; simp [lineInit]) lineInit_nonneg
    (by intro b hb; rw [List.mem_singleton] at hb; subst hb; exact lineInit_nonneg) _ _ s s' hs hs'
  refine ⟨s, s', t, t', fun x => linPred (designRow true x) b, hs, hs', h1, h2, fun X => ⟨(h3 X).1, ?_⟩⟩
  rw [(h3 X).2]
  refine congrArg Except.ok (List.map_congr_left fun x _ => ?_)
  have : linPred (designRow true x) (![0, -1] : Fin 2 → ℝ) = -x 0 := by
    change ∑ j : Fin 2, (Fin.cons 1 x : Fin 2 → ℝ) j * (![0, -1] : Fin 2 → ℝ) j = _
    rw [Fin.sum_univ_two]
    simp
  rw [this]
  ring

end Ondil
