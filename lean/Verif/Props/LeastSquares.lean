import Verif.Lemmas.LinearModelOls
import Mathlib.Tactic.FinCases

/-!
# Properties C08–C11: least squares and the linear model
-/

open scoped BigOperators Matrix

namespace Ondil

variable {p : ℕ} {fi : Bool}

/-! ## C08 Online least squares minimises the discounted weighted squared error -/

/-- **C08.** Initial data of full rank and any sequence of updates: no exception occurs, and
`x_gram @ y_gram` is the unique minimiser of the discounted weighted squared error over all data. -/
theorem C08_least_squares {forget : ℝ} (hf : forget < 1) (init : List (Obs p))
    (batches : List (List (Obs p))) (hne : ∀ b ∈ batches, b ≠ []) (hi : NonnegWeights init)
    (hb : ∀ b ∈ batches, NonnegWeights b) (hr : FullRank init) :
    ∃ M, onlineInvertedGram forget init batches = .ok M ∧
      IsLeastSquares forget (init ++ batches.flatten)
        (olsBeta M (onlineYGram forget init batches)) := by
  have hu := (isUnit_det_iff_fullRank hf init hi).2 hr
  obtain ⟨h1, h2⟩ := foldlM_inverted hf init batches hne hi hb hu
  refine ⟨(initGram (xs (init ++ batches.flatten)) (ws (init ++ batches.flatten)) forget)⁻¹, ?_, ?_⟩
  · unfold onlineInvertedGram
    rw [initInvertedGram_of_isUnit hu]
    exact h2
  · have hw : NonnegWeights (init ++ batches.flatten) := by
      refine hi.append fun o ho => ?_
      obtain ⟨b, hb1, hb2⟩ := List.mem_flatten.1 ho
      exact hb b hb1 o hb2
    refine isLeastSquares_of_normal hf _ hw _ h1 ?_
    rw [C03_online_eq_batch_y hf.le init batches hne hi hb]
    unfold olsBeta
    rw [Matrix.mulVec_mulVec, Matrix.mul_nonsing_inv _ h1, Matrix.one_mulVec]

/-- **C08.** Data that are exactly linear are recovered exactly. -/
theorem C08_exact_recovery {forget : ℝ} (hf : forget < 1) (init : List (Obs p))
    (batches : List (List (Obs p))) (hne : ∀ b ∈ batches, b ≠ []) (hi : NonnegWeights init)
    (hb : ∀ b ∈ batches, NonnegWeights b) (hr : FullRank init) (b : Row p)
    (hlin : ∀ o ∈ init ++ batches.flatten, o.y = linPred o.x b) :
    ∃ M, onlineInvertedGram forget init batches = .ok M ∧
      olsBeta M (onlineYGram forget init batches) = b := by
  obtain ⟨M, hM, hmin⟩ := C08_least_squares hf init batches hne hi hb hr
  refine ⟨M, hM, ?_⟩
  by_contra hcon
  have h1 := hmin b (Ne.symm hcon)
  have h0 : discSSE forget (init ++ batches.flatten) b = 0 := by
    unfold discSSE
    rw [discSum_congr (k := fun _ => 0) _ _ (fun o ho => ?_), discSum_zero]
    rw [hlin o ho]; ring
  have hw : NonnegWeights (init ++ batches.flatten) := by
    refine hi.append fun o ho => ?_
    obtain ⟨b, hb1, hb2⟩ := List.mem_flatten.1 ho
    exact hb b hb1 o hb2
  have h2 : 0 ≤ discSSE forget (init ++ batches.flatten)
      (olsBeta M (onlineYGram forget init batches)) :=
    discSum_nonneg hf.le _ fun o ho => mul_nonneg (hw o ho) (sq_nonneg _)
  linarith

/-- Non-vacuity of C08: `exHist` has full rank. -/
theorem exHist_fullRank : FullRank exHist := by
  intro v hv
  have h1 := hv ⟨![1, 2], 3, 1⟩ (by simp [exHist]) (by norm_num)
  have h2 := hv ⟨![1, 0], 1, 2⟩ (by simp [exHist]) (by norm_num)
  simp [linPred] at h1 h2
  funext j
  fin_cases j
  · exact h2
  · have : v 1 = 0 := by linarith
    exact this

example : ∃ M, onlineInvertedGram (1/2) exHist [exHist] = .ok M ∧
    IsLeastSquares (1/2) (exHist ++ exHist) (olsBeta M (onlineYGram (1/2) exHist [exHist])) := by
  have := C08_least_squares (by norm_num : (1/2:ℝ) < 1) exHist [exHist] (by simp [exHist])
    exHist_nonneg (by simpa using exHist_nonneg) exHist_fullRank
  simpa using this

/-! ## C09 Online fit equals batch refit without scaling -/

theorem nonneg_sum_ws {h : List (Obs p)} (hw : NonnegWeights h) : 0 ≤ (ws h).sum :=
  List.sum_nonneg (by
    intro x hx
    simp only [ws, List.mem_map] at hx
    obtain ⟨o, ho, rfl⟩ := hx
    exact hw o ho)

theorem nonneg_flatten {bs : List (List (Obs p))} (hb : ∀ b ∈ bs, NonnegWeights b) :
    NonnegWeights bs.flatten := by
  intro o ho
  obtain ⟨b, hb1, hb2⟩ := List.mem_flatten.1 ho
  exact hb b hb1 o hb2

/-- **C09.** With `method='ols'` and `scale_inputs=False`: if `fit` accepts the initial data, then all
updates succeed, one `fit` on all data succeeds, and both have the same coefficients and the same
predictions.  `s₀`, `s₁` are arbitrary previous states of the two objects. -/
theorem C09_online_eq_batch (c : LMConfig p fi) (hm : c.method = .str "ols")
    (hs : c.scaleInputs = .off) (rng : ℕ → ℕ → ℕ → List (Fin (designDim p fi)))
    (perm perm' : ℕ → ℕ → List (Fin (designDim p fi))) (init : List (Obs p))
    (batches : List (List (Obs p))) (hne : ∀ b ∈ batches, b ≠ []) (hi : NonnegWeights init)
    (hb : ∀ b ∈ batches, NonnegWeights b) (s₀ s₁ s : LM p fi)
    (hfit : LM.fit c perm init s₀ = (.ok (), s)) :
    ∃ sOnline sBatch, LM.updates c rng 0 batches s = (.ok (), sOnline) ∧
      LM.fit c perm' (init ++ batches.flatten) s₁ = (.ok (), sBatch) ∧
      sOnline.coef = sBatch.coef ∧ (∃ b, sOnline.coef = some b) ∧
      ∀ X, sOnline.predict X = sBatch.predict X := by
  have hm' : getEstimationMethod c.method = .ok .ols := by rw [hm]; exact getEstimationMethod_ols
  have hsel : c.scaleInputs.selection = none := by rw [hs]; rfl
  obtain ⟨hv, h2, h3, h4, h5, _, sc, _, _, hsc, _⟩ := LM.fit_ok hfit
  have inv0 := OlsInv.of_fit hm' hi hfit
  obtain ⟨s', hs', inv'⟩ := inv0.updates hv (fun h => h3 (.inr h)) rng batches hne hb 0
  rw [designObs_off hsel, mixedDesign_off hsel] at inv'
  have hpl : plainObs fi init ++ plainObs fi batches.flatten =
      plainObs fi (init ++ batches.flatten) := by simp [plainObs]
  rw [hpl] at inv'
  obtain ⟨hlen, _, _⟩ := scaler_fit_ok _ _ _ _ hsc
  have hsum : (ws init).sum ≤ (ws (init ++ batches.flatten)).sum := by
    rw [ws_append, List.sum_append]
    linarith [nonneg_sum_ws (nonneg_flatten hb)]
  have hgt : (designDim p fi : ℝ) < (ws init).sum := by
    by_contra hcon
    exact h4 ⟨not_lt.1 hcon, hm⟩
  have hdim : (1 : ℝ) ≤ designDim p fi := by
    have : 1 ≤ designDim p fi := by
      cases fi
      · exact Nat.one_le_iff_ne_zero.2 fun h => h3 (.inr h)
      · exact Nat.le_add_left 1 p
    exact_mod_cast this
  have hX : scaledDesign fi (canonSc c.scaleInputs c.forget (init ++ batches.flatten))
      (xs (init ++ batches.flatten)) = xs (plainObs fi (init ++ batches.flatten)) := by
    rw [scaledDesign_canon, designObs_off hsel]
  have hW : ws (init ++ batches.flatten) = ws (plainObs fi (init ++ batches.flatten)) := by
    simp only [ws, plainObs, List.map_map]; rfl
  obtain ⟨sB, hsB⟩ := LM.fit_ols_succeeds c perm' (init ++ batches.flatten) s₁ hv h2
    (by
      rintro (h | h)
      · rw [List.append_eq_nil_iff] at h; exact h3 (.inl h.1)
      · exact h3 (.inr h))
    (fun h => by linarith [h.1]) (by intro h; linarith) hm' _
    (scaler_fit_canon _ _ _ (by rw [List.length_append]; omega) (.inl hsel))
    _ (by rw [hX, hW]; exact initInvertedGram_of_isUnit inv'.isUnit)
  have invB := OlsInv.of_fit hm' (hi.append (nonneg_flatten hb)) hsB
  rw [designObs_off hsel] at invB
  have hcoef : s'.coef = sB.coef := by rw [inv'.coef, invB.coef]
  refine ⟨s', sB, hs', hsB, hcoef, ⟨_, inv'.coef⟩, fun X => ?_⟩
  unfold LM.predict
  rw [hcoef, inv'.scaler, invB.scaler]

/-- **C09.** Hence the chunking does not matter: two ways to cut a stream into an accepted initial data
set and batches give the same predictions. -/
theorem C09_chunking_irrelevant (c : LMConfig p fi) (hm : c.method = .str "ols")
    (hs : c.scaleInputs = .off) (rng rng' : ℕ → ℕ → ℕ → List (Fin (designDim p fi)))
    (perm perm' : ℕ → ℕ → List (Fin (designDim p fi))) (init init' : List (Obs p))
    (bs bs' : List (List (Obs p))) (hne : ∀ b ∈ bs, b ≠ []) (hne' : ∀ b ∈ bs', b ≠ [])
    (hsame : init ++ bs.flatten = init' ++ bs'.flatten)
    (hw : NonnegWeights (init ++ bs.flatten)) (s₀ s₀' s s' t t' : LM p fi)
    (hfit : LM.fit c perm init s₀ = (.ok (), s)) (hfit' : LM.fit c perm' init' s₀' = (.ok (), s'))
    (ht : LM.updates c rng 0 bs s = (.ok (), t)) (ht' : LM.updates c rng' 0 bs' s' = (.ok (), t'))
    (X : List (Row p)) : t.predict X = t'.predict X ∧ t.coef = t'.coef := by
  obtain ⟨h1, h2⟩ := nonneg_of_flatten hw
  obtain ⟨h1', h2'⟩ := nonneg_of_flatten (hsame ▸ hw)
  obtain ⟨a, b, q1, q2, q3, _, q4⟩ :=
    C09_online_eq_batch c hm hs rng perm perm init bs hne h1 h2 s₀ s₀ s hfit
  obtain ⟨a', b', r1, r2, r3, _, r4⟩ :=
    C09_online_eq_batch c hm hs rng' perm' perm init' bs' hne' h1' h2' s₀' s₀ s' hfit'
  rw [ht] at q1; cases q1
  rw [ht'] at r1; cases r1
  rw [hsame, r2] at q2
  cases q2
  exact ⟨by rw [q4, r4], by rw [q3, r3]⟩

/-! ## C11 Scaling the inputs does not change a least squares fit -/

/-- Shift and scale used for column `j`. -/
theorem standardise_affine {t : ToScale p} {forget : ℝ} {h : List (Obs p)}
    (hv : ∀ j, t.Selects j → 0 < ewVar forget h j) :
    ∃ mu sigma : Row p, (∀ j, 0 < sigma j) ∧
      ∀ x j, standardise t forget h x j = (x j - mu j) / sigma j := by
  classical
  refine ⟨fun j => if t.Selects j then ewMean forget h j else 0,
    fun j => if t.Selects j then Real.sqrt (ewVar forget h j) else 1, fun j => ?_, fun x j => ?_⟩
  · by_cases hj : t.Selects j
    · simp only [if_pos hj]; exact Real.sqrt_pos.2 (hv j hj)
    · simp only [if_neg hj]; norm_num
  · unfold standardise
    by_cases hj : t.Selects j
    · simp only [if_pos hj]
    · simp only [if_neg hj]; simp

/-- Coefficients on the original scale that predict the same as `b` on the standardised scale. -/
noncomputable def unscaleCoef (mu sigma : Row p) (b : Row (p + 1)) : Row (p + 1) :=
  Fin.cons (b 0 - ∑ j : Fin p, mu j / sigma j * b j.succ) fun j : Fin p => b j.succ / sigma j

/-- The inverse map. -/
noncomputable def scaleCoef (mu sigma : Row p) (b : Row (p + 1)) : Row (p + 1) :=
  Fin.cons (b 0 + ∑ j : Fin p, mu j * b j.succ) fun j : Fin p => b j.succ * sigma j

theorem unscale_scale (mu sigma : Row p) (hs : ∀ j, 0 < sigma j) (b : Row (p + 1)) :
    unscaleCoef mu sigma (scaleCoef mu sigma b) = b := by
  funext i
  refine Fin.cases ?_ (fun j => ?_) i
  · simp only [unscaleCoef, scaleCoef, Fin.cons_zero, Fin.cons_succ]
    have : ∑ j : Fin p, mu j / sigma j * (b j.succ * sigma j) = ∑ j : Fin p, mu j * b j.succ :=
      Finset.sum_congr rfl fun j _ => by have := (hs j).ne'; field_simp
    rw [this]; ring
  · simp only [unscaleCoef, scaleCoef, Fin.cons_succ]
    have := (hs j).ne'
    field_simp

theorem scale_unscale (mu sigma : Row p) (hs : ∀ j, 0 < sigma j) (b : Row (p + 1)) :
    scaleCoef mu sigma (unscaleCoef mu sigma b) = b := by
  funext i
  refine Fin.cases ?_ (fun j => ?_) i
  · simp only [unscaleCoef, scaleCoef, Fin.cons_zero, Fin.cons_succ]
    have : ∑ j : Fin p, mu j * (b j.succ / sigma j) = ∑ j : Fin p, mu j / sigma j * b j.succ :=
      Finset.sum_congr rfl fun j _ => by have := (hs j).ne'; field_simp
    rw [this]; ring
  · simp only [unscaleCoef, scaleCoef, Fin.cons_succ]
    have := (hs j).ne'
    field_simp

theorem scaleCoef_zero (mu sigma : Row p) : scaleCoef mu sigma 0 = 0 := by
  funext i
  refine Fin.cases ?_ (fun j => ?_) i
  · simp [scaleCoef]
  · simp [scaleCoef]

theorem linPred_unscale (mu sigma : Row p) (hs : ∀ j, 0 < sigma j) (x z : Row p)
    (hz : ∀ j, z j = (x j - mu j) / sigma j) (b : Row (p + 1)) :
    linPred (Fin.cons 1 z : Row (p + 1)) b = linPred (Fin.cons 1 x : Row (p + 1)) (unscaleCoef mu sigma b) := by
  simp only [linPred, Fin.sum_univ_succ, Fin.cons_zero, Fin.cons_succ, unscaleCoef]
  have : ∑ j : Fin p, z j * b j.succ =
      ∑ j : Fin p, x j * (b j.succ / sigma j) - ∑ j : Fin p, mu j / sigma j * b j.succ := by
    rw [← Finset.sum_sub_distrib]
    exact Finset.sum_congr rfl fun j _ => by rw [hz]; have := (hs j).ne'; field_simp
  rw [this]; ring

/-- **C11.** One fit with an intercept: if the fit without scaling is accepted and all scaled columns
have positive variance, then the fit with scaling is accepted too and predicts the same for every `X`. -/
theorem C11_scaling_irrelevant (c : LMConfig p true) (hm : getEstimationMethod c.method = .ok .ols)
    (perm perm' : ℕ → ℕ → List (Fin (designDim p true))) (data : List (Obs p))
    (hw : NonnegWeights data) (hW : 0 < totalWeight c.forget data)
    (hv : ∀ j, c.scaleInputs.Selects j → 0 < ewVar c.forget data j)
    (s₀ s₁ s : LM p true)
    (hfit : LM.fit { c with scaleInputs := .off } perm data s₀ = (.ok (), s)) :
    ∃ s', LM.fit c perm' data s₁ = (.ok (), s') ∧
      ∀ X, s'.predict X = s.predict X ∧ ∃ y, s.predict X = .ok y := by
  obtain ⟨hval, h2, h3, h4, h5, _, sc, _, _, hsc, _⟩ := LM.fit_ok hfit
  have inv0 := OlsInv.of_fit (c := { c with scaleInputs := .off }) hm hw hfit
  have hval' : c.Valid := hval
  have hf : c.forget < 1 := hval.2.1
  obtain ⟨hlen, _, _⟩ := scaler_fit_ok _ _ _ _ hsc
  obtain ⟨mu, sigma, hsig, haff⟩ := standardise_affine hv
  set d0 := plainObs true data with hd0
  set d1 := designObs c.scaleInputs c.forget true data data with hd1
  have e0 : designObs (ToScale.off : ToScale p) c.forget true data data = d0 := designObs_off rfl _ _ _
  have hd0n : NonnegWeights d0 := by rw [← e0]; exact designObs_nonneg _ _ _ _ hw
  have hd1n : NonnegWeights d1 := designObs_nonneg _ _ _ _ hw
  have hpred : ∀ (x : Row p) (b : Row (p + 1)),
      linPred (designRow true (standardise c.scaleInputs c.forget data x)) b =
        linPred (designRow true x) (unscaleCoef mu sigma b) :=
    fun x b => linPred_unscale mu sigma hsig x _ (haff x) b
  have hSSE : ∀ b : Row (p + 1), discSSE c.forget d1 b = discSSE c.forget d0 (unscaleCoef mu sigma b) := by
    intro b
    unfold discSSE
    rw [hd1, hd0]
    unfold designObs plainObs
    rw [discSum_map, discSum_map]
    refine discSum_congr _ _ fun o _ => ?_
    simp only [hpred]
  have inv0' : OlsInv { c with scaleInputs := .off } data d0 s := by
    have := inv0; rw [e0] at this; exact this
  have hfr0 : FullRank d0 := (isUnit_det_iff_fullRank hf d0 hd0n).1 inv0'.isUnit
  have hfr1 : FullRank d1 := by
    intro v hv'
    have : unscaleCoef mu sigma v = (0 : Row (p + 1)) := by
      refine hfr0 _ fun o ho hpos => ?_
      rw [hd0, plainObs, List.mem_map] at ho
      obtain ⟨o', ho', rfl⟩ := ho
      have := hv' ⟨designRow true (standardise c.scaleInputs c.forget data o'.x), o'.y, o'.w⟩
        (by rw [hd1, designObs, List.mem_map]; exact ⟨o', ho', rfl⟩) hpos
      rw [← this]
      exact (hpred o'.x v).symm
    have h0 := scale_unscale mu sigma hsig v
    rw [this] at h0
    rw [scaleCoef_zero] at h0
    exact h0.symm
  have hX : scaledDesign true (canonSc c.scaleInputs c.forget data) (xs data) = xs d1 :=
    scaledDesign_canon _ _ _ _
  have hWs : ws data = ws d1 := (ws_designObs _ _ _ _).symm
  obtain ⟨s', hs'⟩ := LM.fit_ols_succeeds c perm' data s₁ hval' h2 h3 h4 h5 hm _
    (scaler_fit_canon _ _ _ hlen (.inr hW.ne')) _
    (by rw [hX, hWs]; exact initInvertedGram_of_isUnit ((isUnit_det_iff_fullRank hf d1 hd1n).2 hfr1))
  have inv1 := OlsInv.of_fit hm hw hs'
  obtain ⟨b0, hb0, hls0⟩ := inv0'.leastSquares hval
  obtain ⟨b1, hb1, hls1⟩ := inv1.leastSquares hval'
  have hb : b0 = unscaleCoef mu sigma b1 := by
    refine isLeastSquares_unique hls0 ?_
    intro b' hne'
    have hne2 : scaleCoef mu sigma b' ≠ b1 := by
      intro h; apply hne'; rw [← h]; exact (unscale_scale mu sigma hsig b').symm
    have h6 : discSSE c.forget d1 b1 < discSSE c.forget d1 (scaleCoef mu sigma b') := hls1 _ hne2
    calc discSSE c.forget d0 (unscaleCoef mu sigma b1) = discSSE c.forget d1 b1 := (hSSE b1).symm
      _ < discSSE c.forget d1 (scaleCoef mu sigma b') := h6
      _ = discSSE c.forget d0 b' := (hSSE _).trans
        (congrArg (discSSE c.forget d0) (unscale_scale mu sigma hsig b'))
  refine ⟨s', hs', fun X => ?_⟩
  unfold LM.predict
  rw [hb0, hb1, inv0'.scaler, inv1.scaler]
  refine ⟨?_, _, rfl⟩
  simp only [scaledDesign, transform_canon, List.map_map]
  congr 1
  refine List.map_congr_left fun x _ => ?_
  have h1 := hpred x b1
  simp only [Function.comp]
  rw [standardise_off (t := ToScale.off) rfl, hb]
  exact h1

/-! ## Concrete case for C09, C10 and C11 -/

/-- Four points on the line `y = x`. -/
noncomputable def lineInit : List (Obs 1) :=
  [⟨fun _ => -1, -1, 1⟩, ⟨fun _ => -1, -1, 1⟩, ⟨fun _ => 1, 1, 1⟩, ⟨fun _ => 1, 1, 1⟩]

/-- A fifth point on the same line. -/
noncomputable def lineNew : List (Obs 1) := [⟨fun _ => 2, 2, 1⟩]

/-- `OnlineLinearModel(method="ols", scale_inputs=t)`, everything else default. -/
noncomputable def olsConfig (t : ToScale 1) : LMConfig 1 true :=
  { forget := 0, scaleInputs := t, regularizeIntercept := false, method := .str "ols", ic := .bic }

theorem olsConfig_valid (t : ToScale 1) : (olsConfig t).Valid := by
  refine ⟨le_refl _, by norm_num [olsConfig], by simp [olsConfig], by simp [olsConfig]⟩

theorem lineInit_nonneg : NonnegWeights lineInit := by
  intro o ho
  simp only [lineInit, List.mem_cons, List.not_mem_nil, or_false] at ho
  rcases ho with rfl | rfl | rfl | rfl <;> norm_num

theorem lineNew_nonneg : NonnegWeights lineNew := by
  intro o ho
  simp only [lineNew, List.mem_cons, List.not_mem_nil, or_false] at ho
  subst ho; norm_num

theorem lineInit_moments (j : Fin 1) : ewMean 0 lineInit j = 0 ∧ ewVar 0 lineInit j = 1 := by
  have h1 : ewMean 0 lineInit j = 0 := by
    simp [ewMean, lineInit, discSum_cons]
  refine ⟨h1, ?_⟩
  simp only [ewVar, h1, totalWeight]
  simp [lineInit, discSum_cons]
  norm_num

theorem lineAll_moments (j : Fin 1) :
    ewMean 0 (lineInit ++ lineNew) j = 2 / 5 ∧ ewVar 0 (lineInit ++ lineNew) j = 36 / 25 := by
  have h1 : ewMean 0 (lineInit ++ lineNew) j = 2 / 5 := by
    simp [ewMean, totalWeight, lineInit, lineNew, discSum_cons]
    norm_num
  refine ⟨h1, ?_⟩
  simp only [ewVar, h1, totalWeight]
  simp [lineInit, lineNew, discSum_cons]
  norm_num

theorem standardise_init (x : Row 1) : standardise .all 0 lineInit x = x := by
  funext j
  simp [standardise, ToScale.Selects, lineInit_moments j]

theorem standardise_all (x : Row 1) :
    standardise .all 0 (lineInit ++ lineNew) x = fun j => (x j - 2 / 5) / (6 / 5) := by
  funext j
  have : Real.sqrt (36 / 25) = 6 / 5 := by
    rw [show (36 / 25 : ℝ) = (6 / 5) ^ 2 by norm_num]
    exact Real.sqrt_sq (by norm_num)
  simp only [standardise, ToScale.Selects, if_true, lineAll_moments j, this]

/-- Two different regressor values identify intercept and slope. -/
theorem fullRank_of_two {h : List (Obs (designDim 1 true))} {x x' y y' w w' : ℝ} (hx : x ≠ x') (hw : 0 < w) (hw' : 0 < w')
    (h1 : (⟨designRow true fun _ => x, y, w⟩ : Obs (designDim 1 true)) ∈ h)
    (h2 : (⟨designRow true fun _ => x', y', w'⟩ : Obs (designDim 1 true)) ∈ h) : FullRank h := by
  intro v hv
  have e1 := hv _ h1 hw
  have e2 := hv _ h2 hw'
  have key : ∀ z : ℝ, linPred (designRow true fun _ => z : Row (designDim 1 true)) v =
      v (0 : Fin 2) + z * v (1 : Fin 2) := by
    intro z
    change ∑ j : Fin 2, (Fin.cons 1 (fun _ => z) : Row 2) j * v j = _
    rw [Fin.sum_univ_two]
    simp
  rw [key] at e1 e2
  have h3 : (x - x') * v (1 : Fin 2) = 0 := by linarith
  have h4 : v (1 : Fin 2) = 0 := by
    rcases mul_eq_zero.1 h3 with h | h
    · exact absurd (sub_eq_zero.1 h) hx
    · exact h
  rw [h4] at e1
  have h5 : v (0 : Fin 2) = 0 := by linarith
  funext j
  have : ∀ j : Fin 2, v j = 0 := by
    intro j
    fin_cases j
    · exact h5
    · exact h4
  exact this j

/-- `fit` accepts a data set when its standardised design identifies the coefficients. -/
theorem olsConfig_fit (t : ToScale 1) (data : List (Obs 1)) (hn : NonnegWeights data)
    (hsum : 2 < (ws data).sum) (hlen : 2 ≤ data.length) (hW : 0 < totalWeight 0 data)
    (hr : FullRank (designObs t 0 true data data)) (perm : ℕ → ℕ → List (Fin (designDim 1 true)))
    (s : LM 1 true) : ∃ s', LM.fit (olsConfig t) perm data s = (.ok (), s') := by
  refine LM.fit_ols_succeeds (olsConfig t) perm data s (olsConfig_valid t) (by simp) ?_ ?_ ?_ ?_ _
    (scaler_fit_canon t 0 data hlen (.inr hW.ne')) ((initGram (xs (designObs t 0 true data data))
      (ws (designObs t 0 true data data)) 0)⁻¹) ?_
  · rintro (h | h)
    · rw [h] at hlen; simp at hlen
    · omega
  · rintro ⟨h, _⟩
    have : ((designDim 1 true : ℕ) : ℝ) = 2 := by norm_num [designDim]
    rw [this] at h
    linarith
  · intro h; linarith
  · exact getEstimationMethod_ols
  · rw [show (olsConfig t).forget = 0 from rfl, scaledDesign_canon, ← ws_designObs t 0 data data (fi := true)]
    exact initInvertedGram_of_isUnit
      ((isUnit_det_iff_fullRank (by norm_num) _ (designObs_nonneg _ _ _ _ hn)).2 hr)

theorem lineInit_fit (perm : ℕ → ℕ → List (Fin (designDim 1 true))) (t : ToScale 1)
    (ht : t = .all ∨ t = .off) (s : LM 1 true) :
    ∃ s', LM.fit (olsConfig t) perm lineInit s = (.ok (), s') := by
  have hstd : ∀ x : Row 1, standardise t 0 lineInit x = x := by
    rcases ht with rfl | rfl
    · exact standardise_init
    · exact fun x => standardise_off rfl _ _ x
  refine olsConfig_fit t lineInit lineInit_nonneg (by simp [lineInit, ws]; norm_num) (by simp [lineInit])
    (by simp [totalWeight, lineInit, discSum_cons]; norm_num) ?_ perm s
  refine fullRank_of_two (x := -1) (x' := 1) (y := -1) (y' := 1) (w := 1) (w' := 1) (by norm_num)
    (by norm_num) (by norm_num) ?_ ?_
  · simp only [designObs, hstd]
    exact List.mem_map.2 ⟨⟨fun _ => -1, -1, 1⟩, by simp [lineInit], rfl⟩
  · simp only [designObs, hstd]
    exact List.mem_map.2 ⟨⟨fun _ => 1, 1, 1⟩, by simp [lineInit], rfl⟩

/-- Non-vacuity of C09: `fit` accepts the initial points. -/
example (rng : ℕ → ℕ → ℕ → List (Fin (designDim 1 true)))
    (perm : ℕ → ℕ → List (Fin (designDim 1 true))) :
    ∃ s sOnline sBatch, LM.fit (olsConfig .off) perm lineInit (LM.new 1 true) = (.ok (), s) ∧
      LM.updates (olsConfig .off) rng 0 [lineNew] s = (.ok (), sOnline) ∧
      LM.fit (olsConfig .off) perm (lineInit ++ lineNew) (LM.new 1 true) = (.ok (), sBatch) ∧
      sOnline.coef = sBatch.coef := by
  obtain ⟨s, hs⟩ := lineInit_fit perm .off (.inr rfl) (LM.new 1 true)
  obtain ⟨a, b, h1, h2, h3, _⟩ := C09_online_eq_batch (olsConfig .off) rfl rfl rng perm perm lineInit
    [lineNew] (by simp [lineNew]) lineInit_nonneg (by simpa using lineNew_nonneg) _ (LM.new 1 true) s hs
  exact ⟨s, a, b, hs, h1, by simpa using h2, h3⟩

/-- Non-vacuity of C11: scaling the only column of the line. -/
example (perm : ℕ → ℕ → List (Fin (designDim 1 true))) :
    ∃ s s', LM.fit (olsConfig .off) perm lineInit (LM.new 1 true) = (.ok (), s) ∧
      LM.fit (olsConfig .all) perm lineInit (LM.new 1 true) = (.ok (), s') ∧
      ∀ X, s'.predict X = s.predict X := by
  obtain ⟨s, hs⟩ := lineInit_fit perm .off (.inr rfl) (LM.new 1 true)
  obtain ⟨s', h1, h2⟩ := C11_scaling_irrelevant (olsConfig .all) getEstimationMethod_ols perm perm
    lineInit lineInit_nonneg (by simp [olsConfig, totalWeight, lineInit, discSum_cons]; norm_num)
    (fun j _ => by
      rw [show (olsConfig .all).forget = 0 from rfl, (lineInit_moments j).2]; norm_num)
    (LM.new 1 true) (LM.new 1 true) s hs
  exact ⟨s, s', hs, h1, fun X => (h2 X).1⟩

/-! ## C10 Online fit with input scaling -/

/-- **C10 (what holds).** With input scaling, fit and updates give the unique least squares solution of a
design in which every batch is standardised with the moments of the data seen up to and including that
batch.  Missing: the property asks for one common standardisation, see `C10_scaled_online_fails`. -/
theorem C10_mixed_design_partial (c : LMConfig p fi) (hm : getEstimationMethod c.method = .ok .ols)
    (rng : ℕ → ℕ → ℕ → List (Fin (designDim p fi)))
    (perm : ℕ → ℕ → List (Fin (designDim p fi))) (init : List (Obs p))
    (batches : List (List (Obs p))) (hne : ∀ b ∈ batches, b ≠ []) (hi : NonnegWeights init)
    (hb : ∀ b ∈ batches, NonnegWeights b) (s₀ s : LM p fi)
    (hfit : LM.fit c perm init s₀ = (.ok (), s)) :
    ∃ s' b, LM.updates c rng 0 batches s = (.ok (), s') ∧ s'.coef = some b ∧
      IsLeastSquares c.forget (designObs c.scaleInputs c.forget fi init init ++
        mixedDesign c.scaleInputs c.forget fi init batches) b ∧
      ∀ X, s'.predict X = .ok (X.map fun x =>
        linPred (designRow fi (standardise c.scaleInputs c.forget (init ++ batches.flatten) x)) b) := by
  obtain ⟨hv, _, h3, _⟩ := LM.fit_ok hfit
  have inv0 := OlsInv.of_fit hm hi hfit
  obtain ⟨s', hs', inv'⟩ := inv0.updates hv (fun h => h3 (.inr h)) rng batches hne hb 0
  obtain ⟨b, hb', hls⟩ := inv'.leastSquares hv
  refine ⟨s', b, hs', hb', hls, fun X => ?_⟩
  unfold LM.predict
  rw [hb', inv'.scaler]
  simp only [scaledDesign, transform_canon, List.map_map]
  rfl

theorem olsBeta_eq_of_normal {q : ℕ} {forget : ℝ} {d : List (Obs q)} {b : Row q}
    (hu : IsUnit (initGram (xs d) (ws d) forget).det)
    (hb : initGram (xs d) (ws d) forget *ᵥ b = initYGram (xs d) (ys d) (ws d) forget) :
    olsBeta (initGram (xs d) (ws d) forget)⁻¹ (initYGram (xs d) (ys d) (ws d) forget) = b := by
  unfold olsBeta
  rw [← hb, Matrix.mulVec_mulVec, Matrix.nonsing_inv_mul _ hu, Matrix.one_mulVec]

/-- The rows the online model has worked with: the old points were standardised with mean 0 and standard
deviation 1, the new one with mean 2/5 and standard deviation 6/5. -/
noncomputable def lineMixed : List (Obs 2) :=
  [⟨![1, -1], -1, 1⟩, ⟨![1, -1], -1, 1⟩, ⟨![1, 1], 1, 1⟩, ⟨![1, 1], 1, 1⟩, ⟨![1, 4 / 3], 2, 1⟩]

theorem designRow_one (z : ℝ) : (designRow true fun _ => z : Row (designDim 1 true)) = (![1, z] : Row 2) := by
  funext j
  have : ∀ j : Fin 2, (Fin.cons 1 (fun _ => z) : Row 2) j = (![1, z] : Row 2) j := by
    intro j; fin_cases j <;> rfl
  exact this j

theorem lineMixed_eq : designObs .all 0 true lineInit lineInit ++
    mixedDesign .all 0 true lineInit [lineNew] = lineMixed := by
  simp only [mixedDesign, List.append_nil, designObs, standardise_init, standardise_all]
  simp only [lineInit, lineNew, List.map_cons, List.map_nil, designRow_one, lineMixed]
  norm_num
  rfl

/-- **C10 fails.** Five points that lie exactly on the line `y = x`: fitting all five predicts `x` at
`x = 2/5`, fitting four and updating with the fifth predicts `6/61`. -/
theorem C10_scaled_online_fails (perm perm' perm'' : ℕ → ℕ → List (Fin (designDim 1 true))) :
    ∃ s sOnline sBatch, LM.fit (olsConfig .all) perm lineInit (LM.new 1 true) = (.ok (), s) ∧
      LM.update (olsConfig .all) perm' lineNew s = (.ok (), sOnline) ∧
      LM.fit (olsConfig .all) perm'' (lineInit ++ lineNew) (LM.new 1 true) = (.ok (), sBatch) ∧
      sOnline.predict [fun _ => 2 / 5] = .ok [6 / 61] ∧
      sBatch.predict [fun _ => 2 / 5] = .ok [2 / 5] := by
  obtain ⟨s, hs⟩ := lineInit_fit perm .all (.inl rfl) (LM.new 1 true)
  have inv0 := OlsInv.of_fit getEstimationMethod_ols lineInit_nonneg hs
  obtain ⟨sO, hsO, invO⟩ := inv0.update (olsConfig_valid _) (by norm_num) perm' lineNew (by simp [lineNew])
    lineNew_nonneg
  have hd : designObs (olsConfig .all).scaleInputs (olsConfig .all).forget true lineInit lineInit ++
      designObs (olsConfig .all).scaleInputs (olsConfig .all).forget true (lineInit ++ lineNew) lineNew =
      lineMixed := by
    have h := lineMixed_eq
    simp only [mixedDesign, List.append_nil] at h
    exact h
  rw [hd] at invO
  have hmn : NonnegWeights (lineMixed : List (Obs 2)) := invO.nonneg
  have hcO : sO.coef = some (![6 / 61, 69 / 61] : Row 2) := by
    rw [invO.coef]
    congr 1
    refine olsBeta_eq_of_normal invO.isUnit ?_
    have hf0 : (olsConfig .all).forget = 0 := rfl
    rw [hf0]
    have : ∀ a : Fin 2, (initGram (xs lineMixed) (ws lineMixed) 0 *ᵥ (![6 / 61, 69 / 61] : Row 2)) a =
        initYGram (xs lineMixed) (ys lineMixed) (ws lineMixed) 0 a := by
      intro a
      rw [gram_mulVec (by norm_num) lineMixed hmn, initYGram_apply (by norm_num) lineMixed hmn]
      fin_cases a
      · simp [lineMixed, discSum_cons]; norm_num
      · simp [lineMixed, discSum_cons]; norm_num
    exact funext this
  have hall : NonnegWeights (lineInit ++ lineNew) := lineInit_nonneg.append lineNew_nonneg
  obtain ⟨sB, hsB⟩ := olsConfig_fit .all (lineInit ++ lineNew) hall
    (by simp [lineInit, lineNew, ws]; norm_num) (by simp [lineInit])
    (by simp [totalWeight, lineInit, lineNew, discSum_cons]; norm_num)
    (by
      refine fullRank_of_two (x := (-1 - 2 / 5) / (6 / 5)) (x' := (1 - 2 / 5) / (6 / 5)) (y := -1) (y' := 1)
        (w := 1) (w' := 1) (by norm_num) (by norm_num) (by norm_num) ?_ ?_
      · simp only [designObs, standardise_all]
        exact List.mem_map.2 ⟨⟨fun _ => -1, -1, 1⟩, by simp [lineInit], rfl⟩
      · simp only [designObs, standardise_all]
        exact List.mem_map.2 ⟨⟨fun _ => 1, 1, 1⟩, by simp [lineInit], rfl⟩)
    perm'' (LM.new 1 true)
  have invB := OlsInv.of_fit getEstimationMethod_ols hall hsB
  have hcB : sB.coef = some (![2 / 5, 6 / 5] : Row 2) := by
    obtain ⟨b, hb, hls⟩ := invB.leastSquares (olsConfig_valid _)
    rw [hb]
    congr 1
    by_contra hcon
    have h1 := hls (![2 / 5, 6 / 5] : Row 2) (fun h => hcon h.symm)
    have h0 : discSSE (olsConfig .all).forget (designObs (olsConfig .all).scaleInputs
        (olsConfig .all).forget true (lineInit ++ lineNew) (lineInit ++ lineNew)) (![2 / 5, 6 / 5] : Row 2) = 0 := by
      unfold discSSE
      rw [discSum_congr (k := fun _ => 0) _ _ (fun o ho => ?_), discSum_zero]
      simp only [designObs, List.mem_map] at ho
      obtain ⟨o', ho', rfl⟩ := ho
      have hlin : o'.y = o'.x 0 := by
        simp only [lineInit, lineNew, List.cons_append, List.nil_append, List.mem_cons, List.not_mem_nil,
          or_false] at ho'
        rcases ho' with rfl | rfl | rfl | rfl | rfl <;> rfl
      have : linPred (designRow true (standardise (olsConfig .all).scaleInputs (olsConfig .all).forget
          (lineInit ++ lineNew) o'.x)) (![2 / 5, 6 / 5] : Row 2) = o'.x 0 := by
        change linPred (designRow true (standardise .all 0 (lineInit ++ lineNew) o'.x)) _ = _
        rw [standardise_all]
        change ∑ j : Fin 2, (Fin.cons 1 (fun j => (o'.x j - 2 / 5) / (6 / 5)) : Row 2) j * _ = _
        rw [Fin.sum_univ_two]
        simp
      rw [this, hlin]; ring
    have h2 : 0 ≤ discSSE (olsConfig .all).forget (designObs (olsConfig .all).scaleInputs
        (olsConfig .all).forget true (lineInit ++ lineNew) (lineInit ++ lineNew)) b :=
      discSum_nonneg (by norm_num [olsConfig]) _ fun o ho => mul_nonneg (invB.nonneg o ho) (sq_nonneg _)
    rw [h0] at h1
    linarith
  have hpred : ∀ (s : LM 1 true) (b : Row 2),
      s.scaler = some (canonSc .all 0 (lineInit ++ lineNew)) → s.coef = some b →
      s.predict [fun _ => 2 / 5] = .ok [b 0] := by
    intro s b h1 h2
    unfold LM.predict
    rw [h1, h2]
    simp only [scaledDesign, transform_canon, List.map_cons, List.map_nil, standardise_all]
    congr 2
    change ∑ j : Fin 2, (Fin.cons 1 (fun _ => (2 / 5 - 2 / 5) / (6 / 5)) : Row 2) j * b j = _
    rw [Fin.sum_univ_two]
    simp
  refine ⟨s, sO, sB, hs, hsO, hsB, ?_, ?_⟩
  · rw [hpred sO _ invO.scaler hcO]; simp
  · rw [hpred sB _ invB.scaler hcB]; simp

end Ondil
