import Verif.Spec.Nested
import Verif.Props.Improvement

/-!
# More features never fit the training data worse: C121
-/

open scoped BigOperators Matrix

namespace Ondil

variable {p q : ℕ} {fi : Bool}

/-- Coefficients of some features as coefficients of all features, zero for the others. -/
noncomputable def padRow (ι : Fin q ↪ Fin p) (b : Row q) : Row p := fun j => ∑ i, if ι i = j then b i else 0

theorem linPred_padRow (ι : Fin q ↪ Fin p) (x : Row p) (b : Row q) :
    linPred x (padRow ι b) = linPred (fun i => x (ι i)) b := by
  unfold linPred padRow
  simp only [Finset.mul_sum, mul_ite, mul_zero]
  rw [Finset.sum_comm]
  refine Finset.sum_congr rfl fun i _ => ?_
  simp

theorem padRow_apply (ι : Fin q ↪ Fin p) (b : Row q) (i : Fin q) : padRow ι b (ι i) = b i := by
  unfold padRow
  simp

/-- The same with the intercept. -/
noncomputable def padDesign (ι : Fin q ↪ Fin p) : (fi : Bool) → Row (designDim q fi) → Row (designDim p fi)
  | true, b => (Fin.cons (b (0 : Fin (q + 1))) (padRow ι (Fin.tail (α := fun _ : Fin (q + 1) => ℝ) b)) : Row (p + 1))
  | false, b => padRow (p := p) (q := q) ι b

theorem linPred_padDesign (ι : Fin q ↪ Fin p) (x : Row p) (b : Row (designDim q fi)) :
    linPred (designRow fi x) (padDesign ι fi b) = linPred (designRow fi fun i => x (ι i)) b := by
  cases fi with
  | false => exact linPred_padRow ι x b
  | true =>
    change ∑ j : Fin (p + 1), (Fin.cons 1 x : Row (p + 1)) j * (Fin.cons (b (0 : Fin (q + 1))) (padRow ι (Fin.tail (α := fun _ : Fin (q + 1) => ℝ) b)) : Row (p + 1)) j =
      ∑ j : Fin (q + 1), (Fin.cons 1 (fun i => x (ι i)) : Row (q + 1)) j * b j
    rw [Fin.sum_univ_succ, Fin.sum_univ_succ]
    simp only [Fin.cons_zero, Fin.cons_succ]
    congr 1
    exact linPred_padRow ι x (Fin.tail (α := fun _ : Fin (q + 1) => ℝ) b)

theorem padDesign_eq_zero (ι : Fin q ↪ Fin p) (b : Row (designDim q fi)) (h : padDesign ι fi b = 0) : b = 0 := by
  cases fi with
  | false =>
    funext i
    exact (padRow_apply ι b i).symm.trans (congrFun h (ι i))
  | true =>
    funext i
    refine Fin.cases ?_ (fun i => ?_) i
    · exact congrFun h (0 : Fin (p + 1))
    · have h1 : padRow ι (Fin.tail (α := fun _ : Fin (q + 1) => ℝ) b) (ι i) = 0 := congrFun h (Fin.succ (ι i))
      rw [padRow_apply] at h1
      exact h1

theorem discSSE_padDesign (ι : Fin q ↪ Fin p) (f : ℝ) (h : List (Obs p)) (b : Row (designDim q fi)) :
    discSSE f (plainObs fi h) (padDesign ι fi b) = discSSE f (plainObs fi (keepFeatures ι h)) b := by
  unfold discSSE plainObs keepFeatures
  rw [List.map_map, discSum_map, discSum_map]
  refine discSum_congr _ _ fun o _ => ?_
  simp only [Function.comp, linPred_padDesign]

theorem keepFeatures_ws (ι : Fin q ↪ Fin p) (h : List (Obs p)) : ws (keepFeatures ι h) = ws h := by
  simp [ws, keepFeatures, Function.comp_def]

theorem keepFeatures_ys (ι : Fin q ↪ Fin p) (h : List (Obs p)) : ys (keepFeatures ι h) = ys h := by
  simp [ys, keepFeatures, Function.comp_def]

theorem keepFeatures_nonneg {ι : Fin q ↪ Fin p} {h : List (Obs p)} (hw : NonnegWeights h) : NonnegWeights (keepFeatures ι h) := by
  intro o ho
  obtain ⟨o', h', rfl⟩ := List.mem_map.1 ho
  exact hw o' h'

theorem keepFeatures_flatten (ι : Fin q ↪ Fin p) (bs : List (List (Obs p))) :
    (bs.map (keepFeatures ι)).flatten = keepFeatures ι bs.flatten := by
  unfold keepFeatures
  rw [List.map_flatten]

theorem keepFeatures_append (ι : Fin q ↪ Fin p) (a b : List (Obs p)) :
    keepFeatures ι (a ++ b) = keepFeatures ι a ++ keepFeatures ι b := by simp [keepFeatures]

/-- A fit and updates of least squares without scaling: the coefficients and the predictions. -/
theorem ols_history (c : LMConfig p fi) (hm : c.method = .str "ols") (hs : c.scaleInputs = .off)
    (rng : ℕ → ℕ → ℕ → List (Fin (designDim p fi))) (perm : ℕ → ℕ → List (Fin (designDim p fi))) {init : List (Obs p)}
    {batches : List (List (Obs p))} (hne : ∀ b ∈ batches, b ≠ []) (hi : NonnegWeights init)
    (hb : ∀ b ∈ batches, NonnegWeights b) {s₀ s : LM p fi} (hfit : LM.fit c perm init s₀ = (.ok (), s)) :
    ∃ t b, LM.updates c rng 0 batches s = (.ok (), t) ∧ t.coef = some b ∧
      IsLeastSquares c.forget (plainObs fi (init ++ batches.flatten)) b ∧
      ∀ X, t.predict X = .ok (X.map fun x => linPred (designRow fi x) b) := by
  have hm' : getEstimationMethod c.method = .ok .ols := by rw [hm]; exact getEstimationMethod_ols
  have hsel : c.scaleInputs.selection = none := by rw [hs]; rfl
  obtain ⟨hv, _, h3, _⟩ := LM.fit_ok hfit
  have inv0 := OlsInv.of_fit hm' hi hfit
  obtain ⟨t, ht, inv⟩ := inv0.updates hv (fun h => h3 (.inr h)) rng batches hne hb 0
  obtain ⟨b, hb, hls⟩ := inv.leastSquares hv
  have hd : designObs c.scaleInputs c.forget fi init init ++ mixedDesign c.scaleInputs c.forget fi init batches =
      plainObs fi (init ++ batches.flatten) := by
    rw [designObs_off hsel, mixedDesign_off hsel]
    simp [plainObs]
  rw [hd] at hls
  refine ⟨t, b, ht, hb, hls, fun X => ?_⟩
  unfold LM.predict
  rw [inv.scaler, hb]
  simp only [scaledDesign, transform_canon, List.map_map]
  congr 1
  refine List.map_congr_left fun x _ => ?_
  simp only [Function.comp]
  rw [standardise_off hsel]
  rfl

/-- What can be fitted by least squares with all features can be fitted with some of them. -/
theorem C121_fits (ι : Fin q ↪ Fin p) (c : LMConfig p fi) (c' : LMConfig q fi) (hm : c.method = .str "ols") (hm' : c'.method = .str "ols")
    (hs : c.scaleInputs = .off) (hs' : c'.scaleInputs = .off) (hf : c'.forget = c.forget) (hv : c'.Valid)
    (hr : ¬ (c'.regularizeIntercept = true ∧ fi = false)) (hq : q ≠ 0) (perm : ℕ → ℕ → List (Fin (designDim p fi)))
    (perm' : ℕ → ℕ → List (Fin (designDim q fi))) (data : List (Obs p)) (hw : NonnegWeights data) (s₀ s : LM p fi) (s₁ : LM q fi)
    (hfit : LM.fit c perm data s₀ = (.ok (), s)) : ∃ s', LM.fit c' perm' (keepFeatures ι data) s₁ = (.ok (), s') := by
  have ho : getEstimationMethod c.method = .ok .ols := by rw [hm]; exact getEstimationMethod_ols
  have ho' : getEstimationMethod c'.method = .ok .ols := by rw [hm']; exact getEstimationMethod_ols
  have hsel : c.scaleInputs.selection = none := by rw [hs]; rfl
  have hsel' : c'.scaleInputs.selection = none := by rw [hs']; rfl
  obtain ⟨hvc, -, h3, h4, h5, -, sc, -, -, hsc, -⟩ := LM.fit_ok hfit
  have inv := OlsInv.of_fit ho hw hfit
  rw [designObs_off hsel] at inv
  have hpn : NonnegWeights (plainObs fi data) := inv.nonneg
  have hrank : FullRank (plainObs fi data) := (isUnit_det_iff_fullRank hvc.2.1 _ hpn).1 inv.isUnit
  have hn' : NonnegWeights (plainObs fi (keepFeatures ι data)) := by
    intro o ho
    obtain ⟨o', h', rfl⟩ := List.mem_map.1 ho
    exact keepFeatures_nonneg hw o' h'
  have hrank' : FullRank (plainObs fi (keepFeatures ι data)) := by
    intro v hvv
    refine padDesign_eq_zero ι v (hrank _ fun o ho hwo => ?_)
    obtain ⟨o', h', rfl⟩ := List.mem_map.1 ho
    refine (linPred_padDesign ι o'.x v).trans ?_
    exact hvv ⟨designRow fi fun i => o'.x (ι i), o'.y, o'.w⟩
      (List.mem_map.2 ⟨⟨fun i => o'.x (ι i), o'.y, o'.w⟩, List.mem_map.2 ⟨o', h', rfl⟩, rfl⟩) hwo
  have hle : q ≤ p := by simpa using Fintype.card_le_of_embedding ι
  have hdim : (designDim q fi : ℝ) ≤ designDim p fi := by
    have : designDim q fi ≤ designDim p fi := by cases fi <;> simp [designDim, hle]
    exact_mod_cast this
  obtain ⟨hlen, -, -⟩ := scaler_fit_ok _ _ _ _ hsc
  have hX : scaledDesign fi (canonSc c'.scaleInputs c'.forget (keepFeatures ι data)) (xs (keepFeatures ι data)) =
      xs (plainObs fi (keepFeatures ι data)) := by rw [scaledDesign_canon, designObs_off hsel']
  have hW : ws (keepFeatures ι data) = ws (plainObs fi (keepFeatures ι data)) := by
    simp only [ws, plainObs, List.map_map]; rfl
  refine LM.fit_ols_succeeds c' perm' _ s₁ hv hr ?_ ?_ (by rw [keepFeatures_ws]; exact h5) ho' _
    (scaler_fit_canon _ _ _ (by simpa [keepFeatures] using hlen) (.inl hsel')) _ (by
      rw [hX, hW]
      exact initInvertedGram_of_isUnit ((isUnit_det_iff_fullRank hv.2.1 _ hn').2 hrank'))
  · rintro (h | h)
    · exact h3 (.inl (by simpa [keepFeatures] using h))
    · exact hq h
  · rintro ⟨h, -⟩
    rw [keepFeatures_ws] at h
    exact h4 ⟨h.trans hdim, hm⟩

/-- After a fit and any updates the model with all features has a smaller discounted weighted squared error on the data seen so far
than the model with some of the features, unless both predict the same there. -/
theorem C121_error (ι : Fin q ↪ Fin p) (c : LMConfig p fi) (c' : LMConfig q fi) (hm : c.method = .str "ols") (hm' : c'.method = .str "ols")
    (hs : c.scaleInputs = .off) (hs' : c'.scaleInputs = .off) (hf : c'.forget = c.forget)
    (rng : ℕ → ℕ → ℕ → List (Fin (designDim p fi))) (rng' : ℕ → ℕ → ℕ → List (Fin (designDim q fi)))
    (perm : ℕ → ℕ → List (Fin (designDim p fi))) (perm' : ℕ → ℕ → List (Fin (designDim q fi))) (init : List (Obs p))
    (batches : List (List (Obs p))) (hne : ∀ b ∈ batches, b ≠ []) (hi : NonnegWeights init) (hb : ∀ b ∈ batches, NonnegWeights b)
    (s₀ s : LM p fi) (s₁ s' : LM q fi) (hfit : LM.fit c perm init s₀ = (.ok (), s))
    (hfit' : LM.fit c' perm' (keepFeatures ι init) s₁ = (.ok (), s')) :
    let all := init ++ batches.flatten
    ∃ t t' y y', LM.updates c rng 0 batches s = (.ok (), t) ∧ LM.updates c' rng' 0 (batches.map (keepFeatures ι)) s' = (.ok (), t') ∧
      t.predict (xs all) = .ok y ∧ t'.predict (xs (keepFeatures ι all)) = .ok y' ∧
      predictionError c.forget all y ≤ predictionError c.forget (keepFeatures ι all) y' ∧
      (y ≠ y' → predictionError c.forget all y < predictionError c.forget (keepFeatures ι all) y') := by
  obtain ⟨t, b, ht, -, hls, hp⟩ := ols_history c hm hs rng perm hne hi hb hfit
  obtain ⟨t', b', ht', -, -, hp'⟩ := ols_history c' hm' hs' rng' perm' (batches := batches.map (keepFeatures ι))
    (by
      intro x hx
      obtain ⟨x', h', rfl⟩ := List.mem_map.1 hx
      intro h
      exact hne x' h' (by simpa [keepFeatures] using h)) (keepFeatures_nonneg hi)
    (by
      intro x hx
      obtain ⟨x', h', rfl⟩ := List.mem_map.1 hx
      exact keepFeatures_nonneg (hb x' h')) hfit'
  intro all
  refine ⟨t, t', _, _, ht, ht', hp _, hp' _, ?_⟩
  rw [predictionError_linear, predictionError_linear, ← discSSE_padDesign]
  by_cases hbb : padDesign ι fi b' = b
  · have hy : (xs all).map (fun x => linPred (designRow fi x) b) = (xs (keepFeatures ι all)).map fun x => linPred (designRow fi x) b' := by
      simp only [xs, keepFeatures, List.map_map]
      refine List.map_congr_left fun o _ => ?_
      simp only [Function.comp, ← hbb, linPred_padDesign]
    exact ⟨by rw [hbb], fun h => absurd hy h⟩
  · exact ⟨(hls _ hbb).le, fun _ => hls _ hbb⟩

/-- Without forgetting and with unit weights: the training score of the fit with all features is at least that of the fit with some of
the features. -/
theorem C121_score (ι : Fin q ↪ Fin p) (c : LMConfig p fi) (c' : LMConfig q fi) (hm : c.method = .str "ols") (hm' : c'.method = .str "ols")
    (hs : c.scaleInputs = .off) (hs' : c'.scaleInputs = .off) (hf : c.forget = 0) (hf' : c'.forget = 0)
    (perm : ℕ → ℕ → List (Fin (designDim p fi))) (perm' : ℕ → ℕ → List (Fin (designDim q fi))) (data : List (Obs p))
    (hw : ∀ o ∈ data, o.w = 1) (s₀ s : LM p fi) (s₁ s' : LM q fi) (hfit : LM.fit c perm data s₀ = (.ok (), s))
    (hfit' : LM.fit c' perm' (keepFeatures ι data) s₁ = (.ok (), s')) :
    ∃ r r', s.score (xs data) (ys data) = .ok r ∧ s'.score (xs (keepFeatures ι data)) (ys data) = .ok r' ∧ r' ≤ r := by
  have hn : NonnegWeights data := fun o ho => by rw [hw o ho]; exact zero_le_one
  obtain ⟨t, t', y, y', ht, ht', hy, hy', hle, -⟩ := C121_error ι c c' hm hm' hs hs' (by rw [hf, hf']) (fun _ => perm) (fun _ => perm') perm perm'
    data [] (by simp) hn (by simp) s₀ s s₁ s' hfit hfit'
  cases ht
  cases ht'
  simp only [List.flatten_nil, List.append_nil] at hy hy' hle
  have sum_eq : ∀ {m : ℕ} (d : List (Obs m)) (v : List ℝ), (∀ o ∈ d, o.w = 1) →
      predictionError 0 d v = (List.zipWith (fun a b => (a - b) ^ 2) (ys d) v).sum := by
    intro m d v hd
    unfold predictionError
    induction d generalizing v with
    | nil => simp [ys]
    | cons o d ih =>
      cases v with
      | nil => simp [ys]
      | cons a v =>
        have := ih v fun o ho => hd o (by simp [ho])
        simp only [List.zip_cons_cons, discSum_cons, this]
        simp [ys, hd o (by simp)]
  rw [hf] at hle
  rw [sum_eq _ _ hw, sum_eq _ _ (by
    intro o ho
    obtain ⟨o', h', rfl⟩ := List.mem_map.1 ho
    exact hw o' h'), keepFeatures_ys] at hle
  refine ⟨_, _, by unfold LM.score; rw [hy]; rfl, by unfold LM.score; rw [hy']; rfl, ?_⟩
  refine sub_le_sub_left (div_le_div_of_nonneg_right hle ?_) 1
  exact List.sum_nonneg (by
    intro x hx
    obtain ⟨a, -, rfl⟩ := List.mem_map.1 hx
    exact sq_nonneg _)

/-! ### A case -/

/-- Three observations of two features. -/
noncomputable def nestedData : List (Obs 2) := [⟨![1, 0], 1, 1⟩, ⟨![0, 1], 1, 1⟩, ⟨![1, 0], 1, 1⟩]

/-- `OnlineLinearModel(method="ols", fit_intercept=False)` without scaling and forgetting. -/
noncomputable def nestedConfig (p : ℕ) : LMConfig p false :=
  { forget := 0, scaleInputs := .off, regularizeIntercept := false, method := .str "ols", ic := .bic }

theorem nestedConfig_valid (p : ℕ) : (nestedConfig p).Valid := by
  refine ⟨le_rfl, zero_lt_one, ?_, ?_⟩ <;> simp [nestedConfig]

theorem nestedData_weights : ∀ o ∈ nestedData, o.w = 1 := by
  intro o ho
  simp only [nestedData, List.mem_cons, List.not_mem_nil, or_false] at ho
  rcases ho with rfl | rfl | rfl <;> rfl

theorem nestedData_fit (perm : ℕ → ℕ → List (Fin (designDim 2 false))) (s₀ : LM 2 false) :
    ∃ s, LM.fit (nestedConfig 2) perm nestedData s₀ = (.ok (), s) := by
  have hn : NonnegWeights (plainObs false nestedData) := by
    intro o ho
    obtain ⟨o', h', rfl⟩ := List.mem_map.1 ho
    change 0 ≤ o'.w
    rw [nestedData_weights o' h']
    exact zero_le_one
  have hr : FullRank (plainObs false nestedData) := by
    intro v hv
    have h1 := hv ⟨![1, 0], 1, 1⟩ (by simp [plainObs, nestedData, designRow]) one_pos
    have h2 := hv ⟨![0, 1], 1, 1⟩ (by simp [plainObs, nestedData, designRow]) one_pos
    have h1' : ∑ j : Fin 2, (![1, 0] : Row 2) j * v j = 0 := h1
    have h2' : ∑ j : Fin 2, (![0, 1] : Row 2) j * v j = 0 := h2
    simp only [Fin.sum_univ_two] at h1' h2'
    funext j
    change Fin 2 at j
    fin_cases j
    · have h3 : v (0 : Fin 2) = 0 := by simpa using h1'
      exact h3
    · have h3 : v (1 : Fin 2) = 0 := by simpa using h2'
      exact h3
  have hX : scaledDesign false (canonSc (nestedConfig 2).scaleInputs (nestedConfig 2).forget nestedData) (xs nestedData) =
      xs (plainObs false nestedData) := by rw [scaledDesign_canon, designObs_off rfl]
  refine LM.fit_ols_succeeds _ perm _ s₀ (nestedConfig_valid 2) (by simp [nestedConfig]) (by simp [nestedData]) ?_ ?_
    getEstimationMethod_ols _ (scaler_fit_canon _ _ _ (by simp [nestedData]) (.inl rfl)) _ (by
      rw [hX]
      exact initInvertedGram_of_isUnit ((isUnit_det_iff_fullRank (nestedConfig_valid 2).2.1 _ hn).2 hr))
  · rintro ⟨h, -⟩
    simp [ws, nestedData, designDim] at h
    norm_num at h
  · simp [ws, nestedData]

example (perm : ℕ → ℕ → List (Fin (designDim 2 false))) (perm' : ℕ → ℕ → List (Fin (designDim 1 false))) (s₀ : LM 2 false) (s₁ : LM 1 false) :
    ∃ s s' r r', LM.fit (nestedConfig 2) perm nestedData s₀ = (.ok (), s) ∧
      LM.fit (nestedConfig 1) perm' (keepFeatures (Fin.castLEEmb (by omega)) nestedData) s₁ = (.ok (), s') ∧
      s.score (xs nestedData) (ys nestedData) = .ok r ∧
      s'.score (xs (keepFeatures (Fin.castLEEmb (by omega)) nestedData)) (ys nestedData) = .ok r' ∧ r' ≤ r := by
  obtain ⟨s, hs⟩ := nestedData_fit perm s₀
  obtain ⟨s', hs'⟩ := C121_fits (Fin.castLEEmb (by omega)) (nestedConfig 2) (nestedConfig 1) rfl rfl rfl rfl rfl (nestedConfig_valid 1)
    (by simp [nestedConfig]) one_ne_zero perm perm' nestedData (fun o ho => by rw [nestedData_weights o ho]; exact zero_le_one) s₀ s s₁ hs
  obtain ⟨r, r', h1, h2, h3⟩ := C121_score _ (nestedConfig 2) (nestedConfig 1) rfl rfl rfl rfl rfl rfl perm perm' nestedData nestedData_weights
    s₀ s s₁ s' hs hs'
  exact ⟨s, s', r, r', hs, hs', h1, h2, h3⟩

end Ondil
