import Verif.Props.Improvement

/-!
# C127: errors of predictions made before and after learning enclose the growth of the training error
-/

open scoped BigOperators Matrix

namespace Ondil

variable {p : ℕ} {fi : Bool}

/-- The estimator after a fit and any updates: it predicts with the least-squares coefficients of all data so far. -/
theorem ols_run_best (c : LMConfig p fi) (hm : c.method = .str "ols") (hs : c.scaleInputs = .off)
    (rng : ℕ → ℕ → ℕ → List (Fin (designDim p fi))) {perm : ℕ → ℕ → List (Fin (designDim p fi))} {init : List (Obs p)}
    (batches : List (List (Obs p))) (hne : ∀ b ∈ batches, b ≠ []) (hi : NonnegWeights init)
    (hb : ∀ b ∈ batches, NonnegWeights b) {s₀ s : LM p fi} (hfit : LM.fit c perm init s₀ = (.ok (), s)) :
    ∃ t b, LM.updates c rng 0 batches s = (.ok (), t) ∧ IsLeastSquares c.forget (plainObs fi (init ++ batches.flatten)) b ∧
      ∀ X, t.predict X = .ok (X.map fun x => linPred (designRow fi x) b) := by
  have hm' : getEstimationMethod c.method = .ok .ols := by rw [hm]; exact getEstimationMethod_ols
  have hsel : c.scaleInputs.selection = none := by rw [hs]; rfl
  obtain ⟨hv, _, h3, _⟩ := LM.fit_ok hfit
  have hp : p ≠ 0 := fun h => h3 (.inr h)
  obtain ⟨t, ht, inv⟩ := (OlsInv.of_fit hm' hi hfit).updates hv hp rng batches hne hb 0
  rw [designObs_off hsel, mixedDesign_off hsel, ← plainObs_append] at inv
  have normal : initGram (xs (plainObs fi (init ++ batches.flatten))) (ws (plainObs fi (init ++ batches.flatten))) c.forget *ᵥ
      olsBeta (initGram (xs (plainObs fi (init ++ batches.flatten))) (ws (plainObs fi (init ++ batches.flatten))) c.forget)⁻¹
        (initYGram (xs (plainObs fi (init ++ batches.flatten))) (ys (plainObs fi (init ++ batches.flatten)))
          (ws (plainObs fi (init ++ batches.flatten))) c.forget) =
      initYGram (xs (plainObs fi (init ++ batches.flatten))) (ys (plainObs fi (init ++ batches.flatten)))
        (ws (plainObs fi (init ++ batches.flatten))) c.forget := by
    unfold olsBeta
    rw [Matrix.mulVec_mulVec, Matrix.mul_nonsing_inv _ inv.isUnit, Matrix.one_mulVec]
  refine ⟨t, _, ht, isLeastSquares_of_normal hv.2.1 _ inv.nonneg _ inv.isUnit normal, fun X => ?_⟩
  · unfold LM.predict
    rw [inv.scaler, inv.coef]
    simp only [scaledDesign, transform_canon, List.map_map]
    congr 1
    refine List.map_congr_left fun x _ => ?_
    simp only [Function.comp]
    rw [standardise_off hsel]
    rfl

theorem IsLeastSquares.le {q : ℕ} {f : ℝ} {d : List (Obs q)} {b : Row q} (h : IsLeastSquares f d b) (b' : Row q) :
    discSSE f d b ≤ discSSE f d b' := by
  rcases eq_or_ne b' b with rfl | hb
  · exact le_rfl
  · exact (h b' hb).le

/-- The predictions for each batch with coefficients that belong to its position. -/
noncomputable def runPreds (batches : List (List (Obs p))) (b : ℕ → Row (designDim p fi)) : List (List ℝ) :=
  batches.mapIdx fun k B => (xs B).map fun x => linPred (designRow fi x) (b k)

theorem runPreds_concat (batches : List (List (Obs p))) (new : List (Obs p)) (b : ℕ → Row (designDim p fi)) :
    runPreds (batches ++ [new]) b = runPreds batches b ++ [(xs new).map fun x => linPred (designRow fi x) (b batches.length)] := by
  unfold runPreds
  rw [List.mapIdx_concat]

theorem runPreds_flatten_length (batches : List (List (Obs p))) (b : ℕ → Row (designDim p fi)) :
    (runPreds batches b).flatten.length = batches.flatten.length := by
  induction batches using List.reverseRecOn with
  | nil => rfl
  | append_singleton l a ih =>
    rw [runPreds_concat, List.flatten_append, List.flatten_append, List.length_append, List.length_append, ih]
    simp [xs]

theorem predictionError_append (f : ℝ) (h k : List (Obs p)) (y z : List ℝ) (hl : h.length = y.length)
    (hk : k.length = z.length) :
    predictionError f (h ++ k) (y ++ z) = (1 - f) ^ k.length * predictionError f h y + predictionError f k z := by
  unfold predictionError
  rw [List.zip_append hl, discSum_append, List.length_zip, ← hk, min_self]

theorem runPreds_error_concat (f : ℝ) (batches : List (List (Obs p))) (new : List (Obs p)) (b : ℕ → Row (designDim p fi)) :
    predictionError f (batches ++ [new]).flatten (runPreds (batches ++ [new]) b).flatten =
      (1 - f) ^ new.length * predictionError f batches.flatten (runPreds batches b).flatten +
        discSSE f (plainObs fi new) (b batches.length) := by
  rw [runPreds_concat, List.flatten_append, List.flatten_append, List.flatten_singleton, List.flatten_singleton,
    predictionError_append _ _ _ _ _ (runPreds_flatten_length _ _).symm (by simp [xs]), predictionError_linear]

theorem run_bounds {f : ℝ} (hf : f ≤ 1) (init : List (Obs p)) (batches : List (List (Obs p))) (b : ℕ → Row (designDim p fi))
    (hmin : ∀ k ≤ batches.length, ∀ β,
      discSSE f (plainObs fi (init ++ (batches.take k).flatten)) (b k) ≤ discSSE f (plainObs fi (init ++ (batches.take k).flatten)) β) :
    predictionError f batches.flatten (runPreds batches fun k => b (k + 1)).flatten +
        (1 - f) ^ batches.flatten.length * discSSE f (plainObs fi init) (b 0) ≤
      discSSE f (plainObs fi (init ++ batches.flatten)) (b batches.length) ∧
    discSSE f (plainObs fi (init ++ batches.flatten)) (b batches.length) ≤
      predictionError f batches.flatten (runPreds batches b).flatten +
        (1 - f) ^ batches.flatten.length * discSSE f (plainObs fi init) (b 0) := by
  induction batches using List.reverseRecOn with
  | nil => simp [predictionError, runPreds]
  | append_singleton l new ih =>
    obtain ⟨ih1, ih2⟩ := ih fun k hk β => by
      have := hmin k (by simp; omega) β
      rwa [List.take_append_of_le_length hk] at this
    have m1 := hmin l.length (by simp) (b (l.length + 1))
    rw [List.take_append_of_le_length le_rfl, List.take_length] at m1
    have m2 := hmin (l.length + 1) (by simp) (b l.length)
    rw [show (l ++ [new]).take (l.length + 1) = l ++ [new] from List.take_of_length_le (by simp)] at m2
    have split : ∀ β : Row (designDim p fi), discSSE f (plainObs fi (init ++ (l ++ [new]).flatten)) β =
        (1 - f) ^ new.length * discSSE f (plainObs fi (init ++ l.flatten)) β + discSSE f (plainObs fi new) β := by
      intro β
      rw [List.flatten_append, List.flatten_singleton, ← List.append_assoc, plainObs_append]
      unfold discSSE
      rw [discSum_append]
      simp [plainObs]
    have hl : (l ++ [new]).flatten.length = l.flatten.length + new.length := by
      rw [List.flatten_append, List.length_append, List.flatten_singleton]
    rw [runPreds_error_concat, runPreds_error_concat, hl, pow_add, List.length_append, List.length_singleton]
    rw [split, split] at m2
    rw [split]
    have hq : 0 ≤ (1 - f) ^ new.length := pow_nonneg (sub_nonneg.2 hf) _
    have a1 := mul_le_mul_of_nonneg_left (ih1.trans m1) hq
    have a2 := mul_le_mul_of_nonneg_left ih2 hq
    constructor
    · linarith
    · linarith

/-- **C127.** Least squares without scaling, any forgetting, weights and batches.  Record for every batch the predictions before
it is learned and those after it.  The training error of the final estimator, less the discounted training error of the first
fit, is at least the error of the predictions after learning and at most the error of the predictions before learning.  Hence the
predictions after learning do at least as well as any fixed coefficients `β`, up to what `β` loses on the first data. -/
theorem C127_enclosed (c : LMConfig p fi) (hm : c.method = .str "ols") (hs : c.scaleInputs = .off)
    (rng : ℕ → ℕ → ℕ → List (Fin (designDim p fi))) (perm : ℕ → ℕ → List (Fin (designDim p fi))) (init : List (Obs p))
    (batches : List (List (Obs p))) (hne : ∀ b ∈ batches, b ≠ []) (hi : NonnegWeights init)
    (hb : ∀ b ∈ batches, NonnegWeights b) (s₀ s : LM p fi) (hfit : LM.fit c perm init s₀ = (.ok (), s)) :
    ∃ t first last, ∃ before after : List (List ℝ), LM.updates c rng 0 batches s = (.ok (), t) ∧
      s.predict (xs init) = .ok first ∧ t.predict (xs (init ++ batches.flatten)) = .ok last ∧
      before.length = batches.length ∧ after.length = batches.length ∧
      (∀ k B y y', batches[k]? = some B → before[k]? = some y → after[k]? = some y' →
        ∃ u u', LM.updates c rng 0 (batches.take k) s = (.ok (), u) ∧ LM.updates c rng 0 (batches.take (k + 1)) s = (.ok (), u') ∧
          u.predict (xs B) = .ok y ∧ u'.predict (xs B) = .ok y') ∧
      predictionError c.forget batches.flatten after.flatten ≤ predictionError c.forget (init ++ batches.flatten) last -
        (1 - c.forget) ^ batches.flatten.length * predictionError c.forget init first ∧
      predictionError c.forget (init ++ batches.flatten) last -
        (1 - c.forget) ^ batches.flatten.length * predictionError c.forget init first ≤
          predictionError c.forget batches.flatten before.flatten ∧
      ∀ β : Row (designDim p fi), predictionError c.forget batches.flatten after.flatten ≤
        predictionError c.forget batches.flatten ((xs batches.flatten).map fun x => linPred (designRow fi x) β) +
          (1 - c.forget) ^ batches.flatten.length *
            (predictionError c.forget init ((xs init).map fun x => linPred (designRow fi x) β) -
              predictionError c.forget init first) := by
  have run : ∀ k, ∃ t b, LM.updates c rng 0 (batches.take k) s = (.ok (), t) ∧
      IsLeastSquares c.forget (plainObs fi (init ++ (batches.take k).flatten)) b ∧
      ∀ X, t.predict X = .ok (X.map fun x => linPred (designRow fi x) b) := fun k =>
    ols_run_best c hm hs rng _ (fun B hB => hne B (List.mem_of_mem_take hB)) hi (fun B hB => hb B (List.mem_of_mem_take hB)) hfit
  choose t b h1 h2 h3 using run
  have hf := (LM.fit_ok hfit).1.2.1
  obtain ⟨e1, e2⟩ := run_bounds hf.le init batches b fun k _ β => (h2 k).le β
  have h0 : t 0 = s := by
    have := h1 0
    rw [List.take_zero] at this
    exact (Prod.ext_iff.1 this).2.symm
  have hT := h1 batches.length
  rw [List.take_length] at hT
  refine ⟨t batches.length, _, _, runPreds batches b, runPreds batches fun k => b (k + 1), hT, h0 ▸ h3 0 _, h3 _ _,
    by simp [runPreds], by simp [runPreds], ?_, ?_, ?_, fun β => ?_⟩
  · intro k B y y' hB hy hy'
    unfold runPreds at hy hy'
    rw [List.getElem?_mapIdx, hB] at hy hy'
    simp only [Option.map_some, Option.some.injEq] at hy hy'
    subst hy hy'
    exact ⟨_, _, h1 k, h1 (k + 1), h3 _ _, h3 _ _⟩
  · rw [predictionError_linear, predictionError_linear]
    linarith
  · rw [predictionError_linear, predictionError_linear]
    linarith
  · rw [predictionError_linear, predictionError_linear, predictionError_linear]
    have m := (h2 batches.length).le β
    rw [List.take_length] at m
    have split : discSSE c.forget (plainObs fi (init ++ batches.flatten)) β =
        (1 - c.forget) ^ batches.flatten.length * discSSE c.forget (plainObs fi init) β +
          discSSE c.forget (plainObs fi batches.flatten) β := by
      rw [plainObs_append]
      unfold discSSE
      rw [discSum_append, show (plainObs fi batches.flatten).length = batches.flatten.length from List.length_map _]
    rw [split] at m
    linarith

/-- The hypotheses are met: four points of a line, then two batches off the line. -/
example (rng : ℕ → ℕ → ℕ → List (Fin (designDim 1 true))) (perm : ℕ → ℕ → List (Fin (designDim 1 true))) :
    ∃ s t before after, LM.fit (olsConfig .off) perm lineInit (LM.new 1 true) = (.ok (), s) ∧
      LM.updates (olsConfig .off) rng 0 [[⟨fun _ => 2, 3, 1⟩], [⟨fun _ => 3, 1, 1⟩, ⟨fun _ => 4, 5, 2⟩]] s = (.ok (), t) ∧
      before.length = 2 ∧ after.length = 2 ∧
      predictionError (olsConfig .off).forget ([⟨fun _ => 2, 3, 1⟩, ⟨fun _ => 3, 1, 1⟩, ⟨fun _ => 4, 5, 2⟩] : List (Obs 1))
        (after : List (List ℝ)).flatten ≤
      predictionError (olsConfig .off).forget ([⟨fun _ => 2, 3, 1⟩, ⟨fun _ => 3, 1, 1⟩, ⟨fun _ => 4, 5, 2⟩] : List (Obs 1))
        (before : List (List ℝ)).flatten := by
  obtain ⟨s, hs⟩ := lineInit_fit perm .off (.inr rfl) (LM.new 1 true)
  obtain ⟨t, _, _, before, after, h1, -, -, h2, h3, -, h4, h5, -⟩ := C127_enclosed (olsConfig .off) rfl rfl rng perm lineInit
    [[⟨fun _ => 2, 3, 1⟩], [⟨fun _ => 3, 1, 1⟩, ⟨fun _ => 4, 5, 2⟩]] (by simp) lineInit_nonneg
    (by simp [NonnegWeights]) _ s hs
  exact ⟨s, t, before, after, hs, h1, h2, h3, h4.trans h5⟩

end Ondil
