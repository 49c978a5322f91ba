import Verif.Spec.Origin
import Verif.Props.Stability

/-!
# C115: the origin of the response only moves the intercept
-/

open scoped BigOperators Matrix

namespace Ondil

variable {p : ℕ}

theorem raise_xs (k : ℝ) (d : List (Obs p)) : xs (d.map (Obs.raise k)) = xs d := by simp [xs, Obs.raise]

theorem raise_ws (k : ℝ) (d : List (Obs p)) : ws (d.map (Obs.raise k)) = ws d := by simp [ws, Obs.raise]

theorem raise_nonneg {k : ℝ} {d : List (Obs p)} (hd : NonnegWeights d) : NonnegWeights (d.map (Obs.raise k)) := by
  intro o ho
  obtain ⟨e, he, rfl⟩ := List.mem_map.1 ho
  exact hd e he

theorem raise_standardise (t : ToScale p) (f k : ℝ) (d : List (Obs p)) : standardise t f (d.map (Obs.raise k)) = standardise t f d := by
  funext x j
  simp only [standardise, ewMean, ewVar, totalWeight, discSum_map, Obs.raise]

theorem raise_designObs (t : ToScale p) (f k : ℝ) (fi : Bool) (seen b : List (Obs p)) :
    designObs t f fi (seen.map (Obs.raise k)) (b.map (Obs.raise k)) = (designObs t f fi seen b).map (Obs.raise k) := by
  unfold designObs
  rw [raise_standardise, List.map_map, List.map_map]
  rfl

theorem raise_mixedDesign (t : ToScale p) (f k : ℝ) (fi : Bool) (bs : List (List (Obs p))) : ∀ seen : List (Obs p),
    mixedDesign t f fi (seen.map (Obs.raise k)) (bs.map fun b => b.map (Obs.raise k)) = (mixedDesign t f fi seen bs).map (Obs.raise k) := by
  induction bs with
  | nil => intro seen; rfl
  | cons b bs ih =>
    intro seen
    rw [List.map_cons]
    unfold mixedDesign
    rw [← List.map_append, raise_designObs, ih, List.map_append]

theorem raise_flatten (k : ℝ) (d : List (Obs p)) (bs : List (List (Obs p))) :
    d.map (Obs.raise k) ++ (bs.map fun b => b.map (Obs.raise k)).flatten = (d ++ bs.flatten).map (Obs.raise k) := by
  rw [List.map_append, List.map_flatten]

theorem raise_batches (k : ℝ) {bs : List (List (Obs p))} (hne : ∀ b ∈ bs, b ≠ []) (hw : ∀ b ∈ bs, NonnegWeights b) :
    (∀ b ∈ bs.map fun b => b.map (Obs.raise k), b ≠ []) ∧ ∀ b ∈ bs.map fun b => b.map (Obs.raise k), NonnegWeights b := by
  constructor
  · intro b hb
    obtain ⟨d, hd, rfl⟩ := List.mem_map.1 hb
    simpa using hne d hd
  · intro b hb
    obtain ⟨d, hd, rfl⟩ := List.mem_map.1 hb
    exact raise_nonneg (hw d hd)

/-- The response Gramian of raised responses, if column `j₀` is constant one. -/
theorem raise_yGram {q : ℕ} {f : ℝ} (hf : f ≤ 1) {D : List (Obs q)} (hD : NonnegWeights D) {j₀ : Fin q} (h1 : ∀ o ∈ D, o.x j₀ = 1)
    (k : ℝ) (j : Fin q) : initYGram (xs (D.map (Obs.raise k))) (ys (D.map (Obs.raise k))) (ws (D.map (Obs.raise k))) f j =
      initYGram (xs D) (ys D) (ws D) f j + k * initGram (xs D) (ws D) f j j₀ := by
  rw [initYGram_apply hf _ (raise_nonneg hD), initYGram_apply hf _ hD, initGram_apply hf _ hD, discSum_map, ← discSum_mul_left,
    ← discSum_add]
  refine discSum_congr _ _ fun o ho => ?_
  rw [h1 o ho]
  simp only [Obs.raise]
  ring

theorem gram_raiseAt {q : ℕ} (G : Matrix (Fin q) (Fin q) ℝ) (j₀ : Fin q) (k : ℝ) (b : Row q) (i : Fin q) :
    (G *ᵥ raiseAt j₀ k b) i = (G *ᵥ b) i + k * G i j₀ := by
  simp only [Matrix.mulVec, dotProduct, raiseAt, mul_add, Finset.sum_add_distrib]
  congr 1
  simp [mul_comm]

theorem linPred_raiseAt {q : ℕ} {j₀ : Fin q} {x : Row q} (hx : x j₀ = 1) (k : ℝ) (b : Row q) :
    linPred x (raiseAt j₀ k b) = linPred x b + k := by
  simp only [linPred, raiseAt, mul_add, Finset.sum_add_distrib]
  congr 1
  simp [hx]

/-- The index of the intercept. -/
def intercept (p : ℕ) : Fin (designDim p true) := (0 : Fin (p + 1))

theorem designRow_intercept (x : Row p) : designRow true x (intercept p) = 1 := rfl

theorem designObs_intercept (t : ToScale p) (f : ℝ) (seen b : List (Obs p)) : ∀ o ∈ designObs t f true seen b, o.x (intercept p) = 1 := by
  intro o ho
  obtain ⟨e, _, rfl⟩ := List.mem_map.1 ho
  rfl

theorem mixedDesign_intercept (t : ToScale p) (f : ℝ) (bs : List (List (Obs p))) : ∀ seen : List (Obs p),
    ∀ o ∈ mixedDesign t f true seen bs, o.x (intercept p) = 1 := by
  induction bs with
  | nil => intro seen o ho; cases ho
  | cons b bs ih =>
    intro seen o ho
    unfold mixedDesign at ho
    rcases List.mem_append.1 ho with h | h
    · exact designObs_intercept _ _ _ _ o h
    · exact ih _ o h

/-- **C115, least squares** with an intercept, whatever columns are scaled, after a fit and any updates: with `k` added to every response
all calls succeed alike, the intercept is larger by `k`, the other coefficients are the same, and so every prediction is larger by `k`. -/
theorem C115_least_squares (k : ℝ) (c : LMConfig p true) (hm : c.method = .str "ols") (perm perm' : ℕ → ℕ → List (Fin (designDim p true)))
    (rng rng' : ℕ → ℕ → ℕ → List (Fin (designDim p true))) (init : List (Obs p)) (batches : List (List (Obs p))) (hne : ∀ b ∈ batches, b ≠ [])
    (hwi : NonnegWeights init) (hwb : ∀ b ∈ batches, NonnegWeights b) (s₀ s₀' s : LM p true) (hfit : LM.fit c perm init s₀ = (.ok (), s)) :
    ∃ (s' t t' : LM p true) (b : Row (p + 1)), LM.fit c perm' (init.map (Obs.raise k)) s₀' = (.ok (), s') ∧
      LM.updates c rng 0 batches s = (.ok (), t) ∧ LM.updates c rng' 0 (batches.map fun d => d.map (Obs.raise k)) s' = (.ok (), t') ∧
      t.coef = some b ∧ t'.coef = some (raiseAt 0 k b) ∧
      ∀ X, ∃ y, t.predict X = .ok y ∧ t'.predict X = .ok (y.map (· + k)) := by
  have hm' : getEstimationMethod c.method = .ok .ols := by rw [hm]; exact getEstimationMethod_ols
  obtain ⟨hv, h2, h3, h4, h5, m, sc, G, hmm, hsc, hG, _⟩ := LM.fit_ok hfit
  rw [hm'] at hmm; cases hmm
  obtain ⟨s', hfit'⟩ := LM.fit_ols_succeeds c perm' (init.map (Obs.raise k)) s₀' hv h2 (by simpa using h3) (by rw [raise_ws]; exact h4)
    (by rw [raise_ws]; exact h5) hm' sc (by rw [raise_xs, raise_ws]; exact hsc) G (by rw [raise_xs, raise_ws]; exact hG)
  obtain ⟨hne', hwb'⟩ := raise_batches k hne hwb
  obtain ⟨t, ht, inv⟩ := (OlsInv.of_fit hm' hwi hfit).updates hv (fun h => h3 (.inr h)) rng batches hne hwb 0
  obtain ⟨t', ht', inv'⟩ := (OlsInv.of_fit hm' (raise_nonneg hwi) hfit').updates hv (fun h => h3 (.inr h)) rng' _ hne' hwb' 0
  rw [raise_designObs, raise_mixedDesign, ← List.map_append] at inv'
  have hone : ∀ o ∈ designObs c.scaleInputs c.forget true init init ++ mixedDesign c.scaleInputs c.forget true init batches,
      o.x (intercept p) = 1 := by
    intro o ho
    rcases List.mem_append.1 ho with h | h
    · exact designObs_intercept _ _ _ _ o h
    · exact mixedDesign_intercept _ _ _ _ o h
  have hnn := inv.nonneg
  have hun := inv.isUnit
  have hc := inv.coef
  have hc' := inv'.coef
  generalize designObs c.scaleInputs c.forget true init init ++ mixedDesign c.scaleInputs c.forget true init batches = D at *
  have hcoef : olsBeta (initGram (xs (D.map (Obs.raise k))) (ws (D.map (Obs.raise k))) c.forget)⁻¹
      (initYGram (xs (D.map (Obs.raise k))) (ys (D.map (Obs.raise k))) (ws (D.map (Obs.raise k))) c.forget) =
      raiseAt (intercept p) k (olsBeta (initGram (xs D) (ws D) c.forget)⁻¹ (initYGram (xs D) (ys D) (ws D) c.forget)) := by
    rw [raise_xs, raise_ws]
    unfold olsBeta
    have key : initYGram (xs D) (ys (D.map (Obs.raise k))) (ws D) c.forget = initGram (xs D) (ws D) c.forget *ᵥ
        raiseAt (intercept p) k ((initGram (xs D) (ws D) c.forget)⁻¹ *ᵥ initYGram (xs D) (ys D) (ws D) c.forget) := by
      funext j
      rw [gram_raiseAt, Matrix.mulVec_mulVec, Matrix.mul_nonsing_inv _ hun, Matrix.one_mulVec]
      have := raise_yGram hv.2.1.le hnn hone k j
      rwa [raise_xs, raise_ws] at this
    rw [key, Matrix.mulVec_mulVec, Matrix.nonsing_inv_mul _ hun, Matrix.one_mulVec]
  rw [hcoef] at hc'
  refine ⟨s', t, t', _, hfit', ht, ht', hc, hc', fun X => ?_⟩
  refine ⟨X.map fun x => linPred (designRow true (standardise c.scaleInputs c.forget (init ++ batches.flatten) x)) (olsBeta
    (initGram (xs D) (ws D) c.forget)⁻¹ (initYGram (xs D) (ys D) (ws D) c.forget)), ?_, ?_⟩
  · unfold LM.predict
    rw [inv.scaler, hc]
    simp only [scaledDesign, transform_canon, List.map_map]
    rfl
  · unfold LM.predict
    rw [inv'.scaler, hc', raise_flatten]
    simp only [scaledDesign, transform_canon, List.map_map, raise_standardise]
    congr 1
    refine List.map_congr_left fun x _ => ?_
    exact linPred_raiseAt (designRow_intercept _) k _

/-! ### The penalised methods -/

theorem enetObjective_raise {q : ℕ} {G : Matrix (Fin q) (Fin q) ℝ} (hG : G.IsSymm) (h : Row q) (lam alpha : ℝ) {reg : Fin q → Bool}
    {j₀ : Fin q} (hj : reg j₀ = false) (k : ℝ) (b : Row q) :
    enetObjective G (fun j => h j + k * G j j₀) lam alpha reg (raiseAt j₀ k b) =
      enetObjective G h lam alpha reg b - k * h j₀ - k ^ 2 / 2 * G j₀ j₀ := by
  have hq : ∀ v : Row q, ∑ i, ∑ j, v i * G i j * v j = ∑ i, v i * (G *ᵥ v) i := by
    intro v
    simp only [Matrix.mulVec, dotProduct, Finset.mul_sum, mul_assoc]
  have hsum : ∀ g : Row q, ∑ i, raiseAt j₀ k b i * g i = (∑ i, b i * g i) + k * g j₀ := by
    intro g
    simp only [raiseAt, add_mul, Finset.sum_add_distrib]
    simp
  have hcol : ∑ i, b i * G i j₀ = (G *ᵥ b) j₀ := by
    simp only [Matrix.mulVec, dotProduct]
    refine Finset.sum_congr rfl fun i _ => ?_
    rw [hG.apply]
    ring
  have hquad : ∑ i, raiseAt j₀ k b i * (G *ᵥ raiseAt j₀ k b) i = (∑ i, b i * (G *ᵥ b) i) + 2 * k * (G *ᵥ b) j₀ + k ^ 2 * G j₀ j₀ := by
    rw [hsum]
    simp only [gram_raiseAt, mul_add, Finset.sum_add_distrib]
    have : ∑ i, b i * (k * G i j₀) = k * (G *ᵥ b) j₀ := by
      rw [← hcol, Finset.mul_sum]
      exact Finset.sum_congr rfl fun i _ => by ring
    rw [this]
    ring
  have hlin : ∑ j, (h j + k * G j j₀) * raiseAt j₀ k b j = (∑ j, h j * b j) + k * h j₀ + k * (G *ᵥ b) j₀ + k ^ 2 * G j₀ j₀ := by
    have e1 : ∑ j, (h j + k * G j j₀) * raiseAt j₀ k b j = ∑ j, raiseAt j₀ k b j * (h j + k * G j j₀) :=
      Finset.sum_congr rfl fun j _ => mul_comm _ _
    have e2 : ∑ j, b j * (h j + k * G j j₀) = (∑ j, h j * b j) + k * (G *ᵥ b) j₀ := by
      rw [← hcol, Finset.mul_sum, ← Finset.sum_add_distrib]
      exact Finset.sum_congr rfl fun j _ => by ring
    rw [e1, hsum, e2]
    ring
  have hpen : (∑ j, if reg j then alpha * |raiseAt j₀ k b j| + (1 - alpha) / 2 * raiseAt j₀ k b j ^ 2 else 0) =
      ∑ j, if reg j then alpha * |b j| + (1 - alpha) / 2 * b j ^ 2 else 0 := by
    refine Finset.sum_congr rfl fun j _ => ?_
    by_cases h0 : j = j₀
    · rw [h0, hj]
      simp
    · simp [raiseAt, h0]
  unfold enetObjective
  rw [hq, hquad, hlin, hpen, hq]
  ring

/-- Two descents, the second on the problem of the raised responses, each ended by its convergence test. -/
theorem descent_raise {q : ℕ} {P P' : CDProblem q} (hG : P.G.IsSymm) (hpsd : PSD P.G) (hlam : 0 ≤ P.lam) (ha0 : 0 ≤ P.alpha)
    (ha1 : P.alpha ≤ 1) (hb : BoundsOk P.lower P.upper) {j₀ : Fin q} (hj : P.reg j₀ = false) (hlo : P.lower j₀ = none)
    (hup : P.upper j₀ = none) {k : ℝ} (e0 : P'.h = fun j => P.h j + k * P.G j j₀) (e1 : P'.G = P.G) (e2 : P'.lam = P.lam)
    (e3 : P'.alpha = P.alpha) (e4 : P'.reg = P.reg) (e5 : P'.lower = P.lower) (e6 : P'.upper = P.upper) {sel : Selection}
    {perm perm' : ℕ → List (Fin q)} (hperm : ∀ i, (perm i).Perm (List.finRange q)) (hperm' : ∀ i, (perm' i).Perm (List.finRange q)) {tol : ℝ}
    {m : ℕ} {b b' r r' : Row q} {n n' : ℕ} (hr : onlineCD P sel perm tol m b = .ok (r, n))
    (hr' : onlineCD P' sel perm' tol m b' = .ok (r', n')) (hn : n < m + 1) (hn' : n' < m + 1)
    (hz : n = 1 ∨ ∀ j, r j = 0 → r' j = raiseAt j₀ k r j) (hz' : n' = 1 ∨ ∀ j, r' j = 0 → r' j = raiseAt j₀ k r j) :
    (∑ i, ∑ j, (raiseAt j₀ k r i - r' i) * P.G i j * (raiseAt j₀ k r j - r' j)) ≤
      tol * (maxAbs r + maxAbs r') * ∑ j, coupling P.G j * |raiseAt j₀ k r j - r' j| := by
  have hcv : CurvedAtLeast P.G P.lam P.alpha P.reg 0 := by
    intro v
    rw [zero_mul]
    unfold smoothForm
    refine add_nonneg (by simpa [Finset.mul_sum, mul_assoc] using hpsd v) (mul_nonneg (mul_nonneg hlam (by linarith)) ?_)
    exact Finset.sum_nonneg fun k _ => by split <;> positivity
  have hf := C22_bounds P hb _ _ _ _ _ _ _ hr
  have hf' := C22_bounds P' (by rw [e5, e6]; exact hb) _ _ _ _ _ _ _ hr'
  have hfree : ∀ (z : ℝ) (v : Row q), Feasible P.lower P.upper v → Feasible P.lower P.upper (raiseAt j₀ z v) := by
    intro z v hv j
    by_cases h0 : j = j₀
    · rw [h0, hlo, hup]
      exact ⟨(fun _ h => by cases h), (fun _ h => by cases h)⟩
    · simpa [raiseAt, h0] using hv j
  have hback : raiseAt j₀ k (raiseAt j₀ (-k) r') = r' := by
    funext j
    simp only [raiseAt]
    split <;> ring
  have k1 := onlineCD_accuracy hG hlam ha0 hcv hperm hr hn (c := raiseAt j₀ (-k) r') (hfree _ _ (by rw [← e5, ← e6]; exact hf'))
    (hz.imp id fun h j h0 => by
      have := h j h0
      simp only [raiseAt, h0] at this ⊢
      rw [this]
      split <;> ring)
  have k2 := onlineCD_accuracy (P := P') (by rw [e1]; exact hG) (by rw [e2]; exact hlam) (by rw [e3]; exact ha0)
    (by rw [e1, e2, e3, e4]; exact hcv) hperm' hr' hn' (c := raiseAt j₀ k r) (by rw [e5, e6]; exact hfree _ _ hf)
    (hz'.imp id fun h j h0 => by rw [← h j h0, h0])
  rw [e0, e1, e2, e3, e4] at k2
  have o1 := enetObjective_raise hG P.h P.lam P.alpha hj k r
  have o2 := enetObjective_raise hG P.h P.lam P.alpha hj k (raiseAt j₀ (-k) r')
  rw [hback] at o2
  have d1 : ∀ j, raiseAt j₀ (-k) r' j - r j = -(raiseAt j₀ k r j - r' j) := by
    intro j
    simp only [raiseAt]
    split <;> ring
  have s1 : smoothForm P.G P.lam P.alpha P.reg (fun j => raiseAt j₀ (-k) r' j - r j) =
      smoothForm P.G P.lam P.alpha P.reg (fun j => raiseAt j₀ k r j - r' j) := by
    simp only [d1]
    unfold smoothForm
    congr 1
    · exact Finset.sum_congr rfl fun i _ => Finset.sum_congr rfl fun j _ => by ring
    · simp only [neg_sq]
  have s2 : (∑ i, ∑ j, (raiseAt j₀ k r i - r' i) * P.G i j * (raiseAt j₀ k r j - r' j)) ≤
      smoothForm P.G P.lam P.alpha P.reg (fun j => raiseAt j₀ k r j - r' j) := by
    unfold smoothForm
    refine le_add_of_nonneg_right (mul_nonneg (mul_nonneg hlam (by linarith)) ?_)
    exact Finset.sum_nonneg fun k _ => by split <;> positivity
  have s3 : ∑ j, coupling P.G j * |raiseAt j₀ (-k) r' j - r j| = ∑ j, coupling P.G j * |raiseAt j₀ k r j - r' j| :=
    Finset.sum_congr rfl fun j _ => by rw [d1, abs_neg]
  rw [s1, s3] at k1
  rw [o1, o2] at k2
  refine s2.trans ?_
  linarith

/-- The distance of the raised fitted values of `r` from those of `r'`. -/
theorem distance_raise (c : LMConfig p true) (hf : c.forget ≤ 1) (lam alpha : ℝ) (lower upper : Fin (designDim p true) → Option ℝ)
    {d : List (Obs p)} (hd : NonnegWeights d) (k : ℝ) (r r' : Row (designDim p true)) :
    weightedDistance c.forget d (((xs d).map fun x => linPred (designRow true x) r).map (· + k))
      ((xs d).map fun x => linPred (designRow true x) r') =
      ∑ i, ∑ j, (raiseAt (intercept p) k r i - r' i) * (dataProblem c lam alpha lower upper d).G i j *
        (raiseAt (intercept p) k r j - r' j) := by
  have h := distance_fitted c.forget (d.map fun o => (o, (0 : ℝ))) (fun x => linPred (designRow true x) r + k)
    (fun x => linPred (designRow true x) r')
  have hd' : (d.map fun o => (o, (0 : ℝ))).map Prod.fst = d := by rw [List.map_map]; exact List.map_id d
  rw [hd', discSum_map] at h
  rw [List.map_map]
  refine h.trans ?_
  have hq := gram_quad hf _ (plainObs_nonneg (fi := true) hd) (fun j => raiseAt (intercept p) k r j - r' j)
    (fun j => raiseAt (intercept p) k r j - r' j)
  have hleft : (fun j => raiseAt (intercept p) k r j - r' j) ⬝ᵥ (initGram (xs (plainObs true d)) (ws (plainObs true d)) c.forget *ᵥ
      fun j => raiseAt (intercept p) k r j - r' j) = ∑ i, ∑ j, (raiseAt (intercept p) k r i - r' i) *
        (dataProblem c lam alpha lower upper d).G i j * (raiseAt (intercept p) k r j - r' j) := by
    simp only [dotProduct, Matrix.mulVec, Finset.mul_sum, dataProblem, mul_assoc]
  rw [← hleft, hq]
  simp only [plainObs, discSum_map]
  refine discSum_congr _ _ fun o _ => ?_
  have h5 : linPred (designRow true o.x) r + k - linPred (designRow true o.x) r' =
      designRow true o.x ⬝ᵥ fun j => raiseAt (intercept p) k r j - r' j := by
    rw [← linPred_raiseAt (designRow_intercept o.x) k r]
    simp only [linPred, dotProduct]
    rw [← Finset.sum_sub_distrib]
    exact Finset.sum_congr rfl fun j _ => by ring
  rw [h5, dotProduct_comm (fun j => raiseAt (intercept p) k r j - r' j)]
  ring

theorem raise_plainObs (k : ℝ) (fi : Bool) (d : List (Obs p)) : plainObs fi (d.map (Obs.raise k)) = (plainObs fi d).map (Obs.raise k) := by
  simp [plainObs, Obs.raise]

theorem raise_dataProblem (c : LMConfig p true) (hf : c.forget ≤ 1) (lam alpha : ℝ) (lower upper : Fin (designDim p true) → Option ℝ)
    {d : List (Obs p)} (hd : NonnegWeights d) (k : ℝ) :
    (dataProblem c lam alpha lower upper (d.map (Obs.raise k))).G = (dataProblem c lam alpha lower upper d).G ∧
    (dataProblem c lam alpha lower upper (d.map (Obs.raise k))).h =
      fun j => (dataProblem c lam alpha lower upper d).h j + k * (dataProblem c lam alpha lower upper d).G j (intercept p) := by
  constructor
  · simp only [dataProblem]
    rw [raise_plainObs, raise_xs, raise_ws]
  · funext j
    simp only [dataProblem]
    rw [raise_plainObs]
    refine raise_yGram hf (plainObs_nonneg hd) ?_ k j
    intro o ho
    obtain ⟨e, _, rfl⟩ := List.mem_map.1 ho
    rfl

/-- **C115, ridge regression** without scaling and with an intercept that is neither penalised nor bounded, after a fit and any updates.
If both descents were ended by the convergence test and agree in their zeros (or one sweep was enough), the fitted values with `k` added to
every response are the fitted values plus `k`, up to the tolerance. -/
theorem C115_ridge_partial (k : ℝ) (c : LMConfig p true) (a : RidgeArgs (designDim p true))
    (ha : getEstimationMethod c.method = .ok (.ridge a)) (hs : c.scaleInputs = .off) (hri : c.regularizeIntercept = false)
    (hlam : ∀ l, a.lambdaReg = some l → 0 ≤ l) (lower upper : Fin (p + 1) → Option ℝ) (hlo : setBound _ a.lower = .ok lower)
    (hup : setBound _ a.upper = .ok upper) (hbd : BoundsOk lower upper) (hlo0 : lower 0 = none) (hup0 : upper 0 = none)
    (perm perm' : ℕ → ℕ → List (Fin (p + 1))) (hp : ∀ i j, (perm i j).Perm (List.finRange _))
    (hp' : ∀ i j, (perm' i j).Perm (List.finRange _)) (rng rng' : ℕ → ℕ → ℕ → List (Fin (p + 1)))
    (hrng : ∀ k i j, (rng k i j).Perm (List.finRange _)) (hrng' : ∀ k i j, (rng' k i j).Perm (List.finRange _))
    (init : List (Obs p)) (batches : List (List (Obs p))) (hwi : NonnegWeights init) (hne : ∀ b ∈ batches, b ≠ [])
    (hwb : ∀ b ∈ batches, NonnegWeights b) (s₀ s₀' s s' t t' : LM p true) (hfit : LM.fit c perm init s₀ = (.ok (), s))
    (hfit' : LM.fit c perm' (init.map (Obs.raise k)) s₀' = (.ok (), s')) (hups : LM.updates c rng 0 batches s = (.ok (), t))
    (hups' : LM.updates c rng' 0 (batches.map fun d => d.map (Obs.raise k)) s' = (.ok (), t')) :
    ∃ (lam : ℝ) (b b' r r' : Row (p + 1)) (n n' : ℕ) (order order' : ℕ → List (Fin (p + 1))) (y y' : List ℝ),
      t.coef = some r ∧ t'.coef = some r' ∧
      t.predict (xs (init ++ batches.flatten)) = .ok y ∧ t'.predict (xs (init ++ batches.flatten)) = .ok y' ∧
      onlineCD (dataProblem c lam 0 lower upper (init ++ batches.flatten)) a.selection order a.tolerance a.maxIterations b = .ok (r, n) ∧
      onlineCD (dataProblem c lam 0 lower upper ((init ++ batches.flatten).map (Obs.raise k))) a.selection order' a.tolerance
        a.maxIterations b' = .ok (r', n') ∧
      (n < a.maxIterations + 1 → n' < a.maxIterations + 1 → (n = 1 ∨ ∀ j, r j = 0 → r' j = raiseAt 0 k r j) →
        (n' = 1 ∨ ∀ j, r' j = 0 → r' j = raiseAt 0 k r j) →
        weightedDistance c.forget (init ++ batches.flatten) (y.map (· + k)) y' ≤ a.tolerance * (maxAbs r + maxAbs r') *
          ∑ j, coupling (dataProblem c lam 0 lower upper (init ++ batches.flatten)).G j * |raiseAt 0 k r j - r' j|) := by
  have hf := (LM.fit_ok hfit).1.2.1.le
  have hD := history_nonneg hwi hwb
  obtain ⟨hne', hwb'⟩ := raise_batches k hne hwb
  obtain ⟨lam, b, r, n, order, h1, _, h3, h4, h5, h6, h7⟩ := ridge_descent c a ha hs hlam hlo hup hp hrng hwi hne hwb hfit hups
  obtain ⟨lam', b', r', n', order', g1, _, g3, g4, g5, g6, g7⟩ := ridge_descent c a ha hs hlam hlo hup hp' hrng'
    (raise_nonneg hwi) hne' hwb' hfit' hups'
  obtain rfl : lam = lam' := by rw [h7, g7, raise_plainObs, raise_xs, raise_ws]
  rw [raise_flatten] at g6
  refine ⟨lam, b, b', r, r', n, n', order, order', _, _, h3, g3, h5.predict_plain hs h3 _, g5.predict_plain hs g3 _, h6, g6,
    fun hn hn' hz hz' => ?_⟩
  obtain ⟨k1, k2⟩ := gram_psd hf _ (plainObs_nonneg (fi := true) hD)
  obtain ⟨q1, q2⟩ := raise_dataProblem c hf lam 0 lower upper hD k
  refine (distance_raise c hf lam 0 lower upper hD k r r').trans_le ?_
  exact descent_raise (P := dataProblem c lam 0 lower upper (init ++ batches.flatten))
    (P' := dataProblem c lam 0 lower upper ((init ++ batches.flatten).map (Obs.raise k))) k1 k2 h1 le_rfl zero_le_one hbd
    (j₀ := intercept p) (by simp [dataProblem, intercept, isRegularized, hri]) hlo0 hup0 q2 q1 rfl rfl rfl rfl rfl h4 g4 h6 g6 hn hn' hz hz'

theorem lambdaPath_raise {q : ℕ} (a : EnetArgs) {G : Matrix (Fin q) (Fin q) ℝ} (hG : G.IsSymm) (h : Row q) {reg : Fin q → Bool} {j₀ : Fin q}
    (hreg : (List.finRange q).filter (fun j => !reg j) = [j₀]) (h0 : G j₀ j₀ ≠ 0) (k : ℝ) :
    a.lambdaPath G (fun j => h j + k * G j j₀) reg = a.lambdaPath G h reg := by
  have : getLambdaMax G (fun j => h j + k * G j j₀) reg = getLambdaMax G h reg := by
    unfold getLambdaMax
    rw [hreg]
    simp only
    congr 2
    funext i
    congr 1
    rw [hG.apply i j₀]
    field_simp
    ring
  unfold EnetArgs.lambdaPath
  rw [this]

theorem unregularized_intercept (p : ℕ) :
    (List.finRange (designDim p true)).filter (fun j => !(isRegularized p true false) j) = [intercept p] := by
  have key : ∀ g : Fin (p + 1) → Bool, g 0 = false → (∀ i : Fin p, g i.succ = true) →
      (List.finRange (p + 1)).filter (fun j => !g j) = [(0 : Fin (p + 1))] := by
    intro g h0 h1
    rw [List.finRange_succ, List.filter_cons_of_pos (by simp [h0])]
    congr 1
    rw [List.filter_eq_nil_iff]
    intro j hj
    obtain ⟨i, _, rfl⟩ := List.mem_map.1 hj
    simp [h1]
  exact key _ (by simp [isRegularized]) fun i => by simp [isRegularized]

theorem getD_map_fst {α : Type*} {l : List (α × ℕ)} (g : α → ℝ) {i : ℕ} {r : α} {n : ℕ} (h : l[i]? = some (r, n)) :
    ((l.map Prod.fst).map g).getD i 0 = g r := by
  rw [List.getD_eq_getElem?_getD, List.getElem?_map, List.getElem?_map, h]
  rfl

/-- **C115, path methods** (`LassoPath`, `ElasticNetPath`), the same for every row of the path that both descents computed and ended by
their convergence tests. -/
theorem C115_path_partial (k : ℝ) (c : LMConfig p true) (a : EnetArgs) (ha : getEstimationMethod c.method = .ok (.path a))
    (hs : c.scaleInputs = .off) (hri : c.regularizeIntercept = false) (ha0 : 0 ≤ a.alpha) (ha1 : a.alpha ≤ 1) (he : 0 ≤ a.lambdaEps)
    (lower upper : Fin (p + 1) → Option ℝ) (hlo : setBound _ a.lower = .ok lower) (hup : setBound _ a.upper = .ok upper)
    (hbd : BoundsOk lower upper) (hlo0 : lower 0 = none) (hup0 : upper 0 = none)
    (perm perm' : ℕ → ℕ → List (Fin (p + 1))) (hp : ∀ i j, (perm i j).Perm (List.finRange _))
    (hp' : ∀ i j, (perm' i j).Perm (List.finRange _)) (rng rng' : ℕ → ℕ → ℕ → List (Fin (p + 1)))
    (hrng : ∀ k i j, (rng k i j).Perm (List.finRange _)) (hrng' : ∀ k i j, (rng' k i j).Perm (List.finRange _))
    (init : List (Obs p)) (batches : List (List (Obs p))) (hwi : NonnegWeights init) (hne : ∀ b ∈ batches, b ≠ [])
    (hwb : ∀ b ∈ batches, NonnegWeights b) (s₀ s₀' s s' t t' : LM p true) (hfit : LM.fit c perm init s₀ = (.ok (), s))
    (hfit' : LM.fit c perm' (init.map (Obs.raise k)) s₀' = (.ok (), s')) (hups : LM.updates c rng 0 batches s = (.ok (), t))
    (hups' : LM.updates c rng' 0 (batches.map fun d => d.map (Obs.raise k)) s' = (.ok (), t')) :
    ∃ (lams lams' : List ℝ) (old old' : List (Row (p + 1))) (l l' : List (Row (p + 1) × ℕ)) (which which' : StartValue)
      (order order' : ℕ → ℕ → List (Fin (p + 1))) (Y Y' : List (List ℝ)), t.coefPath = some (l.map Prod.fst) ∧
      t'.coefPath = some (l'.map Prod.fst) ∧ t.predictPath (xs (init ++ batches.flatten)) = .ok Y ∧
      t'.predictPath (xs (init ++ batches.flatten)) = .ok Y' ∧
      onlineCDPath (a.pathConfig which (isRegularized p true false) lower upper order)
        (dataProblem c 0 0 lower upper (init ++ batches.flatten)).G (dataProblem c 0 0 lower upper (init ++ batches.flatten)).h lams old =
          .ok l ∧
      onlineCDPath (a.pathConfig which' (isRegularized p true false) lower upper order')
        (dataProblem c 0 0 lower upper ((init ++ batches.flatten).map (Obs.raise k))).G
        (dataProblem c 0 0 lower upper ((init ++ batches.flatten).map (Obs.raise k))).h lams' old' = .ok l' ∧
      ∀ (i : ℕ) (r r' : Row (p + 1)) (n n' : ℕ), l[i]? = some (r, n) → l'[i]? = some (r', n') → 1 ≤ n → 1 ≤ n' →
        n < a.maxIterations + 1 → n' < a.maxIterations + 1 → (n = 1 ∨ ∀ j, r j = 0 → r' j = raiseAt 0 k r j) →
        (n' = 1 ∨ ∀ j, r' j = 0 → r' j = raiseAt 0 k r j) → lams'[i]? = lams[i]? ∧
        weightedDistance c.forget (init ++ batches.flatten) ((Y.map fun row => row.getD i 0).map (· + k)) (Y'.map fun row => row.getD i 0) ≤
          a.tolerance * (maxAbs r + maxAbs r') *
            ∑ j, coupling (dataProblem c 0 0 lower upper (init ++ batches.flatten)).G j * |raiseAt 0 k r j - r' j| := by
  have hf := (LM.fit_ok hfit).1.2.1.le
  have hD := history_nonneg hwi hwb
  obtain ⟨hne', hwb'⟩ := raise_batches k hne hwb
  obtain ⟨lams, old, l, which, order, h1, h2, h3, h4, h5⟩ := path_descent c a ha hs hlo hup hp hrng hwi hne hwb hfit hups
  obtain ⟨lams', old', l', which', order', g1, g2, g3, g4, g5⟩ := path_descent c a ha hs hlo hup hp' hrng' (raise_nonneg hwi) hne' hwb'
    hfit' hups'
  rw [raise_flatten] at g4 g5
  rw [hri] at h4 h5 g4 g5
  refine ⟨lams, lams', old, old', l, l', which, which', order, order', _, _, h1, g1, h3.predictPath_plain hs h1 _,
    g3.predictPath_plain hs g1 _, h5, g5, fun i r r' n n' hi hi' hn1 hn1' hn hn' hz hz' => ?_⟩
  have descent : ∀ (d : List (Obs p)) (lams : List ℝ) (old : List (Row (p + 1))) (l : List (Row (p + 1) × ℕ)) (which : StartValue)
      (order : ℕ → ℕ → List (Fin (p + 1))) (r : Row (p + 1)) (n : ℕ),
      onlineCDPath (a.pathConfig which (isRegularized p true false) lower upper order) (dataProblem c 0 0 lower upper d).G
        (dataProblem c 0 0 lower upper d).h lams old = .ok l → l[i]? = some (r, n) → 1 ≤ n → ∃ lam b, lams[i]? = some lam ∧
        onlineCD (dataProblem c lam a.alpha lower upper d) a.selection (order (0 + i)) a.tolerance a.maxIterations b = .ok (r, n) := by
    intro d lams old l which order r n h5 hi hn1
    obtain ⟨lam, o, prev, hlam, _, _, hrow⟩ := cdPathLoop_row h5 i _ hi
    refine ⟨lam, startValue which prev o, hlam, ?_⟩
    unfold cdPathRow at hrow
    simp only at hrow
    split at hrow
    · cases hrow
      omega
    · refine Eq.trans ?_ hrow
      unfold dataProblem
      rw [hri]
      rfl
  obtain ⟨lam, b, hl, hcd⟩ := descent _ _ _ _ _ _ _ _ h5 hi hn1
  obtain ⟨lam', b', hl', hcd'⟩ := descent _ _ _ _ _ _ _ _ g5 hi' hn1'
  obtain ⟨k1, k2⟩ := gram_psd hf _ (plainObs_nonneg (fi := true) hD)
  obtain ⟨q1, q2⟩ := raise_dataProblem c hf 0 0 lower upper hD k
  have hreg : (dataProblem c lam a.alpha lower upper (init ++ batches.flatten)).reg (intercept p) = false := by
    simp [dataProblem, intercept, isRegularized, hri]
  have hG0 : (dataProblem c 0 0 lower upper (init ++ batches.flatten)).G (intercept p) (intercept p) ≠ 0 := by
    have := (onlineCD_seq hcd).1 (intercept p)
    unfold CDProblem.denom at this
    rw [hreg] at this
    simpa [dataProblem] using this
  rw [q1, q2] at g4
  have hll := Except.ok.inj (g4.symm.trans ((lambdaPath_raise a (G := (dataProblem c 0 0 lower upper (init ++ batches.flatten)).G) k1 _
    (unregularized_intercept p) hG0 k).trans h4))
  rw [hll] at hl'
  obtain rfl : lam = lam' := Option.some.inj (hl.symm.trans hl')
  refine ⟨by rw [hll], ?_⟩
  have hpos : 0 ≤ lam := lambdaPath_nonneg he (j := (0 : Fin (p + 1))) (by simp [isRegularized]) h4 lam (List.mem_of_getElem? hl)
  have hcol : ∀ (l : List (Row (p + 1) × ℕ)) (r : Row (p + 1)) (n : ℕ), l[i]? = some (r, n) →
      ((xs (init ++ batches.flatten)).map fun x => (l.map Prod.fst).map fun b => linPred (designRow true x) b).map
      (fun row => row.getD i 0) = (xs (init ++ batches.flatten)).map fun x => linPred (designRow true x) r := by
    intro l r n hi
    rw [List.map_map]
    refine List.map_congr_left fun x _ => ?_
    simp only [Function.comp]
    exact getD_map_fst _ hi
  have c1 := hcol l r n hi
  have c2 := hcol l' r' n' hi'
  erw [c1, c2]
  obtain ⟨w1, w2⟩ := raise_dataProblem c hf lam a.alpha lower upper hD k
  refine (distance_raise c hf lam a.alpha lower upper hD k r r').trans_le ?_
  exact descent_raise (P := dataProblem c lam a.alpha lower upper (init ++ batches.flatten))
    (P' := dataProblem c lam a.alpha lower upper ((init ++ batches.flatten).map (Obs.raise k))) k1 k2 hpos ha0 ha1 hbd
    (j₀ := intercept p) hreg hlo0 hup0 w2 w1 rfl rfl rfl rfl rfl (h2 _) (g2 _) hcd hcd' hn hn' hz hz'

/-- **C115 fails for ridge regression** when one descent passes an intercept of exactly zero: `Ridge(lambda_reg=10)` without scaling on the
points `(1, 1)` and `(3, 3)`, and with any `k > 0` added to both responses.  The slope is `1/2` for the first data and at most `3/10` for the
second, and the predictions are not those for the first data plus `k`. -/
theorem C115_ridge_fails {k tol : ℝ} (hk : 0 < k) {m : ℕ} (hm : 1 ≤ m) (ht : tol * max k (1 / 2) < 1 / 2)
    (perm perm' : ℕ → ℕ → List (Fin (designDim 1 true))) (s₀ s₀' : LM 1 true) :
    ∃ (s s' : LM 1 true) (r r' : Row 2) (y y' : List ℝ), LM.fit (ridgeLine 10 tol m) perm (pairOf 1 1 3 3) s₀ = (.ok (), s) ∧
      LM.fit (ridgeLine 10 tol m) perm' ((pairOf 1 1 3 3).map (Obs.raise k)) s₀' = (.ok (), s') ∧ s.coef = some r ∧ s'.coef = some r' ∧
      r 1 = 1 / 2 ∧ r' 1 ≤ 3 / 10 ∧ s.predict (xs (pairOf 1 1 3 3)) = .ok y ∧ s'.predict (xs (pairOf 1 1 3 3)) = .ok y' ∧
      4 / 5 ≤ weightedDistance 0 (pairOf 1 1 3 3) (y.map (· + k)) y' := by
  obtain ⟨s, hs, inv, hc⟩ := ridgeLine_fit (l := 10) (x := 0) (y := 1) (r0 := 0) (r1 := 1 / 2) tol m (by norm_num) (by norm_num)
    (by norm_num) (by norm_num) perm (d := pairOf 1 1 3 3) (by simp [pairOf]) (pairOf_nonneg _ _ _ _) (by simp [pairOf, ws])
    (pairOf_gram _ _ _ _) (pairOf_yGram _ _ _ _) (by norm_num) (by norm_num) rfl (by norm_num) (.inl rfl) s₀
  obtain ⟨s', z, hs', inv', hc', h1, h2⟩ := shifted_line_fit hk hm ht perm' s₀'
  refine ⟨s, s', _, _, _, _, hs, hs', hc, hc', by simp, by simp; linarith, inv.predict_plain rfl hc _, inv'.predict_plain rfl hc' _, ?_⟩
  simp only [pairOf, xs, List.map_cons, List.map_nil]
  erw [linPred_line, linPred_line, linPred_line, linPred_line]
  simp [weightedDistance, discSum_cons]
  nlinarith [sq_nonneg (2 + k - 2 * z + (2 + 8 * z) / 20 - 1 / 2 - k - 4 / 5), sq_nonneg (2 + k - 2 * z + 3 * ((2 + 8 * z) / 20) - 3 / 2 - k - 2 / 5)]

/-! ### The hypotheses are satisfiable -/

/-- Least squares with scaling, a fit and an update, with the responses raised by seven. -/
example (perm : ℕ → ℕ → List (Fin (designDim 1 true))) (rng : ℕ → ℕ → ℕ → List (Fin (designDim 1 true))) :
    ∃ s s' t t' y, LM.fit (olsConfig .all) perm lineInit (LM.new 1 true) = (.ok (), s) ∧
      LM.fit (olsConfig .all) perm (lineInit.map (Obs.raise 7)) (LM.new 1 true) = (.ok (), s') ∧
      LM.updates (olsConfig .all) rng 0 [[⟨fun _ => 2, 5, 3⟩]] s = (.ok (), t) ∧
      LM.updates (olsConfig .all) rng 0 [[⟨fun _ => 2, 5 + 7, 3⟩]] s' = (.ok (), t') ∧
      t.predict [fun _ => 4] = .ok y ∧ t'.predict [fun _ => 4] = .ok (y.map (· + 7)) := by
  obtain ⟨s, hs⟩ := lineInit_fit perm .all (.inl rfl) (LM.new 1 true)
  obtain ⟨s', t, t', b, h1, h2, h3, _, _, h6⟩ := C115_least_squares 7 (olsConfig .all) rfl perm perm rng rng lineInit [[⟨fun _ => 2, 5, 3⟩]]
    (by simp) lineInit_nonneg (by simp [NonnegWeights]) _ (LM.new 1 true) s hs
  obtain ⟨y, h7, h8⟩ := h6 [fun _ => 4]
  exact ⟨s, s', t, t', y, hs, h1, h2, h3, h7, h8⟩

/-- Ridge regression: `ridgeLine` on the points `(-1, 0), (1, 2)` with the responses raised by two.  The features are not coupled, so that
there is no slack, and the predictions are raised by two. -/
example (perm : ℕ → ℕ → List (Fin (designDim 1 true))) (hp : ∀ i j, (perm i j).Perm (List.finRange _)) :
    ∃ (s s' : LM 1 true) (y y' : List ℝ), LM.fit (ridgeLine 2 (1 / 10000) 1000) perm (pairOf (-1) 0 1 2) (LM.new 1 true) = (.ok (), s) ∧
      LM.fit (ridgeLine 2 (1 / 10000) 1000) perm ((pairOf (-1) 0 1 2).map (Obs.raise 2)) (LM.new 1 true) = (.ok (), s') ∧
      s.predict (xs (pairOf (-1) 0 1 2)) = .ok y ∧ s'.predict (xs (pairOf (-1) 0 1 2)) = .ok y' ∧
      weightedDistance 0 (pairOf (-1) 0 1 2) (y.map (· + 2)) y' ≤ 0 := by
  have hd : (pairOf (-1) 0 1 2).map (Obs.raise 2) = pairOf (-1) 2 1 4 := by
    simp only [pairOf, Obs.raise, List.map_cons, List.map_nil]
    norm_num
  obtain ⟨s, hs, inv, hc⟩ := ridgeLine_fit (l := 2) (x := 1) (y := 1) (r0 := 1) (r1 := 1 / 2) (1 / 10000) 1000 (by norm_num) (by norm_num)
    (by norm_num) (by norm_num) perm (d := pairOf (-1) 0 1 2) (by simp [pairOf]) (pairOf_nonneg _ _ _ _) (by simp [pairOf, ws])
    (pairOf_gram _ _ _ _) (pairOf_yGram _ _ _ _) (by norm_num) (by norm_num) rfl (by norm_num) (.inr (by norm_num)) (LM.new 1 true)
  obtain ⟨s', hs', inv', hc'⟩ := ridgeLine_fit (l := 2) (x := 3) (y := 1) (r0 := 3) (r1 := 1 / 2) (1 / 10000) 1000 (by norm_num) (by norm_num)
    (by norm_num) (by norm_num) perm (d := pairOf (-1) 2 1 4) (by simp [pairOf]) (pairOf_nonneg _ _ _ _) (by simp [pairOf, ws])
    (pairOf_gram _ _ _ _) (pairOf_yGram _ _ _ _) (by norm_num) (by norm_num) rfl (by norm_num) (.inr (by norm_num)) (LM.new 1 true)
  rw [← hd] at hs'
  obtain ⟨lam, b, b', r, r', n, n', order, order', y, y', h1, h2, h3, h4, h5, h6, h7⟩ := C115_ridge_partial 2 (ridgeLine 2 (1 / 10000) 1000)
    _ rfl rfl rfl (by simp) (fun _ => none) (fun _ => none) rfl rfl (fun _ _ _ h => by cases h) rfl rfl perm perm hp hp (fun _ => perm)
    (fun _ => perm) (fun _ => hp) (fun _ => hp) (pairOf (-1) 0 1 2) [] (pairOf_nonneg _ _ _ _) (by simp) (by simp) _ _ s s' s s' hs hs' rfl rfl
  simp only [List.flatten_nil, List.append_nil, hd] at h3 h4 h5 h6 h7
  obtain rfl : r = (![1, 1 / 2] : Row 2) := Option.some.inj (h1.symm.trans hc)
  obtain rfl : r' = (![3, 1 / 2] : Row 2) := Option.some.inj (h2.symm.trans hc')
  have hn : n ≤ 2 := onlineCD_two (by norm_num) h5 (uncoupled_converged lam 0 2 order b)
  have hn' : n' ≤ 2 := onlineCD_two (by norm_num) h6 (uncoupled_converged lam 2 4 order' b')
  have hnz : ∀ j : Fin 2, (![1, 1 / 2] : Row 2) j ≠ 0 ∧ (![3, 1 / 2] : Row 2) j ≠ 0 := by
    intro j; fin_cases j <;> simp
  have := h7 (lt_of_le_of_lt hn (by norm_num)) (lt_of_le_of_lt hn' (by norm_num)) (.inr fun j h => absurd h (hnz j).1)
    (.inr fun j h => absurd h (hnz j).2)
  refine ⟨s, s', y, y', hs, hs', h3, h4, this.trans_eq ?_⟩
  have hsum : ∑ j, coupling (dataProblem (ridgeLine 2 (1 / 10000) 1000) lam 0 (fun _ => none) (fun _ => none) (pairOf (-1) 0 1 2)).G j *
      |raiseAt 0 2 (![1, 1 / 2] : Row 2) j - (![3, 1 / 2] : Row 2) j| = 0 :=
    Finset.sum_eq_zero fun j _ => by erw [uncoupled_coupling lam 0 2 j]; exact zero_mul _
  erw [hsum]
  rw [mul_zero]

/-- Lasso path: `lassoLine` on the points `(-1, 0), (1, 2)` with the responses raised by five.  The penalties of the two paths are the same,
and where both rows were computed without reaching a zero coefficient, the predictions are raised by five. -/
example (perm : ℕ → ℕ → List (Fin (designDim 1 true))) (hp : ∀ i j, (perm i j).Perm (List.finRange _)) :
    ∃ (s s' : LM 1 true) (l l' : List (Row 2 × ℕ)) (Y Y' : List (List ℝ)),
      LM.fit lassoLine perm (pairOf (-1) 0 1 2) (LM.new 1 true) = (.ok (), s) ∧
      LM.fit lassoLine perm ((pairOf (-1) 0 1 2).map (Obs.raise 5)) (LM.new 1 true) = (.ok (), s') ∧
      s.coefPath = some (l.map Prod.fst) ∧ l.length = 100 ∧ s'.coefPath = some (l'.map Prod.fst) ∧ l'.length = 100 ∧
      s.predictPath (xs (pairOf (-1) 0 1 2)) = .ok Y ∧ s'.predictPath (xs (pairOf (-1) 0 1 2)) = .ok Y' ∧
      ∀ (i : ℕ) (r r' : Row 2) (n n' : ℕ), l[i]? = some (r, n) → l'[i]? = some (r', n') → 1 ≤ n → 1 ≤ n' → n < 1000 + 1 → n' < 1000 + 1 →
        (∀ j, r j ≠ 0 ∧ r' j ≠ 0) →
        weightedDistance 0 (pairOf (-1) 0 1 2) ((Y.map fun row => row.getD i 0).map (· + 5)) (Y'.map fun row => row.getD i 0) ≤ 0 := by
  have hd : (pairOf (-1) 0 1 2).map (Obs.raise 5) = pairOf (-1) 5 1 (5 + 2) := by
    simp only [pairOf, Obs.raise, List.map_cons, List.map_nil]
    norm_num
  have hm : getEstimationMethod (q := designDim 1 true) lassoLine.method = .ok (.path lassoDefault) := rfl
  obtain ⟨s, path, hs, hc, hlen⟩ := lassoLine_fit 0 perm (LM.new 1 true)
  obtain ⟨s', path', hs', hc', hlen'⟩ := lassoLine_fit 5 perm (LM.new 1 true)
  rw [zero_add] at hs
  rw [← hd] at hs'
  obtain ⟨lams, lams', old, old', l, l', which, which', order, order', Y, Y', h1, h2, h3, h4, h5, h6, h7⟩ := C115_path_partial 5 lassoLine
    lassoDefault hm rfl rfl (by norm_num [lassoDefault]) (by norm_num [lassoDefault]) (by norm_num [lassoDefault]) (fun _ => none)
    (fun _ => none) rfl rfl (fun _ _ _ h => by cases h) rfl rfl perm perm hp hp (fun _ => perm) (fun _ => perm) (fun _ => hp) (fun _ => hp)
    (pairOf (-1) 0 1 2) [] (pairOf_nonneg _ _ _ _) (by simp) (by simp) _ _ s s' s s' hs hs' rfl rfl
  simp only [List.flatten_nil, List.append_nil] at h3 h4 h5 h6 h7
  refine ⟨s, s', l, l', Y, Y', hs, hs', h1, ?_, h2, ?_, h3, h4, fun i r r' n n' hi hi' hn1 hn1' hn hn' hz => ?_⟩
  · have := congrArg List.length (Option.some.inj (h1.symm.trans hc))
    rw [List.length_map] at this
    exact this.trans hlen
  · have := congrArg List.length (Option.some.inj (h2.symm.trans hc'))
    rw [List.length_map] at this
    exact this.trans hlen'
  · refine (h7 i r r' n n' hi hi' hn1 hn1' hn hn' (.inr fun j h => absurd h (hz j).1) (.inr fun j h => absurd h (hz j).2)).2.trans_eq ?_
    have hsum : ∑ j, coupling (dataProblem lassoLine 0 0 (fun _ => none) (fun _ => none) (pairOf (-1) 0 1 2)).G j *
        |raiseAt 0 5 r j - r' j| = 0 :=
      Finset.sum_eq_zero fun j _ => by erw [uncoupled_coupling 0 0 2 j]; exact zero_mul _
    erw [hsum]
    rw [mul_zero]

end Ondil
