import Verif.Spec.Stability
import Verif.Props.Calibration
import Verif.Props.ResponseUnits

/-!
# C114: small changes of the responses change the fitted values little
-/

open scoped BigOperators Matrix

namespace Ondil

variable {p : ℕ} {fi : Bool}

/-- The observation with another response. -/
def Obs.answer (e : Obs p × ℝ) : Obs p := ⟨e.1.x, e.2, e.1.w⟩

theorem sameInput_pairs {d d' : List (Obs p)} (h : List.Forall₂ SameInput d d') :
    ∃ E : List (Obs p × ℝ), d = E.map Prod.fst ∧ d' = E.map Obs.answer := by
  induction h with
  | nil => exact ⟨[], rfl, rfl⟩
  | @cons o o' d d' ho _ ih =>
    obtain ⟨E, h1, h2⟩ := ih
    refine ⟨(o, o'.y) :: E, by rw [h1]; rfl, ?_⟩
    rw [h2, List.map_cons]
    congr 1
    cases o'
    obtain ⟨h3, h4⟩ := ho
    simp only [Obs.answer, h3, h4]

theorem sameInput_history {d d' : List (Obs p)} {bs bs' : List (List (Obs p))} (h : List.Forall₂ SameInput d d')
    (hb : List.Forall₂ (List.Forall₂ SameInput) bs bs') : List.Forall₂ SameInput (d ++ bs.flatten) (d' ++ bs'.flatten) :=
  List.rel_append h (List.rel_flatten hb)

theorem sameInput_nonneg {d d' : List (Obs p)} (h : List.Forall₂ SameInput d d') (hd : NonnegWeights d) : NonnegWeights d' := by
  obtain ⟨E, rfl, rfl⟩ := sameInput_pairs h
  intro o ho
  obtain ⟨e, he, rfl⟩ := List.mem_map.1 ho
  exact hd e.1 (List.mem_map_of_mem he)

theorem sameInput_batches {bs bs' : List (List (Obs p))} (h : List.Forall₂ (List.Forall₂ SameInput) bs bs') (hne : ∀ b ∈ bs, b ≠ [])
    (hw : ∀ b ∈ bs, NonnegWeights b) : (∀ b ∈ bs', b ≠ []) ∧ ∀ b ∈ bs', NonnegWeights b := by
  induction h with
  | nil => exact ⟨by simp, by simp⟩
  | @cons b b' bs bs' hb _ ih =>
    obtain ⟨h1, h2⟩ := ih (fun d hd => hne d (List.mem_cons_of_mem _ hd)) fun d hd => hw d (List.mem_cons_of_mem _ hd)
    refine ⟨List.forall_mem_cons.2 ⟨?_, h1⟩, List.forall_mem_cons.2 ⟨sameInput_nonneg hb (hw b List.mem_cons_self), h2⟩⟩
    rintro rfl
    exact hne b List.mem_cons_self (List.forall₂_nil_right_iff.1 hb)

theorem answer_xs (E : List (Obs p × ℝ)) : xs (E.map Obs.answer) = xs (E.map Prod.fst) := by
  simp [xs, Obs.answer]

theorem answer_ws (E : List (Obs p × ℝ)) : ws (E.map Obs.answer) = ws (E.map Prod.fst) := by
  simp [ws, Obs.answer]

theorem distance_responses (f : ℝ) (E : List (Obs p × ℝ)) :
    weightedDistance f (E.map Prod.fst) (ys (E.map Prod.fst)) (ys (E.map Obs.answer)) =
      discSum f E fun e => e.1.w * (e.1.y - e.2) ^ 2 := by
  have h : (E.map Prod.fst).zip ((ys (E.map Prod.fst)).zip (ys (E.map Obs.answer))) = E.map fun e => (e.1, e.1.y, e.2) := by
    induction E with
    | nil => rfl
    | cons e E ih => simpa [ys, Obs.answer] using ih
  unfold weightedDistance
  rw [h, discSum_map]

theorem distance_fitted (f : ℝ) (E : List (Obs p × ℝ)) (g k : Row p → ℝ) :
    weightedDistance f (E.map Prod.fst) ((xs (E.map Prod.fst)).map g) ((xs (E.map Prod.fst)).map k) =
      discSum f E fun e => e.1.w * (g e.1.x - k e.1.x) ^ 2 := by
  have h : (E.map Prod.fst).zip (((xs (E.map Prod.fst)).map g).zip ((xs (E.map Prod.fst)).map k)) =
      E.map fun e => (e.1, g e.1.x, k e.1.x) := by
    induction E with
    | nil => rfl
    | cons e E ih => simpa [xs] using ih
  unfold weightedDistance
  rw [h, discSum_map]

/-- From `A ≤ ⟨a, e⟩ + S` to `A ≤ E + 2 S`. -/
theorem cauchy_step {α : Type*} {f : ℝ} (hf : f ≤ 1) (l : List α) (w a e : α → ℝ) (hw : ∀ x ∈ l, 0 ≤ w x) {S : ℝ}
    (h : discSum f l (fun x => w x * a x ^ 2) ≤ discSum f l (fun x => w x * e x * a x) + S) :
    discSum f l (fun x => w x * a x ^ 2) ≤ discSum f l (fun x => w x * e x ^ 2) + 2 * S := by
  have h1 := discSum_nonneg hf l (g := fun x => w x * (a x - e x) ^ 2) fun x hx => mul_nonneg (hw x hx) (sq_nonneg _)
  have h2 : discSum f l (fun x => w x * (a x - e x) ^ 2) = discSum f l (fun x => w x * a x ^ 2) +
      discSum f l (fun x => w x * e x ^ 2) - 2 * discSum f l (fun x => w x * e x * a x) := by
    rw [← discSum_mul_left, ← discSum_add, ← discSum_sub]
    exact discSum_congr _ _ fun x _ => by ring
  linarith

theorem gradient_step {q : ℕ} {f : ℝ} (E : List (Obs q × ℝ)) {b b' : Row q} (h : sseGradient f (E.map Prod.fst) b = 0)
    (h' : sseGradient f (E.map Obs.answer) b' = 0) :
    discSum f E (fun e => e.1.w * (linPred e.1.x b - linPred e.1.x b') ^ 2) =
      discSum f E (fun e => e.1.w * (e.1.y - e.2) * (linPred e.1.x b - linPred e.1.x b')) := by
  have key : ∀ j, discSum f E (fun e => e.1.w * ((linPred e.1.x b - linPred e.1.x b') - (e.1.y - e.2)) * e.1.x j) = 0 := by
    intro j
    have h1 := congrFun h j
    have h2 := congrFun h' j
    unfold sseGradient at h1 h2
    rw [discSum_map] at h1 h2
    have h3 := congrArg₂ (· - ·) h1 h2
    simp only [Obs.answer, Pi.zero_apply, sub_self] at h3
    rw [← discSum_sub] at h3
    rw [← h3]
    exact discSum_congr _ _ fun e _ => by ring
  have h4 : ∑ j, (b j - b' j) * discSum f E (fun e => e.1.w * ((linPred e.1.x b - linPred e.1.x b') - (e.1.y - e.2)) * e.1.x j) = 0 := by
    simp only [key, mul_zero, Finset.sum_const_zero]
  simp only [← discSum_mul_left] at h4
  rw [← discSum_sum] at h4
  rw [← sub_eq_zero, ← discSum_sub, ← h4]
  refine discSum_congr _ _ fun e _ => ?_
  have h5 : linPred e.1.x b - linPred e.1.x b' = ∑ j, (b j - b' j) * e.1.x j := by
    unfold linPred
    rw [← Finset.sum_sub_distrib]
    exact Finset.sum_congr rfl fun j _ => by ring
  have h6 : ∀ z : ℝ, ∑ j, (b j - b' j) * (z * e.1.x j) = z * (linPred e.1.x b - linPred e.1.x b') := by
    intro z
    rw [h5, Finset.mul_sum]
    exact Finset.sum_congr rfl fun j _ => by ring
  rw [h6]
  ring

/-- **C114, least squares** without scaling: run the same fit and updates on responses that differ.  The weighted squared distance of the
fitted values of all data is at most that of the responses. -/
theorem C114_least_squares (c : LMConfig p fi) (hm : c.method = .str "ols") (hs : c.scaleInputs = .off)
    (perm perm' : ℕ → ℕ → List (Fin (designDim p fi))) (rng rng' : ℕ → ℕ → ℕ → List (Fin (designDim p fi))) (init init' : List (Obs p))
    (batches batches' : List (List (Obs p))) (hi : List.Forall₂ SameInput init init')
    (hb : List.Forall₂ (List.Forall₂ SameInput) batches batches') (hwi : NonnegWeights init) (hne : ∀ b ∈ batches, b ≠ [])
    (hwb : ∀ b ∈ batches, NonnegWeights b) (s₀ s₀' s s' : LM p fi) (hfit : LM.fit c perm init s₀ = (.ok (), s))
    (hfit' : LM.fit c perm' init' s₀' = (.ok (), s')) :
    ∃ t t' y y', LM.updates c rng 0 batches s = (.ok (), t) ∧ LM.updates c rng' 0 batches' s' = (.ok (), t') ∧
      t.predict (xs (init ++ batches.flatten)) = .ok y ∧ t'.predict (xs (init ++ batches.flatten)) = .ok y' ∧
      weightedDistance c.forget (init ++ batches.flatten) y y' ≤
        weightedDistance c.forget (init ++ batches.flatten) (ys (init ++ batches.flatten)) (ys (init' ++ batches'.flatten)) := by
  have hf := (LM.fit_ok hfit).1.2.1.le
  have hD := history_nonneg hwi hwb
  obtain ⟨hne', hwb'⟩ := sameInput_batches hb hne hwb
  obtain ⟨t, b, h1, _, h3, h4⟩ := ols_run c hm hs rng perm hne hwi hwb hfit
  obtain ⟨t', b', h1', _, h3', h4'⟩ := ols_run c hm hs rng' perm' hne' (sameInput_nonneg hi hwi) hwb' hfit'
  obtain ⟨E, e1, e2⟩ := sameInput_pairs (sameInput_history hi hb)
  refine ⟨t, t', _, _, h1, h1', h4 _, h4' _, ?_⟩
  rw [← plainObs_append] at h3 h3'
  rw [e1] at h3 hD ⊢
  rw [e2] at h3' ⊢
  rw [distance_responses, distance_fitted c.forget E (fun x => linPred (designRow fi x) b) (fun x => linPred (designRow fi x) b')]
  have p1 : plainObs fi (E.map Prod.fst) = (E.map fun e => ((⟨designRow fi e.1.x, e.1.y, e.1.w⟩ : Obs (designDim p fi)), e.2)).map Prod.fst := by
    simp [plainObs]
  have p2 : plainObs fi (E.map Obs.answer) = (E.map fun e => ((⟨designRow fi e.1.x, e.1.y, e.1.w⟩ : Obs (designDim p fi)), e.2)).map Obs.answer := by
    simp [plainObs, Obs.answer]
  rw [p1] at h3
  rw [p2] at h3'
  have key := gradient_step _ h3 h3'
  rw [discSum_map, discSum_map] at key
  have := cauchy_step hf E (fun e => e.1.w) (fun e => linPred (designRow fi e.1.x) b - linPred (designRow fi e.1.x) b')
    (fun e => e.1.y - e.2) (fun e he => hD _ (List.mem_map_of_mem he)) (S := 0) (by rw [add_zero]; exact key.le)
  rwa [mul_zero, add_zero] at this

/-- Two descents on problems that differ only in the linear term, each ended by its convergence test and compared with the other's
result. -/
theorem descent_pair {q : ℕ} {P P' : CDProblem q} (hG : P.G.IsSymm) (hpsd : PSD P.G) (hlam : 0 ≤ P.lam) (ha0 : 0 ≤ P.alpha)
    (ha1 : P.alpha ≤ 1) (hb : BoundsOk P.lower P.upper) (e1 : P'.G = P.G) (e2 : P'.lam = P.lam) (e3 : P'.alpha = P.alpha)
    (e4 : P'.reg = P.reg) (e5 : P'.lower = P.lower) (e6 : P'.upper = P.upper) {sel : Selection} {perm perm' : ℕ → List (Fin q)}
    (hperm : ∀ i, (perm i).Perm (List.finRange q)) (hperm' : ∀ i, (perm' i).Perm (List.finRange q)) {tol : ℝ} {m : ℕ}
    {b b' r r' : Row q} {n n' : ℕ} (hr : onlineCD P sel perm tol m b = .ok (r, n)) (hr' : onlineCD P' sel perm' tol m b' = .ok (r', n'))
    (hn : n < m + 1) (hn' : n' < m + 1) (hz : n = 1 ∨ ∀ j, r j = 0 → r' j = 0) (hz' : n' = 1 ∨ ∀ j, r' j = 0 → r j = 0) :
    (∑ i, ∑ j, (r i - r' i) * P.G i j * (r j - r' j)) ≤ (∑ j, (P.h j - P'.h j) * (r j - r' j)) +
      tol * (maxAbs r + maxAbs r') * ∑ j, coupling P.G j * |r j - r' j| := by
  have hcv : CurvedAtLeast P.G P.lam P.alpha P.reg 0 := by
    intro v
    rw [zero_mul]
    unfold smoothForm
    refine add_nonneg (by simpa [Finset.mul_sum, mul_assoc] using hpsd v) (mul_nonneg (mul_nonneg hlam (by linarith)) ?_)
    exact Finset.sum_nonneg fun k _ => by split <;> positivity
  have hf := C22_bounds P hb _ _ _ _ _ _ _ hr
  have hf' := C22_bounds P' (by rw [e5, e6]; exact hb) _ _ _ _ _ _ _ hr'
  have k1 := onlineCD_accuracy hG hlam ha0 hcv hperm hr hn (c := r') (by rw [← e5, ← e6]; exact hf') hz
  have k2 := onlineCD_accuracy (P := P') (by rw [e1]; exact hG) (by rw [e2]; exact hlam) (by rw [e3]; exact ha0)
    (by rw [e1, e2, e3, e4]; exact hcv) hperm' hr' hn' (c := r) (by rw [e5, e6]; exact hf) hz'
  rw [e1, e2, e3, e4] at k2
  have s1 : smoothForm P.G P.lam P.alpha P.reg (fun j => r' j - r j) = smoothForm P.G P.lam P.alpha P.reg (fun j => r j - r' j) := by
    unfold smoothForm
    congr 1
    · exact Finset.sum_congr rfl fun i _ => Finset.sum_congr rfl fun j _ => by ring
    · congr 1
      exact Finset.sum_congr rfl fun j _ => by split <;> ring
  have s2 : (∑ i, ∑ j, (r i - r' i) * P.G i j * (r j - r' j)) ≤ smoothForm P.G P.lam P.alpha P.reg (fun j => r j - r' j) := by
    unfold smoothForm
    refine le_add_of_nonneg_right (mul_nonneg (mul_nonneg hlam (by linarith)) ?_)
    exact Finset.sum_nonneg fun k _ => by split <;> positivity
  have s3 : ∑ j, coupling P.G j * |r' j - r j| = ∑ j, coupling P.G j * |r j - r' j| :=
    Finset.sum_congr rfl fun j _ => by rw [abs_sub_comm]
  have s4 : ∑ j, (P.h j - P'.h j) * (r j - r' j) = ((∑ j, P.h j * r j) - ∑ j, P.h j * r' j) - ((∑ j, P'.h j * r j) - ∑ j, P'.h j * r' j) := by
    simp only [← Finset.sum_sub_distrib]
    exact Finset.sum_congr rfl fun j _ => by ring
  rw [s1, s3] at k1
  unfold enetObjective at k1 k2
  rw [s4]
  refine s2.trans ?_
  linarith

/-- **C114, ridge regression** without scaling, with any bounds, after a fit and any updates.  The coefficients of the two runs are results
of coordinate descent with the same penalty; if both descents were ended by the convergence test and have the same zeros (or one sweep was
enough), the fitted values are as close as the responses, up to the tolerance. -/
theorem C114_ridge_partial (c : LMConfig p fi) (a : RidgeArgs (designDim p fi)) (ha : getEstimationMethod c.method = .ok (.ridge a))
    (hs : c.scaleInputs = .off) (hlam : ∀ l, a.lambdaReg = some l → 0 ≤ l)
    (lower upper : Fin (designDim p fi) → Option ℝ) (hlo : setBound _ a.lower = .ok lower) (hup : setBound _ a.upper = .ok upper)
    (hbd : BoundsOk lower upper) (perm perm' : ℕ → ℕ → List (Fin (designDim p fi))) (hp : ∀ i j, (perm i j).Perm (List.finRange _))
    (hp' : ∀ i j, (perm' i j).Perm (List.finRange _)) (rng rng' : ℕ → ℕ → ℕ → List (Fin (designDim p fi)))
    (hrng : ∀ k i j, (rng k i j).Perm (List.finRange _)) (hrng' : ∀ k i j, (rng' k i j).Perm (List.finRange _))
    (init init' : List (Obs p)) (batches batches' : List (List (Obs p))) (hi : List.Forall₂ SameInput init init')
    (hb : List.Forall₂ (List.Forall₂ SameInput) batches batches') (hwi : NonnegWeights init) (hne : ∀ b ∈ batches, b ≠ [])
    (hwb : ∀ b ∈ batches, NonnegWeights b) (s₀ s₀' s s' t t' : LM p fi) (hfit : LM.fit c perm init s₀ = (.ok (), s))
    (hfit' : LM.fit c perm' init' s₀' = (.ok (), s')) (hups : LM.updates c rng 0 batches s = (.ok (), t))
    (hups' : LM.updates c rng' 0 batches' s' = (.ok (), t')) :
    ∃ (lam : ℝ) (b b' r r' : Row (designDim p fi)) (n n' : ℕ) (order order' : ℕ → List (Fin (designDim p fi))) (y y' : List ℝ),
      t.coef = some r ∧ t'.coef = some r' ∧
      t.predict (xs (init ++ batches.flatten)) = .ok y ∧ t'.predict (xs (init ++ batches.flatten)) = .ok y' ∧
      onlineCD (dataProblem c lam 0 lower upper (init ++ batches.flatten)) a.selection order a.tolerance a.maxIterations b = .ok (r, n) ∧
      onlineCD (dataProblem c lam 0 lower upper (init' ++ batches'.flatten)) a.selection order' a.tolerance a.maxIterations b' =
        .ok (r', n') ∧
      (n < a.maxIterations + 1 → n' < a.maxIterations + 1 → (n = 1 ∨ ∀ j, r j = 0 → r' j = 0) → (n' = 1 ∨ ∀ j, r' j = 0 → r j = 0) →
        weightedDistance c.forget (init ++ batches.flatten) y y' ≤
          weightedDistance c.forget (init ++ batches.flatten) (ys (init ++ batches.flatten)) (ys (init' ++ batches'.flatten)) +
          2 * (a.tolerance * (maxAbs r + maxAbs r') *
            ∑ j, coupling (dataProblem c lam 0 lower upper (init ++ batches.flatten)).G j * |r j - r' j|)) := by
  have hf := (LM.fit_ok hfit).1.2.1.le
  have hD := history_nonneg hwi hwb
  obtain ⟨hne', hwb'⟩ := sameInput_batches hb hne hwb
  have hD' := sameInput_nonneg (sameInput_history hi hb) hD
  obtain ⟨lam, b, r, n, order, h1, _, h3, h4, h5, h6, h7⟩ := ridge_descent c a ha hs hlam hlo hup hp hrng hwi hne hwb hfit hups
  obtain ⟨lam', b', r', n', order', g1, _, g3, g4, g5, g6, g7⟩ := ridge_descent c a ha hs hlam hlo hup hp' hrng'
    (sameInput_nonneg hi hwi) hne' hwb' hfit' hups'
  have plain_pairs : ∀ E : List (Obs p × ℝ),
      plainObs fi (E.map Prod.fst) = (E.map fun e => ((⟨designRow fi e.1.x, e.1.y, e.1.w⟩ : Obs (designDim p fi)), e.2)).map Prod.fst ∧
      plainObs fi (E.map Obs.answer) =
        (E.map fun e => ((⟨designRow fi e.1.x, e.1.y, e.1.w⟩ : Obs (designDim p fi)), e.2)).map Obs.answer := by
    intro E
    constructor <;> simp [plainObs, Obs.answer]
  obtain rfl : lam = lam' := by
    obtain ⟨E, rfl, rfl⟩ := sameInput_pairs hi
    rw [h7, g7, (plain_pairs E).1, (plain_pairs E).2, answer_xs, answer_ws]
  refine ⟨lam, b, b', r, r', n, n', order, order', _, _, h3, g3, h5.predict_plain hs h3 _, g5.predict_plain hs g3 _, h6, g6,
    fun hn hn' hz hz' => ?_⟩
  obtain ⟨E, e1, e2⟩ := sameInput_pairs (sameInput_history hi hb)
  rw [e1] at hD h6 ⊢
  rw [e2] at hD' g6 ⊢
  obtain ⟨k1, k2⟩ := gram_psd hf _ (plainObs_nonneg (fi := fi) hD)
  have hGe : (dataProblem c lam 0 lower upper (E.map Obs.answer)).G = (dataProblem c lam 0 lower upper (E.map Prod.fst)).G := by
    simp only [dataProblem]
    rw [(plain_pairs E).1, (plain_pairs E).2, answer_xs, answer_ws]
  have key := descent_pair (P := dataProblem c lam 0 lower upper (E.map Prod.fst)) (P' := dataProblem c lam 0 lower upper (E.map Obs.answer))
    k1 k2 h1 le_rfl zero_le_one hbd hGe rfl rfl rfl rfl rfl h4 g4 h6 g6 hn hn' hz hz'
  have q1 : (∑ i, ∑ j, (r i - r' i) * (dataProblem c lam 0 lower upper (E.map Prod.fst)).G i j * (r j - r' j)) =
      discSum c.forget E (fun e => e.1.w * (linPred (designRow fi e.1.x) r - linPred (designRow fi e.1.x) r') ^ 2) := by
    have := gram_quad hf _ (plainObs_nonneg (fi := fi) hD) (fun j => r j - r' j) (fun j => r j - r' j)
    simp only [dotProduct, Matrix.mulVec, Finset.mul_sum] at this
    simp only [dataProblem, mul_assoc]
    refine this.trans ?_
    rw [(plain_pairs E).1, discSum_map, discSum_map]
    refine discSum_congr _ _ fun e _ => ?_
    have h5 : linPred (designRow fi e.1.x) r - linPred (designRow fi e.1.x) r' = ∑ j, designRow fi e.1.x j * (r j - r' j) := by
      unfold linPred
      rw [← Finset.sum_sub_distrib]
      exact Finset.sum_congr rfl fun j _ => by ring
    have h6 : ∑ j, (r j - r' j) * designRow fi e.1.x j = ∑ j, designRow fi e.1.x j * (r j - r' j) :=
      Finset.sum_congr rfl fun j _ => by ring
    rw [h5]
    simp only [← Finset.mul_sum, h6]
    ring
  have q2 : ∑ j, ((dataProblem c lam 0 lower upper (E.map Prod.fst)).h j - (dataProblem c lam 0 lower upper (E.map Obs.answer)).h j) *
      (r j - r' j) = discSum c.forget E (fun e => e.1.w * (e.1.y - e.2) *
        (linPred (designRow fi e.1.x) r - linPred (designRow fi e.1.x) r')) := by
    simp only [dataProblem, initYGram_apply hf _ (plainObs_nonneg (fi := fi) hD), initYGram_apply hf _ (plainObs_nonneg (fi := fi) hD')]
    simp only [(plain_pairs E).1, (plain_pairs E).2, discSum_map, Obs.answer, ← discSum_sub, ← discSum_mul_right]
    rw [← discSum_sum]
    refine discSum_congr _ _ fun e _ => ?_
    have h5 : linPred (designRow fi e.1.x) r - linPred (designRow fi e.1.x) r' = ∑ j, designRow fi e.1.x j * (r j - r' j) := by
      unfold linPred
      rw [← Finset.sum_sub_distrib]
      exact Finset.sum_congr rfl fun j _ => by ring
    rw [h5, Finset.mul_sum]
    exact Finset.sum_congr rfl fun j _ => by ring
  rw [q1, q2] at key
  rw [distance_responses, distance_fitted c.forget E (fun x => linPred (designRow fi x) r) (fun x => linPred (designRow fi x) r')]
  exact cauchy_step hf E (fun e => e.1.w) (fun e => linPred (designRow fi e.1.x) r - linPred (designRow fi e.1.x) r')
    (fun e => e.1.y - e.2) (fun e he => hD _ (List.mem_map_of_mem he)) key

/-! ### Where it fails -/

theorem lineProblem_move (a b c u v l x y : ℝ) (hx : x ≠ 0) (hy : y ≠ 0) (i : ℕ) (perm : ℕ → List (Fin 2)) :
    pureSweep (lineProblem a b c u v l) i (cdOrder .cyclic perm i) ![x, y] =
      ![(u - b * y) / a, (v - b * ((u - b * y) / a)) / (c + l)] := by
  rw [cyclic_two]
  have e0 : pureStep (lineProblem a b c u v l) i ![x, y] 0 = ![(u - b * y) / a, y] := by
    unfold pureStep
    rw [if_pos (.inr (by simpa using hx)), lineProblem_zero]
    funext k; fin_cases k <;> simp
  have e1 : ∀ z, pureStep (lineProblem a b c u v l) i ![z, y] 1 = ![z, (v - b * z) / (c + l)] := by
    intro z
    unfold pureStep
    rw [if_pos (.inr (by simpa using hy)), lineProblem_one]
    funext k; fin_cases k <;> simp
  simp only [pureSweep, List.foldl_cons, List.foldl_nil, e0, e1]

/-- `Ridge(lambda_reg=10)` on the points `(1, 1 + k)` and `(3, 3 + k)` for `k ≠ 0`: the slope is between `1/6` and `3/10`. -/
theorem shifted_line_fit {k tol : ℝ} (hk : 0 < k) {m : ℕ} (hm : 1 ≤ m) (ht : tol * max k (1 / 2) < 1 / 2)
    (perm : ℕ → ℕ → List (Fin (designDim 1 true))) (s₀ : LM 1 true) :
    ∃ (s : LM 1 true) (z : ℝ), LM.fit (ridgeLine 10 tol m) perm (pairOf 1 (1 + k) 3 (3 + k)) s₀ = (.ok (), s) ∧
      GramInv (ridgeLine 10 tol m) (pairOf 1 (1 + k) 3 (3 + k)) (plainObs true (pairOf 1 (1 + k) 3 (3 + k))) s ∧
      s.coef = some (![2 + k - 2 * z, (2 + 8 * z) / 20] : Row 2) ∧ 1 / 6 ≤ z ∧ z ≤ 1 / 2 := by
  obtain ⟨s, r, n, order, hs, inv, hc, hn⟩ := ridgeLine_run (l := 10) (x := k) (y := 1) tol m (by norm_num) (by norm_num)
    (by norm_num) (by norm_num) perm (d := pairOf 1 (1 + k) 3 (3 + k)) (by simp [pairOf]) (pairOf_nonneg _ _ _ _) (by simp [pairOf, ws])
    (pairOf_gram _ _ _ _) (pairOf_yGram _ _ _ _) (by ring) (by ring) s₀
  obtain ⟨_, n1, _, rfl, n4⟩ := onlineCD_seq hn
  let P := lineProblem 2 (1 + 3) (1 ^ 2 + 3 ^ 2) (1 + k + (3 + k)) ((1 + k) * 1 + (3 + k) * 3) 10
  have e1 : cdSeq P .cyclic order ![k, 1] 1 = ![k, 1 / 2] := by
    rw [cdSeq_succ]
    refine (lineProblem_move _ _ _ _ _ _ _ _ hk.ne' one_ne_zero _ order).trans ?_
    funext j; fin_cases j
    · simp; ring
    · simp; ring
  have step : ∀ (i : ℕ) (x z : ℝ), 0 < x → 1 / 6 ≤ z → pureSweep P i (cdOrder .cyclic order i) ![x, z] =
      ![2 + k - 2 * z, (2 + 8 * z) / 20] := by
    intro i x z hx hz
    refine (lineProblem_move _ _ _ _ _ _ _ _ hx.ne' (by linarith : (0 : ℝ) < z).ne' _ order).trans ?_
    funext j; fin_cases j
    · simp; ring
    · simp; ring
  have e2 : ∀ i, ∃ x z, 0 < x ∧ 1 / 6 ≤ z ∧ z ≤ 1 / 2 ∧ cdSeq P .cyclic order ![k, 1] (i + 1) = ![x, z] := by
    intro i
    induction i with
    | zero => exact ⟨k, 1 / 2, hk, by norm_num, le_rfl, e1⟩
    | succ i ih =>
      obtain ⟨x, z, h1, h2, h3, h4⟩ := ih
      refine ⟨2 + k - 2 * z, (2 + 8 * z) / 20, by linarith, by linarith, by linarith, ?_⟩
      rw [cdSeq_succ, h4]
      exact step _ _ _ h1 h2
  have hn2 : 2 ≤ n := by
    by_contra h
    obtain rfl : n = 1 := by omega
    have := n4 (by omega)
    rw [Nat.sub_self] at this
    erw [e1] at this
    unfold cdConverged at this
    have h1 : 1 / 2 ≤ maxAbs ((![k, 1 / 2] : Row 2) - ![k, 1]) := by
      refine le_trans ?_ (abs_le_maxAbs _ 1)
      norm_num
    have h2 : maxAbs (![k, 1 / 2] : Row 2) = max k (1 / 2) := by
      unfold maxAbs
      have hr : List.finRange 2 = [0, 1] := rfl
      rw [hr]
      simp [abs_of_pos hk, hk.le]
    rw [h2] at this
    exact absurd (h1.trans this) (not_le.2 ht)
  obtain ⟨i, rfl⟩ : ∃ i, n = i + 1 + 1 := ⟨n - 2, by omega⟩
  obtain ⟨x, z, h1, h2, h3, h4⟩ := e2 i
  refine ⟨s, z, hs, inv, hc.trans (congrArg some ?_), h2, h3⟩
  rw [cdSeq_succ]
  erw [h4]
  exact step _ _ _ h1 h2

/-- **C114 fails for ridge regression** when the zeros differ.  `Ridge(lambda_reg=10)` without scaling, fitted to `(1, 1)` and `(3, 3)`:
least squares, from which the descent starts, has the intercept zero, so the descent never moves the intercept.  Any positive change of
the two responses, however small, lets it move, and the fitted values jump. -/
theorem C114_ridge_fails {k tol : ℝ} (hk : 0 < k) {m : ℕ} (hm : 1 ≤ m) (ht : tol * max k (1 / 2) < 1 / 2)
    (perm perm' : ℕ → ℕ → List (Fin (designDim 1 true))) (s₀ s₀' : LM 1 true) :
    ∃ (s s' : LM 1 true) (y y' : List ℝ), List.Forall₂ SameInput (pairOf 1 1 3 3) (pairOf 1 (1 + k) 3 (3 + k)) ∧
      LM.fit (ridgeLine 10 tol m) perm (pairOf 1 1 3 3) s₀ = (.ok (), s) ∧
      LM.fit (ridgeLine 10 tol m) perm' (pairOf 1 (1 + k) 3 (3 + k)) s₀' = (.ok (), s') ∧
      s.predict (xs (pairOf 1 1 3 3)) = .ok y ∧ s'.predict (xs (pairOf 1 1 3 3)) = .ok y' ∧
      weightedDistance 0 (pairOf 1 1 3 3) (ys (pairOf 1 1 3 3)) (ys (pairOf 1 (1 + k) 3 (3 + k))) = 2 * k ^ 2 ∧
      4 / 5 ≤ weightedDistance 0 (pairOf 1 1 3 3) y y' := by
  obtain ⟨s, hs, inv, hc⟩ := ridgeLine_fit (l := 10) (x := 0) (y := 1) (r0 := 0) (r1 := 1 / 2) tol m (by norm_num) (by norm_num)
    (by norm_num) (by norm_num) perm (d := pairOf 1 1 3 3) (by simp [pairOf]) (pairOf_nonneg _ _ _ _) (by simp [pairOf, ws])
    (pairOf_gram _ _ _ _) (pairOf_yGram _ _ _ _) (by norm_num) (by norm_num) rfl (by norm_num) (.inl rfl) s₀
  obtain ⟨s', z, hs', inv', hc', h1, h2⟩ := shifted_line_fit hk hm ht perm' s₀'
  refine ⟨s, s', _, _, by simp [pairOf, SameInput], hs, hs', inv.predict_plain rfl hc _, inv'.predict_plain rfl hc' _, ?_, ?_⟩
  · simp only [pairOf, ys, List.map_cons, List.map_nil]
    simp [weightedDistance, discSum_cons]
    ring
  · simp only [pairOf, xs, List.map_cons, List.map_nil]
    erw [linPred_line, linPred_line, linPred_line, linPred_line]
    simp [weightedDistance, discSum_cons]
    nlinarith [sq_nonneg (2 + k - 2 * z + (2 + 8 * z) / 20 - 1 / 2 - 4 / 5), sq_nonneg (2 + k - 2 * z + 3 * ((2 + 8 * z) / 20) - 3 / 2 - 2 / 5)]

/-- `LassoPath` with its default arguments on two equal negative responses at the constant feature: the chosen coefficient is the response
times one plus `lambda_eps`. -/
theorem negative_pair_fit {y : ℝ} (hy1 : y ≤ -1) (s₀ : LM 1 false) : ∃ (s : LM 1 false) (path : List (Row 1)),
    LM.fit (onesConfig (.str "lasso")) (fun _ _ => []) (pairData y y) s₀ = (.ok (), s) ∧ s.coefPath = some path ∧ path.length = 100 ∧
    (∀ i : ℕ, i < 100 → path[i]? = some fun _ => y * (1 + (1 / 10000 : ℝ) ^ ((i : ℝ) / 99))) ∧ s.coef = some fun _ => y * (1 + 1 / 10000) := by
  have hy : y < 0 := by linarith
  have hm : getEstimationMethod (.str "lasso" : MethodArg (designDim 1 false)) = .ok (.path lassoDefault) := by
    simp [getEstimationMethod, methodFromString]
  have ha : lassoDefault.alpha = 1 := rfl
  have hN : lassoDefault.lambdaN = 100 := rfl
  have he : lassoDefault.lambdaEps = 1 / 10000 := by norm_num [lassoDefault]
  obtain ⟨s, path, b, h1, h2, h3, h4, h5, h6, _⟩ := pair_fit_general (.str "lasso") _ hm
    (by simp [lassoDefault]) (by norm_num [lassoDefault]) (by simp [lassoDefault]) (by simp [lassoDefault]) (by simp [lassoDefault])
    (by simp [lassoDefault]) (by norm_num [lassoDefault]) (y := y) (y' := y) (by linarith)
    (fun i => by rw [ha]; norm_num) s₀
  have hrow : ∀ i : ℕ, i < 100 → path[i]? = some fun _ => y * (1 + (1 / 10000 : ℝ) ^ ((i : ℝ) / 99)) := by
    intro i hi
    rw [h4 i (by rw [hN]; exact hi), ha]
    have hq : 0 < (1 / 10000 : ℝ) ^ ((i : ℝ) / 99) := Real.rpow_pos_of_pos (by norm_num) _
    unfold softThreshold pairLam
    rw [he, hN, Real.sign_of_neg (by linarith), abs_of_neg (by linarith)]
    norm_num
    rw [max_eq_left (by
      norm_num at hq
      nlinarith [mul_pos (neg_pos.2 hy) hq])]
    ring
  refine ⟨s, path, h1, h2, h3.trans hN, hrow, ?_⟩
  obtain ⟨i, hi, r, v, hr, hv, hbest⟩ := h6
  have hi' : i < 100 := by
    have := (List.getElem?_eq_some_iff.1 hi).1
    rw [h3, hN] at this
    exact this
  have hb := Option.some.inj (hi.symm.trans (hrow i hi'))
  rw [h5, hb]
  have hq : ∀ j : ℕ, 0 < (1 / 10000 : ℝ) ^ ((j : ℝ) / 99) := fun j => Real.rpow_pos_of_pos (by norm_num) _
  have hsz : ∀ j : ℕ, modelSize (q := 1) (fun _ => y * (1 + (1 / 10000 : ℝ) ^ ((j : ℝ) / 99))) = 1 := by
    intro j
    have : 1 < |y * (1 + (1 / 10000 : ℝ) ^ ((j : ℝ) / 99))| := by
      rw [abs_mul, abs_of_neg hy, abs_of_pos (by linarith [hq j])]
      nlinarith [hq j]
    unfold modelSize
    rw [Finset.filter_true_of_mem]
    · simp
    · intro _ _
      exact lt_trans (by norm_num) this
  have hrss : ∀ j : ℕ, j < 100 → (path.map fun b => (y - b 0) ^ 2 + (y - b 0) ^ 2)[j]? = some (2 * y ^ 2 * ((1 / 10000 : ℝ) ^ ((j : ℝ) / 99)) ^ 2) := by
    intro j hj
    rw [List.getElem?_map, hrow j hj, Option.map_some]
    congr 1
    ring
  have h99 : ((1 / 10000 : ℝ) ^ (((99 : ℕ) : ℝ) / 99)) = 1 / 10000 := by norm_num
  obtain ⟨u, hu, hnot, _⟩ := hbest 99 _ _ (hrow 99 (by norm_num)) (hrss 99 (by norm_num))
  have hy2 : 0 < y ^ 2 := by nlinarith
  rw [hsz, fromRss_bic (by norm_num) _ (by have := hq 99; positivity)] at hu
  have hr' := Option.some.inj (hr.symm.trans (hrss i hi'))
  rw [hb, hsz, hr', fromRss_bic (by norm_num) _ (by have := hq i; positivity)] at hv
  cases hu
  cases hv
  have hle := Flt.fin_le_of_not_preferred hnot
  have hlog : Real.log (2 * y ^ 2 * ((1 / 10000 : ℝ) ^ ((i : ℝ) / 99)) ^ 2 / 2) ≤
      Real.log (2 * y ^ 2 * ((1 / 10000 : ℝ) ^ (((99 : ℕ) : ℝ) / 99)) ^ 2 / 2) := by linarith
  rw [h99, Real.log_le_log_iff (by have := hq i; positivity) (by positivity)] at hlog
  have hup : (1 / 10000 : ℝ) ^ ((i : ℝ) / 99) ≤ 1 / 10000 := by
    have h2 : ((1 / 10000 : ℝ) ^ ((i : ℝ) / 99)) ^ 2 ≤ (1 / 10000) ^ 2 := by
      have : 2 * y ^ 2 * ((1 / 10000 : ℝ) ^ ((i : ℝ) / 99)) ^ 2 / 2 = y ^ 2 * ((1 / 10000 : ℝ) ^ ((i : ℝ) / 99)) ^ 2 := by ring
      rw [this, show 2 * y ^ 2 * (1 / 10000 : ℝ) ^ 2 / 2 = y ^ 2 * (1 / 10000) ^ 2 by ring] at hlog
      exact le_of_mul_le_mul_left hlog hy2
    exact (sq_le_sq₀ (hq i).le (by norm_num)).1 h2
  have hlow : (1 / 10000 : ℝ) ≤ (1 / 10000 : ℝ) ^ ((i : ℝ) / 99) := by
    conv_lhs => rw [← Real.rpow_one (1 / 10000 : ℝ)]
    refine Real.rpow_le_rpow_of_exponent_ge (by norm_num) (by norm_num) ?_
    rw [div_le_one (by norm_num)]
    exact_mod_cast Nat.le_of_lt_succ hi'
  rw [le_antisymm hup hlow]
  rfl

/-- **C114 fails for the path methods** where every coefficient is penalised: the penalties are negative for negative responses
(see C105) and enlarge the coefficients.  `LassoPath` without intercept on the responses `-1, -1` and on `-2, -2` at the constant
feature: the fitted values of `predict`, and those of every row of the path, are further apart than the responses. -/
theorem C114_path_fails (s₀ s₀' : LM 1 false) : ∃ (s s' : LM 1 false) (path path' : List (Row 1)) (y y' : List ℝ),
    List.Forall₂ SameInput (pairData (-1) (-1)) (pairData (-2) (-2)) ∧
    LM.fit (onesConfig (.str "lasso")) (fun _ _ => []) (pairData (-1) (-1)) s₀ = (.ok (), s) ∧
    LM.fit (onesConfig (.str "lasso")) (fun _ _ => []) (pairData (-2) (-2)) s₀' = (.ok (), s') ∧
    s.predict (xs (pairData (-1) (-1))) = .ok y ∧ s'.predict (xs (pairData (-1) (-1))) = .ok y' ∧
    s.coefPath = some path ∧ s'.coefPath = some path' ∧ path.length = 100 ∧ path'.length = 100 ∧
    weightedDistance 0 (pairData (-1) (-1)) (ys (pairData (-1) (-1))) (ys (pairData (-2) (-2))) = 2 ∧
    2 < weightedDistance 0 (pairData (-1) (-1)) y y' ∧
    ∀ (i : ℕ) (b b' : Row 1), path[i]? = some b → path'[i]? = some b' → 2 < weightedDistance 0 (pairData (-1) (-1))
      ((xs (pairData (-1) (-1))).map fun x => linPred x b) ((xs (pairData (-1) (-1))).map fun x => linPred x b') := by
  obtain ⟨s, path, h1, h2, h3, h4, h5⟩ := negative_pair_fit (y := -1) (by norm_num) s₀
  obtain ⟨s', path', g1, g2, g3, g4, g5⟩ := negative_pair_fit (y := -2) (by norm_num) s₀'
  have hn : NonnegWeights (pairData (-1) (-1)) := by simp [NonnegWeights, pairData]
  have hn' : NonnegWeights (pairData (-2) (-2)) := by simp [NonnegWeights, pairData]
  have hm : getEstimationMethod (.str "lasso" : MethodArg (designDim 1 false)) = .ok (.path lassoDefault) := by
    simp [getEstimationMethod, methodFromString]
  have inv := GramInv.of_fit (c := onesConfig (.str "lasso")) hm (by simp) hn h1
  have inv' := GramInv.of_fit (c := onesConfig (.str "lasso")) hm (by simp) hn' g1
  have lin : ∀ z : ℝ, linPred (fun _ : Fin 1 => (1 : ℝ)) (fun _ => z) = z := by
    intro z
    simp [linPred]
  refine ⟨s, s', path, path', _, _, by simp [pairData, SameInput], h1, g1, inv.predict_plain rfl h5 _, inv'.predict_plain rfl g5 _,
    h2, g2, h3, g3, ?_, ?_, ?_⟩
  · simp [weightedDistance, discSum_cons, pairData, ys]
    norm_num
  · have hd : designRow false (fun _ : Fin 1 => (1 : ℝ)) = fun _ => 1 := rfl
    simp only [pairData, xs, List.map_cons, List.map_nil, hd]
    erw [lin, lin]
    simp [weightedDistance, discSum_cons]
    norm_num
  · intro i b b' hb hb'
    have hi : i < 100 := by
      have := (List.getElem?_eq_some_iff.1 hb).1
      rw [h3] at this
      exact this
    rw [h4 i hi] at hb
    rw [g4 i hi] at hb'
    cases hb
    cases hb'
    have hq : 0 < (1 / 10000 : ℝ) ^ ((i : ℝ) / 99) := Real.rpow_pos_of_pos (by norm_num) _
    simp only [pairData, xs, List.map_cons, List.map_nil, lin]
    generalize (1 / 10000 : ℝ) ^ ((i : ℝ) / 99) = q at hq
    simp [weightedDistance, discSum_cons]
    nlinarith

/-! ### The hypotheses are satisfiable -/

/-- Least squares: the fit to `lineInit` and a fit to the same points with other responses, and an update of each. -/
example (perm : ℕ → ℕ → List (Fin (designDim 1 true))) (rng : ℕ → ℕ → ℕ → List (Fin (designDim 1 true))) :
    ∃ s s' t t' y y', LM.fit (olsConfig .off) perm lineInit (LM.new 1 true) = (.ok (), s) ∧
      LM.fit (olsConfig .off) perm lineInit (LM.new 1 true) = (.ok (), s') ∧
      LM.updates (olsConfig .off) rng 0 [[⟨fun _ => 2, 5, 3⟩]] s = (.ok (), t) ∧
      LM.updates (olsConfig .off) rng 0 [[⟨fun _ => 2, 6, 3⟩]] s' = (.ok (), t') ∧
      t.predict (xs (lineInit ++ [⟨fun _ => 2, 5, 3⟩])) = .ok y ∧ t'.predict (xs (lineInit ++ [⟨fun _ => 2, 5, 3⟩])) = .ok y' ∧
      weightedDistance 0 (lineInit ++ [⟨fun _ => 2, 5, 3⟩]) y y' ≤ 3 := by
  obtain ⟨s, hs⟩ := lineInit_fit perm .off (.inr rfl) (LM.new 1 true)
  obtain ⟨t, t', y, y', h1, h2, h3, h4, h5⟩ := C114_least_squares (olsConfig .off) rfl rfl perm perm rng rng lineInit lineInit
    [[⟨fun _ => 2, 5, 3⟩]] [[⟨fun _ => 2, 6, 3⟩]] (by simp [lineInit, SameInput]) (by simp [SameInput]) lineInit_nonneg (by simp)
    (by simp [NonnegWeights]) _ _ s s hs hs
  refine ⟨s, s, t, t', y, y', hs, hs, h1, h2, h3, h4, h5.trans_eq ?_⟩
  change weightedDistance 0 _ _ _ = _
  simp [weightedDistance, discSum_cons, lineInit, ys]
  norm_num

theorem uncoupled_problem (lam u v : ℝ) : dataProblem (ridgeLine 2 (1 / 10000) 1000) lam 0 (fun _ => none) (fun _ => none)
    (pairOf (-1) u 1 v) = lineProblem 2 (-1 + 1) ((-1) ^ 2 + 1 ^ 2) (u + v) (u * -1 + v * 1) lam := by
  have e1 := pairOf_gram (-1) u 1 v
  have e2 := pairOf_yGram (-1) u 1 v
  unfold dataProblem lineProblem
  change (⟨initGram (xs (plainObs true (pairOf (-1) u 1 v))) (ws (plainObs true (pairOf (-1) u 1 v))) 0,
    initYGram (xs (plainObs true (pairOf (-1) u 1 v))) (ys (plainObs true (pairOf (-1) u 1 v)))
      (ws (plainObs true (pairOf (-1) u 1 v))) 0, lam, 0, _, _, _⟩ : CDProblem 2) = _
  erw [e1, e2]
  rfl

theorem uncoupled_key (lam : ℝ) : ∀ (u v : ℝ) (order : ℕ → List (Fin 2)) (P : CDProblem 2) (b : Row 2),
    P = lineProblem 2 (-1 + 1) ((-1) ^ 2 + 1 ^ 2) (u + v) (u * -1 + v * 1) lam →
    cdConverged (1 / 10000) (cdSeq P .cyclic order b 2) (cdSeq P .cyclic order b 1) := by
  rintro u v order _ b rfl
  obtain ⟨b0, b1, rfl⟩ : ∃ b0 b1, b = ![b0, b1] := ⟨b 0, b 1, by funext k; fin_cases k <;> rfl⟩
  have e1 : cdSeq (lineProblem 2 (-1 + 1) ((-1) ^ 2 + 1 ^ 2) (u + v) (u * -1 + v * 1) lam) .cyclic order ![b0, b1] 1 = _ :=
    lineProblem_sweep _ _ _ _ _ _ _ _ (by norm_num) order
  have e2 : cdSeq (lineProblem 2 (-1 + 1) ((-1) ^ 2 + 1 ^ 2) (u + v) (u * -1 + v * 1) lam) .cyclic order ![b0, b1] 2 =
      cdSeq (lineProblem 2 (-1 + 1) ((-1) ^ 2 + 1 ^ 2) (u + v) (u * -1 + v * 1) lam) .cyclic order ![b0, b1] 1 := by
    rw [cdSeq_succ, e1]
    exact lineProblem_still _ _ _ _ _ _ _ _ (.inr (by norm_num)) (by norm_num) le_rfl _
  rw [e2]
  unfold cdConverged
  rw [sub_self]
  exact (maxAbs_le le_rfl fun k => by simp).trans (mul_nonneg (by norm_num) (maxAbs_nonneg _))

theorem uncoupled_converged (lam u v : ℝ) (order : ℕ → List (Fin (designDim 1 true))) (b : Row (designDim 1 true)) :
    cdConverged (1 / 10000) (cdSeq (dataProblem (ridgeLine 2 (1 / 10000) 1000) lam 0 (fun _ => none) (fun _ => none) (pairOf (-1) u 1 v))
      .cyclic order b 2) (cdSeq (dataProblem (ridgeLine 2 (1 / 10000) 1000) lam 0 (fun _ => none) (fun _ => none) (pairOf (-1) u 1 v))
      .cyclic order b 1) :=
  uncoupled_key lam u v order _ b (uncoupled_problem lam u v)

theorem uncoupled_coupling (lam u v : ℝ) (j : Fin (designDim 1 true)) :
    coupling (dataProblem (ridgeLine 2 (1 / 10000) 1000) lam 0 (fun _ => none) (fun _ => none) (pairOf (-1) u 1 v)).G j = 0 := by
  have hz : ∀ P : CDProblem 2, P = lineProblem 2 (-1 + 1) ((-1) ^ 2 + 1 ^ 2) (u + v) (u * -1 + v * 1) lam → ∀ j, coupling P.G j = 0 := by
    rintro _ rfl j
    fin_cases j <;> simp [coupling, lineProblem, Fin.sum_univ_two]
  exact hz _ (uncoupled_problem lam u v) j

/-- Ridge regression: `ridgeLine` on the points `(-1, 0), (1, 2)` and on `(-1, 1), (1, 5)`.  Here the features are not coupled, so that there
is no slack. -/
example (perm : ℕ → ℕ → List (Fin (designDim 1 true))) (hp : ∀ i j, (perm i j).Perm (List.finRange _)) :
    ∃ (s s' : LM 1 true) (y y' : List ℝ), LM.fit (ridgeLine 2 (1 / 10000) 1000) perm (pairOf (-1) 0 1 2) (LM.new 1 true) = (.ok (), s) ∧
      LM.fit (ridgeLine 2 (1 / 10000) 1000) perm (pairOf (-1) 1 1 5) (LM.new 1 true) = (.ok (), s') ∧
      s.predict (xs (pairOf (-1) 0 1 2)) = .ok y ∧ s'.predict (xs (pairOf (-1) 0 1 2)) = .ok y' ∧
      weightedDistance 0 (pairOf (-1) 0 1 2) y y' ≤ 10 := by
  obtain ⟨s, hs, inv, hc⟩ := ridgeLine_fit (l := 2) (x := 1) (y := 1) (r0 := 1) (r1 := 1 / 2) (1 / 10000) 1000 (by norm_num) (by norm_num)
    (by norm_num) (by norm_num) perm (d := pairOf (-1) 0 1 2) (by simp [pairOf]) (pairOf_nonneg _ _ _ _) (by simp [pairOf, ws])
    (pairOf_gram _ _ _ _) (pairOf_yGram _ _ _ _) (by norm_num) (by norm_num) rfl (by norm_num) (.inr (by norm_num)) (LM.new 1 true)
  obtain ⟨s', hs', inv', hc'⟩ := ridgeLine_fit (l := 2) (x := 3) (y := 2) (r0 := 3) (r1 := 1) (1 / 10000) 1000 (by norm_num) (by norm_num)
    (by norm_num) (by norm_num) perm (d := pairOf (-1) 1 1 5) (by simp [pairOf]) (pairOf_nonneg _ _ _ _) (by simp [pairOf, ws])
    (pairOf_gram _ _ _ _) (pairOf_yGram _ _ _ _) (by norm_num) (by norm_num) rfl (by norm_num) (.inr (by norm_num)) (LM.new 1 true)
  obtain ⟨lam, b, b', r, r', n, n', order, order', y, y', h1, h2, h3, h4, h5, h6, h7⟩ := C114_ridge_partial (ridgeLine 2 (1 / 10000) 1000)
    _ rfl rfl (by simp) (fun _ => none) (fun _ => none) rfl rfl (fun _ _ _ h => by cases h) perm perm hp hp (fun _ => perm) (fun _ => perm)
    (fun _ => hp) (fun _ => hp) (pairOf (-1) 0 1 2) (pairOf (-1) 1 1 5) [] [] (by simp [pairOf, SameInput]) (by simp)
    (pairOf_nonneg _ _ _ _) (by simp) (by simp) _ _ s s' s s' hs hs' rfl rfl
  simp only [List.flatten_nil, List.append_nil] at h3 h4 h5 h6 h7
  obtain rfl : r = (![1, 1 / 2] : Row 2) := Option.some.inj (h1.symm.trans hc)
  obtain rfl : r' = (![3, 1] : Row 2) := Option.some.inj (h2.symm.trans hc')
  have hn : n ≤ 2 := onlineCD_two (by norm_num) h5 (uncoupled_converged lam 0 2 order b)
  have hn' : n' ≤ 2 := onlineCD_two (by norm_num) h6 (uncoupled_converged lam 1 5 order' b')
  have hnz : ∀ j : Fin 2, (![1, 1 / 2] : Row 2) j ≠ 0 ∧ (![3, 1] : Row 2) j ≠ 0 := by
    intro j; fin_cases j <;> simp
  have := h7 (lt_of_le_of_lt hn (by norm_num)) (lt_of_le_of_lt hn' (by norm_num)) (.inr fun j h => absurd h (hnz j).1)
    (.inr fun j h => absurd h (hnz j).2)
  refine ⟨s, s', y, y', hs, hs', h3, h4, this.trans_eq ?_⟩
  have hsum : ∑ j, coupling (dataProblem (ridgeLine 2 (1 / 10000) 1000) lam 0 (fun _ => none) (fun _ => none) (pairOf (-1) 0 1 2)).G j *
      |(![1, 1 / 2] : Row 2) j - (![3, 1] : Row 2) j| = 0 := Finset.sum_eq_zero fun j _ => by erw [uncoupled_coupling lam 0 2 j]; exact zero_mul _
  erw [hsum]
  rw [mul_zero, mul_zero, add_zero]
  change weightedDistance 0 _ _ _ = _
  simp [weightedDistance, discSum_cons, pairOf, ys]
  norm_num

end Ondil
