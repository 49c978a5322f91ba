import Verif.Lemmas.RoundingStream
import Verif.Lemmas.RoundingInverse
import Verif.Props.Gram
import Verif.Spec.LinearModel

/-!
# C108: rounding errors do not build up along a stream
-/

open scoped BigOperators Matrix

namespace Ondil

variable {p : ℕ}

/-- The Gramian after an initial data set and a sequence of updates, computed with rounding. -/
noncomputable def onlineGramF (A : FloatArith) (forget : ℝ) (init : List (Obs p)) (batches : List (List (Obs p))) :
    Matrix (Fin p) (Fin p) ℝ :=
  batches.foldl (fun G b => updateGramF A G (xs b) forget (ws b)) (initGramF A (xs init) (ws init) forget)

/-- The y-Gramian after an initial data set and a sequence of updates, computed with rounding. -/
noncomputable def onlineYGramF (A : FloatArith) (forget : ℝ) (init : List (Obs p)) (batches : List (List (Obs p))) : Row p :=
  batches.foldl (fun h b => updateYGramF A h (xs b) (ys b) forget (ws b)) (initYGramF A (xs init) (ys init) (ws init) forget)

/-- **C108.** Any forget, any sequence of batches: the computed Gramian differs from the exact discounted sum by at most the relative
error of nine roundings per observation, relative to the sum of the absolute values of the terms. -/
theorem C108_gram (A : FloatArith) {forget : ℝ} (hf : forget ≤ 1) (init : List (Obs p)) (batches : List (List (Obs p)))
    (hi : NonnegWeights init) (hne : ∀ b ∈ batches, b ≠ []) (hb : ∀ b ∈ batches, NonnegWeights b) (a c : Fin p) :
    |onlineGramF A forget init batches a c - discSum forget (init ++ batches.flatten) fun o => o.w * o.x a * o.x c| ≤
      ((1 + A.u) ^ (5 * (init ++ batches.flatten).length + 4 * batches.length + 3) - 1) *
        discSum forget (init ++ batches.flatten) fun o => |o.w * o.x a * o.x c| := by
  have h := stream_growth (A := A) (forget := forget) (fun o : Obs p => o.w * o.x a * o.x c)
    (fun G : Matrix (Fin p) (Fin p) ℝ => G a c) (fun G b => updateGramF A G (xs b) forget (ws b))
    (fun b G k m v h1 h2 h3 => updateGramF_approx hf b h1 h2 G a c h3) batches hne hb init _ _
    (initGramF_approx (A := A) hf init hi a c)
  rw [List.length_append]
  exact (h.mono (by omega)).error

/-- **C108.** The same for the y-Gramian. -/
theorem C108_y_gram (A : FloatArith) {forget : ℝ} (hf : forget ≤ 1) (init : List (Obs p)) (batches : List (List (Obs p)))
    (hi : NonnegWeights init) (hne : ∀ b ∈ batches, b ≠ []) (hb : ∀ b ∈ batches, NonnegWeights b) (a : Fin p) :
    |onlineYGramF A forget init batches a - discSum forget (init ++ batches.flatten) fun o => o.w * o.x a * o.y| ≤
      ((1 + A.u) ^ (5 * (init ++ batches.flatten).length + 4 * batches.length + 3) - 1) *
        discSum forget (init ++ batches.flatten) fun o => |o.w * o.x a * o.y| := by
  have h := stream_growth (A := A) (forget := forget) (fun o : Obs p => o.w * o.x a * o.y)
    (fun G : Row p => G a) (fun G b => updateYGramF A G (xs b) (ys b) forget (ws b))
    (fun b G k m v h1 h2 h3 => updateYGramF_approx hf b h1 h2 G a h3) batches hne hb init _ _
    (initYGramF_approx (A := A) hf init hi a)
  rw [List.length_append]
  exact (h.mono (by omega)).error

theorem bounded_of_contraction {q e0 E v C : ℝ} {n : ℕ} (hq0 : 0 ≤ q) (hq : q < 1) (hC : 0 ≤ C) (he : e0 ≤ E)
    (h : v ≤ q ^ n * e0 + C * (1 - q ^ n) / (1 - q)) : v ≤ q ^ n * E + C / (1 - q) := by
  have h1 : 0 ≤ q ^ n := pow_nonneg hq0 _
  have h2 := mul_le_mul_of_nonneg_left he h1
  have h3 : C * (1 - q ^ n) / (1 - q) ≤ C / (1 - q) :=
    div_le_div_of_nonneg_right (by nlinarith) (by linarith)
  linarith

/-- **C108.** With a positive forget the error of the computed Gramian is bounded for ever: for terms of size at most `R` and batches of
at most `B` observations, what remains of the error of the initial Gramian fades, and the errors of all updates together are at most
`eta * (R / forget) / (1 - (1 - forget) * (1 + eta))`, where `eta` is the relative error of one update. -/
theorem C108_bounded (A : FloatArith) {forget : ℝ} (hf0 : 0 < forget) (hf : forget ≤ 1) (init : List (Obs p))
    (batches : List (List (Obs p))) (hi : NonnegWeights init) (hne : ∀ b ∈ batches, b ≠ [])
    (hb : ∀ b ∈ batches, NonnegWeights b) (a c : Fin p) {B : ℕ} (hB : ∀ b ∈ batches, b.length ≤ B) {R : ℝ} (hR0 : 0 ≤ R)
    (hR : ∀ o ∈ init ++ batches.flatten, |o.w * o.x a * o.x c| ≤ R) {eta : ℝ} (heta : eta = (1 + A.u) ^ (5 * B + 4) - 1)
    (hq : (1 - forget) * (1 + eta) < 1) :
    |onlineGramF A forget init batches a c - discSum forget (init ++ batches.flatten) fun o => o.w * o.x a * o.x c| ≤
      ((1 - forget) * (1 + eta)) ^ batches.length * (((1 + A.u) ^ (5 * init.length + 3) - 1) * (R / forget)) +
        eta * (R / forget) / (1 - (1 - forget) * (1 + eta)) := by
  have hRi : ∀ o ∈ init, |o.w * o.x a * o.x c| ≤ R := fun o ho => hR o (by simp [ho])
  have h := stream_bounded (A := A) hf0 hf (fun o : Obs p => o.w * o.x a * o.x c)
    (fun G : Matrix (Fin p) (Fin p) ℝ => G a c) (fun G b => updateGramF A G (xs b) forget (ws b))
    (fun b G k m v h1 h2 h3 => updateGramF_approx hf b h1 h2 G a c h3) hR0 heta hq batches hne hB hb
    (fun b hb' o ho => hR o (List.mem_append_right _ (List.mem_flatten.2 ⟨b, hb', ho⟩))) init hRi
    (initGramF A (xs init) (ws init) forget)
  have heta0 : 0 ≤ eta := by rw [heta]; linarith [Approx.one_le A (5 * B + 4)]
  have h0 := (initGramF_approx (A := A) hf init hi a c).error
  have hS : (discSum forget init fun o => |o.w * o.x a * o.x c|) ≤ R / forget :=
    (le_abs_self _).trans (abs_discSum_le hf0 hf _ (fun o ho => by rw [abs_abs]; exact hRi o ho) hR0)
  refine bounded_of_contraction (mul_nonneg (by linarith) (by linarith)) hq (mul_nonneg heta0 (by positivity)) (h0.trans ?_) h
  exact mul_le_mul_of_nonneg_left hS (by linarith [Approx.one_le A (5 * init.length + 3)])

/-- **C108.** The same for the y-Gramian. -/
theorem C108_y_bounded (A : FloatArith) {forget : ℝ} (hf0 : 0 < forget) (hf : forget ≤ 1) (init : List (Obs p))
    (batches : List (List (Obs p))) (hi : NonnegWeights init) (hne : ∀ b ∈ batches, b ≠ [])
    (hb : ∀ b ∈ batches, NonnegWeights b) (a : Fin p) {B : ℕ} (hB : ∀ b ∈ batches, b.length ≤ B) {R : ℝ} (hR0 : 0 ≤ R)
    (hR : ∀ o ∈ init ++ batches.flatten, |o.w * o.x a * o.y| ≤ R) {eta : ℝ} (heta : eta = (1 + A.u) ^ (5 * B + 4) - 1)
    (hq : (1 - forget) * (1 + eta) < 1) :
    |onlineYGramF A forget init batches a - discSum forget (init ++ batches.flatten) fun o => o.w * o.x a * o.y| ≤
      ((1 - forget) * (1 + eta)) ^ batches.length * (((1 + A.u) ^ (5 * init.length + 3) - 1) * (R / forget)) +
        eta * (R / forget) / (1 - (1 - forget) * (1 + eta)) := by
  have hRi : ∀ o ∈ init, |o.w * o.x a * o.y| ≤ R := fun o ho => hR o (by simp [ho])
  have h := stream_bounded (A := A) hf0 hf (fun o : Obs p => o.w * o.x a * o.y)
    (fun G : Row p => G a) (fun G b => updateYGramF A G (xs b) (ys b) forget (ws b))
    (fun b G k m v h1 h2 h3 => updateYGramF_approx hf b h1 h2 G a h3) hR0 heta hq batches hne hB hb
    (fun b hb' o ho => hR o (List.mem_append_right _ (List.mem_flatten.2 ⟨b, hb', ho⟩))) init hRi
    (initYGramF A (xs init) (ys init) (ws init) forget)
  have heta0 : 0 ≤ eta := by rw [heta]; linarith [Approx.one_le A (5 * B + 4)]
  have h0 := (initYGramF_approx (A := A) hf init hi a).error
  have hS : (discSum forget init fun o => |o.w * o.x a * o.y|) ≤ R / forget :=
    (le_abs_self _).trans (abs_discSum_le hf0 hf _ (fun o ho => by rw [abs_abs]; exact hRi o ho) hR0)
  refine bounded_of_contraction (mul_nonneg (by linarith) (by linarith)) hq (mul_nonneg heta0 (by positivity)) (h0.trans ?_) h
  exact mul_le_mul_of_nonneg_left hS (by linarith [Approx.one_le A (5 * init.length + 3)])

theorem uniform_of_bound {q eta eta0 M forget v : ℝ} {n : ℕ} (hf0 : 0 < forget) (hf : forget ≤ 1) (heta0 : 0 ≤ eta)
    (he0 : 0 ≤ eta0) (hM : 0 ≤ M) (hsmall : eta ≤ forget / 2) (hq : q = (1 - forget) * (1 + eta))
    (h : v ≤ q ^ n * (eta0 * M) + eta * M / (1 - q)) : v ≤ (eta0 + 2 * eta / forget) * M := by
  have hq0 : 0 ≤ q := by rw [hq]; exact mul_nonneg (by linarith) (by linarith)
  have h1 : forget / 2 ≤ 1 - q := by rw [hq]; nlinarith
  have hq1 : q ≤ 1 := by linarith
  have h2 : q ^ n * (eta0 * M) ≤ 1 * (eta0 * M) := mul_le_mul_of_nonneg_right (pow_le_one₀ hq0 hq1) (by positivity)
  have h3 : eta * M / (1 - q) ≤ eta * M / (forget / 2) := by
    exact div_le_div_of_nonneg_left (by positivity) (by positivity) h1
  have e : eta * M / (forget / 2) = 2 * eta / forget * M := by field_simp
  linarith

/-- **C108.** Both Gramians, in one bound that does not depend on the number of updates. -/
theorem C108_uniform (A : FloatArith) {forget : ℝ} (hf0 : 0 < forget) (hf : forget ≤ 1) (init : List (Obs p))
    (batches : List (List (Obs p))) (hne : ∀ b ∈ batches, b ≠ []) {B : ℕ} (hB : ∀ b ∈ batches, b.length ≤ B)
    {X W : ℝ} (hX : 0 ≤ X) (hW : 0 ≤ W) (hbd : Bounded X W (init ++ batches.flatten))
    (hsmall : (1 + A.u) ^ (5 * B + 4) - 1 ≤ forget / 2) :
    (∀ a c, |onlineGramF A forget init batches a c -
      discSum forget (init ++ batches.flatten) fun o => o.w * o.x a * o.x c| ≤ roundingBound A forget X W init.length B) ∧
    ∀ a, |onlineYGramF A forget init batches a -
      discSum forget (init ++ batches.flatten) fun o => o.w * o.x a * o.y| ≤ roundingBound A forget X W init.length B := by
  set eta := (1 + A.u) ^ (5 * B + 4) - 1 with heta
  have heta0 : 0 ≤ eta := by rw [heta]; linarith [Approx.one_le A (5 * B + 4)]
  have he0 : 0 ≤ (1 + A.u) ^ (5 * init.length + 3) - 1 := by linarith [Approx.one_le A (5 * init.length + 3)]
  have hR0 : 0 ≤ W * X * X := by positivity
  have hM : 0 ≤ W * X * X / forget := by positivity
  have hq : (1 - forget) * (1 + eta) < 1 := by nlinarith
  have hi : NonnegWeights init := fun o ho => (hbd o (by simp [ho])).2.2.1
  have hb : ∀ b ∈ batches, NonnegWeights b := fun b hb' o ho =>
    (hbd o (List.mem_append_right _ (List.mem_flatten.2 ⟨b, hb', ho⟩))).2.2.1
  have bd : ∀ {w u v : ℝ}, 0 ≤ w → w ≤ W → |u| ≤ X → |v| ≤ X → |w * u * v| ≤ W * X * X := by
    intro w u v h1 h2 h3 h4
    rw [abs_mul, abs_mul, abs_of_nonneg h1]
    exact mul_le_mul (mul_le_mul h2 h3 (abs_nonneg _) hW) h4 (abs_nonneg _) (by positivity)
  refine ⟨fun a c => ?_, fun a => ?_⟩
  · exact uniform_of_bound hf0 hf heta0 he0 hM hsmall rfl (C108_bounded A hf0 hf init batches hi hne hb a c hB hR0
      (fun o ho => bd (hbd o ho).2.2.1 (hbd o ho).2.2.2 ((hbd o ho).1 a) ((hbd o ho).1 c)) heta hq)
  · exact uniform_of_bound hf0 hf heta0 he0 hM hsmall rfl (C108_y_bounded A hf0 hf init batches hi hne hb a hB hR0
      (fun o ho => bd (hbd o ho).2.2.1 (hbd o ho).2.2.2 ((hbd o ho).1 a) (hbd o ho).2.1) heta hq)

/-- **C108.** What this means for the coefficients of ridge regression, lasso and elastic net: let `b` minimise the objective of the exact
Gramians within the bounds, and `b'` the objective of the computed ones.  Their distance is at most the rounding bound, times the
size of the coefficients, divided by the curvature. -/
theorem C108_coefficients (A : FloatArith) {forget : ℝ} (hf0 : 0 < forget) (hf : forget ≤ 1) (init : List (Obs p))
    (batches : List (List (Obs p))) (hne : ∀ b ∈ batches, b ≠ []) {B : ℕ} (hB : ∀ b ∈ batches, b.length ≤ B)
    {X W : ℝ} (hX : 0 ≤ X) (hW : 0 ≤ W) (hbd : Bounded X W (init ++ batches.flatten))
    (hsmall : (1 + A.u) ^ (5 * B + 4) - 1 ≤ forget / 2) {lam alpha mu : ℝ} {reg : Fin p → Bool} (hl : 0 ≤ lam) (ha : 0 ≤ alpha)
    {lower upper : Fin p → Option ℝ}
    (hcv : CurvedAtLeast (fun a c => discSum forget (init ++ batches.flatten) fun o => o.w * o.x a * o.x c) lam alpha reg mu)
    {b b' : Row p} (hbf : Feasible lower upper b) (hbf' : Feasible lower upper b')
    (hb : ∀ d, Feasible lower upper d →
      enetObjective (fun a c => discSum forget (init ++ batches.flatten) fun o => o.w * o.x a * o.x c)
        (fun a => discSum forget (init ++ batches.flatten) fun o => o.w * o.x a * o.y) lam alpha reg b ≤
      enetObjective (fun a c => discSum forget (init ++ batches.flatten) fun o => o.w * o.x a * o.x c)
        (fun a => discSum forget (init ++ batches.flatten) fun o => o.w * o.x a * o.y) lam alpha reg d)
    (hb' : ∀ d, Feasible lower upper d →
      enetObjective (onlineGramF A forget init batches) (onlineYGramF A forget init batches) lam alpha reg b' ≤
      enetObjective (onlineGramF A forget init batches) (onlineYGramF A forget init batches) lam alpha reg d) :
    mu * euclid b b' ≤ Real.sqrt p * (4 + 2 * ((∑ j, |b j|) + ∑ j, |b' j|)) * roundingBound A forget X W init.length B := by
  obtain ⟨h1, h2⟩ := C108_uniform A hf0 hf init batches hne hB hX hW hbd hsmall
  have h0 : 0 ≤ roundingBound A forget X W init.length B := by
    have := Approx.one_le A (5 * init.length + 3)
    have := Approx.one_le A (5 * B + 4)
    have h3 : 0 ≤ 2 * ((1 + A.u) ^ (5 * B + 4) - 1) / forget := div_nonneg (by linarith) hf0.le
    exact mul_nonneg (by linarith) (by positivity)
  have := enet_perturb hl ha hcv h1 h2 h0 h0 hbf hbf' hb hb'
  refine this.trans (le_of_eq (by ring))

/-! ## The inverse Gramian of least squares -/

/-- **C108.** The recursion of the inverse Gramian forgets errors: let every update of the stored matrix be wrong by an arbitrary error of
at most `eps` per entry (rounding, in whatever order), and let the stored matrix start as the inverse of a matrix within `e0` of
the Gramian.  If the data are bounded (`M`) and determine the coefficients (`mu`), and the errors are small enough, the stored matrix
is invertible for ever, and its inverse stays within `(1 - forget) ^ k * e0 + 8 p² M² eps / forget` of the exact Gramian. -/
theorem C108_inverse {forget : ℝ} (hf0 : 0 < forget) (hf : forget < 1) (init : List (Obs p)) (o : ℕ → Obs p)
    (Q : ℕ → Matrix (Fin p) (Fin p) ℝ) {eps e0 M mu : ℝ} (heps : 0 ≤ eps) (he0 : 0 ≤ e0) (hM0 : 0 < M)
    (hQ0 : IsUnit (Q 0).det) (hQe : ∀ a c, |(Q 0)⁻¹ a c - exactGram forget init a c| ≤ e0)
    (hQ : ∀ k a c, |Q (k + 1) a c - updateInvertedGramStep (Q k) (o k).x forget (o k).w a c| ≤ eps)
    (hM : ∀ k a c, |exactGram forget (streamHistory init o k) a c| ≤ M)
    (hmu : ∀ k, Excites forget (streamHistory init o k) mu)
    (hs1 : e0 + 8 * (p : ℝ) ^ 2 * M ^ 2 * eps / forget ≤ M)
    (hs2 : p * (e0 + 8 * (p : ℝ) ^ 2 * M ^ 2 * eps / forget) < mu) (k : ℕ) :
    IsUnit (Q k).det ∧ ∀ a c, |(Q k)⁻¹ a c - exactGram forget (streamHistory init o k) a c| ≤
      (1 - forget) ^ k * e0 + 8 * (p : ℝ) ^ 2 * M ^ 2 * eps / forget :=
  inverse_stream hf0 hf init o Q heps he0 hM0 hQ0 hQe (fun k _ _ => hQ k) hM hmu hs1 hs2 k

/-- **C108.** Recursive least squares in floating point arithmetic: the inverse Gramian that `update_inverted_gram` computes with
rounding, over any division of a stream into batches, stays invertible for ever, and its inverse stays within
`(1 - forget) ^ k * e0 + 8 p² M² eps / forget` of the exact Gramian, with `M = W X² / forget` and the error `eps` of one step.
`e0` is the error of the initial matrix, which comes from LAPACK. -/
theorem C108_inverse_float (A : FloatArith) {forget : ℝ} (hf0 : 0 < forget) (hf : forget < 1) (init : List (Obs p)) (o : ℕ → Obs p)
    {X W mu e0 eps M : ℝ} (hX : 0 < X) (hW : 0 < W) (hmu0 : 0 < mu) (he0 : 0 ≤ e0) (hM : M = W * X * X / forget)
    (heps : eps = invStepError A p forget (2 / mu) X W)
    (hbd : ∀ k, Bounded X W (streamHistory init o k)) (hmu : ∀ k, Excites forget (streamHistory init o k) mu)
    (Q0 : Matrix (Fin p) (Fin p) ℝ) (hQ0 : IsUnit Q0.det) (hQe : ∀ a c, |Q0⁻¹ a c - exactGram forget init a c| ≤ e0)
    (hs0 : ((1 + A.u) ^ (2 * p + 4) - 1) * denSize p forget (2 / mu) X W ≤ (1 - forget) / 2)
    (hs1 : e0 + 8 * (p : ℝ) ^ 2 * M ^ 2 * eps / forget ≤ M)
    (hs2 : p * (e0 + 8 * (p : ℝ) ^ 2 * M ^ 2 * eps / forget) ≤ mu / 2)
    (k : ℕ) (batches : List (List (Obs p))) (hk : batches.flatten = (List.range k).map o)
    {Q : Matrix (Fin p) (Fin p) ℝ} (hQ : Q = batches.foldl (fun Q b => updateInvertedGramF A forget Q (xs b) (ws b)) Q0) :
    IsUnit Q.det ∧ ∀ a c, |Q⁻¹ a c - exactGram forget (streamHistory init o k) a c| ≤
      (1 - forget) ^ k * e0 + 8 * (p : ℝ) ^ 2 * M ^ 2 * eps / forget := by
  rw [updateInvertedGramF_flatten, hk] at hQ
  have hg : 0 < 1 - forget := by linarith
  have heps0 : 0 ≤ eps := by
    rw [heps]
    refine mul_nonneg (by linarith [Approx.one_le A (4 * p + 13)]) ?_
    unfold denSize
    positivity
  have hM0 : 0 < M := by rw [hM]; positivity
  have := inverse_stream hf0 hf init o
    (fun k => updateInvertedGramF A forget Q0 (xs ((List.range k).map o)) (ws ((List.range k).map o))) heps0 he0 hM0 hQ0 hQe
    (fun k hu hclose => ?_) (fun k a c => ?_) hmu hs1 (hs2.trans_lt (by linarith)) k
  · rw [hQ]; exact this
  · have hstep : updateInvertedGramF A forget Q0 (xs ((List.range (k + 1)).map o)) (ws ((List.range (k + 1)).map o)) =
        updateInvertedGramStepF A (updateInvertedGramF A forget Q0 (xs ((List.range k).map o)) (ws ((List.range k).map o)))
          (o k).x forget (o k).w := by
      rw [List.range_succ, List.map_append, updateInvertedGramF_append]
      rfl
    simp only [hstep]
    obtain ⟨h1, h2⟩ := entry_le_of_inverse_form hu (nu := mu / 2) (by positivity) (fun v => by
      have h1 := hmu k v
      rw [← exactGram_form] at h1
      have h2 := abs_form_le hclose v v
      have h3 : (∑ i, |v i|) * ∑ i, |v i| ≤ p * ∑ i, v i ^ 2 := by
        have h := Finset.sum_mul_sq_le_sq_mul_sq Finset.univ (fun _ : Fin p => (1 : ℝ)) fun j => |v j|
        simp only [one_mul, one_pow, Finset.sum_const, Finset.card_univ, Fintype.card_fin, nsmul_eq_mul, mul_one, sq_abs] at h
        rwa [sq] at h
      have h4 : 0 ≤ ∑ i, v i ^ 2 := Finset.sum_nonneg fun i _ => sq_nonneg _
      have h5 : 0 ≤ e0 + 8 * (p : ℝ) ^ 2 * M ^ 2 * eps / forget := by positivity
      have h6 := mul_le_mul_of_nonneg_left h3 h5
      have h7 := mul_le_mul_of_nonneg_right hs2 h4
      have h8 := (abs_le.1 h2).1
      have e : ∑ i, ∑ j, v i * ((updateInvertedGramF A forget Q0 (xs ((List.range k).map o)) (ws ((List.range k).map o)))⁻¹ i j -
            exactGram forget (streamHistory init o k) i j) * v j =
          (∑ i, ∑ j, v i * (updateInvertedGramF A forget Q0 (xs ((List.range k).map o)) (ws ((List.range k).map o)))⁻¹ i j * v j) -
            ∑ i, ∑ j, v i * exactGram forget (streamHistory init o k) i j * v j := by
        rw [← Finset.sum_sub_distrib]
        refine Finset.sum_congr rfl fun i _ => ?_
        rw [← Finset.sum_sub_distrib]
        exact Finset.sum_congr rfl fun j _ => by ring
      rw [e] at h8
      nlinarith)
    have hb := hbd (k + 1) (o k) (by rw [streamHistory_succ]; simp)
    rw [one_div_div] at h1
    intro a c
    rw [heps]
    exact updateInvertedGramStepF_error hf h1 hb.1 hb.2.2.1 hb.2.2.2 (h2 _) hs0 a c
  · have hR : ∀ o' ∈ streamHistory init o k, |o'.w * o'.x a * o'.x c| ≤ W * X * X := by
      intro o' ho'
      obtain ⟨h1, _, h3, h4⟩ := hbd k o' ho'
      rw [abs_mul, abs_mul, abs_of_nonneg h3]
      exact mul_le_mul (mul_le_mul h4 (h1 a) (abs_nonneg _) hW.le) (h1 c) (abs_nonneg _) (by positivity)
    rw [hM]
    exact abs_discSum_le hf0 hf.le _ hR (by positivity)

/-- **C108.** What this means for least squares: if the stored matrix `Q` is invertible with an inverse within `eps` of the Gramian, and the
stored vector `k` is within `delta` of the cross products, the coefficients `olsBeta Q k` differ from the exact ones by at most
`sqrt p * (delta + eps * ∑ |b'|) / mu`. -/
theorem C108_least_squares {forget : ℝ} (h : List (Obs p)) {mu : ℝ} (hmu : Excites forget h mu)
    {Q : Matrix (Fin p) (Fin p) ℝ} {k b : Row p} {eps delta : ℝ} (heps : 0 ≤ eps) (hdelta : 0 ≤ delta) (hQ : IsUnit Q.det)
    (hQe : ∀ a c, |Q⁻¹ a c - exactGram forget h a c| ≤ eps)
    (hk : ∀ j, |k j - discSum forget h fun o => o.w * o.x j * o.y| ≤ delta) (hb : sseGradient forget h b = 0) :
    mu * euclid b (olsBeta Q k) ≤ Real.sqrt p * (delta + eps * ∑ j, |olsBeta Q k j|) := by
  refine normal_perturb (G := exactGram forget h) (S := Q⁻¹) (fun v => ?_) hQe hk heps hdelta ?_ ?_
  · rw [exactGram_form]; exact hmu v
  · funext j
    have h1 : sseGradient forget h b j = 0 := congrFun hb j
    have h2 : sseGradient forget h b j = (exactGram forget h *ᵥ b) j - discSum forget h fun o => o.w * o.x j * o.y := by
      have : (exactGram forget h *ᵥ b) j = discSum forget h fun o => o.w * linPred o.x b * o.x j := by
        change ∑ i, exactGram forget h j i * b i = _
        simp only [exactGram, ← discSum_mul_right]
        rw [← discSum_sum]
        refine discSum_congr _ _ fun o _ => ?_
        rw [linPred, Finset.mul_sum, Finset.sum_mul]
        exact Finset.sum_congr rfl fun i _ => by ring
      rw [this, ← discSum_sub]
      exact discSum_congr _ _ fun o _ => by ring
    linarith
  · unfold olsBeta
    rw [Matrix.mulVec_mulVec, Matrix.nonsing_inv_mul Q hQ, Matrix.one_mulVec]

/-- **C108.** The last product, with rounding. -/
theorem C108_product (A : FloatArith) (Q : Matrix (Fin p) (Fin p) ℝ) (k : Row p) (j : Fin p) :
    |olsBetaF A Q k j - olsBeta Q k j| ≤ ((1 + A.u) ^ (p + 1) - 1) * ∑ c, |Q j c| * |k c| := by
  have h := Approx.sum fun c => ((Approx.self A (Q j c)).mul (Approx.self A (k c))).rnd
  exact (h.mono (l := p + 1) (by omega)).error

/-! ## Without forgetting -/

/-- **C108.** Without forgetting the error grows without bound: in float64, once an entry of the Gramian has reached `2 ^ 54`, new
observations with `x = 1` and `w = 1` no longer change it. -/
theorem C108_no_forgetting :
    ∃ (init : List (Obs 1)) (o : Obs 1), NonnegWeights (o :: init) ∧ ∀ n : ℕ,
      onlineGramF float64 0 init (List.replicate n [o]) 0 0 = 2 ^ 54 ∧
      (discSum 0 (init ++ (List.replicate n [o]).flatten) fun o => o.w * o.x 0 * o.x 0) = 2 ^ 54 + n := by
  refine ⟨[⟨fun _ => 1, 0, 2 ^ 54⟩], ⟨fun _ => 1, 0, 1⟩, ?_, fun n => ⟨?_, ?_⟩⟩
  · intro o ho
    rcases List.mem_pair.1 ho with rfl | rfl <;> norm_num
  · have hr : float64.rnd = round53 := rfl
    have h1 : round53 1 = 1 := by simpa using round53_zpow 0
    have h27 : round53 (2 ^ 27) = 2 ^ 27 := by simpa using round53_zpow 27
    have h54 : round53 (2 ^ 54) = 2 ^ 54 := by simpa using round53_zpow 54
    have h0 : initGramF float64 (xs [(⟨fun _ => 1, 0, 2 ^ 54⟩ : Obs 1)]) (ws [(⟨fun _ => 1, 0, 2 ^ 54⟩ : Obs 1)]) 0 0 0 = 2 ^ 54 := by
      have hs : Real.sqrt (2 ^ 54) = 2 ^ 27 := by
        rw [show (2 : ℝ) ^ 54 = (2 ^ 27) ^ 2 by norm_num]
        exact Real.sqrt_sq (by positivity)
      have hm : (2 : ℝ) ^ 27 * 2 ^ 27 = 2 ^ 54 := by norm_num
      have hsum : ∀ v : ℝ, float64.sum [v] = round53 (v + 0) := fun v => rfl
      simp only [initGramF, dotF, scaledColumnF, rootWeightsF, initForgetVectorF, xs, ws, List.map_cons, List.map_nil,
        List.length_cons, List.length_nil, hr, sub_zero, h1, if_true, List.replicate_succ, List.replicate_zero,
        List.zipWith_cons_cons, List.zipWith_nil_left, mul_one, one_mul, h54, hs, h27, hm, hsum, add_zero, zero_add]
    unfold onlineGramF
    induction n with
    | zero => exact h0
    | succ n ih =>
      rw [List.replicate_succ', List.foldl_append, List.foldl_cons, List.foldl_nil]
      change float64.rnd (float64.rnd (float64.rnd (1 - 0) * _) + float64.rnd (1 * float64.rnd (1 * 1))) = 2 ^ 54
      rw [ih]
      simp only [hr, sub_zero, h1, mul_one, one_mul, h54]
      exact round53_stall
  · rw [discSum_forget_zero, List.map_append, List.sum_append]
    have h : ∀ n : ℕ, ((List.replicate n [(⟨fun _ => 1, 0, 1⟩ : Obs 1)]).flatten.map fun o => o.w * o.x 0 * o.x 0).sum = n := by
      intro n
      induction n with
      | zero => simp
      | succ n ih => rw [List.replicate_succ, List.flatten_cons, List.map_append, List.sum_append, ih]; simp; ring
    rw [h]
    simp

/-! ## Without rounding, and examples -/

/-- Arithmetic without rounding. -/
def exactArith : FloatArith := .ofRnd 0 id le_rfl (by norm_num) (by simp)

/-- Without rounding the functions of this file are those of the model of `gram.py`: for non-negative weights. -/
theorem C108_exact {forget : ℝ} (hf : forget ≤ 1) (init : List (Obs p)) (batches : List (List (Obs p))) (hi : NonnegWeights init)
    (hne : ∀ b ∈ batches, b ≠ []) (hb : ∀ b ∈ batches, NonnegWeights b) :
    onlineGramF exactArith forget init batches = onlineGram forget init batches ∧
      onlineYGramF exactArith forget init batches = onlineYGram forget init batches := by
  have hu : exactArith.u = 0 := rfl
  have hall : NonnegWeights (init ++ batches.flatten) := fun o ho => by
    rcases List.mem_append.1 ho with h | h
    · exact hi o h
    · obtain ⟨b, hb', ho'⟩ := List.mem_flatten.1 h; exact hb b hb' o ho'
  refine ⟨?_, ?_⟩
  · ext a c
    have h := C108_gram exactArith hf init batches hi hne hb a c
    rw [hu, add_zero, one_pow, sub_self, zero_mul] at h
    rw [C03_online_eq_batch hf init batches hne hi hb, initGram_apply hf _ hall]
    exact sub_eq_zero.1 (abs_eq_zero.1 (le_antisymm h (abs_nonneg _)))
  · funext a
    have h := C108_y_gram exactArith hf init batches hi hne hb a
    rw [hu, add_zero, one_pow, sub_self, zero_mul] at h
    rw [C03_online_eq_batch_y hf init batches hne hi hb, initYGram_apply hf _ hall,
      discSum_congr _ _ (fun o _ => show o.w * o.y * o.x a = o.w * o.x a * o.y by ring)]
    exact sub_eq_zero.1 (abs_eq_zero.1 (le_antisymm h (abs_nonneg _)))

/-- Without rounding a step for the inverse Gramian is that of the model of `gram.py`. -/
theorem C108_exact_inverse (Q : Matrix (Fin p) (Fin p) ℝ) (x : Row p) (forget w : ℝ) :
    updateInvertedGramStepF exactArith Q x forget w = updateInvertedGramStep Q x forget w := by
  have hs : ∀ l : List ℝ, exactArith.sum l = l.sum := fun l => by
    change sumOf id l = l.sum
    induction l with
    | nil => rfl
    | cons a l ih => rw [sumOf, ih, List.sum_cons]; rfl
  have hr : ∀ x, exactArith.rnd x = x := fun _ => rfl
  ext a c
  simp only [updateInvertedGramStepF, updateInvertedGramStep, matMulF, vecMulF, dotRowF, hs, hr, List.sum_ofFn, Matrix.smul_apply,
    Matrix.sub_apply, Matrix.mul_apply, Matrix.vecMulVec_apply, smul_eq_mul, dotProduct, Matrix.vecMul, Pi.smul_apply]
  rw [mul_comm (1 / (1 - forget + _)), mul_one_div]

/-- float64, forget 0.01, batches of up to ten observations: the condition of `C108_uniform` is met. -/
example : (1 + float64.u) ^ (5 * 10 + 4) - 1 ≤ (1 / 100 : ℝ) / 2 := by
  change (1 + (1 / 2 : ℝ) ^ 53) ^ 54 - 1 ≤ _
  norm_num

/-- Observations `x = 1`, `w = 1` for ever, with forget 1/2 and float64, meet the conditions of `C108_inverse_float`. -/
example (k : ℕ) : ∃ Q0 : Matrix (Fin 1) (Fin 1) ℝ,
    IsUnit (updateInvertedGramF float64 (1 / 2) Q0 (xs ((List.range k).map fun _ => (⟨fun _ => 1, 0, 1⟩ : Obs 1)))
      (ws ((List.range k).map fun _ => (⟨fun _ => 1, 0, 1⟩ : Obs 1)))).det := by
  refine ⟨1, (C108_inverse_float float64 (forget := 1 / 2) (by norm_num) (by norm_num) [⟨fun _ => 1, 0, 1⟩]
    (fun _ => ⟨fun _ => 1, 0, 1⟩) (X := 1) (W := 1) (mu := 1) (e0 := 0) one_pos one_pos one_pos le_rfl rfl rfl
    ?_ ?_ 1 (by simp) ?_ ?_ ?_ ?_ k [(List.range k).map fun _ => ⟨fun _ => 1, 0, 1⟩] (by simp) rfl).1⟩
  · intro k o ho
    have : o = ⟨fun _ => 1, 0, 1⟩ := by
      rcases List.mem_append.1 ho with h | h
      · simpa using h
      · obtain ⟨_, _, rfl⟩ := List.mem_map.1 h; rfl
    subst this
    norm_num
  · intro k v
    rw [Fin.sum_univ_one]
    have hz : ∀ o ∈ streamHistory [(⟨fun _ => 1, 0, 1⟩ : Obs 1)] (fun _ => ⟨fun _ => 1, 0, 1⟩) (k - 1),
        0 ≤ o.w * linPred o.x v ^ 2 := by
      intro o ho
      have : o = ⟨fun _ => 1, 0, 1⟩ := by
        rcases List.mem_append.1 ho with h | h
        · simpa using h
        · obtain ⟨_, _, rfl⟩ := List.mem_map.1 h; rfl
      subst this
      positivity
    cases k with
    | zero =>
      change _ ≤ discSum (1 / 2) [_] _
      rw [discSum_singleton]
      simp only [linPred, Fin.sum_univ_one, one_mul]
      exact le_rfl
    | succ k =>
      rw [streamHistory_succ, discSum_snoc]
      have h := discSum_nonneg (forget := 1 / 2) (by norm_num) _ hz
      simp only [Nat.add_sub_cancel] at h
      simp only [linPred, Fin.sum_univ_one, one_mul] at h ⊢
      linarith
  · intro a c
    fin_cases a; fin_cases c
    simp [exactGram, discSum]
  · change ((1 + (1 / 2 : ℝ) ^ 53) ^ (2 * 1 + 4) - 1) * _ ≤ _
    unfold denSize
    norm_num
  · unfold invStepError denSize
    change 0 + 8 * ((1 : ℕ) : ℝ) ^ 2 * _ ^ 2 * (((1 + (1 / 2 : ℝ) ^ 53) ^ (4 * 1 + 13) - 1) * _) / _ ≤ _
    norm_num
  · unfold invStepError denSize
    change _ * (0 + 8 * ((1 : ℕ) : ℝ) ^ 2 * _ ^ 2 * (((1 + (1 / 2 : ℝ) ^ 53) ^ (4 * 1 + 13) - 1) * _) / _) ≤ _
    norm_num

end Ondil
