import Verif.Lemmas.Gram
import Mathlib.Tactic.NormNum
import Mathlib.LinearAlgebra.Matrix.Notation

/-!
# Properties C01–C07: Gramian matrices (`src/ondil/gram.py`)
-/

open scoped BigOperators Matrix

namespace Ondil

variable {p : ℕ}

/-! ## C01 Forget weights are exactly exponential -/

/-- **C01.** The discount vector of `N ≥ 1` observations has length `N`; its `n`-th entry (counted
from 1, oldest first) is `(1 - forget)^(N - n)`. -/
theorem C01_forget_vector (forget : ℝ) (N : ℕ) (_hN : 1 ≤ N) :
    (initForgetVector forget N).length = N ∧
    ∀ n, 1 ≤ n → n ≤ N →
      (initForgetVector forget N)[n - 1]? = some ((1 - forget) ^ (N - n)) := by
  refine ⟨length_initForgetVector forget N, fun n h1 h2 => ?_⟩
  rw [initForgetVector_eq]
  have hlt : n - 1 < N := by omega
  rw [List.getElem?_ofFn, dif_pos hlt]
  congr 2
  simp only
  omega

/-- **C01.** Without forgetting all weights are one. -/
theorem C01_no_forget (N : ℕ) : initForgetVector 0 N = List.replicate N 1 := by
  simp [initForgetVector]

/-- Non-vacuity of C01: three observations, forget 1/2. -/
example : initForgetVector (1/2) 3 = [1/4, 1/2, 1] := by
  rw [initForgetVector_eq]; norm_num [List.ofFn_succ]

/-! ## C02 The Gramian is the discounted weighted cross product -/

/-- **C02.** Entry `(a, b)` of the initial Gramian is the discounted sum of `w * x_a * x_b`. -/
theorem C02_gram {forget : ℝ} (hf : forget ≤ 1) (h : List (Obs p)) (hw : NonnegWeights h)
    (a b : Fin p) :
    initGram (xs h) (ws h) forget a b =
      ∑ n : Fin h.length, (1 - forget) ^ (h.length - 1 - (n : ℕ)) *
        ((h.get n).w * (h.get n).x a * (h.get n).x b) :=
  initGram_apply hf h hw a b

/-- **C02.** Entry `a` of the initial y-Gramian is the discounted sum of `w * y * x_a`. -/
theorem C02_y_gram {forget : ℝ} (hf : forget ≤ 1) (h : List (Obs p)) (hw : NonnegWeights h)
    (a : Fin p) :
    initYGram (xs h) (ys h) (ws h) forget a =
      ∑ n : Fin h.length, (1 - forget) ^ (h.length - 1 - (n : ℕ)) *
        ((h.get n).w * (h.get n).y * (h.get n).x a) :=
  initYGram_apply hf h hw a

/-- A concrete history with two regressors and a zero weight, used as witness below. -/
def exHist : List (Obs 2) := [⟨![1, 2], 3, 1⟩, ⟨![1, 0], 1, 2⟩, ⟨![1, 5], 1, 0⟩]

theorem exHist_nonneg : NonnegWeights exHist := by
  intro o ho
  simp only [exHist, List.mem_cons, List.not_mem_nil, or_false] at ho
  rcases ho with rfl | rfl | rfl <;> norm_num

/-- Non-vacuity of C02: the hypotheses hold for `exHist` and the value is not trivial. -/
example : initGram (xs exHist) (ws exHist) (1/2) 0 1 = 1/2 := by
  rw [initGram_apply (by norm_num) exHist exHist_nonneg]
  simp [exHist, discSum_cons]
  norm_num

/-! ## C03 Online Gramian equals batch Gramian under every chunking -/

/-- The Gramian after an initial data set and a sequence of updates, as the estimators compute it. -/
noncomputable def onlineGram (forget : ℝ) (init : List (Obs p)) (batches : List (List (Obs p))) :
    Matrix (Fin p) (Fin p) ℝ :=
  batches.foldl (fun G b => updateGram G (xs b) forget (.array (ws b)))
    (initGram (xs init) (ws init) forget)

/-- The y-Gramian after an initial data set and a sequence of updates. -/
noncomputable def onlineYGram (forget : ℝ) (init : List (Obs p)) (batches : List (List (Obs p))) :
    Row p :=
  batches.foldl (fun G b => updateYGram G (xs b) (ys b) forget (.array (ws b)))
    (initYGram (xs init) (ys init) (ws init) forget)

/-- **C03.** Updating with any sequence of non-empty batches gives the Gramian of the whole stream. -/
theorem C03_online_eq_batch {forget : ℝ} (hf : forget ≤ 1) (init : List (Obs p))
    (batches : List (List (Obs p))) (_hne : ∀ b ∈ batches, b ≠ [])
    (hi : NonnegWeights init) (hb : ∀ b ∈ batches, NonnegWeights b) :
    onlineGram forget init batches =
      initGram (xs (init ++ batches.flatten)) (ws (init ++ batches.flatten)) forget := by
  unfold onlineGram
  clear _hne
  induction batches generalizing init with
  | nil => simp
  | cons b bs ih =>
    rw [List.foldl_cons, updateGram_initGram hf init b hi (hb b (by simp)),
      ih (init ++ b) (hi.append (hb b (by simp))) (fun c hc => hb c (by simp [hc]))]
    simp

/-- **C03.** The same for the y-Gramian. -/
theorem C03_online_eq_batch_y {forget : ℝ} (hf : forget ≤ 1) (init : List (Obs p))
    (batches : List (List (Obs p))) (_hne : ∀ b ∈ batches, b ≠ [])
    (hi : NonnegWeights init) (hb : ∀ b ∈ batches, NonnegWeights b) :
    onlineYGram forget init batches =
      initYGram (xs (init ++ batches.flatten)) (ys (init ++ batches.flatten))
        (ws (init ++ batches.flatten)) forget := by
  unfold onlineYGram
  clear _hne
  induction batches generalizing init with
  | nil => simp
  | cons b bs ih =>
    rw [List.foldl_cons, updateYGram_initYGram hf init b hi (hb b (by simp)),
      ih (init ++ b) (hi.append (hb b (by simp))) (fun c hc => hb c (by simp [hc]))]
    simp

theorem nonneg_of_flatten {init : List (Obs p)} {bs : List (List (Obs p))}
    (h : NonnegWeights (init ++ bs.flatten)) :
    NonnegWeights init ∧ ∀ b ∈ bs, NonnegWeights b :=
  ⟨fun o ho => h o (by simp [ho]),
   fun b hb o ho => h o (by simp only [List.mem_append, List.mem_flatten]; exact .inr ⟨b, hb, ho⟩)⟩

/-- **C03.** Two ways to cut the same stream give the same Gramian and y-Gramian. -/
theorem C03_chunking_irrelevant {forget : ℝ} (hf : forget ≤ 1) (init init' : List (Obs p))
    (bs bs' : List (List (Obs p))) (hne : ∀ b ∈ bs, b ≠ []) (hne' : ∀ b ∈ bs', b ≠ [])
    (hsame : init ++ bs.flatten = init' ++ bs'.flatten)
    (hw : NonnegWeights (init ++ bs.flatten)) :
    onlineGram forget init bs = onlineGram forget init' bs' ∧
    onlineYGram forget init bs = onlineYGram forget init' bs' := by
  obtain ⟨h1, h2⟩ := nonneg_of_flatten hw
  obtain ⟨h1', h2'⟩ := nonneg_of_flatten (hsame ▸ hw)
  rw [C03_online_eq_batch hf init bs hne h1 h2, C03_online_eq_batch hf init' bs' hne' h1' h2',
    C03_online_eq_batch_y hf init bs hne h1 h2, C03_online_eq_batch_y hf init' bs' hne' h1' h2', hsame]
  exact ⟨rfl, rfl⟩

/-- **C03.** A scalar weight argument acts like an array of equal weights. -/
theorem C03_scalar_weight (G : Matrix (Fin p) (Fin p) ℝ) (H : Row p) (X : List (Row p))
    (y : List ℝ) (forget c : ℝ) (hX : X ≠ []) :
    updateGram G X forget (.scalar c) = updateGram G X forget (.array (List.replicate X.length c)) ∧
    updateYGram H X y forget (.scalar c) =
      updateYGram H X y forget (.array (List.replicate X.length c)) := by
  have hmul : ∀ n, (WeightArg.scalar c).mul (initForgetVector forget n) =
      (WeightArg.array (List.replicate n c)).mul (initForgetVector forget n) := by
    intro n
    simp only [WeightArg.mul]
    rw [initForgetVector_eq]
    apply List.ext_getElem <;> simp
  match X, hX with
  | [x], _ => simp [updateGram, updateYGram, WeightArg.one]
  | x :: x' :: X, _ => simp only [updateGram, updateYGram, hmul, and_self]

/-- Non-vacuity of C03: a stream cut in two ways. -/
example : onlineGram (1/2) (exHist.take 1) [exHist.drop 1] =
    onlineGram (1/2) (exHist.take 2) [exHist.drop 2] :=
  (C03_chunking_irrelevant (by norm_num) _ _ _ _ (by simp [exHist]) (by simp [exHist])
    (by simp [exHist]) (by simpa [exHist] using exHist_nonneg)).1

/-! ## C04 The recursively updated inverse Gramian stays the inverse of the Gramian -/

/-- The inverse Gramian after an initial data set and a sequence of updates; stops at the first
exception. -/
noncomputable def onlineInvertedGram (forget : ℝ) (init : List (Obs p))
    (batches : List (List (Obs p))) : Except PyErr (Matrix (Fin p) (Fin p) ℝ) :=
  batches.foldlM (fun G b => updateInvertedGram G (xs b) forget (.array (ws b)))
    =<< initInvertedGram (xs init) (ws init) forget

theorem foldlM_inverted {forget : ℝ} (hf : forget < 1) (init : List (Obs p))
    (batches : List (List (Obs p))) (hne : ∀ b ∈ batches, b ≠ [])
    (hi : NonnegWeights init) (hb : ∀ b ∈ batches, NonnegWeights b)
    (hu : IsUnit (initGram (xs init) (ws init) forget).det) :
    IsUnit (initGram (xs (init ++ batches.flatten)) (ws (init ++ batches.flatten)) forget).det ∧
    batches.foldlM (fun G b => updateInvertedGram G (xs b) forget (.array (ws b)))
      (initGram (xs init) (ws init) forget)⁻¹ =
      .ok (initGram (xs (init ++ batches.flatten)) (ws (init ++ batches.flatten)) forget)⁻¹ := by
  induction batches generalizing init with
  | nil =>
    rw [List.flatten_nil, List.append_nil]
    exact ⟨hu, rfl⟩
  | cons b bs ih =>
    obtain ⟨h1, h2⟩ := inverted_batch hf b init (hne b (by simp)) hi (hb b (by simp)) hu
    have := ih (init ++ b) (fun c hc => hne c (by simp [hc])) (hi.append (hb b (by simp)))
      (fun c hc => hb c (by simp [hc])) h1
    simp only [List.flatten_cons, ← List.append_assoc]
    refine ⟨this.1, ?_⟩
    rw [List.foldlM_cons, h2]
    exact this.2

/-- **C04.** If the Gramian `A₀` of the initial data is invertible, then after any sequence of
updates no exception has occurred, the Gramian `A` of all data is invertible, and the maintained
matrix `M` is its two-sided inverse. -/
theorem C04_inverse_maintained {forget : ℝ} (hf : forget < 1) (init : List (Obs p))
    (batches : List (List (Obs p))) (hne : ∀ b ∈ batches, b ≠ [])
    (hi : NonnegWeights init) (hb : ∀ b ∈ batches, NonnegWeights b)
    (hu : IsUnit (initGram (xs init) (ws init) forget)) :
    ∃ M, onlineInvertedGram forget init batches = .ok M ∧
      M * initGram (xs (init ++ batches.flatten)) (ws (init ++ batches.flatten)) forget = 1 ∧
      initGram (xs (init ++ batches.flatten)) (ws (init ++ batches.flatten)) forget * M = 1 := by
  rw [Matrix.isUnit_iff_isUnit_det] at hu
  obtain ⟨h1, h2⟩ := foldlM_inverted hf init batches hne hi hb hu
  refine ⟨_, ?_, Matrix.nonsing_inv_mul _ h1, Matrix.mul_nonsing_inv _ h1⟩
  unfold onlineInvertedGram initInvertedGram
  simp only [(rank_eq_iff_isUnit_det _).2 hu, if_true]
  exact h2

/-- **C04.** No division by zero: every denominator of the recursion is positive. -/
theorem C04_denominator_pos {forget : ℝ} (hf : forget < 1) (h : List (Obs p)) (o : Obs p)
    (hw : NonnegWeights h) (ho : 0 ≤ o.w) (hu : IsUnit (initGram (xs h) (ws h) forget)) :
    0 < (1 - forget) + (Matrix.vecMul (o.w • o.x) (initGram (xs h) (ws h) forget)⁻¹) ⬝ᵥ o.x := by
  rw [Matrix.isUnit_iff_isUnit_det] at hu
  have := gram_inv_quad_nonneg hf.le h hw hu o.x
  rw [Matrix.smul_vecMul, smul_dotProduct, smul_eq_mul, ← Matrix.dotProduct_mulVec]
  have h1 : 0 < 1 - forget := by linarith
  positivity

/-- **C04.** The result does not depend on how the stream is cut into batches. -/
theorem C04_chunking_irrelevant {forget : ℝ} (hf : forget < 1) (init : List (Obs p))
    (bs bs' : List (List (Obs p))) (hne : ∀ b ∈ bs, b ≠ []) (hne' : ∀ b ∈ bs', b ≠ [])
    (hsame : bs.flatten = bs'.flatten) (hw : NonnegWeights (init ++ bs.flatten))
    (hu : IsUnit (initGram (xs init) (ws init) forget)) :
    onlineInvertedGram forget init bs = onlineInvertedGram forget init bs' := by
  obtain ⟨h1, h2⟩ := nonneg_of_flatten hw
  obtain ⟨_, h2'⟩ := nonneg_of_flatten (hsame ▸ hw)
  rw [Matrix.isUnit_iff_isUnit_det] at hu
  unfold onlineInvertedGram initInvertedGram
  simp only [(rank_eq_iff_isUnit_det _).2 hu, if_true]
  have e1 := (foldlM_inverted hf init bs hne h1 h2 hu).2
  have e2 := (foldlM_inverted hf init bs' hne' h1 h2' hu).2
  rw [hsame] at e1
  exact e1.trans e2.symm

/-- The failing default: a batch of two or more rows with the default scalar weight raises. -/
theorem C04_scalar_weight_batch_fails (G : Matrix (Fin p) (Fin p) ℝ) (x x' : Row p)
    (X : List (Row p)) (forget c : ℝ) :
    updateInvertedGram G (x :: x' :: X) forget (.scalar c) = .error .typeError := by
  simp [updateInvertedGram]

theorem exHist_isUnit : IsUnit (initGram (xs exHist) (ws exHist) (1/2)) := by
  rw [Matrix.isUnit_iff_isUnit_det, isUnit_iff_ne_zero, Matrix.det_fin_two]
  simp only [initGram_apply (by norm_num : (1/2:ℝ) ≤ 1) exHist exHist_nonneg]
  simp [exHist, discSum_cons]
  norm_num

/-- Non-vacuity of C04. -/
example : ∃ M, onlineInvertedGram (1/2) exHist [exHist, [⟨![3, 1], 0, 7⟩]] = .ok M := by
  obtain ⟨M, hM, _⟩ := C04_inverse_maintained (by norm_num : (1/2:ℝ) < 1) exHist
    [exHist, [⟨![3, 1], 0, 7⟩]] (by simp [exHist]) exHist_nonneg
    (by
      intro b hb
      simp only [List.mem_cons, List.not_mem_nil, or_false] at hb
      rcases hb with rfl | rfl
      · exact exHist_nonneg
      · intro o ho; simp at ho; subst ho; norm_num) exHist_isUnit
  exact ⟨M, hM⟩

/-! ## C05 Initialising the inverse Gramian fails exactly on rank-deficient data -/

/-- **C05.** `ValueError` exactly when a non-zero combination of the regressors vanishes on all
observations with positive weight. -/
theorem C05_error_iff {forget : ℝ} (hf : forget < 1) (h : List (Obs p)) (hw : NonnegWeights h) :
    initInvertedGram (xs h) (ws h) forget = .error .valueError ↔
      ∃ v : Row p, v ≠ 0 ∧ ∀ o ∈ h, 0 < o.w → ∑ j, o.x j * v j = 0 := by
  unfold initInvertedGram
  simp only
  have hdef : (initGram (xs h) (ws h) forget).rank = p ↔
      IsUnit (initGram (xs h) (ws h) forget).det := rank_eq_iff_isUnit_det _
  have key : ¬ (initGram (xs h) (ws h) forget).rank = p ↔
      ∃ v : Row p, v ≠ 0 ∧ ∀ o ∈ h, 0 < o.w → ∑ j, o.x j * v j = 0 := by
    rw [hdef, not_isUnit_det_iff]
    constructor
    · rintro ⟨v, hv, h0⟩
      refine ⟨v, hv, fun o ho hpos => ?_⟩
      have hq : v ⬝ᵥ (initGram (xs h) (ws h) forget *ᵥ v) = 0 := by rw [h0, dotProduct_zero]
      rw [gram_quad hf.le h hw] at hq
      have := discSum_eq_zero hf h (fun o ho => by
        rw [dotProduct_comm v o.x, mul_assoc]
        exact mul_nonneg (hw o ho) (mul_self_nonneg _)) hq o ho
      rw [dotProduct_comm v o.x, mul_assoc] at this
      rcases mul_eq_zero.1 this with h1 | h1
      · exact absurd h1 hpos.ne'
      · exact mul_self_eq_zero.1 h1
    · rintro ⟨v, hv, h0⟩
      refine ⟨v, hv, ?_⟩
      funext a
      rw [gram_mulVec hf.le h hw]
      rw [discSum_congr (k := fun _ => 0) _ _ (fun o ho => ?_), discSum_zero]
      · rfl
      · rcases (hw o ho).eq_or_lt with h1 | h1
        · rw [← h1]; ring
        · have : o.x ⬝ᵥ v = 0 := h0 o ho h1
          rw [this]; ring
  split_ifs with h1
  · constructor
    · intro h2; exact absurd h2 (by simp)
    · intro h2; exact absurd h1 (key.2 h2)
  · exact ⟨fun _ => key.1 h1, fun _ => rfl⟩

/-- **C05.** Otherwise the result is the two-sided inverse of the Gramian; there is no other
outcome. -/
theorem C05_ok_otherwise (h : List (Obs p)) (forget : ℝ) :
    initInvertedGram (xs h) (ws h) forget = .error .valueError ∨
    ∃ M, initInvertedGram (xs h) (ws h) forget = .ok M ∧
      M * initGram (xs h) (ws h) forget = 1 ∧ initGram (xs h) (ws h) forget * M = 1 := by
  unfold initInvertedGram
  simp only
  split_ifs with h1
  · rw [rank_eq_iff_isUnit_det] at h1
    exact .inr ⟨_, rfl, Matrix.nonsing_inv_mul _ h1, Matrix.mul_nonsing_inv _ h1⟩
  · exact .inl rfl

/-- Non-vacuity of C05: both outcomes occur (one observation and two regressors; `exHist`). -/
example : initInvertedGram (xs [(⟨![1, 1], 0, 1⟩ : Obs 2)]) (ws [(⟨![1, 1], 0, 1⟩ : Obs 2)]) 0 =
    .error .valueError := by
  rw [C05_error_iff (by norm_num) _ (by intro o ho; simp at ho; subst ho; norm_num)]
  refine ⟨![1, -1], ?_, ?_⟩
  · intro h; have := congrFun h 0; simp at this
  · intro o ho _; simp at ho; subst ho; simp

example : initInvertedGram (xs exHist) (ws exHist) (1/2) ≠ .error .valueError := by
  obtain ⟨M, hM, _⟩ := C04_inverse_maintained (by norm_num : (1/2:ℝ) < 1) exHist []
    (by simp) exHist_nonneg (by simp) exHist_isUnit
  intro h
  unfold onlineInvertedGram at hM
  rw [h] at hM
  cases hM

/-! ## C06 The Gramian is symmetric positive semi-definite for ever -/

/-- **C06.** After any history the Gramian is symmetric, its quadratic form is non-negative, and so
is its diagonal. -/
theorem C06_symmetric_psd {forget : ℝ} (hf : forget ≤ 1) (init : List (Obs p))
    (batches : List (List (Obs p))) (hne : ∀ b ∈ batches, b ≠ [])
    (hi : NonnegWeights init) (hb : ∀ b ∈ batches, NonnegWeights b) :
    (∀ i j, onlineGram forget init batches i j = onlineGram forget init batches j i) ∧
    (∀ v : Row p, 0 ≤ ∑ i, ∑ j, v i * onlineGram forget init batches i j * v j) ∧
    (∀ i, 0 ≤ onlineGram forget init batches i i) := by
  have hw : NonnegWeights (init ++ batches.flatten) := by
    refine hi.append fun o ho => ?_
    obtain ⟨b, hb1, hb2⟩ := List.mem_flatten.1 ho
    exact hb b hb1 o hb2
  rw [C03_online_eq_batch hf init batches hne hi hb]
  refine ⟨fun i j => ?_, fun v => ?_, fun i => ?_⟩
  · have := congrFun (congrFun (gram_transpose hf _ hw) j) i
    exact this
  · have h := gram_quad hf _ hw v v
    have h2 : 0 ≤ v ⬝ᵥ (initGram (xs (init ++ batches.flatten)) (ws (init ++ batches.flatten)) forget *ᵥ v) := by
      rw [h]
      refine discSum_nonneg hf _ fun o ho => ?_
      rw [dotProduct_comm v o.x, mul_assoc]
      exact mul_nonneg (hw o ho) (mul_self_nonneg _)
    simpa [dotProduct, Matrix.mulVec, Finset.mul_sum, mul_assoc] using h2
  · rw [initGram_apply hf _ hw]
    refine discSum_nonneg hf _ fun o ho => ?_
    rw [mul_assoc]
    exact mul_nonneg (hw o ho) (mul_self_nonneg _)

/-- **C06.** Once positive definite, the Gramian stays positive definite. -/
theorem C06_definite_stays {forget : ℝ} (hf : forget < 1) (init : List (Obs p))
    (batches : List (List (Obs p))) (hne : ∀ b ∈ batches, b ≠ [])
    (hi : NonnegWeights init) (hb : ∀ b ∈ batches, NonnegWeights b)
    (hpd : ∀ v : Row p, v ≠ 0 →
      0 < ∑ i, ∑ j, v i * initGram (xs init) (ws init) forget i j * v j) :
    ∀ v : Row p, v ≠ 0 → 0 < ∑ i, ∑ j, v i * onlineGram forget init batches i j * v j := by
  intro v hv
  have hbw : NonnegWeights batches.flatten := by
    intro o ho
    obtain ⟨b, hb1, hb2⟩ := List.mem_flatten.1 ho
    exact hb b hb1 o hb2
  rw [C03_online_eq_batch hf.le init batches hne hi hb]
  have e : ∀ A : Matrix (Fin p) (Fin p) ℝ, ∑ i, ∑ j, v i * A i j * v j = v ⬝ᵥ (A *ᵥ v) := by
    intro A
    simp [dotProduct, Matrix.mulVec, Finset.mul_sum, mul_assoc]
  have h0 := hpd v hv
  rw [e, gram_quad hf.le _ hi] at h0
  rw [e, gram_quad hf.le _ (hi.append hbw), discSum_append]
  have h1 : 0 < (1 - forget) ^ batches.flatten.length := pow_pos (by linarith) _
  have h2 : 0 ≤ discSum forget batches.flatten (fun o => o.w * (v ⬝ᵥ o.x) * (o.x ⬝ᵥ v)) := by
    refine discSum_nonneg hf.le _ fun o ho => ?_
    rw [dotProduct_comm v o.x, mul_assoc]
    exact mul_nonneg (hbw o ho) (mul_self_nonneg _)
  positivity

/-- Non-vacuity of C06 (definite initial Gramian: one regressor that is 1). -/
example : ∀ v : Row 1, v ≠ 0 → 0 < ∑ i, ∑ j, v i *
    initGram (xs [(⟨![1], 0, 1⟩ : Obs 1)]) (ws [(⟨![1], 0, 1⟩ : Obs 1)]) (1/2) i j * v j := by
  intro v hv
  have hw : NonnegWeights [(⟨![1], 0, 1⟩ : Obs 1)] := by
    intro o ho; simp at ho; subst ho; norm_num
  have : v 0 ≠ 0 := fun h => hv (by funext i; fin_cases i; exact h)
  simp only [Fin.sum_univ_one, C02_gram (by norm_num : (1/2:ℝ) ≤ 1) _ hw]
  simp
  positivity

/-! ## C07 Sample weights act as frequencies in the sufficient statistics -/

/-- **C07.** Without forgetting, weight `k` acts like `k` unit-weight copies (in particular weight 0
like an absent observation). -/
theorem C07_integer_weight (h₁ h₂ : List (Obs p)) (o : Obs p) (k : ℕ)
    (hw₁ : NonnegWeights h₁) (hw₂ : NonnegWeights h₂) :
    (let once := h₁ ++ [{ o with w := (k : ℝ) }] ++ h₂
     let copies := h₁ ++ List.replicate k { o with w := 1 } ++ h₂
     initGram (xs once) (ws once) 0 = initGram (xs copies) (ws copies) 0 ∧
     initYGram (xs once) (ys once) (ws once) 0 = initYGram (xs copies) (ys copies) (ws copies) 0) := by
  intro once copies
  have ho : NonnegWeights once := by
    refine (hw₁.append ?_).append hw₂
    intro q hq; simp at hq; subst hq; simp
  have hc : NonnegWeights copies := by
    refine (hw₁.append ?_).append hw₂
    intro q hq; rw [List.mem_replicate] at hq; rw [hq.2]; simp
  constructor
  · ext a b
    rw [initGram_apply zero_le_one _ ho, initGram_apply zero_le_one _ hc]
    simp only [once, copies, discSum_forget_zero, List.map_append, List.sum_append, List.map_replicate,
      List.sum_replicate, List.map_cons, List.map_nil, List.sum_cons, List.sum_nil, nsmul_eq_mul]
    ring
  · funext a
    rw [initYGram_apply zero_le_one _ ho, initYGram_apply zero_le_one _ hc]
    simp only [once, copies, discSum_forget_zero, List.map_append, List.sum_append, List.map_replicate,
      List.sum_replicate, List.map_cons, List.map_nil, List.sum_cons, List.sum_nil, nsmul_eq_mul]
    ring

/-- Multiply all sample weights of a history by `c`. -/
def scaleW (c : ℝ) (h : List (Obs p)) : List (Obs p) := h.map fun o => { o with w := c * o.w }

theorem scaleW_nonneg {c : ℝ} (hc : 0 ≤ c) {h : List (Obs p)} (hw : NonnegWeights h) :
    NonnegWeights (scaleW c h) := by
  intro o ho
  simp only [scaleW, List.mem_map] at ho
  obtain ⟨q, hq, rfl⟩ := ho
  exact mul_nonneg hc (hw q hq)

/-- **C07.** Multiplying all weights of a history by `c` multiplies the online Gramian and y-Gramian
by `c`, for every forget factor and every sequence of batches. -/
theorem C07_homogeneous {forget c : ℝ} (hf : forget ≤ 1) (hc : 0 ≤ c) (init : List (Obs p))
    (batches : List (List (Obs p))) (hne : ∀ b ∈ batches, b ≠ [])
    (hi : NonnegWeights init) (hb : ∀ b ∈ batches, NonnegWeights b) :
    onlineGram forget (scaleW c init) (batches.map (scaleW c)) = c • onlineGram forget init batches ∧
    onlineYGram forget (scaleW c init) (batches.map (scaleW c)) = c • onlineYGram forget init batches := by
  have hw : NonnegWeights (init ++ batches.flatten) := by
    refine hi.append fun o ho => ?_
    obtain ⟨b, hb1, hb2⟩ := List.mem_flatten.1 ho
    exact hb b hb1 o hb2
  have hne' : ∀ b ∈ batches.map (scaleW c), b ≠ [] := by
    intro b hb; obtain ⟨q, hq, rfl⟩ := List.mem_map.1 hb
    simpa [scaleW] using hne q hq
  have hb' : ∀ b ∈ batches.map (scaleW c), NonnegWeights b := by
    intro b hbb; obtain ⟨q, hq, rfl⟩ := List.mem_map.1 hbb
    exact scaleW_nonneg hc (hb q hq)
  have hfl : scaleW c init ++ (batches.map (scaleW c)).flatten = scaleW c (init ++ batches.flatten) := by
    simp only [scaleW, List.map_append, List.map_flatten]
    rfl
  rw [C03_online_eq_batch hf _ _ hne' (scaleW_nonneg hc hi) hb',
    C03_online_eq_batch hf _ _ hne hi hb,
    C03_online_eq_batch_y hf _ _ hne' (scaleW_nonneg hc hi) hb',
    C03_online_eq_batch_y hf _ _ hne hi hb, hfl]
  constructor
  · ext a b
    rw [initGram_apply hf _ (scaleW_nonneg hc hw), Matrix.smul_apply, initGram_apply hf _ hw,
      smul_eq_mul, ← discSum_mul_left, scaleW, discSum_map]
    exact discSum_congr _ _ fun o _ => by ring
  · funext a
    rw [initYGram_apply hf _ (scaleW_nonneg hc hw), Pi.smul_apply, initYGram_apply hf _ hw,
      smul_eq_mul, ← discSum_mul_left, scaleW, discSum_map]
    exact discSum_congr _ _ fun o _ => by ring

/-- Non-vacuity of C07. -/
example : initGram (xs [(⟨![2], 1, ((3 : ℕ) : ℝ)⟩ : Obs 1)]) (ws [(⟨![2], 1, ((3 : ℕ) : ℝ)⟩ : Obs 1)]) 0 =
    initGram (xs (List.replicate 3 (⟨![2], 1, 1⟩ : Obs 1))) (ws (List.replicate 3 (⟨![2], 1, 1⟩ : Obs 1))) 0 := by
  simpa using (C07_integer_weight [] [] (⟨![2], 1, 0⟩ : Obs 1) 3 (by simp [NonnegWeights])
    (by simp [NonnegWeights])).1

end Ondil
