import Verif.Model.Gram
import Verif.Lemmas.Discount
import Mathlib.Tactic.FieldSimp
import Mathlib.LinearAlgebra.Matrix.PosDef
import Mathlib.LinearAlgebra.Matrix.ToLinearEquiv

/-! # Helper lemmas for `gram.py` -/

open scoped BigOperators Matrix

namespace Ondil

variable {p : ℕ}

/-! ### forget vector -/

theorem forgetLoop_eq (gamma : ℝ) (k : ℕ) (last : ℝ) (out : List ℝ) :
    forgetLoop gamma k last out =
      (List.ofFn fun i : Fin k => last * gamma ^ (k - (i : ℕ))) ++ out := by
  induction k generalizing last out with
  | zero => simp [forgetLoop]
  | succ k ih =>
    rw [forgetLoop, ih, List.ofFn_succ']
    simp only [List.concat_eq_append, List.append_assoc, List.cons_append, List.nil_append]
    congr 1
    · congr 1
      funext i
      have : k + 1 - (Fin.castSucc i : ℕ) = (k - (i : ℕ)) + 1 := by
        have := i.2; simp only [Fin.val_castSucc]; omega
      rw [this, pow_succ]; ring
    · simp

theorem initForgetVector_eq (forget : ℝ) (size : ℕ) :
    initForgetVector forget size =
      List.ofFn fun i : Fin size => (1 - forget) ^ (size - 1 - (i : ℕ)) := by
  unfold initForgetVector
  simp only
  split_ifs with h
  · rw [h]; simp [List.ofFn_const]
  · cases size with
    | zero => simp
    | succ n =>
      simp only
      rw [forgetLoop_eq, List.ofFn_succ']
      simp

theorem initForgetVector_succ (forget : ℝ) (n : ℕ) :
    initForgetVector forget (n + 1) = (1 - forget) ^ n :: initForgetVector forget n := by
  rw [initForgetVector_eq, initForgetVector_eq, List.ofFn_succ]
  congr 1
  congr 1
  funext i
  congr 1
  rw [Fin.val_succ]; omega

theorem initForgetVector_zero (forget : ℝ) : initForgetVector forget 0 = [] := by
  rw [initForgetVector_eq]; simp

theorem length_initForgetVector (forget : ℝ) (n : ℕ) :
    (initForgetVector forget n).length = n := by
  rw [initForgetVector_eq]; simp

/-! ### the batch cross products -/

theorem sqrt_prod {u a b : ℝ} (hu : 0 ≤ u) : a * √u * (b * √u) = u * (a * b) := by
  have := Real.mul_self_sqrt hu
  calc a * √u * (b * √u) = (√u * √u) * (a * b) := by ring
    _ = _ := by rw [this]

theorem tDot_eq_discSum {forget : ℝ} (hf : forget ≤ 1) (h : List (Obs p)) (hw : NonnegWeights h)
    (a b : Fin p) :
    (let s := sqrtVec ((WeightArg.array (ws h)).mul (initForgetVector forget h.length))
     tDot (scaleRows (xs h) s) (scaleRows (xs h) s)) a b =
      discSum forget h (fun o => o.w * o.x a * o.x b) := by
  induction h with
  | nil => simp [tDot, xs, scaleRows]
  | cons o h ih =>
    have hw' : NonnegWeights h := fun o ho => hw o (by simp [ho])
    have ho : 0 ≤ o.w := hw o (by simp)
    have hpow : 0 ≤ (1 - forget) ^ h.length := pow_nonneg (by linarith) _
    have ih := ih hw'
    simp only [tDot, xs, ws, scaleRows, sqrtVec, WeightArg.mul] at ih ⊢
    rw [List.length_cons, initForgetVector_succ, discSum_cons]
    simp only [List.map_cons, List.zipWith_cons_cons, List.sum_cons]
    rw [ih, sqrt_prod (by positivity)]
    ring

theorem tDotVec_eq_discSum {forget : ℝ} (hf : forget ≤ 1) (h : List (Obs p)) (hw : NonnegWeights h)
    (a : Fin p) :
    (let s := sqrtVec ((WeightArg.array (ws h)).mul (initForgetVector forget h.length))
     tDotVec (scaleRows (xs h) s) (List.zipWith (fun a b => a * b) (ys h) s)) a =
      discSum forget h (fun o => o.w * o.y * o.x a) := by
  induction h with
  | nil => simp [tDotVec, xs, scaleRows]
  | cons o h ih =>
    have hw' : NonnegWeights h := fun o ho => hw o (by simp [ho])
    have ho : 0 ≤ o.w := hw o (by simp)
    have hpow : 0 ≤ (1 - forget) ^ h.length := pow_nonneg (by linarith) _
    have ih := ih hw'
    simp only [tDotVec, xs, ws, ys, scaleRows, sqrtVec, WeightArg.mul] at ih ⊢
    rw [List.length_cons, initForgetVector_succ, discSum_cons]
    simp only [List.map_cons, List.zipWith_cons_cons, List.sum_cons]
    rw [ih, sqrt_prod (by positivity)]
    ring

theorem initGram_apply {forget : ℝ} (hf : forget ≤ 1) (h : List (Obs p)) (hw : NonnegWeights h)
    (a b : Fin p) :
    initGram (xs h) (ws h) forget a b = discSum forget h (fun o => o.w * o.x a * o.x b) := by
  have := tDot_eq_discSum hf h hw a b
  simpa [initGram, xs] using this

theorem initYGram_apply {forget : ℝ} (hf : forget ≤ 1) (h : List (Obs p)) (hw : NonnegWeights h)
    (a : Fin p) :
    initYGram (xs h) (ys h) (ws h) forget a = discSum forget h (fun o => o.w * o.y * o.x a) := by
  have := tDotVec_eq_discSum hf h hw a
  simpa [initYGram, xs] using this

theorem updateGram_apply {forget : ℝ} (hf : forget ≤ 1) (G : Matrix (Fin p) (Fin p) ℝ)
    (b : List (Obs p)) (hw : NonnegWeights b) (i j : Fin p) :
    updateGram G (xs b) forget (.array (ws b)) i j =
      (1 - forget) ^ b.length * G i j + discSum forget b (fun o => o.w * o.x i * o.x j) := by
  match b, hw with
  | [], _ => simp [updateGram, xs, tDot, scaleRows]
  | [o], _ =>
    simp only [updateGram, xs, ws, WeightArg.one, List.map_cons, List.map_nil, List.headD_cons,
      discSum_singleton, Matrix.add_apply, Matrix.smul_apply, Matrix.vecMulVec_apply, smul_eq_mul,
      List.length_cons, List.length_nil]
    ring
  | o :: o' :: b, hw =>
    have := tDot_eq_discSum hf (o :: o' :: b) hw i j
    rw [← this]
    simp only [updateGram, xs, List.map_cons, Matrix.add_apply, Matrix.smul_apply, smul_eq_mul,
      List.length_cons, List.length_map]

theorem updateYGram_apply {forget : ℝ} (hf : forget ≤ 1) (G : Row p)
    (b : List (Obs p)) (hw : NonnegWeights b) (i : Fin p) :
    updateYGram G (xs b) (ys b) forget (.array (ws b)) i =
      (1 - forget) ^ b.length * G i + discSum forget b (fun o => o.w * o.y * o.x i) := by
  match b, hw with
  | [], _ => simp [updateYGram, xs, tDotVec, scaleRows]
  | [o], _ =>
    simp only [updateYGram, xs, ws, ys, WeightArg.one, List.map_cons, List.map_nil, List.headD_cons,
      discSum_singleton, Pi.add_apply, Pi.smul_apply, smul_eq_mul,
      List.length_cons, List.length_nil]
    ring
  | o :: o' :: b, hw =>
    have := tDotVec_eq_discSum hf (o :: o' :: b) hw i
    rw [← this]
    simp only [updateYGram, xs, List.map_cons, Pi.add_apply, Pi.smul_apply, smul_eq_mul,
      List.length_cons, List.length_map]

/-! ### online equals batch -/

theorem NonnegWeights.append {h b : List (Obs p)} (h1 : NonnegWeights h) (h2 : NonnegWeights b) :
    NonnegWeights (h ++ b) := by
  intro o ho
  rcases List.mem_append.1 ho with ho | ho
  · exact h1 o ho
  · exact h2 o ho

theorem updateGram_initGram {forget : ℝ} (hf : forget ≤ 1) (h b : List (Obs p))
    (hh : NonnegWeights h) (hb : NonnegWeights b) :
    updateGram (initGram (xs h) (ws h) forget) (xs b) forget (.array (ws b)) =
      initGram (xs (h ++ b)) (ws (h ++ b)) forget := by
  ext i j
  rw [updateGram_apply hf _ b hb, initGram_apply hf h hh, initGram_apply hf _ (hh.append hb),
    discSum_append]

theorem updateYGram_initYGram {forget : ℝ} (hf : forget ≤ 1) (h b : List (Obs p))
    (hh : NonnegWeights h) (hb : NonnegWeights b) :
    updateYGram (initYGram (xs h) (ys h) (ws h) forget) (xs b) (ys b) forget (.array (ws b)) =
      initYGram (xs (h ++ b)) (ys (h ++ b)) (ws (h ++ b)) forget := by
  funext i
  rw [updateYGram_apply hf _ b hb, initYGram_apply hf h hh, initYGram_apply hf _ (hh.append hb),
    discSum_append]

/-! ### the quadratic form -/

theorem gram_quad {forget : ℝ} (hf : forget ≤ 1) (h : List (Obs p)) (hw : NonnegWeights h)
    (u v : Row p) :
    u ⬝ᵥ (initGram (xs h) (ws h) forget *ᵥ v) =
      discSum forget h (fun o => o.w * (u ⬝ᵥ o.x) * (o.x ⬝ᵥ v)) := by
  simp only [dotProduct, Matrix.mulVec]
  simp_rw [initGram_apply hf h hw, Finset.mul_sum, ← discSum_mul_right, ← discSum_mul_left]
  simp_rw [Finset.sum_mul]
  rw [discSum_sum]
  simp_rw [discSum_sum]
  rw [Finset.sum_comm]
  refine Finset.sum_congr rfl fun j _ => Finset.sum_congr rfl fun i _ => ?_
  refine discSum_congr _ _ fun o _ => ?_
  ring

theorem gram_mulVec {forget : ℝ} (hf : forget ≤ 1) (h : List (Obs p)) (hw : NonnegWeights h)
    (v : Row p) (a : Fin p) :
    (initGram (xs h) (ws h) forget *ᵥ v) a =
      discSum forget h (fun o => o.w * o.x a * (o.x ⬝ᵥ v)) := by
  simp only [dotProduct, Matrix.mulVec]
  simp_rw [initGram_apply hf h hw, ← discSum_mul_right, Finset.mul_sum, discSum_sum]
  refine Finset.sum_congr rfl fun i _ => ?_
  refine discSum_congr _ _ fun o _ => ?_
  ring

theorem gram_transpose {forget : ℝ} (hf : forget ≤ 1) (h : List (Obs p)) (hw : NonnegWeights h) :
    (initGram (xs h) (ws h) forget)ᵀ = initGram (xs h) (ws h) forget := by
  ext i j
  rw [Matrix.transpose_apply, initGram_apply hf h hw, initGram_apply hf h hw]
  exact discSum_congr _ _ fun o _ => by ring

theorem rank_eq_iff_isUnit_det (A : Matrix (Fin p) (Fin p) ℝ) : A.rank = p ↔ IsUnit A.det := by
  rw [← Matrix.isUnit_iff_isUnit_det]
  constructor
  · intro h
    rw [← Matrix.linearIndependent_rows_iff_isUnit, linearIndependent_iff_card_eq_finrank_span]
    rw [Fintype.card_fin, Set.finrank, ← Matrix.rank_eq_finrank_span_row, h]
  · intro h
    have := Matrix.rank_of_isUnit A h
    simpa using this

theorem not_isUnit_det_iff (A : Matrix (Fin p) (Fin p) ℝ) :
    ¬ IsUnit A.det ↔ ∃ v ≠ 0, A *ᵥ v = 0 := by
  rw [isUnit_iff_ne_zero, not_not, ← Matrix.exists_mulVec_eq_zero_iff]

/-! ### Sherman–Morrison -/

theorem shermanMorrison_step (A : Matrix (Fin p) (Fin p) ℝ) (hA : IsUnit A.det) (x : Row p)
    {forget w : ℝ} (hg : 1 - forget ≠ 0)
    (hd : (1 - forget) + w * (x ⬝ᵥ (A⁻¹ *ᵥ x)) ≠ 0) :
    ((1 - forget) • A + w • Matrix.vecMulVec x x) * updateInvertedGramStep A⁻¹ x forget w = 1 := by
  have hAG : A * A⁻¹ = 1 := Matrix.mul_nonsing_inv A hA
  set G := A⁻¹ with hG
  have hden : dotProduct (Matrix.vecMul (w • x) G) x = w * (x ⬝ᵥ (G *ᵥ x)) := by
    rw [Matrix.smul_vecMul, smul_dotProduct, smul_eq_mul, Matrix.dotProduct_mulVec]
  have hP : G * Matrix.vecMulVec x x * G = Matrix.vecMulVec (G *ᵥ x) (x ᵥ* G) := by
    rw [Matrix.mul_vecMulVec, Matrix.vecMulVec_mul]
  unfold updateInvertedGramStep
  simp only
  rw [hden, Matrix.smul_mul, Matrix.smul_mul, hP]
  set s := x ⬝ᵥ (G *ᵥ x) with hs
  set γ := 1 - forget with hγ
  have hAu : A * Matrix.vecMulVec (G *ᵥ x) (x ᵥ* G) = Matrix.vecMulVec x (x ᵥ* G) := by
    rw [Matrix.mul_vecMulVec, Matrix.mulVec_mulVec, hAG, Matrix.one_mulVec]
  have hxG : Matrix.vecMulVec x x * G = Matrix.vecMulVec x (x ᵥ* G) := by
    rw [Matrix.vecMulVec_mul]
  have hxu : Matrix.vecMulVec x x * Matrix.vecMulVec (G *ᵥ x) (x ᵥ* G)
      = s • Matrix.vecMulVec x (x ᵥ* G) := by
    rw [Matrix.vecMulVec_mul_vecMulVec]
    ext i j
    simp [Matrix.vecMulVec_apply, hs]
    ring
  have key : (γ • A + w • Matrix.vecMulVec x x) *
      (1 / γ) • (G - (1 / (γ + w * s)) • w • Matrix.vecMulVec (G *ᵥ x) (x ᵥ* G)) =
      (1:Matrix (Fin p) (Fin p) ℝ) + ((1/γ) * (w - γ * (1 / (γ + w * s)) * w
        - w * (1 / (γ + w * s)) * w * s)) • Matrix.vecMulVec x (x ᵥ* G) := by
    simp only [Matrix.mul_smul, Matrix.add_mul, Matrix.mul_sub, Matrix.smul_mul, hAG, hAu, hxG, hxu]
    ext i j
    simp only [Matrix.smul_apply, Matrix.add_apply, Matrix.sub_apply, smul_eq_mul]
    field_simp
    ring
  rw [key]
  have : (1/γ) * (w - γ * (1 / (γ + w * s)) * w - w * (1 / (γ + w * s)) * w * s) = 0 := by
    field_simp
    ring
  rw [this, zero_smul, add_zero]

theorem gram_inv_quad_nonneg {forget : ℝ} (hf : forget ≤ 1) (h : List (Obs p))
    (hw : NonnegWeights h) (hu : IsUnit (initGram (xs h) (ws h) forget).det) (x : Row p) :
    0 ≤ x ⬝ᵥ ((initGram (xs h) (ws h) forget)⁻¹ *ᵥ x) := by
  set A := initGram (xs h) (ws h) forget with hA
  have hx : A *ᵥ (A⁻¹ *ᵥ x) = x := by
    rw [Matrix.mulVec_mulVec, Matrix.mul_nonsing_inv A hu, Matrix.one_mulVec]
  set u := A⁻¹ *ᵥ x with hudef
  have : x ⬝ᵥ u = u ⬝ᵥ (A *ᵥ u) := by rw [hx, dotProduct_comm]
  rw [this, hA, gram_quad hf h hw]
  refine discSum_nonneg hf h fun o ho => ?_
  have h1 := hw o ho
  rw [dotProduct_comm u o.x, mul_assoc]
  exact mul_nonneg h1 (mul_self_nonneg _)

theorem initGram_snoc {forget : ℝ} (hf : forget ≤ 1) (h : List (Obs p)) (o : Obs p)
    (hw : NonnegWeights h) (ho : 0 ≤ o.w) :
    initGram (xs (h ++ [o])) (ws (h ++ [o])) forget =
      (1 - forget) • initGram (xs h) (ws h) forget + o.w • Matrix.vecMulVec o.x o.x := by
  have hw' : NonnegWeights (h ++ [o]) := hw.append (by intro q hq; simp at hq; subst hq; exact ho)
  ext i j
  rw [initGram_apply hf _ hw', discSum_snoc]
  simp [initGram_apply hf h hw, Matrix.vecMulVec_apply, mul_assoc]

/-- One step of the recursion keeps "maintained matrix = inverse of the Gramian". -/
theorem inverted_step {forget : ℝ} (hf : forget < 1) (h : List (Obs p)) (o : Obs p)
    (hw : NonnegWeights h) (ho : 0 ≤ o.w) (hu : IsUnit (initGram (xs h) (ws h) forget).det) :
    IsUnit (initGram (xs (h ++ [o])) (ws (h ++ [o])) forget).det ∧
    updateInvertedGramStep (initGram (xs h) (ws h) forget)⁻¹ o.x forget o.w =
      (initGram (xs (h ++ [o])) (ws (h ++ [o])) forget)⁻¹ := by
  have hs := gram_inv_quad_nonneg hf.le h hw hu o.x
  have hg : (1 - forget) ≠ 0 := by linarith
  have hd : (1 - forget) + o.w * (o.x ⬝ᵥ ((initGram (xs h) (ws h) forget)⁻¹ *ᵥ o.x)) ≠ 0 := by
    have : 0 < 1 - forget := by linarith
    positivity
  have key := shermanMorrison_step _ hu o.x hg hd
  rw [initGram_snoc hf.le h o hw ho]
  refine ⟨?_, ?_⟩
  · have := congrArg Matrix.det key
    rw [Matrix.det_mul, Matrix.det_one] at this
    exact IsUnit.of_mul_eq_one _ this
  · exact (Matrix.inv_eq_right_inv key).symm

theorem inverted_loop {forget : ℝ} (hf : forget < 1) (b : List (Obs p)) (h : List (Obs p))
    (hw : NonnegWeights h) (hb : NonnegWeights b)
    (hu : IsUnit (initGram (xs h) (ws h) forget).det) :
    IsUnit (initGram (xs (h ++ b)) (ws (h ++ b)) forget).det ∧
    updateInvertedGramLoop forget (initGram (xs h) (ws h) forget)⁻¹ (xs b) (ws b) =
      (initGram (xs (h ++ b)) (ws (h ++ b)) forget)⁻¹ := by
  induction b generalizing h with
  | nil => simpa [updateInvertedGramLoop, xs] using hu
  | cons o b ih =>
    have ho : 0 ≤ o.w := hb o (by simp)
    have hb' : NonnegWeights b := fun q hq => hb q (by simp [hq])
    obtain ⟨h1, h2⟩ := inverted_step hf h o hw ho hu
    have hw' : NonnegWeights (h ++ [o]) := hw.append (by intro q hq; simp at hq; subst hq; exact ho)
    have := ih (h ++ [o]) hw' hb' h1
    rw [List.append_assoc, List.singleton_append] at this
    refine ⟨this.1, ?_⟩
    rw [← this.2]
    simp only [xs, ws, List.map_cons, updateInvertedGramLoop] at h2 ⊢
    rw [← h2]

theorem inverted_batch {forget : ℝ} (hf : forget < 1) (b : List (Obs p)) (h : List (Obs p))
    (hne : b ≠ []) (hw : NonnegWeights h) (hb : NonnegWeights b)
    (hu : IsUnit (initGram (xs h) (ws h) forget).det) :
    IsUnit (initGram (xs (h ++ b)) (ws (h ++ b)) forget).det ∧
    updateInvertedGram (initGram (xs h) (ws h) forget)⁻¹ (xs b) forget (.array (ws b)) =
      .ok (initGram (xs (h ++ b)) (ws (h ++ b)) forget)⁻¹ := by
  have := inverted_loop hf b h hw hb hu
  refine ⟨this.1, ?_⟩
  rw [← this.2]
  match b, hne with
  | [o], _ => simp [updateInvertedGram, updateInvertedGramLoop, xs, ws, WeightArg.one]
  | o :: o' :: b, _ => simp [updateInvertedGram, xs, ws]

end Ondil
