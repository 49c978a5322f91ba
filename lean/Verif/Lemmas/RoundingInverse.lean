import Verif.Lemmas.Rounding
import Verif.Lemmas.Perturbation
import Verif.Props.Gram

/-! # Helper lemmas: the inverse Gramian with rounding -/

open scoped BigOperators Matrix

namespace Ondil

variable {p : ℕ} {A : FloatArith}

theorem streamHistory_succ (init : List (Obs p)) (o : ℕ → Obs p) (k : ℕ) :
    streamHistory init o (k + 1) = streamHistory init o k ++ [o k] := by
  simp [streamHistory, List.range_succ]

theorem exactGram_form (forget : ℝ) (h : List (Obs p)) (v : Row p) :
    ∑ i, ∑ j, v i * exactGram forget h i j * v j = discSum forget h fun o => o.w * linPred o.x v ^ 2 := by
  have : ∀ i j, v i * exactGram forget h i j * v j = discSum forget h fun o => v i * (o.w * o.x i * o.x j) * v j := by
    intro i j
    rw [exactGram, ← discSum_mul_left, ← discSum_mul_right]
  simp only [this]
  simp only [← discSum_sum]
  refine discSum_congr _ _ fun o _ => ?_
  rw [linPred, sq, Finset.sum_mul_sum, Finset.mul_sum]
  refine Finset.sum_congr rfl fun i _ => ?_
  rw [Finset.mul_sum]
  exact Finset.sum_congr rfl fun j _ => by ring

theorem inverse_stream {forget : ℝ} (hf0 : 0 < forget) (hf : forget < 1) (init : List (Obs p)) (o : ℕ → Obs p)
    (Q : ℕ → Matrix (Fin p) (Fin p) ℝ) {eps e0 M mu : ℝ} (heps : 0 ≤ eps) (he0 : 0 ≤ e0) (hM0 : 0 < M)
    (hQ0 : IsUnit (Q 0).det) (hQe : ∀ a c, |(Q 0)⁻¹ a c - exactGram forget init a c| ≤ e0)
    (hQ : ∀ k, IsUnit (Q k).det → (∀ a c, |(Q k)⁻¹ a c - exactGram forget (streamHistory init o k) a c| ≤
        e0 + 8 * (p : ℝ) ^ 2 * M ^ 2 * eps / forget) →
      ∀ a c, |Q (k + 1) a c - updateInvertedGramStep (Q k) (o k).x forget (o k).w a c| ≤ eps)
    (hM : ∀ k a c, |exactGram forget (streamHistory init o k) a c| ≤ M)
    (hmu : ∀ k, Excites forget (streamHistory init o k) mu)
    (hs1 : e0 + 8 * (p : ℝ) ^ 2 * M ^ 2 * eps / forget ≤ M)
    (hs2 : p * (e0 + 8 * (p : ℝ) ^ 2 * M ^ 2 * eps / forget) < mu) (k : ℕ) :
    IsUnit (Q k).det ∧ ∀ a c, |(Q k)⁻¹ a c - exactGram forget (streamHistory init o k) a c| ≤
      (1 - forget) ^ k * e0 + 8 * (p : ℝ) ^ 2 * M ^ 2 * eps / forget := by
  set C := 8 * (p : ℝ) ^ 2 * M ^ 2 * eps with hC
  have hC0 : 0 ≤ C := by positivity
  have hg0 : 0 < 1 - forget := by linarith
  have hsmall : (p : ℝ) ^ 2 * (2 * M) * eps ≤ 1 / 2 := by
    have h1 : C / forget ≤ M := by linarith
    rw [div_le_iff₀ hf0] at h1
    have h2 : 8 * (p : ℝ) ^ 2 * M * eps * M ≤ 1 * M := by
      calc 8 * (p : ℝ) ^ 2 * M * eps * M = C := by rw [hC]; ring
        _ ≤ M * forget := h1
        _ ≤ 1 * M := by nlinarith
    have h3 := le_of_mul_le_mul_right h2 hM0
    have h4 : 0 ≤ (p : ℝ) ^ 2 * M * eps := by positivity
    linarith
  -- the sharper statement by induction
  have key : ∀ k, IsUnit (Q k).det ∧ ∀ a c, |(Q k)⁻¹ a c - exactGram forget (streamHistory init o k) a c| ≤
      (1 - forget) ^ k * e0 + C * (1 - (1 - forget) ^ k) / forget := by
    intro k
    induction k with
    | zero => exact ⟨hQ0, fun a c => by simpa [streamHistory] using hQe a c⟩
    | succ k ih =>
      obtain ⟨hu, he⟩ := ih
      set G := exactGram forget (streamHistory init o k) with hG
      set S := (Q k)⁻¹ with hS
      set ek := (1 - forget) ^ k * e0 + C * (1 - (1 - forget) ^ k) / forget with hek
      have hgk : 0 ≤ (1 - forget) ^ k := pow_nonneg hg0.le _
      have hgk1 : (1 - forget) ^ k ≤ 1 := pow_le_one₀ hg0.le (by linarith)
      have hek0 : 0 ≤ ek := by
        have : 0 ≤ C * (1 - (1 - forget) ^ k) / forget := div_nonneg (mul_nonneg hC0 (by linarith)) hf0.le
        positivity
      have hekb : ek ≤ e0 + C / forget := by
        have h1 : (1 - forget) ^ k * e0 ≤ 1 * e0 := mul_le_mul_of_nonneg_right hgk1 he0
        have h2 : C * (1 - (1 - forget) ^ k) / forget ≤ C / forget :=
          div_le_div_of_nonneg_right (by nlinarith) hf0.le
        linarith
      set x := (o k).x with hx
      set w := (o k).w with hw
      have hG' : exactGram forget (streamHistory init o (k + 1)) = (1 - forget) • G + w • Matrix.vecMulVec x x := by
        ext a c
        rw [exactGram, streamHistory_succ, discSum_snoc]
        simp only [Matrix.add_apply, Matrix.smul_apply, Matrix.vecMulVec_apply, smul_eq_mul, hG, exactGram, hx, hw]
        ring
      -- the exact step
      set N := (1 - forget) • S + w • Matrix.vecMulVec x x with hN
      have hSu : IsUnit S.det := by rw [hS]; exact Matrix.isUnit_nonsing_inv_det _ hu
      have hSS : S⁻¹ = Q k := by rw [hS]; exact Matrix.nonsing_inv_nonsing_inv _ hu
      have hdiff : ∀ a c, N a c - exactGram forget (streamHistory init o (k + 1)) a c = (1 - forget) * (S a c - G a c) := by
        intro a c
        rw [hG', hN]
        simp only [Matrix.add_apply, Matrix.smul_apply, smul_eq_mul]
        ring
      have hdiffb : ∀ a c, |N a c - exactGram forget (streamHistory init o (k + 1)) a c| ≤ (1 - forget) * ek := by
        intro a c
        rw [hdiff, abs_mul, abs_of_pos hg0]
        exact mul_le_mul_of_nonneg_left (he a c) hg0.le
      have hpe : (p : ℝ) * ((1 - forget) * ek) < mu := by
        have h1 : (1 - forget) * ek ≤ e0 + C / forget := by nlinarith
        exact (mul_le_mul_of_nonneg_left h1 (Nat.cast_nonneg p)).trans_lt hs2
      have hNu : IsUnit N.det := by
        by_contra hc
        obtain ⟨v, hv0, hv⟩ := (not_isUnit_det_iff _).1 hc
        have h1 := hmu (k + 1) v
        rw [← exactGram_form] at h1
        have h2 : ∑ i, ∑ j, v i * N i j * v j = 0 := by
          refine Finset.sum_eq_zero fun i _ => ?_
          have h3 : ∑ j, N i j * v j = 0 := congrFun hv i
          simp only [mul_assoc, ← Finset.mul_sum, h3, mul_zero]
        have h4 := abs_form_le hdiffb v v
        have h5 : ∑ i, ∑ j, v i * (N i j - exactGram forget (streamHistory init o (k + 1)) i j) * v j =
            -∑ i, ∑ j, v i * exactGram forget (streamHistory init o (k + 1)) i j * v j := by
          have : ∑ i, ∑ j, v i * (N i j - exactGram forget (streamHistory init o (k + 1)) i j) * v j =
              (∑ i, ∑ j, v i * N i j * v j) - ∑ i, ∑ j, v i * exactGram forget (streamHistory init o (k + 1)) i j * v j := by
            rw [← Finset.sum_sub_distrib]
            refine Finset.sum_congr rfl fun i _ => ?_
            rw [← Finset.sum_sub_distrib]
            exact Finset.sum_congr rfl fun j _ => by ring
          rw [this, h2, zero_sub]
        rw [h5, abs_neg] at h4
        have h6 : (∑ i, |v i|) * ∑ i, |v i| ≤ p * ∑ i, v i ^ 2 := by
          have h := Finset.sum_mul_sq_le_sq_mul_sq Finset.univ (fun _ : Fin p => (1 : ℝ)) fun j => |v j|
          simp only [one_mul, one_pow, Finset.sum_const, Finset.card_univ, Fintype.card_fin, nsmul_eq_mul, mul_one,
            sq_abs] at h
          rwa [sq] at h
        have h7 : 0 < ∑ i, v i ^ 2 := by
          obtain ⟨j, hj⟩ : ∃ j, v j ≠ 0 := Function.ne_iff.1 hv0
          exact Finset.sum_pos' (fun i _ => sq_nonneg _) ⟨j, Finset.mem_univ _, by positivity⟩
        have h8 := (le_abs_self _).trans h4
        have h9 := mul_le_mul_of_nonneg_left h6 (mul_nonneg hg0.le hek0)
        have h10 := mul_lt_mul_of_pos_right hpe h7
        nlinarith
      have hd : (1 - forget) + w * (x ⬝ᵥ (S⁻¹ *ᵥ x)) ≠ 0 := by
        intro h0
        -- then `S⁻¹ x` is in the kernel of `N`
        apply (not_isUnit_det_iff N).2 _ hNu
        have hSx : S *ᵥ (S⁻¹ *ᵥ x) = x := by rw [Matrix.mulVec_mulVec, Matrix.mul_nonsing_inv S hSu, Matrix.one_mulVec]
        refine ⟨S⁻¹ *ᵥ x, fun hz => ?_, ?_⟩
        · rw [hz, dotProduct_zero, mul_zero, add_zero] at h0
          exact hg0.ne' h0
        · rw [hN, Matrix.add_mulVec, Matrix.smul_mulVec, Matrix.smul_mulVec, hSx]
          funext j
          simp only [Pi.add_apply, Pi.smul_apply, smul_eq_mul, Pi.zero_apply]
          have h1 : (Matrix.vecMulVec x x *ᵥ (S⁻¹ *ᵥ x)) j = x j * (x ⬝ᵥ (S⁻¹ *ᵥ x)) := by
            simp only [Matrix.mulVec, dotProduct, Matrix.vecMulVec_apply, Finset.mul_sum, mul_assoc]
          rw [h1]
          linear_combination x j * h0
      have hstep := shermanMorrison_step S hSu x (forget := forget) (w := w) hg0.ne' hd
      rw [hSS, ← hN] at hstep
      set T := updateInvertedGramStep (Q k) x forget w with hT
      have hTu : IsUnit T.det := by
        have := congrArg Matrix.det hstep
        rw [Matrix.det_mul, Matrix.det_one, mul_comm] at this
        exact IsUnit.of_mul_eq_one _ this
      have hTi : T⁻¹ = N := by
        have : T * N = 1 := mul_eq_one_comm.1 hstep
        exact Matrix.inv_eq_right_inv this
      have hTM : ∀ a c, |T⁻¹ a c| ≤ 2 * M := by
        intro a c
        rw [hTi]
        have h1 := abs_add_le (N a c - exactGram forget (streamHistory init o (k + 1)) a c)
          (exactGram forget (streamHistory init o (k + 1)) a c)
        rw [sub_add_cancel] at h1
        have h2 := hdiffb a c
        have h3 := hM (k + 1) a c
        have h4 : (1 - forget) * ek ≤ M := by nlinarith
        linarith
      obtain ⟨r1, r2⟩ := inv_perturb (T := T) (E := Q (k + 1) - T) hTu (by linarith) heps hTM
        (fun a c => by rw [Matrix.sub_apply]; exact hQ k hu (fun a c => (he a c).trans hekb) a c) hsmall
      rw [add_sub_cancel] at r1 r2
      refine ⟨r1, fun a c => ?_⟩
      have h1 := abs_sub_le ((Q (k + 1))⁻¹ a c) (T⁻¹ a c) (exactGram forget (streamHistory init o (k + 1)) a c)
      have h2 := r2 a c
      have h3 : |T⁻¹ a c - exactGram forget (streamHistory init o (k + 1)) a c| ≤ (1 - forget) * ek := by
        rw [hTi]; exact hdiffb a c
      have e1 : 2 * (p : ℝ) ^ 2 * (2 * M) ^ 2 * eps = C := by rw [hC]; ring
      have e2 : (1 - forget) ^ (k + 1) * e0 + C * (1 - (1 - forget) ^ (k + 1)) / forget = C + (1 - forget) * ek := by
        rw [hek]
        field_simp
        ring
      rw [e1] at h2
      rw [e2]
      linarith
  obtain ⟨h1, h2⟩ := key k
  refine ⟨h1, fun a c => (h2 a c).trans ?_⟩
  have h3 : C * (1 - (1 - forget) ^ k) / forget ≤ C / forget := by
    refine div_le_div_of_nonneg_right ?_ hf0.le
    have := pow_nonneg hg0.le k
    nlinarith
  linarith

/-! ### one step with rounding -/

theorem Approx.sum {k : ℕ} {m a b : Fin p → ℝ} (h : ∀ j, Approx A k (m j) (a j) (b j)) :
    Approx A (k + p) (∑ j, m j) (∑ j, a j) (A.sum (List.ofFn b)) := by
  have hs : Approx A k (∑ j, m j) (∑ j, a j) (∑ j, b j) := by
    refine ⟨(Finset.abs_sum_le_sum_abs _ _).trans (Finset.sum_le_sum fun j _ => (h j).size), ?_⟩
    rw [← Finset.sum_sub_distrib, Finset.mul_sum]
    exact (Finset.abs_sum_le_sum_abs _ _).trans (Finset.sum_le_sum fun j _ => (h j).error)
  refine ⟨hs.size, ?_⟩
  have h1 := A.sum_error (List.ofFn b)
  rw [List.length_ofFn, List.sum_ofFn, List.map_ofFn, List.sum_ofFn] at h1
  have h2 : ∑ j, ((fun v => |v|) ∘ b) j ≤ (1 + A.u) ^ k * ∑ j, m j := by
    rw [Finset.mul_sum]
    exact Finset.sum_le_sum fun j _ => (h j).abs_le
  have h3 := mul_le_mul_of_nonneg_left h2 (show 0 ≤ (1 + A.u) ^ p - 1 by linarith [Approx.one_le A p])
  have h4 := abs_sub_le (A.sum (List.ofFn b)) (∑ j, b j) (∑ j, a j)
  have h5 := hs.error
  have e : ((1 + A.u) ^ (k + p) - 1) * ∑ j, m j =
      ((1 + A.u) ^ p - 1) * ((1 + A.u) ^ k * ∑ j, m j) + ((1 + A.u) ^ k - 1) * ∑ j, m j := by rw [pow_add]; ring
  linarith

theorem Approx.sum_const {k : ℕ} {m : ℝ} {a b : Fin p → ℝ} (h : ∀ j, Approx A k m (a j) (b j)) :
    Approx A (k + p) (p * m) (∑ j, a j) (A.sum (List.ofFn b)) := by
  have := Approx.sum (m := fun _ => m) h
  rwa [Finset.sum_const, Finset.card_univ, Fintype.card_fin, nsmul_eq_mul] at this

theorem Approx.inv {k : ℕ} {m d d' g : ℝ} (h : Approx A k m d d') (hg : 0 < g) (hd : g ≤ d)
    (hs : ((1 + A.u) ^ k - 1) * m ≤ g / 2) : Approx A k (2 * m / g ^ 2) (1 / d) (1 / d') := by
  have hm : g ≤ m := hd.trans ((le_abs_self _).trans h.size)
  have hd0 : 0 < d := hg.trans_le hd
  have he := h.error
  have hd' : g / 2 ≤ d' := by
    have := (_root_.abs_le.1 (he.trans hs)).1
    linarith
  have hd0' : 0 < d' := by linarith
  refine ⟨?_, ?_⟩
  · rw [abs_of_pos (by positivity), div_le_div_iff₀ hd0 (by positivity)]
    nlinarith
  · have e : 1 / d' - 1 / d = -(d' - d) / (d * d') := by field_simp; ring
    rw [e, abs_div, abs_neg, abs_of_pos (mul_pos hd0 hd0')]
    have h1 : g * (g / 2) ≤ d * d' := mul_le_mul hd hd' (by linarith) hd0.le
    have h0 : 0 ≤ ((1 + A.u) ^ k - 1) * m := (abs_nonneg _).trans he
    calc |d' - d| / (d * d') ≤ ((1 + A.u) ^ k - 1) * m / (g * (g / 2)) :=
          div_le_div₀ h0 he (by positivity) h1
      _ = _ := by field_simp

theorem Approx.sub {k : ℕ} {m n a b c d : ℝ} (h : Approx A k m a b) (h' : Approx A k n c d) :
    Approx A k (m + n) (a - c) (b - d) := by
  have h1 : Approx A k n (-c) (-d) := ⟨by rw [abs_neg]; exact h'.size, by
    rw [neg_sub_neg, abs_sub_comm]; exact h'.error⟩
  have := h.add h1
  rwa [← sub_eq_add_neg, ← sub_eq_add_neg] at this

theorem updateInvertedGramStepF_error {forget K X W w : ℝ} (hf : forget < 1) {Q : Matrix (Fin p) (Fin p) ℝ} {x : Row p}
    (hQ : ∀ a c, |Q a c| ≤ K) (hx : ∀ j, |x j| ≤ X) (hw0 : 0 ≤ w) (hw : w ≤ W)
    (hpos : 0 ≤ ∑ i, ∑ j, x i * Q i j * x j)
    (hs : ((1 + A.u) ^ (2 * p + 4) - 1) * denSize p forget K X W ≤ (1 - forget) / 2) (a c : Fin p) :
    |updateInvertedGramStepF A Q x forget w a c - updateInvertedGramStep Q x forget w a c| ≤
      invStepError A p forget K X W := by
  have hg : 0 < 1 - forget := by linarith
  have aw : Approx A 0 W w w := Approx.exact A (by rwa [abs_of_nonneg hw0])
  have aQ : ∀ a c, Approx A 0 K (Q a c) (Q a c) := fun a c => Approx.exact A (hQ a c)
  have ax : ∀ j, Approx A 0 X (x j) (x j) := fun j => Approx.exact A (hx j)
  have ag : Approx A 1 (1 - forget) (1 - forget) (A.rnd (1 - forget)) :=
    (Approx.exact A (abs_of_nonneg hg.le).le).rnd
  -- numerator
  have n1 : ∀ a c, Approx A 1 (W * K) (w * Q a c) (A.rnd (w * Q a c)) := fun a c => (aw.mul (aQ a c)).rnd
  have n2 : ∀ a c, Approx A 1 (X * X) (x a * x c) (A.rnd (x a * x c)) := fun a c => ((ax a).mul (ax c)).rnd
  have n3 : ∀ a c, Approx A (3 + p) (p * (W * K * (X * X))) (∑ j, w * Q a j * (x j * x c))
      (matMulF A (fun a b => A.rnd (w * Q a b)) (fun a b => A.rnd (x a * x b)) a c) := fun a c =>
    Approx.sum_const fun j => ((n1 a j).mul (n2 j c)).rnd
  have n4 := Approx.sum_const fun l => ((n3 a l).mul (aQ l c)).rnd
  -- denominator
  have d1 : ∀ c, Approx A (2 + p) (p * (W * X * K)) (∑ j, w * x j * Q j c)
      (vecMulF A (fun j => A.rnd (w * x j)) Q c) := fun c =>
    Approx.sum_const fun j => (((aw.mul (ax j)).rnd).mul (aQ j c)).rnd
  have d2 := Approx.sum_const fun l => ((d1 l).mul (ax l)).rnd
  have d3 := ((ag.mono (l := 2 + p + 0 + 1 + p) (by omega)).add d2).rnd
  have hd : 1 - forget ≤ 1 - forget + ∑ l, (∑ j, w * x j * Q j l) * x l := by
    have e : ∑ l, (∑ j, w * x j * Q j l) * x l = w * ∑ i, ∑ j, x i * Q i j * x j := by
      rw [Finset.sum_comm, Finset.mul_sum]
      refine Finset.sum_congr rfl fun l _ => ?_
      rw [Finset.sum_mul, Finset.mul_sum]
      exact Finset.sum_congr rfl fun j _ => by ring
    rw [e]
    linarith [mul_nonneg hw0 hpos]
  have d4 := (d3.mono (l := 2 * p + 4) (by omega)).inv hg hd hs
  have q1 := ((n4.mul d4).rnd).mono (l := 4 * p + 9) (by omega)
  have q2 := (((aQ a c).mono (l := 4 * p + 9) (by omega)).sub q1).rnd
  have hm : 1 - forget ≤ denSize p forget K X W := by
    have := (abs_nonneg _).trans d2.size
    unfold denSize
    linarith
  have g1 : Approx A 1 (2 * (1 - forget) / (1 - forget) ^ 2) (1 / (1 - forget)) (1 / A.rnd (1 - forget)) := by
    refine ag.inv hg le_rfl (le_trans ?_ hs)
    refine mul_le_mul (sub_le_sub_right (pow_le_pow_right₀ (by linarith [A.u_nonneg]) (by omega)) 1) hm hg.le ?_
    linarith [Approx.one_le A (2 * p + 4)]
  have r := ((g1.rnd.mul q2).rnd).mono (l := 4 * p + 13) (by omega)
  have e1 : updateInvertedGramStep Q x forget w a c = 1 / (1 - forget) *
      (Q a c - (∑ l, (∑ j, w * Q a j * (x j * x l)) * Q l c) *
        (1 / (1 - forget + ∑ l, (∑ j, w * x j * Q j l) * x l))) := by
    simp only [updateInvertedGramStep, Matrix.smul_apply, Matrix.sub_apply, Matrix.mul_apply, Matrix.vecMulVec_apply,
      smul_eq_mul, dotProduct, Matrix.vecMul, Pi.smul_apply]
    rw [mul_comm (1 / (1 - forget + _))]
  have e2 : updateInvertedGramStepF A Q x forget w a c = A.rnd (A.rnd (1 / A.rnd (1 - forget)) * A.rnd (Q a c - A.rnd
      (matMulF A (matMulF A (fun a b => A.rnd (w * Q a b)) fun a b => A.rnd (x a * x b)) Q a c *
        (1 / A.rnd (A.rnd (1 - forget) + dotRowF A (vecMulF A (fun j => A.rnd (w * x j)) Q) x))))) := by
    rw [mul_one_div]; rfl
  rw [e1, e2]
  exact r.error

/-- What a lower bound of the quadratic form of the inverse says about a matrix. -/
theorem entry_le_of_inverse_form {Q : Matrix (Fin p) (Fin p) ℝ} (hu : IsUnit Q.det) {nu : ℝ} (hnu : 0 < nu)
    (hS : ∀ v : Row p, nu * ∑ j, v j ^ 2 ≤ ∑ i, ∑ j, v i * Q⁻¹ i j * v j) :
    (∀ a c, |Q a c| ≤ 1 / nu) ∧ ∀ x : Row p, 0 ≤ ∑ i, ∑ j, x i * Q i j * x j := by
  have hform : ∀ x : Row p, ∑ i, ∑ j, (Q *ᵥ x) i * Q⁻¹ i j * (Q *ᵥ x) j = (Q *ᵥ x) ⬝ᵥ x := by
    intro x
    have h1 : Q⁻¹ *ᵥ (Q *ᵥ x) = x := by rw [Matrix.mulVec_mulVec, Matrix.nonsing_inv_mul Q hu, Matrix.one_mulVec]
    have h2 : ∀ z : Row p, ∑ i, ∑ j, z i * Q⁻¹ i j * z j = z ⬝ᵥ (Q⁻¹ *ᵥ z) := fun z => by
      simp only [dotProduct, Matrix.mulVec, Finset.mul_sum, mul_assoc]
    rw [h2, h1]
  refine ⟨fun a c => ?_, fun x => ?_⟩
  · have h1 := hS (Q *ᵥ Pi.single c 1)
    rw [hform, dotProduct_single_one] at h1
    have hz : ∀ i, (Q *ᵥ Pi.single c 1) i = Q i c := fun i => by rw [Matrix.mulVec_single_one]; rfl
    simp only [hz] at h1
    set s := ∑ j, Q j c ^ 2 with hs
    have hle : ∀ i, Q i c ^ 2 ≤ s := fun i => Finset.single_le_sum (f := fun j => Q j c ^ 2) (fun j _ => sq_nonneg _) (Finset.mem_univ i)
    have hs0 : 0 ≤ s := (sq_nonneg _).trans (hle a)
    have h2 : (nu * s) ^ 2 ≤ s := (pow_le_pow_left₀ (by positivity) h1 2).trans (hle c)
    have h3 : s ≤ (1 / nu) ^ 2 := by
      rcases hs0.eq_or_lt with h0 | h0
      · rw [← h0]; positivity
      · have h4 : nu ^ 2 * s * s ≤ 1 * s := by nlinarith
        have h5 := le_of_mul_le_mul_right h4 h0
        rw [div_pow, one_pow, le_div_iff₀ (by positivity)]
        linarith
    exact abs_le_of_sq_le_sq ((hle a).trans h3) (by positivity)
  · have h1 := hS (Q *ᵥ x)
    rw [hform] at h1
    have h2 : ∑ i, ∑ j, x i * Q i j * x j = (Q *ᵥ x) ⬝ᵥ x := by
      simp only [dotProduct, Matrix.mulVec, Finset.sum_mul]
      exact Finset.sum_congr rfl fun i _ => Finset.sum_congr rfl fun j _ => by ring
    rw [h2]
    exact le_trans (mul_nonneg hnu.le (Finset.sum_nonneg fun j _ => sq_nonneg _)) h1

theorem updateInvertedGramF_append (forget : ℝ) (Q : Matrix (Fin p) (Fin p) ℝ) (h h' : List (Obs p)) :
    updateInvertedGramF A forget Q (xs (h ++ h')) (ws (h ++ h')) =
      updateInvertedGramF A forget (updateInvertedGramF A forget Q (xs h) (ws h)) (xs h') (ws h') := by
  induction h generalizing Q with
  | nil => rfl
  | cons o h ih => exact ih _

theorem updateInvertedGramF_flatten (forget : ℝ) (Q : Matrix (Fin p) (Fin p) ℝ) (batches : List (List (Obs p))) :
    batches.foldl (fun Q b => updateInvertedGramF A forget Q (xs b) (ws b)) Q =
      updateInvertedGramF A forget Q (xs batches.flatten) (ws batches.flatten) := by
  induction batches generalizing Q with
  | nil => rfl
  | cons b l ih => rw [List.foldl_cons, ih, List.flatten_cons, updateInvertedGramF_append]

/-! ### float64 -/

theorem intLog_two_zpow (e : ℤ) : Int.log 2 |(2 : ℝ) ^ e| = e := by
  rw [abs_of_pos (zpow_pos (by norm_num) _)]
  have := Int.log_zpow (R := ℝ) (b := 2) (by norm_num) e
  simpa using this

theorem round53_zpow (e : ℤ) : round53 (2 ^ e) = 2 ^ e := by
  rw [round53, intLog_two_zpow, ← zpow_add₀ (by norm_num)]
  have h1 : (2 : ℝ) ^ (e + (52 - e)) = ((2 ^ 52 : ℤ) : ℝ) := by
    rw [show e + (52 - e) = 52 by ring]; norm_num
  rw [h1, round_intCast, ← h1, ← zpow_add₀ (by norm_num)]
  congr 1
  ring

theorem round53_stall : round53 (2 ^ 54 + 1) = 2 ^ 54 := by
  have hl : Int.log 2 |(2 : ℝ) ^ 54 + 1| = 54 := by
    rw [abs_of_pos (by positivity)]
    refine le_antisymm ?_ ?_
    · have : Int.log 2 ((2 : ℝ) ^ 54 + 1) < 55 := by
        refine (Int.lt_zpow_iff_log_lt (by norm_num) (by positivity)).1 ?_
        norm_num
      omega
    · refine (Int.zpow_le_iff_le_log (by norm_num) (by positivity)).1 ?_
      norm_num
  rw [round53, hl]
  have h1 : round (((2 : ℝ) ^ 54 + 1) * 2 ^ ((52 : ℤ) - 54)) = 2 ^ 52 := by
    rw [round_eq, Int.floor_eq_iff]
    constructor <;> norm_num
  rw [h1]
  norm_num

end Ondil
