import Verif.Lemmas.Fading
import Verif.Spec.Accuracy
import Mathlib.Algebra.BigOperators.Field

/-! # Helper lemmas: perturbed matrices, perturbed normal equations, perturbed objectives -/

open scoped BigOperators Matrix

namespace Ondil

variable {p : ℕ}

theorem abs_mul_mul_le {S E Y : Matrix (Fin p) (Fin p) ℝ} {M eps : ℝ} (hM0 : 0 ≤ M) (hS : ∀ a b, |S a b| ≤ M)
    (hE : ∀ a b, |E a b| ≤ eps) (a b : Fin p) : |(S * (E * Y)) a b| ≤ p * (M * eps) * ∑ l, |Y l b| := by
  have h1 : ∀ k, |(E * Y) k b| ≤ eps * ∑ l, |Y l b| := fun k => by
    rw [Matrix.mul_apply, Finset.mul_sum]
    refine (Finset.abs_sum_le_sum_abs _ _).trans (Finset.sum_le_sum fun l _ => ?_)
    rw [abs_mul]
    exact mul_le_mul_of_nonneg_right (hE k l) (abs_nonneg _)
  rw [Matrix.mul_apply]
  refine (Finset.abs_sum_le_sum_abs _ _).trans ?_
  have h2 : ∀ k ∈ Finset.univ, |S a k * (E * Y) k b| ≤ M * (eps * ∑ l, |Y l b|) := fun k _ => by
    rw [abs_mul]
    exact mul_le_mul (hS a k) (h1 k) (abs_nonneg _) hM0
  refine (Finset.sum_le_sum h2).trans ?_
  rw [Finset.sum_const, Finset.card_univ, Fintype.card_fin, nsmul_eq_mul]
  exact le_of_eq (by ring)

/-- A small perturbation of an invertible matrix is invertible, and its inverse is close. -/
theorem inv_perturb {T E : Matrix (Fin p) (Fin p) ℝ} (hT : IsUnit T.det) {M eps : ℝ} (hM0 : 0 ≤ M) (heps : 0 ≤ eps)
    (hM : ∀ a b, |T⁻¹ a b| ≤ M) (hE : ∀ a b, |E a b| ≤ eps) (hs : (p : ℝ) ^ 2 * M * eps ≤ 1 / 2) :
    IsUnit (T + E).det ∧ ∀ a b, |(T + E)⁻¹ a b - T⁻¹ a b| ≤ 2 * (p : ℝ) ^ 2 * M ^ 2 * eps := by
  have hTi : T⁻¹ * T = 1 := Matrix.nonsing_inv_mul T hT
  have hu : IsUnit (T + E).det := by
    by_contra hc
    obtain ⟨v, hv0, hv⟩ := (not_isUnit_det_iff _).1 hc
    apply hv0
    have e1 : v = -(T⁻¹ *ᵥ (E *ᵥ v)) := by
      have h1 : T *ᵥ v = -(E *ᵥ v) := by
        rw [Matrix.add_mulVec] at hv
        exact eq_neg_of_add_eq_zero_left hv
      have h2 := congrArg (fun z => T⁻¹ *ᵥ z) h1
      simp only [Matrix.mulVec_mulVec, hTi, Matrix.one_mulVec, Matrix.mulVec_neg] at h2 ⊢
      exact h2
    have hb : ∀ j, |v j| ≤ p * (M * eps) * ∑ l, |v l| := fun j => by
      have h3 := abs_mul_mul_le (Y := Matrix.of fun l (_ : Fin p) => v l) hM0 hM hE j j
      have h4 : (T⁻¹ * (E * Matrix.of fun l (_ : Fin p) => v l)) j j = (T⁻¹ *ᵥ (E *ᵥ v)) j := by
        simp only [Matrix.mul_apply, Matrix.mulVec, dotProduct, Matrix.of_apply]
      rw [h4] at h3
      have h5 : |v j| = |(T⁻¹ *ᵥ (E *ᵥ v)) j| := by
        conv_lhs => rw [e1]
        rw [Pi.neg_apply, abs_neg]
      rw [h5]
      simpa using h3
    have hsum : ∑ j, |v j| ≤ p * (p * (M * eps) * ∑ l, |v l|) := by
      refine (Finset.sum_le_sum fun j _ => hb j).trans ?_
      rw [Finset.sum_const, Finset.card_univ, Fintype.card_fin, nsmul_eq_mul]
    have h0 : 0 ≤ ∑ j, |v j| := Finset.sum_nonneg fun j _ => abs_nonneg _
    have h6 : (p : ℝ) ^ 2 * M * eps * ∑ j, |v j| ≤ 1 / 2 * ∑ j, |v j| := mul_le_mul_of_nonneg_right hs h0
    have h7 : ∑ j, |v j| = 0 := le_antisymm (by nlinarith) h0
    funext j
    exact abs_eq_zero.1 ((Finset.sum_eq_zero_iff_of_nonneg fun j _ => abs_nonneg _).1 h7 j (Finset.mem_univ _))
  refine ⟨hu, fun a b => ?_⟩
  set Y := (T + E)⁻¹ with hY
  have hTY : (T + E) * Y = 1 := Matrix.mul_nonsing_inv _ hu
  have e2 : Y - T⁻¹ = -(T⁻¹ * (E * Y)) := by
    have h1 : T⁻¹ * ((T + E) * Y) = T⁻¹ := by rw [hTY, Matrix.mul_one]
    rw [Matrix.add_mul, Matrix.mul_add, ← Matrix.mul_assoc T⁻¹ T Y, hTi, Matrix.one_mul] at h1
    refine eq_neg_of_add_eq_zero_left ?_
    rw [sub_add_eq_add_sub, h1, sub_self]
  have e3 : ∀ a, |Y a b - T⁻¹ a b| ≤ p * (M * eps) * ∑ l, |Y l b| := fun a => by
    have h1 := congrFun (congrFun e2 a) b
    rw [Matrix.sub_apply, Matrix.neg_apply] at h1
    rw [h1, abs_neg]
    exact abs_mul_mul_le hM0 hM hE a b
  have hc0 : 0 ≤ ∑ l, |Y l b| := Finset.sum_nonneg fun j _ => abs_nonneg _
  have hcol : ∑ l, |Y l b| ≤ p * (M + p * (M * eps) * ∑ l, |Y l b|) := by
    have : ∀ a ∈ Finset.univ, |Y a b| ≤ M + p * (M * eps) * ∑ l, |Y l b| := fun a _ => by
      have h1 := abs_add_le (Y a b - T⁻¹ a b) (T⁻¹ a b)
      rw [sub_add_cancel] at h1
      have := e3 a
      have := hM a b
      linarith
    refine (Finset.sum_le_sum this).trans ?_
    rw [Finset.sum_const, Finset.card_univ, Fintype.card_fin, nsmul_eq_mul]
  have h8 : (p : ℝ) ^ 2 * M * eps * ∑ j, |Y j b| ≤ 1 / 2 * ∑ j, |Y j b| := mul_le_mul_of_nonneg_right hs hc0
  have h9 : ∑ l, |Y l b| ≤ 2 * (p * M) := by nlinarith
  refine (e3 a).trans ?_
  have h10 : (p : ℝ) * (M * eps) * ∑ l, |Y l b| ≤ p * (M * eps) * (2 * (p * M)) :=
    mul_le_mul_of_nonneg_left h9 (by positivity)
  refine h10.trans (le_of_eq (by ring))

/-- The 1-norm is at most the square root of the dimension times the Euclidean norm. -/
theorem sum_abs_sub_le (b c : Row p) : ∑ j, |c j - b j| ≤ Real.sqrt p * euclid b c := by
  have h := Finset.sum_mul_sq_le_sq_mul_sq Finset.univ (fun _ : Fin p => (1 : ℝ)) fun j => |c j - b j|
  simp only [one_mul, one_pow, Finset.sum_const, Finset.card_univ, Fintype.card_fin, nsmul_eq_mul, mul_one, sq_abs] at h
  rw [euclid, ← Real.sqrt_mul (Nat.cast_nonneg p)]
  exact Real.le_sqrt_of_sq_le h

theorem abs_form_le {D : Fin p → Fin p → ℝ} {eps : ℝ} (hD : ∀ a b, |D a b| ≤ eps) (u v : Row p) :
    |∑ i, ∑ j, u i * D i j * v j| ≤ eps * (∑ i, |u i|) * ∑ j, |v j| := by
  refine (Finset.abs_sum_le_sum_abs _ _).trans ?_
  rw [mul_assoc, mul_comm, Finset.sum_mul, Finset.sum_mul]
  refine Finset.sum_le_sum fun i _ => ?_
  refine (Finset.abs_sum_le_sum_abs _ _).trans ?_
  rw [Finset.mul_sum, Finset.sum_mul]
  refine Finset.sum_le_sum fun j _ => ?_
  rw [abs_mul, abs_mul]
  have := mul_le_mul_of_nonneg_left (hD i j) (mul_nonneg (abs_nonneg (u i)) (abs_nonneg (v j)))
  nlinarith

/-- From an inequality between a square and a multiple of a norm. -/
theorem le_of_mul_sq_le {mu e C : ℝ} (he : 0 ≤ e) (hC : 0 ≤ C) (h : mu * e ^ 2 ≤ e * C) : mu * e ≤ C := by
  rcases he.eq_or_lt with h0 | h0
  · rw [← h0, mul_zero]; exact hC
  · refine le_of_mul_le_mul_right ?_ h0
    nlinarith

/-- Solutions of perturbed normal equations. -/
theorem normal_perturb {G S : Matrix (Fin p) (Fin p) ℝ} {h k b c : Row p} {mu eps delta : ℝ}
    (hmu : ∀ v : Row p, mu * ∑ j, v j ^ 2 ≤ ∑ i, ∑ j, v i * G i j * v j) (hS : ∀ i j, |S i j - G i j| ≤ eps)
    (hk : ∀ j, |k j - h j| ≤ delta) (heps : 0 ≤ eps) (hdelta : 0 ≤ delta) (hb : G *ᵥ b = h) (hc : S *ᵥ c = k) :
    mu * euclid b c ≤ Real.sqrt p * (delta + eps * ∑ j, |c j|) := by
  have hN : 0 ≤ ∑ j, |c j| := Finset.sum_nonneg fun j _ => abs_nonneg _
  refine le_of_mul_sq_le (euclid_nonneg _ _) (by positivity) ?_
  set d : Row p := fun j => c j - b j with hd
  have e1 : ∑ i, ∑ j, d i * G i j * d j = ∑ i, d i * (k i - h i) - ∑ i, ∑ j, d i * (S i j - G i j) * c j := by
    rw [← Finset.sum_sub_distrib]
    refine Finset.sum_congr rfl fun i _ => ?_
    have h1 : ∑ j, G i j * b j = h i := congrFun hb i
    have h2 : ∑ j, S i j * c j = k i := congrFun hc i
    rw [← h1, ← h2, mul_sub, Finset.mul_sum, Finset.mul_sum, ← Finset.sum_sub_distrib, ← Finset.sum_sub_distrib]
    refine Finset.sum_congr rfl fun j _ => ?_
    rw [hd]
    ring
  have h3 := hmu d
  have h4 : (∑ j, d j ^ 2) = euclid b c ^ 2 := (euclid_sq b c).symm
  rw [h4, e1] at h3
  have h5 : ∑ i, d i * (k i - h i) ≤ delta * ∑ i, |d i| := by
    rw [Finset.mul_sum]
    refine Finset.sum_le_sum fun i _ => (le_abs_self _).trans ?_
    rw [abs_mul, mul_comm]
    exact mul_le_mul_of_nonneg_right (hk i) (abs_nonneg _)
  have h6 := (neg_le_abs _).trans (abs_form_le hS d c)
  have h7 : ∑ i, |d i| ≤ Real.sqrt p * euclid b c := sum_abs_sub_le b c
  have h8 : (delta + eps * ∑ j, |c j|) * ∑ i, |d i| ≤ (delta + eps * ∑ j, |c j|) * (Real.sqrt p * euclid b c) :=
    mul_le_mul_of_nonneg_left h7 (by positivity)
  nlinarith

/-- The elastic net objective at the midpoint. -/
theorem enetObjective_mid (G : Fin p → Fin p → ℝ) (h : Row p) {lam alpha : ℝ} (hl : 0 ≤ lam) (ha : 0 ≤ alpha)
    (reg : Fin p → Bool) (b c : Row p) :
    enetObjective G h lam alpha reg (fun j => (b j + c j) / 2) ≤
      (enetObjective G h lam alpha reg b + enetObjective G h lam alpha reg c) / 2 -
        1 / 8 * smoothForm G lam alpha reg fun j => c j - b j := by
  unfold enetObjective smoothForm
  have q : (∑ i, ∑ j, (b i + c i) / 2 * G i j * ((b j + c j) / 2)) =
      ((∑ i, ∑ j, b i * G i j * b j) + ∑ i, ∑ j, c i * G i j * c j) / 2 -
        1 / 4 * ∑ i, ∑ j, (c i - b i) * G i j * (c j - b j) := by
    rw [← Finset.sum_add_distrib, Finset.sum_div, Finset.mul_sum, ← Finset.sum_sub_distrib]
    refine Finset.sum_congr rfl fun i _ => ?_
    rw [← Finset.sum_add_distrib, Finset.sum_div, Finset.mul_sum, ← Finset.sum_sub_distrib]
    refine Finset.sum_congr rfl fun j _ => ?_
    ring
  have l : (∑ j, h j * ((b j + c j) / 2)) = ((∑ j, h j * b j) + ∑ j, h j * c j) / 2 := by
    rw [← Finset.sum_add_distrib, Finset.sum_div]
    exact Finset.sum_congr rfl fun j _ => by ring
  have r : (∑ j, if reg j then alpha * |(b j + c j) / 2| + (1 - alpha) / 2 * ((b j + c j) / 2) ^ 2 else 0) ≤
      ((∑ j, if reg j then alpha * |b j| + (1 - alpha) / 2 * b j ^ 2 else 0) +
        ∑ j, if reg j then alpha * |c j| + (1 - alpha) / 2 * c j ^ 2 else 0) / 2 -
        (1 - alpha) / 8 * ∑ j, if reg j then (c j - b j) ^ 2 else 0 := by
    rw [← Finset.sum_add_distrib, Finset.sum_div, Finset.mul_sum, ← Finset.sum_sub_distrib]
    refine Finset.sum_le_sum fun j _ => ?_
    split_ifs
    · have h1 := abs_add_le (b j) (c j)
      have h2 : |(b j + c j) / 2| = |b j + c j| / 2 := by rw [abs_div]; norm_num
      rw [h2]
      have h3 := mul_le_mul_of_nonneg_left h1 ha
      nlinarith
    · simp
  have r' := mul_le_mul_of_nonneg_left r hl
  rw [q, l]
  linarith

/-- Minimisers of perturbed elastic net objectives. -/
theorem enet_perturb {G S : Fin p → Fin p → ℝ} {h k b c : Row p} {lam alpha mu eps delta : ℝ} {reg : Fin p → Bool}
    {lower upper : Fin p → Option ℝ} (hl : 0 ≤ lam) (ha : 0 ≤ alpha) (hcv : CurvedAtLeast G lam alpha reg mu)
    (hS : ∀ i j, |S i j - G i j| ≤ eps) (hk : ∀ j, |k j - h j| ≤ delta) (heps : 0 ≤ eps) (hdelta : 0 ≤ delta)
    (hbf : Feasible lower upper b) (hcf : Feasible lower upper c)
    (hb : ∀ d, Feasible lower upper d → enetObjective G h lam alpha reg b ≤ enetObjective G h lam alpha reg d)
    (hc : ∀ d, Feasible lower upper d → enetObjective S k lam alpha reg c ≤ enetObjective S k lam alpha reg d) :
    mu * euclid b c ≤ Real.sqrt p * (4 * delta + 2 * eps * ((∑ j, |b j|) + ∑ j, |c j|)) := by
  have hNb : 0 ≤ ∑ j, |b j| := Finset.sum_nonneg fun j _ => abs_nonneg _
  have hNc : 0 ≤ ∑ j, |c j| := Finset.sum_nonneg fun j _ => abs_nonneg _
  refine le_of_mul_sq_le (euclid_nonneg _ _) (by positivity) ?_
  have hmf : Feasible lower upper fun j => (b j + c j) / 2 := fun j =>
    ⟨fun l hl' => by have := (hbf j).1 l hl'; have := (hcf j).1 l hl'; linarith,
     fun u hu' => by have := (hbf j).2 u hu'; have := (hcf j).2 u hu'; linarith⟩
  have h1 := hb _ hmf
  have h2 := enetObjective_mid G h hl ha reg b c
  have h3 := hcv fun j => c j - b j
  rw [← euclid_sq] at h3
  have h4 := hc b hbf
  -- difference of the objectives
  have e : ∀ v : Row p, enetObjective S k lam alpha reg v = enetObjective G h lam alpha reg v +
      (1 / 2 * (∑ i, ∑ j, v i * (S i j - G i j) * v j) - ∑ j, (k j - h j) * v j) := fun v => by
    unfold enetObjective
    have e1 : (∑ i, ∑ j, v i * (S i j - G i j) * v j) = (∑ i, ∑ j, v i * S i j * v j) - ∑ i, ∑ j, v i * G i j * v j := by
      rw [← Finset.sum_sub_distrib]
      refine Finset.sum_congr rfl fun i _ => ?_
      rw [← Finset.sum_sub_distrib]
      exact Finset.sum_congr rfl fun j _ => by ring
    have e2 : (∑ j, (k j - h j) * v j) = (∑ j, k j * v j) - ∑ j, h j * v j := by
      rw [← Finset.sum_sub_distrib]
      exact Finset.sum_congr rfl fun j _ => by ring
    rw [e1, e2]
    ring
  rw [e b, e c] at h4
  set d : Row p := fun j => c j - b j with hd
  have e3 : (∑ i, ∑ j, b i * (S i j - G i j) * b j) - (∑ i, ∑ j, c i * (S i j - G i j) * c j) =
      -(∑ i, ∑ j, d i * (S i j - G i j) * b j) - ∑ i, ∑ j, c i * (S i j - G i j) * d j := by
    rw [← Finset.sum_neg_distrib, ← Finset.sum_sub_distrib, ← Finset.sum_sub_distrib]
    refine Finset.sum_congr rfl fun i _ => ?_
    rw [← Finset.sum_neg_distrib, ← Finset.sum_sub_distrib, ← Finset.sum_sub_distrib]
    refine Finset.sum_congr rfl fun j _ => ?_
    rw [hd]
    ring
  have e4 : (∑ j, (k j - h j) * c j) - (∑ j, (k j - h j) * b j) = ∑ j, (k j - h j) * d j := by
    rw [← Finset.sum_sub_distrib]
    exact Finset.sum_congr rfl fun j _ => by rw [hd]; ring
  have h5 : ∑ j, (k j - h j) * d j ≤ delta * ∑ i, |d i| := by
    rw [Finset.mul_sum]
    refine Finset.sum_le_sum fun i _ => (le_abs_self _).trans ?_
    rw [abs_mul]
    exact mul_le_mul_of_nonneg_right (hk i) (abs_nonneg _)
  have h6 := (neg_le_abs _).trans (abs_form_le hS d b)
  have h7 := (neg_le_abs _).trans (abs_form_le hS c d)
  have h8 : ∑ i, |d i| ≤ Real.sqrt p * euclid b c := sum_abs_sub_le b c
  have h9 : (4 * delta + 2 * eps * ((∑ j, |b j|) + ∑ j, |c j|)) * ∑ i, |d i| ≤
      (4 * delta + 2 * eps * ((∑ j, |b j|) + ∑ j, |c j|)) * (Real.sqrt p * euclid b c) :=
    mul_le_mul_of_nonneg_left h8 (by positivity)
  nlinarith

end Ondil
