import Verif.Model.Rounding
import Verif.Lemmas.Gram
import Verif.Lemmas.Fading

/-! # Helper lemmas: arithmetic with rounding -/

open scoped BigOperators

namespace Ondil

variable {p : ℕ} {A : FloatArith}

/-- `b` is a computed value of `a` after `k` roundings, in a computation with terms of total size `m`. -/
structure Approx (A : FloatArith) (k : ℕ) (m a b : ℝ) : Prop where
  size : |a| ≤ m
  error : |b - a| ≤ ((1 + A.u) ^ k - 1) * m

namespace Approx

variable {k l : ℕ} {m n a b c d : ℝ}

theorem one_le (A : FloatArith) (k : ℕ) : 1 ≤ (1 + A.u) ^ k := one_le_pow₀ (by linarith [A.u_nonneg])

theorem nonneg (h : Approx A k m a b) : 0 ≤ m := (abs_nonneg _).trans h.size

theorem exact (A : FloatArith) (h : |a| ≤ m) : Approx A 0 m a a := ⟨h, by simp⟩

theorem self (A : FloatArith) (a : ℝ) : Approx A 0 |a| a a := exact A le_rfl

theorem mono (h : Approx A k m a b) (hk : k ≤ l) : Approx A l m a b :=
  ⟨h.size, h.error.trans (mul_le_mul_of_nonneg_right
    (sub_le_sub_right (pow_le_pow_right₀ (by linarith [A.u_nonneg]) hk) 1) h.nonneg)⟩

theorem abs_le (h : Approx A k m a b) : |b| ≤ (1 + A.u) ^ k * m := by
  have h1 := abs_add_le (b - a) a
  rw [sub_add_cancel] at h1
  have := h.size
  have := h.error
  linarith

theorem rnd (h : Approx A k m a b) : Approx A (k + 1) m a (A.rnd b) := by
  refine ⟨h.size, ?_⟩
  have h1 := abs_sub_le (A.rnd b) b a
  have h2 := A.rnd_error b
  have h3 := mul_le_mul_of_nonneg_left h.abs_le A.u_nonneg
  have h4 := h.error
  have e : ((1 + A.u) ^ (k + 1) - 1) * m = A.u * ((1 + A.u) ^ k * m) + ((1 + A.u) ^ k - 1) * m := by ring
  linarith

theorem mul (h : Approx A k m a b) (h' : Approx A l n c d) : Approx A (k + l) (m * n) (a * c) (b * d) := by
  have hm := h.nonneg
  have hn := h'.nonneg
  refine ⟨by rw [abs_mul]; exact mul_le_mul h.size h'.size (abs_nonneg _) hm, ?_⟩
  have e : b * d - a * c = (b - a) * d + a * (d - c) := by ring
  have h1 := abs_add_le ((b - a) * d) (a * (d - c))
  rw [← e, abs_mul, abs_mul] at h1
  have h2 : |b - a| * |d| ≤ (((1 + A.u) ^ k - 1) * m) * ((1 + A.u) ^ l * n) :=
    mul_le_mul h.error h'.abs_le (abs_nonneg _) (mul_nonneg (by linarith [one_le A k]) hm)
  have h3 : |a| * |d - c| ≤ m * (((1 + A.u) ^ l - 1) * n) := mul_le_mul h.size h'.error (abs_nonneg _) hm
  have e' : ((1 + A.u) ^ (k + l) - 1) * (m * n) =
      (((1 + A.u) ^ k - 1) * m) * ((1 + A.u) ^ l * n) + m * (((1 + A.u) ^ l - 1) * n) := by rw [pow_add]; ring
  linarith

theorem add (h : Approx A k m a b) (h' : Approx A k n c d) : Approx A k (m + n) (a + c) (b + d) := by
  refine ⟨(abs_add_le _ _).trans (add_le_add h.size h'.size), ?_⟩
  have e : b + d - (a + c) = (b - a) + (d - c) := by ring
  have h1 := abs_add_le (b - a) (d - c)
  rw [← e] at h1
  have := h.error
  have := h'.error
  linarith

theorem sqrt (ha : 0 ≤ a) (h : Approx A k a a b) : Approx A k (Real.sqrt a) (Real.sqrt a) (Real.sqrt b) := by
  refine ⟨(abs_of_nonneg (Real.sqrt_nonneg _)).le, ?_⟩
  have hE : 0 ≤ (1 + A.u) ^ k - 1 := by linarith [one_le A k]
  rcases ha.eq_or_lt with h0 | h0
  · have h1 := h.error
    rw [← h0, mul_zero, sub_zero] at h1
    have : b = 0 := abs_eq_zero.1 (le_antisymm h1 (abs_nonneg _))
    simp [← h0, this]
  · have hs : 0 < Real.sqrt a := Real.sqrt_pos.2 h0
    have hsa := Real.mul_self_sqrt ha
    refine le_of_mul_le_mul_right ?_ hs
    have goal : ((1 + A.u) ^ k - 1) * Real.sqrt a * Real.sqrt a = ((1 + A.u) ^ k - 1) * a := by
      rw [mul_assoc, hsa]
    rw [goal]
    refine le_trans ?_ h.error
    rcases le_total 0 b with hb | hb
    · have hsb := Real.mul_self_sqrt hb
      have hb0 := Real.sqrt_nonneg b
      have e : b - a = (Real.sqrt b - Real.sqrt a) * (Real.sqrt b + Real.sqrt a) := by linarith
      rw [e, abs_mul, abs_of_nonneg (show 0 ≤ Real.sqrt b + Real.sqrt a by positivity)]
      exact mul_le_mul_of_nonneg_left (by linarith) (abs_nonneg _)
    · rw [Real.sqrt_eq_zero_of_nonpos hb, zero_sub, abs_neg, abs_of_pos hs, hsa, abs_of_nonpos (by linarith)]
      linarith

theorem npow (h : Approx A k m a b) (n : ℕ) : Approx A (n * k) (m ^ n) (a ^ n) (b ^ n) := by
  induction n with
  | zero => simpa using exact A (a := 1) (m := 1) (by simp)
  | succ n ih =>
    rw [pow_succ, pow_succ, pow_succ, Nat.succ_mul]
    exact ih.mul h

theorem pow (h : Approx A k m a b) (n : ℕ) : Approx A (n * k + n) (m ^ n) (a ^ n) (A.pow b n) := by
  have h1 := h.npow n
  refine ⟨h1.size, ?_⟩
  have h2 := abs_sub_le (A.pow b n) (b ^ n) (a ^ n)
  have h3 := A.pow_error b n
  have h4 : |b| ^ n ≤ (1 + A.u) ^ (n * k) * m ^ n := by rw [← abs_pow]; exact h1.abs_le
  have h5 := mul_le_mul_of_nonneg_left h4 (show 0 ≤ (1 + A.u) ^ n - 1 by linarith [one_le A n])
  have h6 := h1.error
  have e : ((1 + A.u) ^ (n * k + n) - 1) * m ^ n =
      ((1 + A.u) ^ n - 1) * ((1 + A.u) ^ (n * k) * m ^ n) + ((1 + A.u) ^ (n * k) - 1) * m ^ n := by rw [pow_add]; ring
  linarith

end Approx

/-! ### the forget vector -/

theorem forgetLoopF_eq (gamma : ℝ) (d : ℕ → ℝ) (hd : ∀ i, d (i + 1) = A.rnd (d i * gamma)) (k i : ℕ) (out : List ℝ) :
    forgetLoopF A gamma k (d i) out = ((List.range k).map fun j => d (i + 1 + j)).reverse ++ out := by
  induction k generalizing i out with
  | zero => simp [forgetLoopF]
  | succ k ih =>
    rw [forgetLoopF, ← hd, ih, List.range_succ_eq_map]
    simp only [List.map_cons, List.map_map, List.reverse_cons, List.append_assoc, List.singleton_append, Nat.add_zero]
    congr 2
    refine List.map_congr_left fun a _ => ?_
    simp only [Function.comp]
    congr 1
    omega

/-- The computed discounts: entry `i` from the end is a computed value of `(1 - forget) ^ i`. -/
theorem initForgetVectorF_spec (A : FloatArith) {forget : ℝ} (hf : forget ≤ 1) :
    ∃ d : ℕ → ℝ, (∀ i, Approx A (2 * i) ((1 - forget) ^ i) ((1 - forget) ^ i) (d i)) ∧
      initForgetVectorF A forget 0 = [] ∧
      ∀ n, initForgetVectorF A forget (n + 1) = d n :: initForgetVectorF A forget n := by
  have hg : 0 ≤ 1 - forget := by linarith
  have h1 : Approx A 1 (1 - forget) (1 - forget) (A.rnd (1 - forget)) :=
    (Approx.exact A (abs_of_nonneg hg).le).rnd
  by_cases h : A.rnd (1 - forget) = 1
  · refine ⟨fun _ => 1, fun i => ?_, by simp [initForgetVectorF, h], fun n => by
      simp [initForgetVectorF, h, List.replicate_succ]⟩
    have := h1.npow i
    rw [h, one_pow] at this
    exact this.mono (by omega)
  · set g := A.rnd (1 - forget) with hgdef
    let d : ℕ → ℝ := fun i => Nat.rec 1 (fun _ v => A.rnd (v * g)) i
    have hd : ∀ i, d (i + 1) = A.rnd (d i * g) := fun _ => rfl
    have e : ∀ n, initForgetVectorF A forget (n + 1) = ((List.range (n + 1)).map d).reverse := by
      intro n
      have := forgetLoopF_eq g d hd n 0 [1]
      rw [show initForgetVectorF A forget (n + 1) = forgetLoopF A g n 1 [1] by
        simp only [initForgetVectorF, ← hgdef, if_neg h]]
      rw [show (1 : ℝ) = d 0 from rfl] at this ⊢
      rw [this, List.range_succ_eq_map]
      simp [Function.comp_def, Nat.add_comm 1]
    have e0 : initForgetVectorF A forget 0 = [] := by simp only [initForgetVectorF, ← hgdef, if_neg h]
    refine ⟨d, fun i => ?_, e0, fun n => ?_⟩
    · induction i with
      | zero => exact Approx.exact A (by simp)
      | succ i ih =>
        rw [hd, pow_succ]
        exact (ih.mul h1).rnd.mono (by omega)
    · rw [e n, List.range_succ]
      cases n with
      | zero => simp [e0]
      | succ n => rw [e n]; simp

/-! ### cross products -/

/-- The terms of one entry of a cross product of two columns `f` and `g` of a batch. -/
noncomputable def crossTerms (A : FloatArith) (forget : ℝ) (h : List (Obs p)) (f g : Obs p → ℝ) : List ℝ :=
  let s := rootWeightsF A (ws h) (initForgetVectorF A forget h.length)
  List.zipWith (fun a b => A.rnd (a * b)) (scaledColumnF A (h.map f) s) (scaledColumnF A (h.map g) s)

theorem crossTerms_approx {forget : ℝ} (hf : forget ≤ 1) (h : List (Obs p)) (hw : NonnegWeights h) (f g : Obs p → ℝ) :
    (crossTerms A forget h f g).length = h.length ∧
    ∀ K, 4 * h.length + 3 ≤ K →
      Approx A K (discSum forget h fun o => |o.w * f o * g o|) (discSum forget h fun o => o.w * f o * g o)
        (crossTerms A forget h f g).sum ∧
      ((crossTerms A forget h f g).map fun v => |v|).sum ≤
        (1 + A.u) ^ K * discSum forget h fun o => |o.w * f o * g o| := by
  obtain ⟨d, hd, e0, es⟩ := initForgetVectorF_spec A hf
  induction h with
  | nil =>
    refine ⟨by simp [crossTerms, rootWeightsF, scaledColumnF], fun K _ => ⟨⟨by simp, by simp [crossTerms, scaledColumnF]⟩, by
      simp [crossTerms, scaledColumnF]⟩⟩
  | cons o h ih =>
    obtain ⟨ihl, ih⟩ := ih fun q hq => hw q (by simp [hq])
    set c := A.rnd (Real.sqrt (A.rnd (o.w * d h.length))) with hc
    have e : crossTerms A forget (o :: h) f g =
        A.rnd (A.rnd (f o * c) * A.rnd (g o * c)) :: crossTerms A forget h f g := by
      simp only [crossTerms, List.length_cons, es, ws, List.map_cons, rootWeightsF, scaledColumnF, List.zipWith_cons_cons, ← hc]
    have ho : 0 ≤ o.w := hw o (by simp)
    have hgm : 0 ≤ (1 - forget) ^ h.length := pow_nonneg (by linarith) _
    have hwg : 0 ≤ o.w * (1 - forget) ^ h.length := mul_nonneg ho hgm
    have a1 : Approx A (2 * h.length + 1) (o.w * (1 - forget) ^ h.length) (o.w * (1 - forget) ^ h.length)
        (A.rnd (o.w * d h.length)) := by
      have := ((Approx.exact A (abs_of_nonneg ho).le).mul (hd h.length)).rnd
      exact this.mono (by omega)
    have a2 := (a1.sqrt hwg).rnd
    rw [← hc] at a2
    have a3 := ((((Approx.self A (f o)).mul a2).rnd).mul (((Approx.self A (g o)).mul a2).rnd)).rnd
    have t1 : |f o| * Real.sqrt (o.w * (1 - forget) ^ h.length) * (|g o| * Real.sqrt (o.w * (1 - forget) ^ h.length)) =
        (1 - forget) ^ h.length * |o.w * f o * g o| := by
      rw [sqrt_prod hwg, abs_mul, abs_mul, abs_of_nonneg ho]; ring
    have t2 : f o * Real.sqrt (o.w * (1 - forget) ^ h.length) * (g o * Real.sqrt (o.w * (1 - forget) ^ h.length)) =
        (1 - forget) ^ h.length * (o.w * f o * g o) := by
      rw [sqrt_prod hwg]; ring
    rw [t1, t2] at a3
    refine ⟨by rw [e, List.length_cons, ihl, List.length_cons], fun K hK => ?_⟩
    rw [List.length_cons] at hK
    obtain ⟨i1, i2⟩ := ih K (by omega)
    have a4 := a3.mono (l := K) (by omega)
    rw [e]
    constructor
    · rw [discSum_cons, discSum_cons, List.sum_cons]
      exact a4.add i1
    · rw [discSum_cons, List.map_cons, List.sum_cons, mul_add]
      exact add_le_add a4.abs_le i2

/-- One computed entry of a cross product. -/
theorem dotF_approx {forget : ℝ} (hf : forget ≤ 1) (h : List (Obs p)) (hw : NonnegWeights h) (f g : Obs p → ℝ) :
    Approx A (5 * h.length + 3) (discSum forget h fun o => |o.w * f o * g o|) (discSum forget h fun o => o.w * f o * g o)
      (A.sum (crossTerms A forget h f g)) := by
  obtain ⟨h1, h2⟩ := crossTerms_approx (A := A) hf h hw f g
  obtain ⟨h3, h4⟩ := h2 (4 * h.length + 3) le_rfl
  refine ⟨h3.size, ?_⟩
  set m := discSum forget h fun o => |o.w * f o * g o|
  set T := crossTerms A forget h f g
  have a1 := abs_sub_le (A.sum T) T.sum (discSum forget h fun o => o.w * f o * g o)
  have a2 := A.sum_error T
  rw [h1] at a2
  have a3 := mul_le_mul_of_nonneg_left h4 (show 0 ≤ (1 + A.u) ^ h.length - 1 by linarith [Approx.one_le A h.length])
  have a4 := h3.error
  have e : ((1 + A.u) ^ (5 * h.length + 3) - 1) * m =
      ((1 + A.u) ^ h.length - 1) * ((1 + A.u) ^ (4 * h.length + 3) * m) + ((1 + A.u) ^ (4 * h.length + 3) - 1) * m := by
    rw [show 5 * h.length + 3 = h.length + (4 * h.length + 3) by ring, pow_add]; ring
  linarith

/-- One computed update of an entry, for a batch. -/
theorem update_approx {forget : ℝ} (hf : forget ≤ 1) (b : List (Obs p)) (hw : NonnegWeights b)
    (f g : Obs p → ℝ) {k : ℕ} {m a v : ℝ} (hv : Approx A k m a v) :
    Approx A (k + 5 * b.length + 4) ((1 - forget) ^ b.length * m + discSum forget b fun o => |o.w * f o * g o|)
      ((1 - forget) ^ b.length * a + discSum forget b fun o => o.w * f o * g o)
      (A.rnd (A.rnd (v * A.pow (A.rnd (1 - forget)) b.length) + A.sum (crossTerms A forget b f g))) := by
  have hg : 0 ≤ 1 - forget := by linarith
  have h1 : Approx A 1 (1 - forget) (1 - forget) (A.rnd (1 - forget)) :=
    (Approx.exact A (abs_of_nonneg hg).le).rnd
  have h2 := (hv.mul (h1.pow b.length)).rnd.mono (l := k + 5 * b.length + 3) (by omega)
  have h3 := (dotF_approx (A := A) hf b hw f g).mono (l := k + 5 * b.length + 3) (by omega)
  rw [mul_comm m, mul_comm a] at h2
  exact (h2.add h3).rnd

/-- One computed update of an entry, for a single row. -/
theorem update_one_approx {forget : ℝ} (hf : forget ≤ 1) (o : Obs p) (ho : 0 ≤ o.w)
    (f g : Obs p → ℝ) {k : ℕ} {m a v : ℝ} (hv : Approx A k m a v) :
    Approx A (k + 9) ((1 - forget) * m + |o.w * f o * g o|) ((1 - forget) * a + o.w * f o * g o)
      (A.rnd (A.rnd (A.rnd (1 - forget) * v) + A.rnd (o.w * A.rnd (f o * g o)))) := by
  have hg : 0 ≤ 1 - forget := by linarith
  have h1 : Approx A 1 (1 - forget) (1 - forget) (A.rnd (1 - forget)) :=
    (Approx.exact A (abs_of_nonneg hg).le).rnd
  have h2 := (h1.mul hv).rnd.mono (l := k + 8) (by omega)
  have h3 := ((Approx.exact A (abs_of_nonneg ho).le).mul ((Approx.self A (f o * g o)).rnd)).rnd.mono (l := k + 8) (by omega)
  have e : o.w * |f o * g o| = |o.w * f o * g o| := by rw [mul_assoc, abs_mul o.w, abs_of_nonneg ho]
  rw [e, ← mul_assoc] at h3
  exact (h2.add h3).rnd

end Ondil
