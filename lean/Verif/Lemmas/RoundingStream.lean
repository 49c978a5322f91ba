import Verif.Lemmas.Rounding
import Verif.Spec.ElasticNet

/-! # Helper lemmas: rounding along a stream of updates -/

open scoped BigOperators Matrix

namespace Ondil

variable {p : ℕ} {A : FloatArith}

theorem initGramF_approx {forget : ℝ} (hf : forget ≤ 1) (h : List (Obs p)) (hw : NonnegWeights h) (a c : Fin p) :
    Approx A (5 * h.length + 3) (discSum forget h fun o => |o.w * o.x a * o.x c|)
      (discSum forget h fun o => o.w * o.x a * o.x c) (initGramF A (xs h) (ws h) forget a c) := by
  have := dotF_approx (A := A) hf h hw (fun o => o.x a) fun o => o.x c
  simpa [initGramF, dotF, crossTerms, xs, Function.comp_def] using this

theorem initYGramF_approx {forget : ℝ} (hf : forget ≤ 1) (h : List (Obs p)) (hw : NonnegWeights h) (a : Fin p) :
    Approx A (5 * h.length + 3) (discSum forget h fun o => |o.w * o.x a * o.y|)
      (discSum forget h fun o => o.w * o.x a * o.y) (initYGramF A (xs h) (ys h) (ws h) forget a) := by
  have := dotF_approx (A := A) hf h hw (fun o => o.x a) fun o => o.y
  simpa [initYGramF, dotF, crossTerms, xs, ys, Function.comp_def] using this

theorem updateGramF_batch (G : Matrix (Fin p) (Fin p) ℝ) (forget : ℝ) (o o' : Obs p) (b : List (Obs p)) (a c : Fin p) :
    updateGramF A G (xs (o :: o' :: b)) forget (ws (o :: o' :: b)) a c =
      A.rnd (A.rnd (G a c * A.pow (A.rnd (1 - forget)) (o :: o' :: b).length) +
        A.sum (crossTerms A forget (o :: o' :: b) (fun o => o.x a) fun o => o.x c)) := by
  have e : (xs (o :: o' :: b)).length = (o :: o' :: b).length := List.length_map _
  have e' : ∀ j : Fin p, (xs (o :: o' :: b)).map (fun x => x j) = (o :: o' :: b).map fun o => o.x j := fun j => by
    rw [xs, List.map_map]; rfl
  rw [crossTerms, ← e, ← e', ← e']
  rfl

theorem updateYGramF_batch (G : Row p) (forget : ℝ) (o o' : Obs p) (b : List (Obs p)) (a : Fin p) :
    updateYGramF A G (xs (o :: o' :: b)) (ys (o :: o' :: b)) forget (ws (o :: o' :: b)) a =
      A.rnd (A.rnd (G a * A.pow (A.rnd (1 - forget)) (o :: o' :: b).length) +
        A.sum (crossTerms A forget (o :: o' :: b) (fun o => o.x a) fun o => o.y)) := by
  have e : (xs (o :: o' :: b)).length = (o :: o' :: b).length := List.length_map _
  have e' : ∀ j : Fin p, (xs (o :: o' :: b)).map (fun x => x j) = (o :: o' :: b).map fun o => o.x j := fun j => by
    rw [xs, List.map_map]; rfl
  rw [crossTerms, ← e, ← e']
  rfl

theorem updateGramF_approx {forget : ℝ} (hf : forget ≤ 1) (b : List (Obs p)) (hne : b ≠ []) (hw : NonnegWeights b)
    (G : Matrix (Fin p) (Fin p) ℝ) (a c : Fin p) {k : ℕ} {m v : ℝ} (hv : Approx A k m v (G a c)) :
    Approx A (k + 5 * b.length + 4) ((1 - forget) ^ b.length * m + discSum forget b fun o => |o.w * o.x a * o.x c|)
      ((1 - forget) ^ b.length * v + discSum forget b fun o => o.w * o.x a * o.x c)
      (updateGramF A G (xs b) forget (ws b) a c) := by
  match b, hne with
  | [o], _ =>
    have h1 := (update_one_approx (A := A) hf o (hw o (by simp)) (fun o => o.x a) (fun o => o.x c) hv).mono
      (l := k + 5 * [o].length + 4) (by simp)
    rw [discSum_singleton, discSum_singleton, List.length_singleton, pow_one]
    exact h1
  | o :: o' :: b, _ =>
    have := update_approx (A := A) hf (o :: o' :: b) hw (fun o => o.x a) (fun o => o.x c) hv
    rw [updateGramF_batch]
    exact this

theorem updateYGramF_approx {forget : ℝ} (hf : forget ≤ 1) (b : List (Obs p)) (hne : b ≠ []) (hw : NonnegWeights b)
    (G : Row p) (a : Fin p) {k : ℕ} {m v : ℝ} (hv : Approx A k m v (G a)) :
    Approx A (k + 5 * b.length + 4) ((1 - forget) ^ b.length * m + discSum forget b fun o => |o.w * o.x a * o.y|)
      ((1 - forget) ^ b.length * v + discSum forget b fun o => o.w * o.x a * o.y)
      (updateYGramF A G (xs b) (ys b) forget (ws b) a) := by
  match b, hne with
  | [o], _ =>
    have h1 := (update_one_approx (A := A) hf o (hw o (by simp)) (fun o => o.x a) (fun o => o.y) hv).mono
      (l := k + 5 * [o].length + 4) (by simp)
    rw [discSum_singleton, discSum_singleton, List.length_singleton, pow_one]
    exact h1
  | o :: o' :: b, _ =>
    have := update_approx (A := A) hf (o :: o' :: b) hw (fun o => o.x a) (fun o => o.y) hv
    rw [updateYGramF_batch]
    exact this

/-- A state that approximates a discounted sum after every update approximates it along a whole stream. -/
theorem stream_growth {S : Type*} {forget : ℝ} (g : Obs p → ℝ) (entry : S → ℝ) (upd : S → List (Obs p) → S)
    (hupd : ∀ (b : List (Obs p)) (s : S) (k : ℕ) (m v : ℝ), b ≠ [] → NonnegWeights b → Approx A k m v (entry s) →
      Approx A (k + 5 * b.length + 4) ((1 - forget) ^ b.length * m + discSum forget b fun o => |g o|)
        ((1 - forget) ^ b.length * v + discSum forget b g) (entry (upd s b)))
    (batches : List (List (Obs p))) (hne : ∀ b ∈ batches, b ≠ []) (hw : ∀ b ∈ batches, NonnegWeights b)
    (h : List (Obs p)) (s : S) (k : ℕ)
    (h0 : Approx A k (discSum forget h fun o => |g o|) (discSum forget h g) (entry s)) :
    Approx A (k + 5 * batches.flatten.length + 4 * batches.length)
      (discSum forget (h ++ batches.flatten) fun o => |g o|) (discSum forget (h ++ batches.flatten) g)
      (entry (batches.foldl upd s)) := by
  induction batches generalizing h s k with
  | nil => simpa using h0
  | cons b l ih =>
    have h1 := hupd b s k _ _ (hne b (by simp)) (hw b (by simp)) h0
    rw [← discSum_append, ← discSum_append] at h1
    have h2 := ih (fun b' hb' => hne b' (by simp [hb'])) (fun b' hb' => hw b' (by simp [hb'])) (h ++ b) (upd s b) _ h1
    rw [List.append_assoc] at h2
    simp only [List.flatten_cons, List.foldl_cons, List.length_append, List.length_cons]
    exact h2.mono (by omega)

/-- With a positive forget the error of a state along a stream obeys a contraction. -/
theorem stream_bounded {S : Type*} {forget : ℝ} (hf0 : 0 < forget) (hf : forget ≤ 1) (g : Obs p → ℝ) (entry : S → ℝ)
    (upd : S → List (Obs p) → S)
    (hupd : ∀ (b : List (Obs p)) (s : S) (k : ℕ) (m v : ℝ), b ≠ [] → NonnegWeights b → Approx A k m v (entry s) →
      Approx A (k + 5 * b.length + 4) ((1 - forget) ^ b.length * m + discSum forget b fun o => |g o|)
        ((1 - forget) ^ b.length * v + discSum forget b g) (entry (upd s b)))
    {B : ℕ} {R eta : ℝ} (hR : 0 ≤ R) (heta : eta = (1 + A.u) ^ (5 * B + 4) - 1) (hq : (1 - forget) * (1 + eta) < 1)
    (batches : List (List (Obs p))) (hne : ∀ b ∈ batches, b ≠ []) (hB : ∀ b ∈ batches, b.length ≤ B)
    (hw : ∀ b ∈ batches, NonnegWeights b) (hgR : ∀ b ∈ batches, ∀ o ∈ b, |g o| ≤ R)
    (h : List (Obs p)) (hhR : ∀ o ∈ h, |g o| ≤ R) (s : S) :
    |entry (batches.foldl upd s) - discSum forget (h ++ batches.flatten) g| ≤
      ((1 - forget) * (1 + eta)) ^ batches.length * |entry s - discSum forget h g| +
        eta * (R / forget) * (1 - ((1 - forget) * (1 + eta)) ^ batches.length) / (1 - (1 - forget) * (1 + eta)) := by
  have heta0 : 0 ≤ eta := by rw [heta]; linarith [Approx.one_le A (5 * B + 4)]
  have hg0 : 0 ≤ 1 - forget := by linarith
  have hM0 : 0 ≤ R / forget := by positivity
  set q := (1 - forget) * (1 + eta) with hqdef
  have hq0 : 0 ≤ q := by positivity
  have hq1 : 0 < 1 - q := by linarith
  induction batches generalizing h s with
  | nil =>
    simp
  | cons b l ih =>
    have hbne := hne b (by simp)
    have hb1 : 1 ≤ b.length := List.length_pos_iff.2 hbne
    have hbB := hB b (by simp)
    have hhbR : ∀ o ∈ h ++ b, |g o| ≤ R := fun o ho => by
      rcases List.mem_append.1 ho with ho | ho
      · exact hhR o ho
      · exact hgR b (by simp) o ho
    -- one step
    have h1 := (hupd b s 0 _ _ hbne (hw b (by simp)) (Approx.self A (entry s))).mono (l := 5 * B + 4) (by omega)
    have h2 := h1.error
    rw [← heta] at h2
    set v := entry s
    set t := discSum forget h g with ht
    have hgm0 : 0 ≤ (1 - forget) ^ b.length := pow_nonneg hg0 _
    have hgm : (1 - forget) ^ b.length ≤ 1 - forget := by
      have := pow_le_pow_of_le_one hg0 (by linarith) hb1
      simpa using this
    have hS : (1 - forget) ^ b.length * (discSum forget h fun o => |g o|) + (discSum forget b fun o => |g o|) ≤ R / forget := by
      rw [← discSum_append]
      exact (le_abs_self _).trans (abs_discSum_le hf0 hf _ (fun o ho => by rw [abs_abs]; exact hhbR o ho) hR)
    have htS : |t| ≤ discSum forget h fun o => |g o| := by
      have : ∀ l : List (Obs p), |discSum forget l g| ≤ discSum forget l fun o => |g o| := by
        intro l
        induction l with
        | nil => simp
        | cons o l ihl =>
          rw [discSum_cons, discSum_cons]
          refine (abs_add_le _ _).trans (add_le_add ?_ ihl)
          rw [abs_mul, abs_of_nonneg (pow_nonneg hg0 _)]
      exact this h
    have hvt : |v| ≤ |v - t| + discSum forget h fun o => |g o| := by
      have := abs_add_le (v - t) t
      rw [sub_add_cancel] at this
      linarith
    have step : |entry (upd s b) - discSum forget (h ++ b) g| ≤ q * |v - t| + eta * (R / forget) := by
      rw [discSum_append]
      have h3 := abs_sub_le (entry (upd s b)) ((1 - forget) ^ b.length * v + discSum forget b g)
        ((1 - forget) ^ b.length * t + discSum forget b g)
      have h4 : |(1 - forget) ^ b.length * v + discSum forget b g - ((1 - forget) ^ b.length * t + discSum forget b g)| =
          (1 - forget) ^ b.length * |v - t| := by
        rw [add_sub_add_right_eq_sub, ← mul_sub, abs_mul, abs_of_nonneg hgm0]
      rw [h4] at h3
      have h5 : (1 - forget) ^ b.length * |v| + (discSum forget b fun o => |g o|) ≤
          (1 - forget) ^ b.length * |v - t| + R / forget := by
        have := mul_le_mul_of_nonneg_left hvt hgm0
        linarith
      have h6 := mul_le_mul_of_nonneg_left h5 heta0
      have h7 : (1 - forget) ^ b.length * ((1 + eta) * |v - t|) ≤ (1 - forget) * ((1 + eta) * |v - t|) :=
        mul_le_mul_of_nonneg_right hgm (by positivity)
      have e1 : q * |v - t| = (1 - forget) * ((1 + eta) * |v - t|) := by rw [hqdef]; ring
      linarith
    have h8 := ih (fun b' hb' => hne b' (by simp [hb'])) (fun b' hb' => hB b' (by simp [hb']))
      (fun b' hb' => hw b' (by simp [hb'])) (fun b' hb' => hgR b' (by simp [hb'])) (h ++ b) hhbR (upd s b)
    rw [List.append_assoc] at h8
    simp only [List.flatten_cons, List.foldl_cons, List.length_cons]
    refine h8.trans ?_
    have hqk : 0 ≤ q ^ l.length := pow_nonneg hq0 _
    have h9 := mul_le_mul_of_nonneg_left step hqk
    have e2 : eta * (R / forget) * (1 - q ^ (l.length + 1)) / (1 - q) =
        q ^ l.length * (eta * (R / forget)) + eta * (R / forget) * (1 - q ^ l.length) / (1 - q) := by
      field_simp
      ring
    rw [e2, pow_succ]
    linarith

end Ondil
