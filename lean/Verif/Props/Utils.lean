import Verif.Model.Utils
import Verif.Spec.Moments
import Verif.Lemmas.Discount
import Mathlib.Tactic.FieldSimp
import Mathlib.Tactic.NormNum

/-!
# Properties C17, C18: training length and online mean (`src/ondil/utils.py`)
-/

open scoped BigOperators

namespace Ondil

/-! ## C17 Effective training length is the total discount weight -/

/-- **C17.** The effective training length of `n` observations is the sum of their `n` discount
weights. -/
theorem C17_sum_of_weights (forget : ℝ) (n : ℕ) :
    effectiveTrainingLength forget n = ∑ i ∈ Finset.range n, (1 - forget) ^ (n - 1 - i) := by
  rw [Finset.sum_range_reflect (fun i => (1 - forget) ^ i) n]
  unfold effectiveTrainingLength
  rw [Real.rpow_natCast]
  split_ifs with h
  · simp [h]
  · induction n with
    | zero => simp
    | succ n ih =>
      rw [Finset.sum_range_succ, ← ih]
      field_simp
      ring

/-- **C17.** Without forgetting the effective training length is the number of observations. -/
theorem C17_no_forget (n : ℕ) : effectiveTrainingLength 0 n = n := by
  simp [effectiveTrainingLength]

/-- **C17.** With forgetting it is below the asymptotic length `1/forget`. -/
theorem C17_below_asymptotic {forget : ℝ} (h0 : 0 < forget) (h1 : forget < 1) (n : ℕ) :
    effectiveTrainingLength forget n < asymptoticTrainingLength forget ∧
    asymptoticTrainingLength forget = 1 / forget := by
  unfold effectiveTrainingLength asymptoticTrainingLength
  rw [if_neg h0.ne', if_neg h0.ne', Real.rpow_natCast]
  refine ⟨?_, rfl⟩
  rw [div_lt_div_iff_of_pos_right h0]
  have : 0 < (1 - forget) ^ n := pow_pos (by linarith) _
  linarith

/-- **C17.** It is strictly increasing in the number of observations, for every `forget < 1`. -/
theorem C17_strictMono {forget : ℝ} (h1 : forget < 1) :
    StrictMono fun n : ℕ => effectiveTrainingLength forget n := by
  refine strictMono_nat_of_lt_succ fun n => ?_
  have e : ∀ n : ℕ, effectiveTrainingLength forget n = ∑ i ∈ Finset.range n, (1 - forget) ^ i := by
    intro n
    rw [C17_sum_of_weights, Finset.sum_range_reflect (fun i => (1 - forget) ^ i) n]
  have : effectiveTrainingLength forget ((n + 1 : ℕ) : ℝ) =
      effectiveTrainingLength forget n + (1 - forget) ^ n := by
    rw [e, e, Finset.sum_range_succ]
  rw [this]
  have : 0 < (1 - forget) ^ n := pow_pos (by linarith) _
  linarith

/-- **C17.** It is at most the number of observations, for `0 ≤ forget ≤ 1`. -/
theorem C17_le_count {forget : ℝ} (h0 : 0 ≤ forget) (h1 : forget ≤ 1) (n : ℕ) :
    effectiveTrainingLength forget n ≤ n := by
  rw [C17_sum_of_weights]
  calc ∑ i ∈ Finset.range n, (1 - forget) ^ (n - 1 - i) ≤ ∑ _i ∈ Finset.range n, (1:ℝ) :=
        Finset.sum_le_sum fun i _ => pow_le_one₀ (by linarith) (by linarith)
    _ = n := by simp

/-- Non-vacuity of C17. -/
example : effectiveTrainingLength (1/2) (3 : ℕ) = 7/4 := by
  rw [C17_sum_of_weights]; norm_num [Finset.sum_range_succ]

/-! ## C18 Online mean update keeps the exponentially weighted mean -/

theorem effLen_eq_discSum {α : Type*} (forget : ℝ) (v : List α) :
    effectiveTrainingLength forget v.length = discSum forget v (fun _ => 1) := by
  rw [C17_sum_of_weights, Finset.sum_range]
  simp [discSum]

theorem onlineMeanStep_discMean {forget : ℝ} (h0 : 0 ≤ forget) (h1 : forget < 1) (v : List ℝ)
    (a : ℝ) (avg : ℝ) (havg : v = [] ∨ avg = discMean forget v) :
    onlineMeanStep avg a forget ((v ++ [a]).length : ℕ) = discMean forget (v ++ [a]) := by
  have hpos : 0 < discSum forget (v ++ [a]) (fun _ => (1:ℝ)) :=
    discSum_pos h1 _ (by simp) (fun _ _ => one_pos)
  have hstep : onlineMeanStep avg a forget ((v ++ [a]).length : ℕ) =
      avg + (a - avg) / discSum forget (v ++ [a]) (fun _ => (1:ℝ)) := by
    unfold onlineMeanStep
    simp only
    rw [effLen_eq_discSum]
    rcases h0.eq_or_lt with h | h
    · subst h
      rw [zero_mul, if_neg (lt_irrefl _), discSum_forget_zero]
      simp
    · have hle : discSum forget (v ++ [a]) (fun _ => (1:ℝ)) ≤ 1 / forget := by
        have := (C17_below_asymptotic h h1 (v ++ [a]).length)
        rw [this.2, effLen_eq_discSum] at this
        exact this.1.le
      rw [show asymptoticTrainingLength forget = 1 / forget from if_neg h.ne']
      have hmax : max (1 / forget / discSum forget (v ++ [a]) (fun _ => (1:ℝ))) 1 =
          1 / forget / discSum forget (v ++ [a]) (fun _ => (1:ℝ)) := by
        apply max_eq_left
        rw [le_div_iff₀ hpos]
        linarith
      rw [hmax]
      have : forget * (1 / forget / discSum forget (v ++ [a]) (fun _ => (1:ℝ))) =
          1 / discSum forget (v ++ [a]) (fun _ => (1:ℝ)) := by
        field_simp
      rw [this, if_pos (by positivity)]
      ring
  rw [hstep]
  unfold discMean
  rw [eq_div_iff hpos.ne', add_mul, div_mul_cancel₀ _ hpos.ne']
  rw [discSum_snoc, discSum_snoc]
  rcases havg with rfl | havg
  · simp
  · by_cases hv : v = []
    · subst hv; simp
    · have hvpos : 0 < discSum forget v (fun _ => (1:ℝ)) := discSum_pos h1 _ hv (fun _ _ => one_pos)
      have : avg * discSum forget v (fun _ => (1:ℝ)) = discSum forget v (fun x => x) := by
        rw [havg, discMean, div_mul_cancel₀ _ hvpos.ne']
      linear_combination (1 - forget) * this

theorem onlineMeanLoop_discMean {forget : ℝ} (h0 : 0 ≤ forget) (h1 : forget < 1) (b v : List ℝ)
    (avg : ℝ) (havg : v = [] ∨ avg = discMean forget v) (hne : v ≠ [] ∨ b ≠ []) :
    onlineMeanLoop forget ((v ++ b).length : ℕ) avg b = discMean forget (v ++ b) := by
  induction b generalizing v avg with
  | nil =>
    rcases hne with h | h
    · rcases havg with h' | h'
      · exact absurd h' h
      · simpa [onlineMeanLoop] using h'
    · exact absurd rfl h
  | cons a b ih =>
    rw [onlineMeanLoop]
    have hcast : (((v ++ a :: b).length : ℕ) : ℝ) - ((b.length : ℕ) : ℝ) = ((v ++ [a]).length : ℕ) := by
      push_cast [List.length_append, List.length_cons, List.length_nil]
      ring
    rw [hcast, onlineMeanStep_discMean h0 h1 v a avg havg]
    have := ih (v ++ [a]) (discMean forget (v ++ [a])) (.inr rfl) (.inl (by simp))
    simpa using this

/-- **C18.** Folding an array `b` into the mean of `v` (any previous value when `v` is empty), with
`n_seen` counting all values including the new ones, gives the discounted mean of all values. -/
theorem C18_array {forget : ℝ} (h0 : 0 ≤ forget) (h1 : forget < 1) (v b : List ℝ) (hb : b ≠ [])
    (avg : ℝ) (havg : v = [] ∨ avg = discMean forget v) :
    onlineMeanUpdate avg (.array b) forget ((v ++ b).length : ℕ) = discMean forget (v ++ b) :=
  onlineMeanLoop_discMean h0 h1 b v avg havg (.inr hb)

/-- **C18.** The same for a single value. -/
theorem C18_scalar {forget : ℝ} (h0 : 0 ≤ forget) (h1 : forget < 1) (v : List ℝ) (a : ℝ)
    (avg : ℝ) (havg : v = [] ∨ avg = discMean forget v) :
    onlineMeanUpdate avg (.scalar a) forget ((v ++ [a]).length : ℕ) = discMean forget (v ++ [a]) :=
  onlineMeanStep_discMean h0 h1 v a avg havg

/-- The average after feeding a sequence of arrays, counting `n_seen` along the way. -/
noncomputable def feedMean (forget : ℝ) : ℝ → ℕ → List (List ℝ) → ℝ
  | avg, _, [] => avg
  | avg, n, b :: bs =>
    feedMean forget (onlineMeanUpdate avg (.array b) forget ((n + b.length : ℕ) : ℝ)) (n + b.length) bs

/-- **C18.** For every chunking of a stream into non-empty arrays the final average is the discounted
mean of the stream, whatever the initial average. -/
theorem C18_chunking {forget : ℝ} (h0 : 0 ≤ forget) (h1 : forget < 1) (bs : List (List ℝ))
    (hne : ∀ b ∈ bs, b ≠ []) (hbs : bs ≠ []) (avg : ℝ) :
    feedMean forget avg 0 bs = discMean forget bs.flatten := by
  have gen : ∀ (bs : List (List ℝ)) (v : List ℝ) (avg : ℝ), (∀ b ∈ bs, b ≠ []) →
      (v = [] ∨ avg = discMean forget v) → (v ≠ [] ∨ bs ≠ []) →
      feedMean forget avg v.length bs = discMean forget (v ++ bs.flatten) := by
    intro bs
    induction bs with
    | nil =>
      intro v avg _ h2 h3
      rcases h3 with h | h
      · rcases h2 with h' | h'
        · exact absurd h' h
        · simpa [feedMean] using h'
      · exact absurd rfl h
    | cons b bs ih =>
      intro v avg h1' h2 h3
      rw [feedMean]
      have hb := h1' b (by simp)
      have e := C18_array h0 h1 v b hb avg h2
      rw [← List.length_append, e]
      have := ih (v ++ b) (discMean forget (v ++ b)) (fun c hc => h1' c (by simp [hc])) (.inr rfl)
        (.inl (by simp [hb]))
      simpa using this
  simpa using gen bs [] avg hne (.inl rfl) (.inr hbs)

/-- Non-vacuity of C18: three values in two arrays. -/
example : feedMean (1/2) 17 0 [[1], [2, 4]] = 3 := by
  rw [C18_chunking (by norm_num) (by norm_num) _ (by simp) (by simp)]
  norm_num [discMean, discSum_cons]

end Ondil
