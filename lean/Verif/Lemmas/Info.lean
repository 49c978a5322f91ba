import Verif.Lemmas.LogDensity

/-! Signs of the working information `dl2_dp2`. -/

namespace Ondil
namespace Dist

theorem gammaInfo_scale_neg {σ : ℝ} (hσ : 0 < σ) : 4 / σ ^ 4 - 4 / σ ^ 6 * trigamma (1 / σ ^ 2) < 0 := by
  have h := inv_lt_trigamma (x := 1 / σ ^ 2) (by positivity)
  rw [one_div_one_div] at h
  have h6 : 0 < 4 / σ ^ 6 := by positivity
  have e : 4 / σ ^ 4 = 4 / σ ^ 6 * σ ^ 2 := by field_simp
  rw [e]
  have := mul_lt_mul_of_pos_left h h6
  linarith

theorem inverseGamma_scale_pos {σ : ℝ} (hσ : 0 < σ) :
    σ ^ 2 * (1 + 2 * σ ^ 2) / (1 + σ ^ 2) ^ 2 < trigamma (1 / σ ^ 2) := by
  have hx : (0 : ℝ) < 1 / σ ^ 2 := by positivity
  have h := trigamma_add_one hx
  have h2 := inv_lt_trigamma (x := 1 / σ ^ 2 + 1) (by positivity)
  rw [h]
  have e : σ ^ 2 * (1 + 2 * σ ^ 2) / (1 + σ ^ 2) ^ 2 =
      1 / (1 / σ ^ 2 + 1) + (1 / (1 / σ ^ 2 + 1)) ^ 2 := by
    field_simp
    ring
  have h3 : (1 / (1 / σ ^ 2 + 1)) ^ 2 < 1 / (1 / σ ^ 2) ^ 2 := by
    rw [div_pow, one_pow]
    apply one_div_lt_one_div_of_lt (by positivity)
    have : (1 / σ ^ 2) < 1 / σ ^ 2 + 1 := by linarith
    gcongr
  rw [e]
  linarith

theorem betaInfo_loc_neg {μ σ : ℝ} (hμ : 0 < μ) (hμ1 : μ < 1) (hσ : 0 < σ) (hσ1 : σ < 1) :
    -((1 - σ ^ 2) ^ 2 / σ ^ 4) * (trigamma (betaA μ σ) + trigamma (betaB μ σ)) < 0 := by
  have h1 := trigamma_pos (betaA_pos hμ hσ hσ1)
  have h2 := trigamma_pos (betaB_pos hμ1 hσ hσ1)
  have h3 : 0 < 1 - σ ^ 2 := by nlinarith
  have h4 : 0 < (1 - σ ^ 2) ^ 2 / σ ^ 4 := by positivity
  have := mul_pos h4 (add_pos h1 h2)
  linarith

theorem betaInfo_scale_neg {μ σ : ℝ} (hμ : 0 < μ) (hμ1 : μ < 1) (hσ : 0 < σ) (hσ1 : σ < 1) :
    -(4 / σ ^ 6) * (μ ^ 2 * trigamma (betaA μ σ) + (1 - μ) ^ 2 * trigamma (betaB μ σ)
      - trigamma (betaA μ σ + betaB μ σ)) < 0 := by
  have h := sq_mul_trigamma_subadd (betaA_pos hμ hσ hσ1) (betaB_pos hμ1 hσ hσ1)
  have h3 : 0 < 1 - σ ^ 2 := by nlinarith
  have hr : 0 < ((1 - σ ^ 2) / σ ^ 2) ^ 2 := by positivity
  have hs := betaA_add_betaB μ σ
  generalize trigamma (betaA μ σ + betaB μ σ) = t at *
  rw [hs] at h
  have ea : betaA μ σ ^ 2 = ((1 - σ ^ 2) / σ ^ 2) ^ 2 * μ ^ 2 := by unfold betaA; ring
  have eb : betaB μ σ ^ 2 = ((1 - σ ^ 2) / σ ^ 2) ^ 2 * (1 - μ) ^ 2 := by unfold betaB; ring
  rw [ea, eb] at h
  have key : 0 < μ ^ 2 * trigamma (betaA μ σ) + (1 - μ) ^ 2 * trigamma (betaB μ σ) - t := by
    by_contra hn
    push Not at hn
    have := mul_le_mul_of_nonneg_left hn hr.le
    nlinarith
  have h6 : 0 < 4 / σ ^ 6 := by positivity
  have := mul_pos h6 key
  linarith

theorem dl2_neg (d : Dist) (y : ℝ) (θ : ℕ → ℝ) (hθ : d.Admissible θ) (k : ℕ) (hk : k < d.nParams)
    (hdeg : ¬ d.Degenerate y k) : ∃ v, d.dl2 y θ k = .ok (some v) ∧ v < 0 := by
  have div_neg' : ∀ {a b : ℝ}, a < 0 → 0 < b → a / b < 0 := fun ha hb => div_neg_of_neg_of_pos ha hb
  cases d with
  | normal =>
    have hk' : k < 2 := hk
    have hs : 0 < θ 1 := hθ
    interval_cases k
    · exact ⟨_, checked_ok 2 _ 0 (by norm_num) rfl, neg_lt_zero.mpr (by positivity)⟩
    · exact ⟨_, checked_ok 2 _ 1 (by norm_num) rfl, neg_lt_zero.mpr (by positivity)⟩
  | normalMeanVariance =>
    have hk' : k < 2 := hk
    have hs : 0 < θ 1 := hθ
    interval_cases k
    · exact ⟨_, checked_ok 2 _ 0 (by norm_num) rfl, neg_lt_zero.mpr (by positivity)⟩
    · exact ⟨_, checked_ok 2 _ 1 (by norm_num) rfl, neg_lt_zero.mpr (by positivity)⟩
  | studentT =>
    have hk' : k < 3 := hk
    obtain ⟨hs, hν⟩ := hθ
    interval_cases k
    · exact ⟨_, checked_ok 3 _ 0 (by norm_num) rfl, div_neg' (by linarith) (by positivity)⟩
    · exact ⟨_, checked_ok 3 _ 1 (by norm_num) rfl, div_neg' (by linarith) (by positivity)⟩
    · exact ⟨_, checked_ok 3 _ 2 (by norm_num) rfl, lt_of_le_of_lt (min_le_right _ _) (by norm_num)⟩
  | jsu _ => exact absurd trivial hdeg
  | gamma =>
    have hk' : k < 2 := hk
    obtain ⟨hμ, hσ⟩ := hθ
    interval_cases k
    · exact ⟨_, checked_ok 2 _ 0 (by norm_num) rfl, div_neg' (by norm_num) (by positivity)⟩
    · exact ⟨_, checked_ok 2 _ 1 (by norm_num) rfl, gammaInfo_scale_neg hσ⟩
  | beta =>
    have hk' : k < 2 := hk
    obtain ⟨⟨hμ, hμ1⟩, hσ, hσ1⟩ := hθ
    interval_cases k
    · exact ⟨_, checked_ok 2 _ 0 (by norm_num) rfl, betaInfo_loc_neg hμ hμ1 hσ hσ1⟩
    · exact ⟨_, checked_ok 2 _ 1 (by norm_num) rfl, betaInfo_scale_neg hμ hμ1 hσ hσ1⟩
  | logNormal =>
    have hk' : k < 2 := hk
    have hs : 0 < θ 1 := hθ
    interval_cases k
    · exact ⟨_, checked_ok 2 _ 0 (by norm_num) rfl, div_neg' (by norm_num) (by positivity)⟩
    · exact ⟨_, checked_ok 2 _ 1 (by norm_num) rfl, div_neg' (by norm_num) (by positivity)⟩
  | logNormalMedian =>
    have hk' : k < 2 := hk
    obtain ⟨hμ, hσ⟩ := hθ
    interval_cases k
    · exact ⟨_, checked_ok 2 _ 0 (by norm_num) rfl, div_neg' (by norm_num) (by positivity)⟩
    · exact ⟨_, checked_ok 2 _ 1 (by norm_num) rfl, div_neg' (by norm_num) (by positivity)⟩
  | logistic =>
    have hk' : k < 2 := hk
    have hs : 0 < θ 1 := hθ
    interval_cases k
    · exact ⟨_, checked_ok 2 _ 0 (by norm_num) rfl, div_neg' (by norm_num) (by positivity)⟩
    · refine ⟨_, checked_ok 2 _ 1 (by norm_num) rfl, ?_⟩
      rw [neg_mul]
      exact neg_lt_zero.mpr (by positivity)
  | gumbel =>
    have hk' : k < 2 := hk
    have hs : 0 < θ 1 := hθ
    interval_cases k
    · exact ⟨_, by unfold dl2; exact orRaise_ok _ 0 rfl, div_neg' (by norm_num) (by positivity)⟩
    · exact ⟨_, by unfold dl2; exact orRaise_ok _ 1 rfl, div_neg' (by norm_num) (by positivity)⟩
  | reverseGumbel =>
    have hk' : k < 2 := hk
    have hs : 0 < θ 1 := hθ
    interval_cases k
    · exact ⟨_, checked_ok 2 _ 0 (by norm_num) rfl, div_neg' (by norm_num) (by positivity)⟩
    · exact ⟨_, checked_ok 2 _ 1 (by norm_num) rfl, div_neg' (by norm_num) (by positivity)⟩
  | exponential =>
    have hk' : k < 1 := hk
    have hs : 0 < θ 0 := hθ
    interval_cases k
    exact ⟨_, rfl, div_neg' (by norm_num) (by positivity)⟩
  | inverseGamma =>
    have hk' : k < 2 := hk
    obtain ⟨hμ, hσ⟩ := hθ
    have hv : validateIndex 2 (k : ℤ) = .ok () := if_neg (by omega)
    unfold dl2
    simp only [hv, Except.bind]
    interval_cases k
    · exact ⟨_, orRaise_ok _ 0 rfl, div_neg' (by norm_num) (by positivity)⟩
    · refine ⟨_, orRaise_ok _ 1 rfl, div_neg' ?_ (by positivity)⟩
      have := inverseGamma_scale_pos hσ
      linarith
  | inverseGaussian =>
    have hk' : k < 2 := hk
    obtain ⟨hμ, hσ⟩ := hθ
    interval_cases k
    · exact ⟨_, by unfold dl2; exact orRaise_ok _ 0 rfl, div_neg' (by norm_num) (by positivity)⟩
    · exact ⟨_, by unfold dl2; exact orRaise_ok _ 1 rfl, div_neg' (by norm_num) (by positivity)⟩
  | betaInflated =>
    have hk' : k < 4 := hk
    obtain ⟨⟨hμ, hμ1⟩, ⟨hσ, hσ1⟩, hν, hτ⟩ := hθ
    interval_cases k
    · have hy : ¬ (y = 0 ∨ y = 1) := fun h => hdeg ⟨h, by norm_num⟩
      refine ⟨_, checked_ok 4 _ 0 (by norm_num) rfl, ?_⟩
      beta_reduce
      rw [if_neg hy]
      exact betaInfo_loc_neg hμ hμ1 hσ hσ1
    · have hy : ¬ (y = 0 ∨ y = 1) := fun h => hdeg ⟨h, by norm_num⟩
      refine ⟨_, checked_ok 4 _ 1 (by norm_num) rfl, ?_⟩
      beta_reduce
      rw [if_neg hy]
      exact betaInfo_scale_neg hμ hμ1 hσ hσ1
    · exact ⟨_, checked_ok 4 _ 2 (by norm_num) rfl, div_neg' (by linarith) (by positivity)⟩
    · exact ⟨_, checked_ok 4 _ 3 (by norm_num) rfl, div_neg' (by linarith) (by positivity)⟩
  | betaInflatedZero =>
    have hk' : k < 3 := hk
    obtain ⟨⟨hμ, hμ1⟩, ⟨hσ, hσ1⟩, hν⟩ := hθ
    interval_cases k
    · have hy : ¬ y = 0 := fun h => hdeg ⟨h, by norm_num⟩
      refine ⟨_, checked_ok 3 _ 0 (by norm_num) rfl, ?_⟩
      beta_reduce
      rw [if_neg hy]
      exact betaInfo_loc_neg hμ hμ1 hσ hσ1
    · have hy : ¬ y = 0 := fun h => hdeg ⟨h, by norm_num⟩
      refine ⟨_, checked_ok 3 _ 1 (by norm_num) rfl, ?_⟩
      beta_reduce
      rw [if_neg hy]
      exact betaInfo_scale_neg hμ hμ1 hσ hσ1
    · exact ⟨_, checked_ok 3 _ 2 (by norm_num) rfl, div_neg' (by linarith) (by positivity)⟩
  | zeroAdjustedGamma =>
    have hk' : k < 3 := hk
    obtain ⟨⟨hμ, hσ⟩, hν, hν1⟩ := hθ
    have h1 : 0 < 1 - θ 2 := by linarith
    interval_cases k
    · have hy : ¬ y = 0 := fun h => hdeg ⟨h, by norm_num⟩
      refine ⟨_, checked_ok 3 _ 0 (by norm_num) rfl, ?_⟩
      beta_reduce
      rw [if_neg hy]
      exact div_neg' (by norm_num) (by positivity)
    · have hy : ¬ y = 0 := fun h => hdeg ⟨h, by norm_num⟩
      refine ⟨_, checked_ok 3 _ 1 (by norm_num) rfl, ?_⟩
      beta_reduce
      rw [if_neg hy]
      exact gammaInfo_scale_neg hσ
    · exact ⟨_, checked_ok 3 _ 2 (by norm_num) rfl, div_neg' (by norm_num) (by positivity)⟩

end Dist
end Ondil
