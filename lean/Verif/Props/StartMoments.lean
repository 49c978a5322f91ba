import Verif.Props.InitialValues
import Verif.Props.Moments

/-!
# The law described by the initial values (C84)
-/

namespace Ondil
namespace Dist

open MeasureTheory

/-- The standard deviation `np.std(y, ddof=k)` of a sample. -/
noncomputable def std (k : ℕ) (ys : List ℝ) : ℝ := Real.sqrt (ssd ys / ((ys.length - k : ℕ) : ℝ))

/-- The initial values in closed form. -/
noncomputable def startTheta : Dist → List ℝ → ℕ → ℝ
  | normal, ys, i => [mean ys, std 1 ys].getD i 0
  | normalMeanVariance, ys, i => [mean ys, ssd ys / ((ys.length - 1 : ℕ) : ℝ)].getD i 0
  | gamma, ys, i => [mean ys, 1].getD i 0
  | beta, ys, i => [mean ys, 0.5].getD i 0
  | logistic, ys, i => [mean ys, Real.sqrt 3 * std 1 ys / Real.sqrt Real.pi].getD i 0
  | gumbel, ys, i => [mean ys, Real.sqrt 6 * std 0 ys / Real.pi].getD i 0
  | reverseGumbel, ys, i =>
    [mean ys + 0.5772157 * (Real.sqrt 6 * std 0 ys / Real.pi), Real.sqrt 6 * std 0 ys / Real.pi].getD i 0
  | exponential, ys, i => [mean ys].getD i 0
  | inverseGaussian, ys, i => [mean ys, std 0 ys / Real.sqrt (mean ys)].getD i 0
  | inverseGamma, ys, i => [mean ys, std 1 ys / Real.sqrt (mean ys)].getD i 0
  | betaInflated, ys, i => [mean ys, 0.5, 5, 5].getD i 0
  | betaInflatedZero, ys, i => [mean ys, 0.5, mean ys].getD i 0
  | zeroAdjustedGamma, ys, i => [mean ys, 1, 0.5].getD i 0
  | _, _, _ => 0

/-- The classes with initial values in closed form whose mean is a function of the parameters. -/
def ClosedStart : Dist → Prop
  | studentT | jsu _ | logNormal | logNormalMedian => False
  | _ => True

/-- A sample of responses with at least two different values. -/
structure Sample (d : Dist) (ys : List ℝ) : Prop where
  responses : ∀ y ∈ ys, y ∈ d.Responses
  two : ∃ a ∈ ys, ∃ b ∈ ys, a ≠ b

theorem Sample.length {d : Dist} {ys : List ℝ} (h : Sample d ys) : 1 < ys.length := by
  obtain ⟨a, ha, b, hb, hab⟩ := h.two
  by_contra hl
  have h1 : ys.length = 1 := by
    have := List.length_pos_of_mem ha
    omega
  obtain ⟨c, rfl⟩ := List.length_eq_one_iff.mp h1
  simp only [List.mem_singleton] at ha hb
  exact hab (ha.trans hb.symm)

theorem Sample.ne_nil {d : Dist} {ys : List ℝ} (h : Sample d ys) : ys ≠ [] := by
  rintro rfl
  simpa using h.length

theorem Sample.ssd_pos {d : Dist} {ys : List ℝ} (h : Sample d ys) : 0 < ssd ys := by
  obtain ⟨a, ha, b, hb, hab⟩ := h.two
  exact Dist.ssd_pos ha hb hab

theorem Sample.std_pos {d : Dist} {ys : List ℝ} (h : Sample d ys) {k : ℕ} (hk : k < 2) : 0 < std k ys := by
  have := h.length
  have hn : 0 < ((ys.length - k : ℕ) : ℝ) := by exact_mod_cast (by omega)
  have := h.ssd_pos
  exact Real.sqrt_pos.mpr (by positivity)

theorem npStd_fin {d : Dist} {ys : List ℝ} (h : Sample d ys) {k : ℕ} (hk : k < 2) :
    npStd k (ys.map Flt.fin) = .fin (std k ys) := by
  have := h.length
  have hn : 0 < ((ys.length - k : ℕ) : ℝ) := by exact_mod_cast (by omega)
  have := h.ssd_pos
  unfold npStd std
  rw [npVar_fin k h.ne_nil (by omega), Flt.sqrt, if_pos (by positivity)]

theorem Sample.mean_pos {d : Dist} {ys : List ℝ} (h : Sample d ys) (h0 : ∀ y ∈ ys, 0 ≤ y) : 0 < mean ys := by
  obtain ⟨a, ha, b, hb, hab⟩ := h.two
  rcases (h0 a ha).lt_or_eq with h' | h'
  · exact mean_gt h0 ha h'
  · exact mean_gt h0 hb (lt_of_le_of_ne (h0 b hb) fun hb' => hab (h'.symm.trans hb'))

theorem initialRow_startTheta (fit : List ℝ → ℕ → Flt) (d : Dist) (hd : d.ClosedStart) (ys : List ℝ) (h : Sample d ys)
    (y : ℝ) : d.initialRow fit ys y = (List.range d.nParams).map (fun i => Flt.fin (d.startTheta ys i)) := by
  have hmean := npMean_fin h.ne_nil
  have hvar := npVar_fin 1 h.ne_nil h.length
  have es1 := npStd_fin h (k := 1) (by norm_num)
  have es0 := npStd_fin h (k := 0) (by norm_num)
  have hpi : 0 < Real.sqrt Real.pi := Real.sqrt_pos.mpr Real.pi_pos
  have div_fin : ∀ u v : ℝ, v ≠ 0 → Flt.div (.fin u) (.fin v) = .fin (u / v) := fun u v hv => if_neg hv
  cases d <;> simp only [ClosedStart] at hd
  case logistic =>
    simp only [initialRow, hmean, es1, Flt.mul, div_fin _ _ hpi.ne']
    simp [startTheta, nParams, List.range_succ]
  case gumbel =>
    simp only [initialRow, hmean, es0, Flt.mul, div_fin _ _ Real.pi_pos.ne']
    simp [startTheta, nParams, List.range_succ]
  case reverseGumbel =>
    simp only [initialRow, hmean, es0, Flt.mul, Flt.add, div_fin _ _ Real.pi_pos.ne']
    simp [startTheta, nParams, List.range_succ]
  case inverseGamma =>
    have hm := h.mean_pos fun y hy => (show 0 < y from h.responses y hy).le
    simp only [initialRow, hmean, es1, Flt.sqrt, if_pos hm.le, div_fin _ _ (Real.sqrt_pos.mpr hm).ne']
    simp [startTheta, nParams, List.range_succ]
  case inverseGaussian =>
    have hm := h.mean_pos fun y hy => (show 0 < y from h.responses y hy).le
    simp only [initialRow, hmean, es0, Flt.sqrt, if_pos hm.le, div_fin _ _ (Real.sqrt_pos.mpr hm).ne']
    simp [startTheta, nParams, List.range_succ]
  all_goals simp [initialRow, startTheta, hmean, hvar, es1, nParams, List.range_succ]

theorem admissible_congr {d : Dist} {θ η : ℕ → ℝ} (h : ∀ k < d.nParams, θ k = η k) (ha : d.Admissible θ) :
    d.Admissible η := by
  cases d <;> simp only [nParams] at h <;> simp only [Admissible] at ha ⊢ <;>
    simpa [h 0, h 1, h 2, h 3] using ha

theorem startTheta_admissible (d : Dist) (hd : d.ClosedStart) (ys : List ℝ) (h : Sample d ys) :
    d.Admissible (d.startTheta ys) := by
  obtain ⟨a, ha, b, hb, hab⟩ := h.two
  obtain ⟨θ, e, hθ⟩ := C53_admissible_partial (fun _ _ => .nan) d (by cases d <;> simp_all [ClosedStart, FittedByScipy]) ys
    h.responses a b ha hb hab a ha
  refine admissible_congr (fun k hk => ?_) hθ
  rw [initialRow_startTheta _ d hd ys h] at e
  have := (List.map_inj_left.mp e) k (List.mem_range.mpr hk)
  exact (Flt.fin.inj this).symm

/-- Mean and variance of the law described by the initial values. -/
noncomputable def startMoments (d : Dist) (ys : List ℝ) : Option (ℝ × ℝ) :=
  let m := mean ys
  let v (k : ℕ) := ssd ys / ((ys.length - k : ℕ) : ℝ)
  match d with
  | normal | normalMeanVariance => some (m, v 1)
  | gamma | exponential => some (m, m ^ 2)
  | beta => some (m, m * (1 - m) / 4)
  | logistic => some (m, Real.pi * v 1)
  | gumbel => some (m - Real.eulerMascheroniConstant * (Real.sqrt 6 * std 0 ys / Real.pi), v 0)
  | reverseGumbel =>
    some (m + (0.5772157 + Real.eulerMascheroniConstant) * (Real.sqrt 6 * std 0 ys / Real.pi), v 0)
  | inverseGaussian => some (m, v 0 * m ^ 2)
  | betaInflated => some ((m + 5) / 11, (m * (1 - m) / 4 + m ^ 2 + 5) / 11 - ((m + 5) / 11) ^ 2)
  | betaInflatedZero => some (m / (1 + m), (m * (1 - m) / 4 + m ^ 2) / (1 + m) - (m / (1 + m)) ^ 2)
  | zeroAdjustedGamma => some (m / 2, 3 / 4 * m ^ 2)
  | _ => none

/-- The law described by the initial values has the moments of the table `startMoments`. -/
theorem C84_start_law (fit : List ℝ → ℕ → Flt) (d : Dist) (ys : List ℝ) (h : Sample d ys) (y m v : ℝ)
    (hm : d.startMoments ys = some (m, v)) :
    ∃ θ : ℕ → ℝ, d.initialRow fit ys y = (List.range d.nParams).map (fun i => Flt.fin (θ i)) ∧ d.Admissible θ ∧
      HasMoments (d.law θ) m v := by
  have hd : d.ClosedStart := by cases d <;> simp_all [startMoments, ClosedStart]
  have hadm := startTheta_admissible d hd ys h
  refine ⟨d.startTheta ys, initialRow_startTheta fit d hd ys h y, hadm, C52_moments d _ hadm m v ?_⟩
  have hl := h.length
  have hs := h.ssd_pos
  have n1 : 0 < ((ys.length - 1 : ℕ) : ℝ) := by exact_mod_cast (by omega)
  have n0 : 0 < ((ys.length - 0 : ℕ) : ℝ) := by exact_mod_cast (by omega)
  have sq1 : std 1 ys ^ 2 = ssd ys / ((ys.length - 1 : ℕ) : ℝ) := Real.sq_sqrt (by positivity)
  have sq0 : std 0 ys ^ 2 = ssd ys / ((ys.length - 0 : ℕ) : ℝ) := Real.sq_sqrt (by positivity)
  have hpi := Real.pi_pos
  rw [← hm]
  cases d <;> simp only [ClosedStart] at hd <;> simp only [startMoments, reduceCtorEq] at hm ⊢ <;>
    simp only [moments, startTheta, List.getD_cons_zero, List.getD_cons_succ, Option.some.injEq, Prod.mk.injEq]
  case normal => exact ⟨trivial, sq1⟩
  case gamma => exact ⟨trivial, by ring⟩
  case beta => exact ⟨trivial, by ring⟩
  case logistic =>
    refine ⟨trivial, ?_⟩
    rw [← sq1, div_pow, mul_pow, Real.sq_sqrt hpi.le, Real.sq_sqrt (by norm_num)]
    field_simp
  case gumbel =>
    refine ⟨trivial, ?_⟩
    rw [← sq0, div_pow, mul_pow, Real.sq_sqrt (by norm_num)]
    field_simp
  case reverseGumbel =>
    refine ⟨by ring, ?_⟩
    rw [← sq0, div_pow, mul_pow, Real.sq_sqrt (by norm_num)]
    field_simp
  case inverseGaussian =>
    refine ⟨trivial, ?_⟩
    have hm0 := h.mean_pos fun y hy => (show 0 < y from h.responses y hy).le
    rw [← sq0, div_pow, Real.sq_sqrt hm0.le]
    field_simp
  case betaInflated => norm_num; constructor <;> ring
  case betaInflatedZero =>
    have hm0 := h.mean_pos fun y hy => (h.responses y hy).1
    have : 1 - mean ys / (1 + mean ys) = 1 / (1 + mean ys) := by field_simp; ring
    rw [this]
    constructor <;> ring
  case zeroAdjustedGamma => norm_num; constructor <;> ring

/-- The classes whose initial values reproduce the mean of the sample. -/
def MeanStart : Dist → Prop
  | normal | normalMeanVariance | gamma | exponential | beta | logistic | inverseGaussian => True
  | _ => False

/-- The initial values describe a law whose mean is the mean of the sample.  Missing from the full claim: the classes of
`C84_mean_fails`, and the classes with an optimiser or a log-normal law. -/
theorem C84_mean_partial (fit : List ℝ → ℕ → Flt) (d : Dist) (hd : d.MeanStart) (ys : List ℝ) (h : Sample d ys) (y : ℝ) :
    ∃ θ : ℕ → ℝ, d.initialRow fit ys y = (List.range d.nParams).map (fun i => Flt.fin (θ i)) ∧ d.Admissible θ ∧
      ∫ z, z ∂d.law θ = mean ys := by
  have : ∃ v, d.startMoments ys = some (mean ys, v) := by cases d <;> simp_all [MeanStart, startMoments]
  obtain ⟨v, hv⟩ := this
  obtain ⟨θ, h1, h2, h3⟩ := C84_start_law fit d ys h y _ _ hv
  exact ⟨θ, h1, h2, h3.mean⟩

/-- The initial values of Normal (both parameterisations) have the variance of the sample too. -/
theorem C84_variance_partial (fit : List ℝ → ℕ → Flt) (d : Dist) (hd : d = normal ∨ d = normalMeanVariance) (ys : List ℝ)
    (h : Sample d ys) (y : ℝ) :
    ∃ θ : ℕ → ℝ, d.initialRow fit ys y = (List.range d.nParams).map (fun i => Flt.fin (θ i)) ∧
      ∫ z, (z - mean ys) ^ 2 ∂d.law θ = ssd ys / ((ys.length - 1 : ℕ) : ℝ) := by
  have : d.startMoments ys = some (mean ys, ssd ys / ((ys.length - 1 : ℕ) : ℝ)) := by
    rcases hd with rfl | rfl <;> rfl
  obtain ⟨θ, h1, h2, h3⟩ := C84_start_law fit d ys h y _ _ this
  exact ⟨θ, h1, h3.variance⟩

theorem row_unique {d : Dist} {θ η : ℕ → ℝ} (h : (List.range d.nParams).map (fun i => Flt.fin (θ i))
    = (List.range d.nParams).map (fun i => Flt.fin (η i))) (k : ℕ) (hk : k < d.nParams) : θ k = η k :=
  Flt.fin.inj ((List.map_inj_left.mp h) k (List.mem_range.mpr hk))

/-- Gumbel: the mean of the described law is below the mean of the sample by more than 0.44 standard deviations;
ReverseGumbel: it is above by more than 0.89 standard deviations, since the correction has the wrong sign;
ZeroAdjustedGamma: it is half of it. -/
theorem C84_mean_fails (fit : List ℝ → ℕ → Flt) (ys : List ℝ) (y : ℝ) :
    (Sample gumbel ys → ∃ θ : ℕ → ℝ, gumbel.initialRow fit ys y = [.fin (θ 0), .fin (θ 1)] ∧
      ∫ z, z ∂gumbel.law θ < mean ys - 0.44 * std 0 ys) ∧
    (Sample reverseGumbel ys → ∃ θ : ℕ → ℝ, reverseGumbel.initialRow fit ys y = [.fin (θ 0), .fin (θ 1)] ∧
      mean ys + 0.89 * std 0 ys < ∫ z, z ∂reverseGumbel.law θ) ∧
    (Sample zeroAdjustedGamma ys → ∃ θ : ℕ → ℝ,
      zeroAdjustedGamma.initialRow fit ys y = [.fin (θ 0), .fin (θ 1), .fin (θ 2)] ∧
        ∫ z, z ∂zeroAdjustedGamma.law θ = mean ys / 2) := by
  have hpi := Real.pi_pos
  have hs6 : (2.449 : ℝ) < Real.sqrt 6 := Real.lt_sqrt_of_sq_lt (by norm_num)
  have h0779 : (0.779 : ℝ) < Real.sqrt 6 / Real.pi := by
    rw [lt_div_iff₀ hpi]
    have := Real.pi_lt_d4
    norm_num at this ⊢
    linarith
  obtain ⟨g1, -⟩ := euler_bounds
  refine ⟨fun h => ?_, fun h => ?_, fun h => ?_⟩
  · obtain ⟨θ, h1, -, h3⟩ := C84_start_law fit gumbel ys h y _ _ rfl
    refine ⟨θ, h1, ?_⟩
    rw [h3.mean, mul_div_right_comm]
    have hs := h.std_pos (k := 0) (by norm_num)
    have : 0.44 < Real.eulerMascheroniConstant * (Real.sqrt 6 / Real.pi) := by
      norm_num at g1 h0779 ⊢
      nlinarith
    have := mul_lt_mul_of_pos_right this hs
    rw [← mul_assoc]
    linarith
  · obtain ⟨θ, h1, -, h3⟩ := C84_start_law fit reverseGumbel ys h y _ _ rfl
    refine ⟨θ, h1, ?_⟩
    rw [h3.mean, mul_div_right_comm]
    have hs := h.std_pos (k := 0) (by norm_num)
    have : 0.89 < (0.5772157 + Real.eulerMascheroniConstant) * (Real.sqrt 6 / Real.pi) := by
      norm_num at g1 h0779 ⊢
      nlinarith
    have := mul_lt_mul_of_pos_right this hs
    rw [← mul_assoc]
    linarith
  · obtain ⟨θ, h1, -, h3⟩ := C84_start_law fit zeroAdjustedGamma ys h y _ _ rfl
    exact ⟨θ, h1, h3.mean⟩

/-- Logistic: the described law has `pi` times the variance of the sample (the standard deviation is divided by
`sqrt(pi)` instead of `pi`); InverseGaussian: the variance is multiplied by the squared mean (it is divided by the square
root of the mean instead of the square root of its cube). -/
theorem C84_variance_fails (fit : List ℝ → ℕ → Flt) (ys : List ℝ) (y : ℝ) :
    (Sample logistic ys → ∃ θ : ℕ → ℝ, logistic.initialRow fit ys y = [.fin (θ 0), .fin (θ 1)] ∧
      ∫ z, (z - mean ys) ^ 2 ∂logistic.law θ = Real.pi * (ssd ys / ((ys.length - 1 : ℕ) : ℝ))) ∧
    (Sample inverseGaussian ys → ∃ θ : ℕ → ℝ, inverseGaussian.initialRow fit ys y = [.fin (θ 0), .fin (θ 1)] ∧
      ∫ z, (z - mean ys) ^ 2 ∂inverseGaussian.law θ = ssd ys / ys.length * mean ys ^ 2) := by
  refine ⟨fun h => ?_, fun h => ?_⟩
  · obtain ⟨θ, h1, -, h3⟩ := C84_start_law fit logistic ys h y _ _ rfl
    exact ⟨θ, h1, h3.variance⟩
  · obtain ⟨θ, h1, -, h3⟩ := C84_start_law fit inverseGaussian ys h y _ _ rfl
    exact ⟨θ, h1, h3.variance⟩

/-- Samples exist for every class. -/
theorem sample_exists (d : Dist) : Sample d [1 / 4, 1 / 2] where
  responses y hy := by
    simp only [List.mem_cons, List.not_mem_nil, or_false] at hy
    rcases hy with rfl | rfl <;> cases d <;> simp only [Responses] <;> norm_num
  two := ⟨1 / 4, by simp, 1 / 2, by simp, by norm_num⟩

example (fit : List ℝ → ℕ → Flt) : ∃ θ : ℕ → ℝ, gamma.initialRow fit [1 / 4, 1 / 2] (1 / 2)
    = (List.range 2).map (fun i => Flt.fin (θ i)) ∧ gamma.Admissible θ ∧ ∫ z, z ∂gamma.law θ = mean [1 / 4, 1 / 2] :=
  C84_mean_partial fit gamma trivial _ (sample_exists _) _

end Dist
end Ondil
