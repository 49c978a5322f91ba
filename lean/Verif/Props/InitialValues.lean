import Verif.Props.Scores
import Verif.Model.DistributionFunctions
import Mathlib.Algebra.BigOperators.Group.List.Basic
import Mathlib.Algebra.Order.BigOperators.Group.List
import Mathlib.Tactic.Positivity
import Mathlib.Tactic.Linarith

/-!
# Properties of the initial values: C53
-/

namespace Ondil
namespace Dist

/-! ### The numpy reductions on finite entries -/

theorem npSum_fin (l : List ℝ) : npSum (l.map Flt.fin) = .fin l.sum := by
  induction l with
  | nil => rfl
  | cons a l ih =>
    change Flt.add (.fin a) (npSum (l.map Flt.fin)) = _
    rw [ih]; simp [Flt.add]

/-- The arithmetic mean. -/
noncomputable def mean (l : List ℝ) : ℝ := l.sum / l.length

/-- The sum of squared deviations from the mean. -/
noncomputable def ssd (l : List ℝ) : ℝ := (l.map fun x => (x - mean l) ^ 2).sum

theorem npMean_fin {l : List ℝ} (h : l ≠ []) : npMean (l.map Flt.fin) = .fin (mean l) := by
  have : (l.length : ℝ) ≠ 0 := by
    simpa [List.length_eq_zero_iff] using h
  unfold npMean
  rw [npSum_fin, List.length_map, Flt.div, if_neg this, mean]

theorem npVar_fin {l : List ℝ} (k : ℕ) (h : l ≠ []) (hk : k < l.length) :
    npVar k (l.map Flt.fin) = .fin (ssd l / ((l.length - k : ℕ) : ℝ)) := by
  unfold npVar
  have hd : (((l.map Flt.fin).length - k : ℕ) : ℝ) ≠ 0 := by
    rw [List.length_map]
    exact Nat.cast_ne_zero.mpr (by omega)
  have e : (l.map Flt.fin).map (fun x => Flt.mul (Flt.sub x (npMean (l.map Flt.fin))) (Flt.sub x (npMean (l.map Flt.fin))))
      = (l.map fun x => (x - mean l) ^ 2).map Flt.fin := by
    rw [npMean_fin h, List.map_map, List.map_map]
    refine List.map_congr_left fun x _ => ?_
    simp only [Function.comp, Flt.sub, Flt.neg, Flt.add, Flt.mul]
    congr 1
    ring
  rw [e, npSum_fin, Flt.div, if_neg hd, List.length_map]
  rfl

/-- Two different values make the sum of squared deviations positive. -/
theorem ssd_pos {l : List ℝ} {a b : ℝ} (ha : a ∈ l) (hb : b ∈ l) (hab : a ≠ b) : 0 < ssd l := by
  unfold ssd
  have hnn : ∀ z ∈ l.map fun x => (x - mean l) ^ 2, 0 ≤ z := by
    intro z hz
    obtain ⟨x, -, rfl⟩ := List.mem_map.mp hz
    positivity
  have key : ∀ c ∈ l, c ≠ mean l → 0 < (l.map fun x => (x - mean l) ^ 2).sum := by
    intro c hc hne
    have h1 : (c - mean l) ^ 2 ≤ (l.map fun x => (x - mean l) ^ 2).sum :=
      List.single_le_sum hnn _ (List.mem_map.mpr ⟨c, hc, rfl⟩)
    have h2 : 0 < (c - mean l) ^ 2 := by
      have : c - mean l ≠ 0 := sub_ne_zero.mpr hne
      positivity
    linarith
  by_cases h : a = mean l
  · exact key b hb (fun hb' => hab (h.trans hb'.symm))
  · exact key a ha h

/-- A mean lies strictly above a lower bound that is not attained everywhere. -/
theorem mean_gt {l : List ℝ} {m a : ℝ} (h : ∀ x ∈ l, m ≤ x) (ha : a ∈ l) (hm : m < a) : m < mean l := by
  have hlen : 0 < (l.length : ℝ) := by exact_mod_cast List.length_pos_of_mem ha
  unfold mean
  rw [lt_div_iff₀ hlen]
  have hnn : ∀ z ∈ l.map fun x => x - m, 0 ≤ z := by
    intro z hz
    obtain ⟨x, hx, rfl⟩ := List.mem_map.mp hz
    linarith [h x hx]
  have h1 : a - m ≤ (l.map fun x => x - m).sum := List.single_le_sum hnn _ (List.mem_map.mpr ⟨a, ha, rfl⟩)
  have h2 : (l.map fun x => x - m).sum = l.sum - m * l.length := by
    clear h ha hlen hnn h1
    induction l with
    | nil => simp
    | cons c l ih => simp [ih]; ring
  linarith

theorem mean_lt {l : List ℝ} {m a : ℝ} (h : ∀ x ∈ l, x ≤ m) (ha : a ∈ l) (hm : a < m) : mean l < m := by
  have h1 := mean_gt (l := l.map fun x => -x) (m := -m) (a := -a)
    (fun x hx => by obtain ⟨z, hz, rfl⟩ := List.mem_map.mp hx; linarith [h z hz])
    (List.mem_map.mpr ⟨a, ha, rfl⟩) (by linarith)
  have e : mean (l.map fun x => -x) = -mean l := by
    have : (l.map fun x => -x).sum = -l.sum := by
      clear h ha h1
      induction l with
      | nil => simp
      | cons c l ih => simp [ih]; ring
    unfold mean
    rw [this, List.length_map, neg_div]
  rw [e] at h1
  linarith

open Classical in
theorem npMedian_fin {l : List ℝ} (h : l ≠ []) : ∃ m, npMedian (l.map Flt.fin) = .fin m := by
  have hnan : Flt.nan ∉ l.map Flt.fin := by
    intro hc
    obtain ⟨x, -, hx⟩ := List.mem_map.mp hc
    cases hx
  unfold npMedian
  rw [if_neg hnan]
  have hlen : 0 < l.length := List.length_pos_of_ne_nil h
  have hget : ∀ i, i < l.length → ∃ m, ((l.map Flt.fin).insertionSort Flt.le).getD i .nan = .fin m := by
    intro i hi
    have hi' : i < ((l.map Flt.fin).insertionSort Flt.le).length := by
      rw [List.length_insertionSort, List.length_map]; exact hi
    rw [List.getD_eq_getElem?_getD, List.getElem?_eq_getElem hi', Option.getD_some]
    have hm : ((l.map Flt.fin).insertionSort Flt.le)[i] ∈ l.map Flt.fin :=
      (List.perm_insertionSort Flt.le _).mem_iff.mp (List.getElem_mem hi')
    obtain ⟨x, -, hx⟩ := List.mem_map.mp hm
    exact ⟨x, hx.symm⟩
  simp only [List.length_map]
  split_ifs with hodd
  · exact hget _ (by omega)
  · obtain ⟨m1, e1⟩ := hget (l.length / 2 - 1) (by omega)
    obtain ⟨m2, e2⟩ := hget (l.length / 2) (by omega)
    rw [e1, e2]
    refine ⟨(m1 + m2) / 2, ?_⟩
    simp only [Flt.add, Flt.div]
    rw [if_neg (by norm_num)]

/-! ### C53: initial values are admissible -/

/-- The classes whose initial values come from an optimiser of scipy. -/
def FittedByScipy : Dist → Prop
  | studentT | jsu false => True
  | _ => False

/-- Every row of `initial_values` is an admissible parameter vector when the sample consists of responses of the
distribution and has at least two different values, for every class whose initial values are computed in closed form.
The full claim also covers Student t and Johnson SU with the default option, whose initial values are the result of a
scipy optimiser. -/
theorem C53_admissible_partial (fit : List ℝ → ℕ → Flt) (d : Dist) (hd : ¬ d.FittedByScipy) (ys : List ℝ)
    (hys : ∀ y ∈ ys, y ∈ d.Responses) (a b : ℝ) (ha : a ∈ ys) (hb : b ∈ ys) (hab : a ≠ b) (y : ℝ) (hy : y ∈ ys) :
    ∃ θ : ℕ → ℝ, d.initialRow fit ys y = (List.range d.nParams).map (fun i => Flt.fin (θ i)) ∧ d.Admissible θ := by
  have hne : ys ≠ [] := List.ne_nil_of_mem ha
  have hlen2 : 1 < ys.length := by
    by_contra h
    have h1 : ys.length = 1 := by
      have := List.length_pos_of_mem ha
      omega
    obtain ⟨c, rfl⟩ := List.length_eq_one_iff.mp h1
    simp only [List.mem_singleton] at ha hb
    exact hab (ha.trans hb.symm)
  have hlen0 : 0 < ys.length := by omega
  have hn1 : 0 < ((ys.length - 1 : ℕ) : ℝ) := by exact_mod_cast (by omega)
  have hn0 : 0 < ((ys.length - 0 : ℕ) : ℝ) := by exact_mod_cast (by omega)
  have hmean := npMean_fin hne
  have hvar1 := npVar_fin 1 hne hlen2
  have hssd := ssd_pos ha hb hab
  have hstd : ∀ k, k < 2 → ∃ s, 0 < s ∧ npStd k (ys.map Flt.fin) = .fin s := by
    intro k hk
    have hn : 0 < ((ys.length - k : ℕ) : ℝ) := by exact_mod_cast (by omega)
    refine ⟨Real.sqrt (ssd ys / ((ys.length - k : ℕ) : ℝ)), Real.sqrt_pos.mpr (by positivity), ?_⟩
    unfold npStd
    rw [npVar_fin k hne (by omega), Flt.sqrt, if_pos (by positivity)]
  obtain ⟨s1, hs1, es1⟩ := hstd 1 (by norm_num)
  obtain ⟨s0, hs0, es0⟩ := hstd 0 (by norm_num)
  have hpi : 0 < Real.sqrt Real.pi := Real.sqrt_pos.mpr Real.pi_pos
  have h6 : 0 < Real.sqrt 6 := Real.sqrt_pos.mpr (by norm_num)
  have h3 : 0 < Real.sqrt 3 := Real.sqrt_pos.mpr (by norm_num)
  -- for positive samples the mean is positive
  have hmpos : (∀ y ∈ ys, 0 < y) → 0 < mean ys := fun h => mean_gt (fun x hx => (h x hx).le) ha (h a ha)
  -- for samples in the closed unit interval with two values the mean is inside
  have hm0 : (∀ y ∈ ys, 0 ≤ y) → 0 < mean ys := by
    intro h
    rcases (h a ha).lt_or_eq with h' | h'
    · exact mean_gt h ha h'
    · refine mean_gt h hb (lt_of_le_of_ne (h b hb) ?_)
      exact fun hb' => hab (h'.symm.trans hb')
  have hm1 : (∀ y ∈ ys, y ≤ 1) → mean ys < 1 := by
    intro h
    rcases (h a ha).lt_or_eq with h' | h'
    · exact mean_lt h ha h'
    · refine mean_lt h hb (lt_of_le_of_ne (h b hb) ?_)
      exact fun hb' => hab (h'.trans hb'.symm)
  -- logarithms
  have hlogs : (∀ y ∈ ys, 0 < y) → (ys.map Flt.fin).map Flt.log = (ys.map Real.log).map Flt.fin := by
    intro h
    rw [List.map_map, List.map_map]
    refine List.map_congr_left fun x hx => ?_
    simp [Flt.log, h x hx]
  have hlne : ys.map Real.log ≠ [] := by simpa using hne
  have hlssd : (∀ y ∈ ys, 0 < y) → 0 < ssd (ys.map Real.log) := fun h =>
    ssd_pos (List.mem_map.mpr ⟨a, ha, rfl⟩) (List.mem_map.mpr ⟨b, hb, rfl⟩)
      (fun e => hab (Real.log_injOn_pos (h a ha) (h b hb) e))
  have hlstd : (∀ y ∈ ys, 0 < y) → ∀ k, k < 2 →
      ∃ s, 0 < s ∧ npStd k ((ys.map Real.log).map Flt.fin) = .fin s := by
    intro h k hk
    have hn : 0 < (((ys.map Real.log).length - k : ℕ) : ℝ) := by
      rw [List.length_map]; exact_mod_cast (by omega)
    have := hlssd h
    refine ⟨Real.sqrt (ssd (ys.map Real.log) / (((ys.map Real.log).length - k : ℕ) : ℝ)),
      Real.sqrt_pos.mpr (by positivity), ?_⟩
    unfold npStd
    rw [npVar_fin k hlne (by rw [List.length_map]; omega), Flt.sqrt, if_pos (by positivity)]
  have div_fin : ∀ u v : ℝ, v ≠ 0 → Flt.div (.fin u) (.fin v) = .fin (u / v) := fun u v hv => if_neg hv
  cases d with
  | normal =>
    exact ⟨fun i => [mean ys, s1].getD i 0, by simp [initialRow, hmean, es1, nParams, List.range_succ],
      by simpa [Admissible] using hs1⟩
  | normalMeanVariance =>
    exact ⟨fun i => [mean ys, ssd ys / ((ys.length - 1 : ℕ) : ℝ)].getD i 0,
      by simp [initialRow, hmean, hvar1, nParams, List.range_succ],
      by change 0 < ssd ys / ((ys.length - 1 : ℕ) : ℝ); positivity⟩
  | studentT => exact absurd trivial hd
  | jsu g =>
    cases g with
    | false => exact absurd trivial hd
    | true =>
      exact ⟨fun i => [(mean ys + y) / 2, 0.1, 0, 0.5].getD i 0,
        by simp [initialRow, hmean, nParams, List.range_succ, Flt.add, div_fin], by
          change (0 : ℝ) < 0.1 ∧ (0 : ℝ) < 0.5
          norm_num⟩
  | gamma =>
    exact ⟨fun i => [mean ys, 1].getD i 0, by simp [initialRow, hmean, nParams, List.range_succ],
      hmpos hys, one_pos⟩
  | beta =>
    exact ⟨fun i => [mean ys, 0.5].getD i 0, by simp [initialRow, hmean, nParams, List.range_succ],
      ⟨hm0 fun z hz => (hys z hz).1.le, hm1 fun z hz => (hys z hz).2.le⟩, by
        change (0 : ℝ) < 0.5 ∧ (0.5 : ℝ) < 1
        norm_num⟩
  | logNormal =>
    obtain ⟨s, hs, es⟩ := hlstd hys 1 (by norm_num)
    exact ⟨fun i => [mean (ys.map Real.log), s].getD i 0, by
      simp only [initialRow, hlogs hys, npMean_fin hlne, es]
      simp [nParams, List.range_succ], hs⟩
  | logNormalMedian =>
    obtain ⟨s, hs, es⟩ := hlstd hys 0 (by norm_num)
    obtain ⟨m, em⟩ := npMedian_fin hlne
    exact ⟨fun i => [Real.exp m, s].getD i 0, by
      simp only [initialRow, hlogs hys, em, es]
      simp [nParams, List.range_succ, Flt.exp], Real.exp_pos m, hs⟩
  | logistic =>
    exact ⟨fun i => [mean ys, Real.sqrt 3 * s1 / Real.sqrt Real.pi].getD i 0, by
      simp only [initialRow, hmean, es1, Flt.mul, div_fin _ _ hpi.ne']
      simp [nParams, List.range_succ], by
        change 0 < Real.sqrt 3 * s1 / Real.sqrt Real.pi
        positivity⟩
  | gumbel =>
    exact ⟨fun i => [mean ys, Real.sqrt 6 * s0 / Real.pi].getD i 0, by
      simp only [initialRow, hmean, es0, Flt.mul, div_fin _ _ Real.pi_pos.ne']
      simp [nParams, List.range_succ], by
        change 0 < Real.sqrt 6 * s0 / Real.pi
        have := Real.pi_pos
        positivity⟩
  | reverseGumbel =>
    exact ⟨fun i => [mean ys + 0.5772157 * (Real.sqrt 6 * s0 / Real.pi), Real.sqrt 6 * s0 / Real.pi].getD i 0, by
      simp only [initialRow, hmean, es0, Flt.mul, Flt.add, div_fin _ _ Real.pi_pos.ne']
      simp [nParams, List.range_succ], by
        change 0 < Real.sqrt 6 * s0 / Real.pi
        have := Real.pi_pos
        positivity⟩
  | exponential =>
    exact ⟨fun i => [mean ys].getD i 0, by simp [initialRow, hmean, nParams, List.range_succ], hmpos hys⟩
  | inverseGamma =>
    have hm := hmpos hys
    have hsm : 0 < Real.sqrt (mean ys) := Real.sqrt_pos.mpr hm
    exact ⟨fun i => [mean ys, s1 / Real.sqrt (mean ys)].getD i 0, by
      simp only [initialRow, hmean, es1, Flt.sqrt, if_pos hm.le, div_fin _ _ hsm.ne']
      simp [nParams, List.range_succ], hm, by
        change 0 < s1 / Real.sqrt (mean ys)
        positivity⟩
  | inverseGaussian =>
    have hm := hmpos hys
    have hsm : 0 < Real.sqrt (mean ys) := Real.sqrt_pos.mpr hm
    exact ⟨fun i => [mean ys, s0 / Real.sqrt (mean ys)].getD i 0, by
      simp only [initialRow, hmean, es0, Flt.sqrt, if_pos hm.le, div_fin _ _ hsm.ne']
      simp [nParams, List.range_succ], hm, by
        change 0 < s0 / Real.sqrt (mean ys)
        positivity⟩
  | betaInflated =>
    exact ⟨fun i => [mean ys, 0.5, 5, 5].getD i 0, by simp [initialRow, hmean, nParams, List.range_succ],
      ⟨hm0 fun z hz => (hys z hz).1, hm1 fun z hz => (hys z hz).2⟩, by
        change ((0 : ℝ) < 0.5 ∧ (0.5 : ℝ) < 1) ∧ (0 : ℝ) < 5 ∧ (0 : ℝ) < 5
        norm_num⟩
  | betaInflatedZero =>
    have hm := hm0 fun z hz => (hys z hz).1
    exact ⟨fun i => [mean ys, 0.5, mean ys].getD i 0, by simp [initialRow, hmean, nParams, List.range_succ],
      ⟨hm, hm1 fun z hz => (hys z hz).2.le⟩, by
        change (0 : ℝ) < 0.5 ∧ (0.5 : ℝ) < 1
        norm_num, hm⟩
  | zeroAdjustedGamma =>
    exact ⟨fun i => [mean ys, 1, 0.5].getD i 0, by simp [initialRow, hmean, nParams, List.range_succ],
      ⟨hm0 hys, one_pos⟩, by
        change (0 : ℝ) < 0.5 ∧ (0.5 : ℝ) < 1
        norm_num⟩

/-- A sample with a zero and a positive value, as it occurs for the inflated classes. -/
example (fit : List ℝ → ℕ → Flt) : ∃ θ : ℕ → ℝ, betaInflated.initialRow fit [0, 1] 0
    = (List.range 4).map (fun i => Flt.fin (θ i)) ∧ betaInflated.Admissible θ :=
  C53_admissible_partial fit betaInflated id [0, 1]
    (fun y hy => by
      simp only [List.mem_cons, List.not_mem_nil, or_false] at hy
      rcases hy with rfl | rfl <;> simp [Responses])
    0 1 (by simp) (by simp) (by norm_num) 0 (by simp)

/-- `initial_values` returns one row per response. -/
theorem C53_rows (fit : List ℝ → ℕ → Flt) (d : Dist) (ys : List ℝ) (i : ℕ) (hi : i < ys.length) :
    (d.initialValues fit ys).length = ys.length ∧
      (d.initialValues fit ys)[i]? = some (d.initialRow fit ys ys[i]) := by
  simp [initialValues, List.getElem?_map, List.getElem?_eq_getElem hi]

/-- The classes whose initial scale is a standard deviation. -/
def ScaleFromDeviation : Dist → Prop
  | normal | normalMeanVariance | logistic | gumbel | reverseGumbel | logNormal | logNormalMedian | inverseGamma
  | inverseGaussian => True
  | _ => False

theorem ssd_replicate (n : ℕ) (c : ℝ) : ssd (List.replicate (n + 1) c) = 0 := by
  have hm : mean (List.replicate (n + 1) c) = c := by
    unfold mean
    rw [List.sum_replicate, List.length_replicate, nsmul_eq_mul]
    have : ((n + 1 : ℕ) : ℝ) ≠ 0 := by positivity
    field_simp
  unfold ssd
  rw [hm]
  simp

/-- For a constant sample of at least two positive responses the initial scale of nine classes is 0, which is not
admissible: the parameter vector of each row is on the boundary. -/
theorem C53_constant_sample_fails (fit : List ℝ → ℕ → Flt) (d : Dist) (hd : d.ScaleFromDeviation) (n : ℕ) (c : ℝ)
    (hc : 0 < c) (y : ℝ) :
    (d.initialRow fit (List.replicate (n + 2) c) y)[1]? = some (.fin 0) ∧
      ∀ θ : ℕ → ℝ, d.initialRow fit (List.replicate (n + 2) c) y
        = (List.range d.nParams).map (fun i => Flt.fin (θ i)) → ¬ d.Admissible θ := by
  have hz : ∀ k, k < 2 → ∀ e : ℝ, npVar k ((List.replicate (n + 2) e).map Flt.fin) = .fin 0 := by
    intro k hk e
    rw [npVar_fin k (by simp) (by simp; omega), ssd_replicate (n + 1) e, zero_div]
  have hs : ∀ k, k < 2 → ∀ e : ℝ, npStd k ((List.replicate (n + 2) e).map Flt.fin) = .fin 0 := by
    intro k hk e
    unfold npStd
    rw [hz k hk, Flt.sqrt, if_pos le_rfl, Real.sqrt_zero]
  have hm : ∀ e : ℝ, npMean ((List.replicate (n + 2) e).map Flt.fin) = .fin e := by
    intro e
    rw [npMean_fin (by simp), mean, List.sum_replicate, List.length_replicate, nsmul_eq_mul]
    have : ((n + 2 : ℕ) : ℝ) ≠ 0 := by positivity
    congr 1
    field_simp
  have hl : ((List.replicate (n + 2) c).map Flt.fin).map Flt.log
      = (List.replicate (n + 2) (Real.log c)).map Flt.fin := by
    simp [Flt.log, hc]
  have div_fin : ∀ u v : ℝ, v ≠ 0 → Flt.div (.fin u) (.fin v) = .fin (u / v) := fun u v hv => if_neg hv
  have hpi : Real.sqrt Real.pi ≠ 0 := (Real.sqrt_pos.mpr Real.pi_pos).ne'
  have hsc : Real.sqrt c ≠ 0 := (Real.sqrt_pos.mpr hc).ne'
  have first : (d.initialRow fit (List.replicate (n + 2) c) y)[1]? = some (.fin 0) := by
    cases d <;> simp only [ScaleFromDeviation] at hd
    all_goals simp only [initialRow, hl, hs 1 (by norm_num), hs 0 (by norm_num), hz 1 (by norm_num), hm, Flt.mul,
      div_fin _ _ hpi, div_fin _ _ Real.pi_pos.ne', Flt.sqrt, if_pos hc.le, div_fin _ _ hsc, mul_zero, zero_div]
    all_goals rfl
  refine ⟨first, fun θ hθ hadm => ?_⟩
  rw [hθ] at first
  have h1 : θ 1 = 0 := by
    cases d <;> simp only [ScaleFromDeviation] at hd
    all_goals
      simp [nParams, List.range_succ] at first
      exact first
  cases d <;> simp only [ScaleFromDeviation] at hd
  all_goals
    simp only [Admissible, h1, lt_irrefl, and_false] at hadm

theorem npSum_nan {l : List Flt} (h : Flt.nan ∈ l) : npSum l = .nan := by
  induction l with
  | nil => cases h
  | cons a l ih =>
    change Flt.add a (npSum l) = _
    rcases List.mem_cons.mp h with rfl | h
    · rfl
    · rw [ih h]; cases a <;> rfl

theorem npSum_ninf {l : List Flt} (hl : ∀ z ∈ l, z = .ninf ∨ ∃ x, z = .fin x) :
    (npSum l = .ninf ∨ ∃ x, npSum l = .fin x) ∧ (Flt.ninf ∈ l → npSum l = .ninf) := by
  induction l with
  | nil => exact ⟨.inr ⟨0, rfl⟩, fun h => by cases h⟩
  | cons a l ih =>
    obtain ⟨h1, h2⟩ := ih fun z hz => hl z (List.mem_cons_of_mem _ hz)
    have hc : npSum (a :: l) = Flt.add a (npSum l) := rfl
    rw [hc]
    rcases hl a List.mem_cons_self with rfl | ⟨x, rfl⟩
    · rcases h1 with h1 | ⟨w, h1⟩ <;> rw [h1] <;> exact ⟨.inl rfl, fun _ => rfl⟩
    · refine ⟨?_, fun h => ?_⟩
      · rcases h1 with h1 | ⟨w, h1⟩ <;> rw [h1]
        · exact .inl rfl
        · exact .inr ⟨_, rfl⟩
      · rcases List.mem_cons.mp h with h | h
        · cases h
        · rw [h2 h]; rfl

/-- A zero response, which is in the declared support of LogNormal and LogNormalMedian, makes both initial values of
LogNormal and the initial scale of LogNormalMedian infinite or NaN in every row. -/
theorem C53_zero_response_fails (fit : List ℝ → ℕ → Flt) (ys : List ℝ) (hys : ∀ y ∈ ys, 0 ≤ y) (h0 : (0 : ℝ) ∈ ys)
    (y : ℝ) :
    logNormal.initialRow fit ys y = [.ninf, .nan] ∧ (logNormalMedian.initialRow fit ys y)[1]? = some .nan := by
  set l := (ys.map Flt.fin).map Flt.log with hl
  have hmem : Flt.ninf ∈ l :=
    List.mem_map.mpr ⟨.fin 0, List.mem_map.mpr ⟨0, h0, rfl⟩, by simp [Flt.log]⟩
  have hshape : ∀ z ∈ l, z = .ninf ∨ ∃ x, z = .fin x := by
    intro z hz
    obtain ⟨w, hw, rfl⟩ := List.mem_map.mp hz
    obtain ⟨x, hx, rfl⟩ := List.mem_map.mp hw
    rcases (hys x hx).eq_or_lt with h | h
    · left; subst h; simp [Flt.log]
    · right; exact ⟨Real.log x, by simp [Flt.log, h]⟩
  have hmean : npMean l = .ninf := by
    unfold npMean
    rw [(npSum_ninf hshape).2 hmem]
    exact if_pos (Nat.cast_nonneg _)
  have hvar : ∀ k, npStd k l = .nan := by
    intro k
    unfold npStd npVar
    rw [npSum_nan (List.mem_map.mpr ⟨.ninf, hmem, by rw [hmean]; rfl⟩)]
    rfl
  constructor
  · simp only [initialRow, ← hl, hmean, hvar]
  · simp only [initialRow, ← hl, hvar]
    rfl

example : logNormal.initialRow (fun _ _ => .nan) [1, 0] 1 = [.ninf, .nan] :=
  (C53_zero_response_fails _ [1, 0] (by simp) (by simp) 1).1

end Dist
end Ondil
