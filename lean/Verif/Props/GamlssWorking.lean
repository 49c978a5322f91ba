import Verif.Lemmas.Working

/-!
# The working quantities: C87
-/

namespace Ondil

open MeasureTheory

namespace Dist

variable {tiny ulp : ℝ} {o : ScipyOracles} {e : Elsewhere} {d : Dist} {links : List LinkClass} {L : LinkClass} {k : ℕ}

theorem rawWeight_expected (ht : 0 < tiny) (hu : 0 < ulp) (hk : k < d.nParams) {q : ℝ × (ℕ → Flt)}
    (h : d.WorkRow tiny ulp L k q.2) (hd : d.Expected) (hr : ¬ d.Rounded (rowReal q.2) k) :
    rawWeight d L k q = d.etaInformation L (rowReal q.2) k (L.link (rowReal q.2 k)) := by
  have ha := admissible_of_inParameterSupport tiny ulp ht hu d _ h.support
  rw [etaInformation_eq d L ha hk h.workParam h.smooth]
  unfold rawWeight
  rw [C48_expected_information_partial d hd _ ha k hk hr]
  simp only [returned, neg_neg]

theorem rowWeight_fit (q : ℝ × (ℕ → Flt)) :
    1 / 10 ^ 10 ≤ rowWeight fitClip d L k q ∧ rowWeight fitClip d L k q ≤ 10 ^ 10 := by
  unfold rowWeight fitClip
  norm_num

/-- In an inner iteration of `fit`, for every class, every choice of links and every batch of responses and fitted values at
which nothing is clipped: `eta` is the linear predictor of the fitted values; the working weights lie in [1e-10, 1e10]; weight
times (working response minus `eta`) is the derivative of the log density with respect to the linear predictor; and, for the
classes with expected information, the weight is the Fisher information of the linear predictor, clipped to [1e-10, 1e10]. -/
theorem C87_fit (ht : 0 < tiny) (hu : 0 < ulp) (hk : k < d.nParams) (hL : links[k]? = some L)
    (data : List (ℝ × (ℕ → Flt))) (h : ∀ q ∈ data, q.1 ∈ d.Responses ∧ d.WorkRow tiny ulp L k q.2) :
    ∃ W Z : ℝ × (ℕ → Flt) → ℝ,
      working (d.ops tiny ulp o e links) fitClip (data.map Prod.fst) (data.map Prod.snd) k =
        .ok ⟨data.map fun q => .fin (L.link (rowReal q.2 k)), data.map fun q => .fin (W q), data.map fun q => .fin (Z q)⟩ ∧
      ∀ q ∈ data, 1 / 10 ^ 10 ≤ W q ∧ W q ≤ 10 ^ 10 ∧
        HasDerivAt (d.logLikEta L (rowReal q.2) k q.1) (W q * (Z q - L.link (rowReal q.2 k))) (L.link (rowReal q.2 k)) ∧
        (d.Expected → ¬ d.Rounded (rowReal q.2) k →
          W q = min (max (d.etaInformation L (rowReal q.2) k (L.link (rowReal q.2 k))) (1 / 10 ^ 10)) (10 ^ 10)) := by
  have hg : ∀ q ∈ data, 0 < L.inverseDerivative (L.link (rowReal q.2 k)) := fun q hq =>
    LinkClass.inverseDerivative_pos ht (h q hq).2.linkSupport.1 (h q hq).2.smooth
  have hW : ∀ q, rowWeight fitClip d L k q ≠ 0 := fun q => by
    have := (rowWeight_fit (d := d) (L := L) (k := k) q).1
    intro h0
    rw [h0] at this
    norm_num at this
  refine ⟨rowWeight fitClip d L k, fun q => (rowResponse fitClip d L k q).toReal, ?_, fun q hq => ?_⟩
  · rw [working_rows ht hu hk hL fitClip h]
    congr 2
    refine List.map_congr_left fun q hq => ?_
    obtain ⟨z, hz, _⟩ := rowResponse_fin (d := d) (hg q hq) (hW q)
    beta_reduce
    rw [hz]
    rfl
  · obtain ⟨z, hz, he⟩ := rowResponse_fin (d := d) (hg q hq) (hW q)
    have ha := admissible_of_inParameterSupport tiny ulp ht hu d _ (h q hq).2.support
    refine ⟨(rowWeight_fit q).1, (rowWeight_fit q).2, ?_, fun hd hr => ?_⟩
    · beta_reduce
      rw [hz]
      change HasDerivAt _ (rowWeight fitClip d L k q * (z - L.link (rowReal q.2 k))) _
      rw [he]
      exact hasDerivAt_logLikEta d L ha hk (h q hq).2.workParam (h q hq).2.smooth (h q hq).1
    · unfold rowWeight
      rw [rawWeight_expected ht hu hk (h q hq).2 hd hr]
      unfold fitClip
      norm_num

/-- The same in an inner iteration of `update`, where the weights are clipped to [-1e10, 1e10] instead.  Missing from the full
claim: the rows with second derivative zero, whose working response is NaN (C88). -/
theorem C87_update_partial (ht : 0 < tiny) (hu : 0 < ulp) (hk : k < d.nParams) (hL : links[k]? = some L)
    (data : List (ℝ × (ℕ → Flt)))
    (h : ∀ q ∈ data, q.1 ∈ d.Responses ∧ d.WorkRow tiny ulp L k q.2 ∧ ¬ d.Degenerate q.1 k) :
    ∃ W Z : ℝ × (ℕ → Flt) → ℝ,
      working (d.ops tiny ulp o e links) updateClip (data.map Prod.fst) (data.map Prod.snd) k =
        .ok ⟨data.map fun q => .fin (L.link (rowReal q.2 k)), data.map fun q => .fin (W q), data.map fun q => .fin (Z q)⟩ ∧
      ∀ q ∈ data, 0 < W q ∧ W q ≤ 10 ^ 10 ∧
        HasDerivAt (d.logLikEta L (rowReal q.2) k q.1) (W q * (Z q - L.link (rowReal q.2 k))) (L.link (rowReal q.2 k)) ∧
        (d.Expected → ¬ d.Rounded (rowReal q.2) k →
          W q = min (d.etaInformation L (rowReal q.2) k (L.link (rowReal q.2 k))) (10 ^ 10)) := by
  have h' : ∀ q ∈ data, q.1 ∈ d.Responses ∧ d.WorkRow tiny ulp L k q.2 := fun q hq => ⟨(h q hq).1, (h q hq).2.1⟩
  have hg : ∀ q ∈ data, 0 < L.inverseDerivative (L.link (rowReal q.2 k)) := fun q hq =>
    LinkClass.inverseDerivative_pos ht (h' q hq).2.linkSupport.1 (h' q hq).2.smooth
  have ha : ∀ q ∈ data, d.Admissible (rowReal q.2) := fun q hq =>
    admissible_of_inParameterSupport tiny ulp ht hu d _ (h' q hq).2.support
  have hraw : ∀ q ∈ data, 0 < rawWeight d L k q := fun q hq => by
    obtain ⟨v, hv, hneg⟩ := dl2_neg d q.1 _ (ha q hq) k hk (h q hq).2.2
    unfold rawWeight
    rw [hv]
    simp only [returned]
    exact mul_pos (by linarith) (pow_pos (hg q hq) 2)
  have hrow : ∀ q ∈ data, rowWeight updateClip d L k q = min (rawWeight d L k q) (10 ^ 10) := fun q hq => by
    unfold rowWeight updateClip
    rw [max_eq_left (by linarith [hraw q hq])]
    norm_num
  have hW : ∀ q ∈ data, 0 < rowWeight updateClip d L k q := fun q hq => by
    rw [hrow q hq]
    exact lt_min (hraw q hq) (by norm_num)
  refine ⟨rowWeight updateClip d L k, fun q => (rowResponse updateClip d L k q).toReal, ?_, fun q hq => ?_⟩
  · rw [working_rows ht hu hk hL updateClip h']
    congr 2
    refine List.map_congr_left fun q hq => ?_
    obtain ⟨z, hz, _⟩ := rowResponse_fin (d := d) (hg q hq) (hW q hq).ne'
    beta_reduce
    rw [hz]
    rfl
  · obtain ⟨z, hz, he⟩ := rowResponse_fin (d := d) (hg q hq) (hW q hq).ne'
    refine ⟨hW q hq, by rw [hrow q hq]; exact min_le_right _ _, ?_, fun hd hr => ?_⟩
    · beta_reduce
      rw [hz]
      change HasDerivAt _ (rowWeight updateClip d L k q * (z - L.link (rowReal q.2 k))) _
      rw [he]
      exact hasDerivAt_logLikEta d L (ha q hq) hk (h' q hq).2.workParam (h' q hq).2.smooth (h' q hq).1
    · rw [hrow q hq, rawWeight_expected ht hu hk (h' q hq).2 hd hr]

/-- A row of the gamma distribution with mean 1 and sigma 1, default links. -/
theorem gamma_row {tiny ulp : ℝ} (h1 : tiny ≤ 1) (k : ℕ) (hk : k < 2) : gamma.WorkRow tiny ulp .log k fun _ => .fin 1 := by
  have hone : ((tiny : ℝ) : EReal) ≤ ((1 : ℝ) : EReal) := EReal.coe_le_coe_iff.mpr h1
  refine ⟨fun _ _ => rfl, fun i sup hs => ?_, ⟨hone, le_top⟩, ?_, ?_⟩
  · have hs' : [positives tiny, positives tiny][i]? = some sup := hs
    obtain ⟨hi, he⟩ := List.getElem?_eq_some_iff.1 hs'
    have : sup = positives tiny := by
      rw [← he]
      simp only [List.length_cons, List.length_nil] at hi
      interval_cases i <;> rfl
    rw [this]
    exact ⟨hone, le_top⟩
  · change (1 : ℝ) ∈ Set.Ioc (1 / 10 ^ 10 : ℝ) (10 ^ 15)
    norm_num
  · change robustLog 1 < Real.log (10 ^ 15)
    rw [robustLog_of_gt (by unfold smallNumber; norm_num), Real.log_one]
    exact Real.log_pos (by norm_num)

/-- The theorems apply to a gamma regression with default links at mean 1 and sigma 1 and three responses. -/
example : ∃ W Z : ℝ × (ℕ → Flt) → ℝ,
    working (gamma.ops (1 / 10) (1 / 10) o e gamma.defaultLinks) updateClip [1, 2, 3]
      [fun _ => .fin 1, fun _ => .fin 1, fun _ => .fin 1] 1 =
        .ok ⟨[.fin (robustLog 1), .fin (robustLog 1), .fin (robustLog 1)],
          [.fin (W (1, fun _ => .fin 1)), .fin (W (2, fun _ => .fin 1)), .fin (W (3, fun _ => .fin 1))],
          [.fin (Z (1, fun _ => .fin 1)), .fin (Z (2, fun _ => .fin 1)), .fin (Z (3, fun _ => .fin 1))]⟩ := by
  obtain ⟨W, Z, h, _⟩ := C87_update_partial (d := gamma) (L := .log) (k := 1) (links := gamma.defaultLinks) (o := o) (e := e)
    (tiny := 1 / 10) (ulp := 1 / 10) (by norm_num) (by norm_num) (by decide) rfl
    [(1, fun _ => .fin 1), (2, fun _ => .fin 1), (3, fun _ => .fin 1)] (by
      intro q hq
      simp only [List.mem_cons, List.not_mem_nil, or_false] at hq
      rcases hq with rfl | rfl | rfl <;>
        exact ⟨by simp [Responses], gamma_row (by norm_num) 1 (by norm_num), id⟩)
  exact ⟨W, Z, h⟩

end Dist
end Ondil
