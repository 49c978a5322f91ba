import Verif.Model.RandomVariates
import Verif.Props.CdfAll

/-!
# Random variates (C85)
-/

namespace Ondil

open MeasureTheory ProbabilityTheory Set

/-- The `i`-th number of a returned array. -/
def entry (r : Except PyErr (List Flt)) (i : ℕ) : ℝ :=
  match r with
  | .ok l => (l.getD i .nan).toReal
  | .error _ => 0

instance : IsProbabilityMeasure uniformLaw := ⟨by simp [uniformLaw]⟩

theorem uniformLaw_Ioo : uniformLaw = volume.restrict (Ioo 0 1) :=
  (Measure.restrict_congr_set Ioo_ae_eq_Ico).symm

/-- The numbers drawn are almost surely strictly between 0 and 1. -/
theorem uniformLaw_ae : ∀ᵐ q ∂uniformLaw, q ∈ Ioo (0 : ℝ) 1 := by
  rw [uniformLaw_Ioo]
  exact ae_restrict_mem measurableSet_Ioo

/-- The generalised inverse of a distribution function turns uniform numbers into numbers with that law. -/
theorem map_uniform (P : Measure ℝ) [IsProbabilityMeasure P] (x : ℝ → ℝ)
    (h : ∀ q, 0 < q → q < 1 → ∀ y, x q ≤ y ↔ q ≤ (P (Iic y)).toReal) :
    AEMeasurable x uniformLaw ∧ uniformLaw.map x = P := by
  have hm : AEMeasurable x uniformLaw := by
    rw [uniformLaw_Ioo]
    refine aemeasurable_restrict_of_monotoneOn measurableSet_Ioo fun q hq r hr hqr => ?_
    exact (h q hq.1 hq.2 _).mpr (hqr.trans ((h r hr.1 hr.2 _).mp le_rfl))
  refine ⟨hm, ?_⟩
  haveI : IsProbabilityMeasure (uniformLaw.map x) := Measure.isProbabilityMeasure_map hm
  refine Measure.ext_of_Iic _ _ fun y => ?_
  rw [Measure.map_apply_of_aemeasurable hm measurableSet_Iic, uniformLaw_Ioo]
  set F := (P (Iic y)).toReal with hF
  have hF0 : 0 ≤ F := ENNReal.toReal_nonneg
  have hF1 : F ≤ 1 := by
    rw [hF]; exact ENNReal.toReal_mono ENNReal.one_ne_top prob_le_one
  have hset : (x ⁻¹' Iic y) ∩ Ioo 0 1 = Iic F ∩ Ioo 0 1 := by
    ext q
    simp only [mem_inter_iff, mem_preimage, mem_Iic]
    constructor
    · rintro ⟨h1, h2⟩; exact ⟨(h q h2.1 h2.2 y).mp h1, h2⟩
    · rintro ⟨h1, h2⟩; exact ⟨(h q h2.1 h2.2 y).mpr h1, h2⟩
  have hPF : P (Iic y) = ENNReal.ofReal F := (ENNReal.ofReal_toReal (measure_ne_top _ _)).symm
  rw [Measure.restrict_apply' measurableSet_Ioo, hset, hPF]
  refine le_antisymm ?_ ?_
  · calc volume (Iic F ∩ Ioo 0 1) ≤ volume (Icc 0 F) := measure_mono fun q hq => ⟨hq.2.1.le, hq.1⟩
      _ = ENNReal.ofReal F := by simp
  · calc ENNReal.ofReal F = volume (Ioo 0 F) := by simp
      _ ≤ volume (Iic F ∩ Ioo 0 1) := measure_mono fun q hq => ⟨hq.2.le, hq.1, hq.2.trans_le hF1⟩

namespace Dist

theorem law_Iic_neg (d : Dist) (hd : d.Inflated) (θ : ℕ → ℝ) (hθ : d.Admissible θ) {y : ℝ} (hy : y < 0) :
    (d.law θ (Iic y)).toReal = 0 := by
  cases d <;> simp only [Inflated] at hd
  · rw [law_betaInflated_Iic θ hθ, if_neg (by linarith), if_neg (by linarith), innerBeta,
      Frozen.cdf_beta_nonpos hy.le]; simp
  · rw [law_betaInflatedZero_Iic θ hθ, if_neg (by linarith), innerBeta, Frozen.cdf_beta_nonpos hy.le]; simp
  · obtain ⟨⟨hμ, hσ⟩, hν, hν1⟩ := id hθ
    rw [law_zaga_Iic θ hθ, if_neg (by linarith), innerGamma, Frozen.cdf_gamma_nonpos (by positivity) hy.le]; simp

theorem law_Iic_above (d : Dist) (hd : d.Inflated) (θ : ℕ → ℝ) (hθ : d.Admissible θ) {y : ℝ}
    (hy : y ∉ d.Responses) (h0 : 0 ≤ y) : (d.law θ (Iic y)).toReal = 1 := by
  have hw : ∀ (d : Dist), d = betaInflated ∨ d = betaInflatedZero → d.Inflated → d.Admissible θ → 1 ≤ y →
      (d.law θ (Iic y)).toReal = 1 := by
    intro d hd hi ha h1
    obtain ⟨F, hF, -, -, hF1⟩ := C50_distribution_function d hd θ ha
    have := C50_cdf_partial d hi θ ha y (by rcases hd with rfl | rfl <;> exact id)
    rw [hF, hF1 y h1] at this
    exact (Flt.fin.inj this).symm
  cases d <;> simp only [Inflated] at hd
  · exact hw betaInflated (Or.inl rfl) trivial hθ (not_lt.mp fun h => hy ⟨h0, h.le⟩)
  · exact hw betaInflatedZero (Or.inr rfl) trivial hθ (not_lt.mp fun h => hy ⟨h0, h⟩)
  · exact absurd h0 hy

/-- The quantile function of an inflated class is the generalised inverse of its law, for all real arguments. -/
theorem ppf_le_iff (ulp : ℝ) (d : Dist) (hd : d.Inflated) (θ : ℕ → ℝ) (hθ : d.Admissible θ) (q : ℝ) (hq0 : 0 < q)
    (hq1 : q < 1) (y : ℝ) : (d.ppf ulp q θ).toReal ≤ y ↔ q ≤ (d.law θ (Iic y)).toReal := by
  obtain ⟨z, hz, hzr⟩ := C51_quantile_in_support ulp d hd θ hθ q hq0 hq1
  by_cases hy : y ∈ d.Responses
  · obtain ⟨x, F, hx, hF, hiff⟩ := C51_generalised_inverse ulp d hd θ hθ q hq0 hq1 y hy
    rw [C50_cdf d θ hθ y hy] at hF
    rw [hx, Flt.fin.inj hF]
    exact hiff
  · rw [hz]
    change z ≤ y ↔ _
    have hz0 : 0 ≤ z := by
      cases d <;> simp only [Inflated] at hd
      · exact hzr.1
      · exact hzr.1
      · exact hzr
    rcases lt_or_ge y 0 with h | h
    · rw [law_Iic_neg d hd θ hθ h]
      constructor <;> intro h' <;> linarith
    · rw [law_Iic_above d hd θ hθ hy h]
      refine ⟨fun _ => hq1.le, fun _ => ?_⟩
      cases d <;> simp only [Inflated] at hd
      · exact hzr.2.trans (not_lt.mp fun h' => hy ⟨h, h'.le⟩)
      · exact hzr.2.le.trans (not_lt.mp fun h' => hy ⟨h, h'⟩)
      · exact absurd h hy

/-- One uniform number gives one draw from the distribution. -/
theorem map_ppf (ulp : ℝ) (d : Dist) (hd : d.Inflated) (θ : ℕ → ℝ) (hθ : d.Admissible θ) :
    AEMeasurable (fun q => (d.ppf ulp q θ).toReal) uniformLaw ∧
      uniformLaw.map (fun q => (d.ppf ulp q θ).toReal) = d.law θ := by
  haveI := law_isProbability d θ hθ
  exact map_uniform _ _ fun q h0 h1 y => ppf_le_iff ulp d hd θ hθ q h0 h1 y

theorem inflatedRvs_rows (ulp : ℝ) (d : Dist) {n : ℕ} (u : Fin n → ℝ) (θs : Fin n → ℕ → ℝ) :
    d.inflatedRvs ulp (List.ofFn u) (List.ofFn θs) = .ok (List.ofFn fun i => d.ppf ulp (u i) (θs i)) := by
  unfold inflatedRvs broadcast
  rw [if_pos (by simp)]
  change Except.ok _ = _
  congr 1
  refine List.ext_getElem (by simp) fun i h1 h2 => ?_
  simp

theorem inflatedRvs_single (ulp : ℝ) (d : Dist) {size : ℕ} (u : Fin size → ℝ) (θ : ℕ → ℝ) :
    d.inflatedRvs ulp (List.ofFn u) [θ] = .ok (List.ofFn fun i => d.ppf ulp (u i) θ) := by
  have hb : broadcast (List.ofFn u) [θ] = .ok ((List.ofFn u).map fun q => (q, θ)) := by
    unfold broadcast
    split_ifs with h
    · obtain ⟨q, hq⟩ : ∃ q, List.ofFn u = [q] := by
        rw [← List.length_eq_one_iff]; simpa using h
      rw [hq]; rfl
    · split
      · simp_all
      · simp_all
      · simp_all
  unfold inflatedRvs
  rw [hb]
  change Except.ok _ = _
  congr 1
  refine List.ext_getElem (by simp) fun i h1 h2 => ?_
  simp

theorem entry_ofFn {n : ℕ} (x : Fin n → Flt) (i : Fin n) : entry (.ok (List.ofFn x)) i = (x i).toReal := by
  simp [entry, List.getD_eq_getElem?_getD]

/-- `rvs` of an inflated class with as many draws as parameter rows: the joint law of the returned numbers is the product
of the laws of the rows. -/
theorem C85_one_draw_per_row_partial (ulp : ℝ) (d : Dist) (hd : d.Inflated) {n : ℕ} (θs : Fin n → ℕ → ℝ)
    (hθ : ∀ i, d.Admissible (θs i)) :
    (∀ u : Fin n → ℝ, (∀ i, u i ∈ Ioo (0 : ℝ) 1) → ∃ x : Fin n → ℝ, (∀ i, x i ∈ d.Responses) ∧
      d.inflatedRvs ulp (List.ofFn u) (List.ofFn θs) = .ok (List.ofFn fun i => .fin (x i))) ∧
    (Measure.pi fun _ : Fin n => uniformLaw).map
      (fun u (i : Fin n) => entry (d.inflatedRvs ulp (List.ofFn u) (List.ofFn θs)) i) =
        Measure.pi fun i => d.law (θs i) := by
  constructor
  · intro u hu
    have := fun i => C51_quantile_in_support ulp d hd (θs i) (hθ i) (u i) (hu i).1 (hu i).2
    choose x hx hxr using this
    refine ⟨x, hxr, ?_⟩
    rw [inflatedRvs_rows]
    simp only [hx]
  · haveI := fun i => law_isProbability d (θs i) (hθ i)
    simp only [inflatedRvs_rows, entry_ofFn]
    have h := fun i => map_ppf ulp d hd (θs i) (hθ i)
    haveI : ∀ i, SigmaFinite (uniformLaw.map fun q => (d.ppf ulp q (θs i)).toReal) := fun i => by
      rw [(h i).2]; infer_instance
    rw [Measure.pi_map_pi (fun i => (h i).1)]
    simp only [(h _).2]

/-- `rvs` of an inflated class for one parameter row: `size` independent draws from the distribution. -/
theorem C85_single_row_partial (ulp : ℝ) (d : Dist) (hd : d.Inflated) {size : ℕ} (θ : ℕ → ℝ) (hθ : d.Admissible θ) :
    (∀ u : Fin size → ℝ, (∀ i, u i ∈ Ioo (0 : ℝ) 1) → ∃ x : Fin size → ℝ, (∀ i, x i ∈ d.Responses) ∧
      d.inflatedRvs ulp (List.ofFn u) [θ] = .ok (List.ofFn fun i => .fin (x i))) ∧
    (Measure.pi fun _ : Fin size => uniformLaw).map
      (fun u (i : Fin size) => entry (d.inflatedRvs ulp (List.ofFn u) [θ]) i) = Measure.pi fun _ => d.law θ := by
  have h := C85_one_draw_per_row_partial ulp d hd (fun _ : Fin size => θ) fun _ => hθ
  simp only [inflatedRvs_rows] at h
  simp only [inflatedRvs_single]
  exact h

/-- The law of the frozen scipy distribution of a row is the law described by the density method; for LogNormal as long as
`robust_exp` does not clip the scale. -/
theorem frozen_law (d : Dist) (hd : ¬ d.Inflated) (θ : ℕ → ℝ) (h : d.Admissible θ)
    (hc : d = logNormal → θ 0 ≤ Real.log largeNumber) : ∃ f, d.toScipy θ = some f ∧ f.law = d.law θ := by
  by_cases hl : d = logNormal
  · subst hl
    refine ⟨_, rfl, ?_⟩
    have he : robustExp (θ 0) = Real.exp (θ 0) := if_neg (not_lt.mpr (hc rfl))
    rw [he]
    have hA : logNormalMedian.Admissible (fun k => if k = 0 then Real.exp (θ 0) else θ k) := ⟨Real.exp_pos _, h⟩
    have h1 := law_eq_frozen logNormalMedian (by simp) _ hA _ rfl
    rw [law_logNormalMedian _ hA] at h1
    rw [law_logNormal θ h]
    simp only [one_ne_zero, if_true, if_false] at h1
    exact h1.symm
  · cases d <;> first
      | exact absurd trivial hd
      | exact absurd rfl hl
      | exact ⟨_, rfl, (law_eq_frozen _ hl θ h _ rfl).symm⟩

/-- The classes with `ScipyMixin`: `rvs` returns `theta.shape[0]` rows of `size` numbers, all independent, those of row `i`
with the law described by the density method for the `i`-th parameters.  LogNormal as long as `robust_exp` does not clip
the scale. -/
theorem C85_scipy (d : Dist) (hd : ¬ d.Inflated) {n size : ℕ} (θs : Fin n → ℕ → ℝ) (hθ : ∀ i, d.Admissible (θs i))
    (hc : d = logNormal → ∀ i, θs i 0 ≤ Real.log largeNumber) :
    (d.scipyDraws size θs).map scipyRvs = Measure.pi fun is : Fin n × Fin size => d.law (θs is.1) := by
  haveI := fun i => law_isProbability d (θs i) (hθ i)
  have hl : ∀ i, (match d.toScipy (θs i) with
      | some f => f.law
      | none => 0) = d.law (θs i) := by
    intro i
    obtain ⟨f, hf, hfl⟩ := frozen_law d hd (θs i) (hθ i) fun h => hc h i
    rw [hf]
    exact hfl
  have hd' : d.scipyDraws size θs = Measure.pi fun si : Fin size × Fin n => d.law (θs si.2) := by
    unfold scipyDraws
    congr 1
    funext si
    exact hl si.2
  rw [hd']
  have := (measurePreserving_piCongrLeft (fun is : Fin n × Fin size => d.law (θs is.1))
    (Equiv.prodComm (Fin size) (Fin n))).map_eq
  rw [← this]
  congr 1

/-- `InverseGamma.sample` draws from the law described by the density: one number for each row if `n` is the number of rows, `n` numbers
for a single row, `ValueError` otherwise. -/
theorem C85_sample (n : ℕ) (θs : List (ℕ → ℝ)) (hθ : ∀ θ ∈ θs, inverseGamma.Admissible θ) :
    (∀ θ, θs = [θ] → inverseGammaSample n θs = .ok (Measure.pi fun _ => inverseGamma.law θ)) ∧
    (∀ h : θs.length = n, inverseGammaSample n θs = .ok (Measure.pi fun i => inverseGamma.law (θs[i.1]'(h ▸ i.2)))) ∧
    (θs.length ≠ 1 → θs.length ≠ n → inverseGammaSample n θs = .error .valueError) := by
  have hl : ∀ θ, inverseGamma.Admissible θ → (Frozen.invgamma (1 / θ 1 ^ 2) 0 (θ 0 * (1 + θ 1 ^ 2) / θ 1 ^ 2)).law = inverseGamma.law θ :=
    fun θ h => by
      obtain ⟨f, hf, hfl⟩ := frozen_law inverseGamma id θ h (by simp)
      cases hf
      exact hfl
  have one : ∀ θ, θs = [θ] → inverseGammaSample n θs = .ok (Measure.pi fun _ => inverseGamma.law θ) := by
    rintro θ rfl
    simp only [inverseGammaSample]
    rw [hl θ (hθ θ (by simp))]
  have many : θs.length ≠ 1 → inverseGammaSample n θs =
      if h : θs.length = n then .ok (Measure.pi fun i => inverseGamma.law (θs[i.1]'(h ▸ i.2))) else .error .valueError := by
    intro h1
    unfold inverseGammaSample
    simp only
    split
    · simp at h1
    · split
      · congr 2
        funext i
        exact hl _ (hθ _ (List.getElem_mem _))
      · rfl
  refine ⟨one, fun h => ?_, fun h1 h2 => by rw [many h1, dif_neg h2]⟩
  by_cases h1 : θs.length = 1
  · obtain ⟨θ, rfl⟩ := List.length_eq_one_iff.1 h1
    rw [one θ rfl]
    congr 2
    funext i
    have : i.1 = 0 := by
      have := i.2
      simp only [List.length_singleton] at h
      omega
    simp [this]
  · rw [many h1, dif_pos h]

example : inverseGammaSample 3 [fun _ => 1, fun _ => 2] = .error .valueError :=
  (C85_sample 3 _ (by intro θ hθ; simp only [List.mem_cons, List.not_mem_nil, or_false] at hθ; rcases hθ with rfl | rfl <;> simp [Admissible])).2.2
    (by simp) (by simp)

/-- The documentation of `rvs` promises an array of `theta.shape[0]` rows with `size` numbers.  For the inflated classes a
`size` other than 1 and the number of rows raises when there is more than one row. -/
theorem C85_shape_fails (ulp : ℝ) (d : Dist) (u : List ℝ) (θs : List (ℕ → ℝ)) (hu : 2 ≤ u.length) (hθ : 2 ≤ θs.length)
    (h : u.length ≠ θs.length) : d.inflatedRvs ulp u θs = .error .valueError := by
  have : broadcast u θs = .error .valueError := by
    unfold broadcast
    rw [if_neg h]
    split
    · simp at hu
    · simp at hθ
    · rfl
  unfold inflatedRvs
  rw [this]
  rfl

/-- With as many draws as rows only one number per row is returned. -/
theorem C85_square_fails (ulp : ℝ) (d : Dist) (u : List ℝ) (θs : List (ℕ → ℝ)) (hu : 2 ≤ u.length)
    (h : u.length = θs.length) :
    ∃ l, d.inflatedRvs ulp u θs = .ok l ∧ l.length = θs.length ∧ l.length < θs.length * u.length := by
  refine ⟨(u.zip θs).map fun qθ => d.ppf ulp qθ.1 qθ.2, ?_, by simp [h], ?_⟩
  · unfold inflatedRvs broadcast
    rw [if_pos h]
    rfl
  · simp only [List.length_map, List.length_zip, h, min_self]
    rw [h] at hu
    nlinarith

/-- With `size = 1` all rows of an inflated class are computed from the same uniform number: two rows with the same
parameters get the same draw, so the draws are not independent. -/
theorem C85_dependent_fails (ulp : ℝ) (d : Dist) (hd : d.Inflated) (θ : ℕ → ℝ) (hθ : d.Admissible θ) :
    (∀ u : ℝ, ∀ i < 2, entry (d.inflatedRvs ulp [u] [θ, θ]) i = (d.ppf ulp u θ).toReal) ∧
    uniformLaw.map (fun u => (entry (d.inflatedRvs ulp [u] [θ, θ]) 0, entry (d.inflatedRvs ulp [u] [θ, θ]) 1)) ≠
      (d.law θ).prod (d.law θ) := by
  have h1 : ∀ u : ℝ, ∀ i < 2, entry (d.inflatedRvs ulp [u] [θ, θ]) i = (d.ppf ulp u θ).toReal := by
    intro u i hi
    interval_cases i <;> rfl
  refine ⟨h1, fun he => ?_⟩
  haveI := law_isProbability d θ hθ
  obtain ⟨hm, hmap⟩ := map_ppf ulp d hd θ hθ
  simp only [h1 _ 0 (by norm_num), h1 _ 1 (by norm_num)] at he
  have ha : (d.law θ).prod (d.law θ) (Iic 0 ×ˢ Ioi 0) = 0 := by
    rw [← he, Measure.map_apply_of_aemeasurable (hm.prodMk hm) (measurableSet_Iic.prod measurableSet_Ioi)]
    convert measure_empty (μ := uniformLaw)
    ext q
    simp
  rw [Measure.prod_prod, mul_eq_zero] at ha
  have hc := prob_compl_eq_one_sub (μ := d.law θ) (measurableSet_Iic (a := (0 : ℝ)))
  rw [compl_Iic] at hc
  have hp : 0 < (d.law θ (Iic 0)).toReal ∧ (d.law θ (Iic 0)).toReal < 1 := by
    cases d <;> simp only [Inflated] at hd
    · obtain ⟨hμ, hσ, hν, hτ⟩ := id hθ
      rw [law_betaInflated_Iic θ hθ, if_pos le_rfl, if_neg (by norm_num), innerBeta, Frozen.cdf_beta_nonpos le_rfl]
      refine ⟨by positivity, ?_⟩
      rw [div_lt_one (by positivity)]
      linarith
    · obtain ⟨hμ, hσ, hν⟩ := id hθ
      rw [law_betaInflatedZero_Iic θ hθ, if_pos le_rfl, innerBeta, Frozen.cdf_beta_nonpos le_rfl]
      refine ⟨by positivity, ?_⟩
      rw [div_lt_one (by positivity)]
      linarith
    · obtain ⟨⟨hμ, hσ⟩, hν, hν1⟩ := id hθ
      rw [law_zaga_Iic θ hθ, if_pos le_rfl, innerGamma, Frozen.cdf_gamma_nonpos (by positivity) le_rfl]
      simp [hν, hν1]
  rcases ha with ha | ha
  · rw [ha] at hp
    simp at hp
  · rw [ha] at hc
    have : d.law θ (Iic 0) = 1 := le_antisymm prob_le_one (tsub_eq_zero_iff_le.mp hc.symm)
    rw [this] at hp
    simp at hp

end Dist

/-- Parameters of the examples. -/
example : Dist.betaInflated.Admissible (fun _ => 1 / 2) := by
  refine ⟨⟨?_, ?_⟩, ⟨?_, ?_⟩, ?_, ?_⟩ <;> norm_num

/-- Draws for two different rows. -/
example (ulp : ℝ) (u : Fin 2 → ℝ) :
    ∃ r, Dist.zeroAdjustedGamma.inflatedRvs ulp (List.ofFn u) [fun _ => 1 / 2, fun _ => 1 / 4] = .ok r ∧ r.length = 2 :=
  ⟨_, Dist.inflatedRvs_rows ulp _ u ![fun _ => 1 / 2, fun _ => 1 / 4], by simp⟩

/-- LogNormal rows below the clipping bound. -/
example : Dist.logNormal.Admissible (fun _ => 1) ∧ ((1 : ℝ) ≤ Real.log largeNumber) := by
  refine ⟨show (0 : ℝ) < 1 by norm_num, ?_⟩
  rw [Real.le_log_iff_exp_le (by unfold largeNumber; positivity)]
  have := Real.exp_one_lt_d9
  unfold largeNumber
  norm_num
  linarith

end Ondil
