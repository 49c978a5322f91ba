import Verif.Props.CdfAll
import Verif.Props.GamlssPredict
import Verif.Props.Scores
import Verif.Lemmas.Working

/-!
# C101: predicted quantiles are quantiles of the predicted law
-/

namespace Ondil

open MeasureTheory ProbabilityTheory Set Filter

variable {μ : Type} {p : ℕ}

/-- If all points from `x` on, and no others, have at least probability `q` below or at them, then less than `x` has at most
probability `q`. -/
theorem measure_Iio_le {P : Measure ℝ} [IsProbabilityMeasure P] {q x : ℝ} (h : ∀ y < x, (P (Iic y)).toReal ≤ q) :
    (P (Iio x)).toReal ≤ q := by
  obtain ⟨u, hu, hlt, hlim⟩ := exists_seq_strictMono_tendsto x
  have hU : Iio x = ⋃ n, Iic (u n) := by
    ext y
    simp only [mem_Iio, mem_iUnion, mem_Iic]
    constructor
    · intro hy
      obtain ⟨n, hn⟩ := (hlim.eventually (eventually_gt_nhds hy)).exists
      exact ⟨n, hn.le⟩
    · rintro ⟨n, hn⟩
      exact hn.trans_lt (hlt n)
  have ht := tendsto_measure_iUnion_atTop (μ := P) (s := fun n => Iic (u n)) fun a b hab => Iic_subset_Iic.2 (hu.monotone hab)
  rw [← hU] at ht
  have ht' := (ENNReal.tendsto_toReal (measure_ne_top P (Iio x))).comp ht
  exact le_of_tendsto ht' (.of_forall fun n => h _ (hlt n))

namespace Dist

theorem ordConnected_responses (d : Dist) : d.Responses.OrdConnected := by
  cases d <;> simp only [Responses] <;> infer_instance

/-- The law of a class without inflated points has no atoms. -/
theorem law_no_atom (d : Dist) (hd : d.inflatedPoints = []) (θ : ℕ → ℝ) (x : ℝ) : d.law θ {x} = 0 := by
  unfold law lawOf
  rw [hd]
  simp only [List.map_nil, List.sum_nil, add_zero]
  exact (withDensity_absolutelyContinuous _ _).trans Measure.restrict_le_self.absolutelyContinuous (by simp)

/-- The quantile function of every class returns a quantile of the law that is a possible response. -/
theorem ppf_quantile (ulp : ℝ) (d : Dist) (θ : ℕ → ℝ) (h : d.Admissible θ) {q : ℝ} (hq0 : 0 < q) (hq1 : q < 1) :
    ∃ x, d.ppf ulp q θ = .fin x ∧ x ∈ d.Responses ∧ (∀ y ∈ d.Responses, x ≤ y ↔ q ≤ (d.law θ (Iic y)).toReal) ∧
      (d.law θ (Iio x)).toReal ≤ q := by
  haveI := law_isProbability d θ h
  -- the quantile exists, and is a response
  have hx : ∃ x, d.ppf ulp q θ = .fin x ∧ x ∈ d.Responses := by
    by_cases hi : d.Inflated
    · exact C51_quantile_in_support ulp d hi θ h q hq0 hq1
    by_cases hl : d = logNormal
    · subst hl
      refine ⟨Real.exp (θ 0 + θ 1 * sInf {x | q ≤ (Frozen.norm 0 1).cdf x}), ?_, Real.exp_pos _⟩
      change Flt.exp (Flt.add (.fin (θ 0)) (Flt.mul (.fin (θ 1)) ((Frozen.norm 0 1).ppf q))) = _
      rw [Frozen_ppf_mid _ hq0 hq1]
      rfl
    · obtain ⟨f, hf⟩ : ∃ f, d.toScipy θ = some f := by
        cases d <;> simp_all [Inflated, toScipy]
      have e := law_eq_frozen d hl θ h f hf
      have hp : d.ppf ulp q θ = f.ppf q := by
        cases d <;> simp only [Inflated, not_true_eq_false] at hi <;> first | exact absurd rfl hl | (cases hf; rfl)
      refine ⟨_, hp.trans (Frozen_ppf_mid f hq0 hq1), ?_⟩
      set x := sInf {z | q ≤ f.cdf z} with hxdef
      have key : ∀ y, x ≤ y ↔ q ≤ (d.law θ (Iic y)).toReal := by
        intro y
        have := sInf_cdf_le_iff (d.law θ) hq0 hq1 y
        rw [e] at this ⊢
        exact this
      have hae := law_ae_responses d θ
      -- some response is at most `x`
      have h1 : ∃ y ∈ d.Responses, y ≤ x := by
        by_contra hc
        push Not at hc
        have h0 : d.law θ (Iic x) = 0 := by
          refine measure_mono_null (t := {y | ¬ y ∈ d.Responses}) (fun y hy (hyr : y ∈ d.Responses) => ?_) hae
          exact absurd (hc y hyr) (not_lt.2 hy)
        have := (key x).1 le_rfl
        rw [h0] at this
        simp only [ENNReal.toReal_zero] at this
        linarith
      have h2 : ∃ y ∈ d.Responses, x ≤ y := by
        by_contra hc
        push Not at hc
        have h0 : d.law θ (Ici x) = 0 := by
          refine measure_mono_null (t := {y | ¬ y ∈ d.Responses}) (fun y hy (hyr : y ∈ d.Responses) => ?_) hae
          exact absurd (hc y hyr) (not_lt.2 hy)
        have h3 : (d.law θ (Iio x)).toReal ≤ q :=
          measure_Iio_le fun y hy => le_of_lt (not_le.1 fun hc => absurd ((key y).2 hc) (not_le.2 hy))
        have h4 : d.law θ (Iio x) = 1 := by
          have : d.law θ (Iio x) + d.law θ (Ici x) = 1 := by
            rw [← measure_union (by
              rw [Set.disjoint_left]
              exact fun y (hy : y < x) (hy' : x ≤ y) => absurd hy (not_lt.2 hy')) measurableSet_Ici, Iio_union_Ici, measure_univ]
          rwa [h0, add_zero] at this
        rw [h4] at h3
        simp only [ENNReal.toReal_one] at h3
        linarith
      obtain ⟨y, hy, hyx⟩ := h1
      obtain ⟨z, hz, hxz⟩ := h2
      exact d.ordConnected_responses.out hy hz ⟨hyx, hxz⟩
  obtain ⟨x, hx1, hx2⟩ := hx
  have key : ∀ y ∈ d.Responses, x ≤ y ↔ q ≤ (d.law θ (Iic y)).toReal := by
    intro y hy
    obtain ⟨x', F, h1, h2, h3⟩ := C51_generalised_inverse_all ulp d θ h q hq0 hq1 y hy
    rw [hx1] at h1
    cases h1
    rw [C50_cdf d θ h y hy] at h2
    cases h2
    exact h3
  refine ⟨x, hx1, hx2, key, ?_⟩
  refine measure_Iio_le fun y hy => ?_
  by_cases hyr : ∃ r ∈ d.Responses, r ≤ y
  · obtain ⟨r, hr, hry⟩ := hyr
    have hyR : y ∈ d.Responses := d.ordConnected_responses.out hr hx2 ⟨hry, hy.le⟩
    exact le_of_lt (not_le.1 fun hc => absurd ((key y hyR).2 hc) (not_le.2 hy))
  · push Not at hyr
    have h0 : d.law θ (Iic y) = 0 := by
      refine measure_mono_null (t := {y | ¬ y ∈ d.Responses}) (fun z hz (hzr : z ∈ d.Responses) => ?_) (law_ae_responses d θ)
      exact absurd (hyr z hzr) (not_lt.2 hz)
    rw [h0]
    simpa using hq0.le

end Dist

/-- Quantiles predicted by a fitted distributional regression, for every distribution of the package, every link and every `X`: if
the predicted parameters of a row are in the declared supports, then the quantiles of this row are finite, are possible
responses, and have the probabilities asked for under the predicted law: at least `q` at or below, at most `q` below, exactly `q`
for the classes without inflated points.  They do not cross, and a prediction interval between two quantiles has at least, or
exactly, the nominal probability. -/
theorem C101_quantiles (tiny ulp : ℝ) (ht : 0 < tiny) (hu : 0 < ulp) (o : ScipyOracles) (e : Elsewhere) (d : Dist) (links : List LinkClass)
    (s : GState μ p) (X : List (Row p)) (qs : List ℝ) (hqs : ∀ q ∈ qs, 0 < q ∧ q < 1) (Q : Arr2)
    (h : predictQuantile (d.ops tiny ulp o e links) s X qs = .ok Q) :
    ∃ th, predictParams (d.ops tiny ulp o e links) s X .response = .ok th ∧ Q.length = th.length ∧
      ∀ i (_ : i < th.length) (_ : i < Q.length), (∀ j < d.nParams, th[i] j = .fin (rowReal th[i] j)) →
        d.InParameterSupport tiny ulp (rowReal th[i]) →
        let P := fun A => (d.law (rowReal th[i]) A).toReal
        ∃ v : ℝ → ℝ, Q[i] = qs.map (fun q => .fin (v q)) ∧ ∀ q ∈ qs,
          v q ∈ d.Responses ∧ q ≤ P (Iic (v q)) ∧ P (Iio (v q)) ≤ q ∧ (d.inflatedPoints = [] → P (Iic (v q)) = q) ∧
          ∀ q' ∈ qs, q ≤ q' → v q ≤ v q' ∧ q' - q ≤ P (Icc (v q) (v q')) ∧ (d.inflatedPoints = [] → P (Icc (v q) (v q')) = q' - q) := by
  obtain ⟨th, h1, h2, h3⟩ := C64_quantiles tiny ulp o e d links s X qs Q h
  refine ⟨th, h1, h2, fun i hi hQ hfin hsup => ?_⟩
  intro P
  have hrow : d.realRow? tiny ulp th[i] = some (rowReal th[i]) := by
    unfold Dist.realRow?
    rw [if_pos]
    · exact congrArg some (funext fun j => ((th[i] j).toReal_eq).symm)
    · intro j hj
      obtain ⟨sup, hs⟩ := Dist.parameterSupport_some tiny ulp d j hj
      exact ⟨_, sup, hfin j hj, hs, hsup j sup hs⟩
  set θ := rowReal th[i] with hθ
  have hadm : d.Admissible θ := Dist.admissible_of_inParameterSupport tiny ulp ht hu d θ hsup
  haveI := Dist.law_isProbability d θ hadm
  let v : ℝ → ℝ := fun q => (d.ppf ulp q θ).toReal
  have hv : ∀ q ∈ qs, d.ppf ulp q θ = .fin (v q) ∧ v q ∈ d.Responses ∧
      (∀ y ∈ d.Responses, v q ≤ y ↔ q ≤ P (Iic y)) ∧ P (Iio (v q)) ≤ q := by
    intro q hq
    obtain ⟨x, hx1, hx2, hx3, hx4⟩ := Dist.ppf_quantile ulp d θ hadm (hqs q hq).1 (hqs q hq).2
    have : v q = x := by simp only [v]; rw [hx1]; rfl
    rw [this]
    exact ⟨hx1, hx2, hx3, hx4⟩
  have hle : ∀ q ∈ qs, q ≤ P (Iic (v q)) := fun q hq => ((hv q hq).2.2.1 _ (hv q hq).2.1).1 le_rfl
  have hsplit : ∀ x, P (Iic x) = P (Iio x) + P {x} := by
    intro x
    simp only [P]
    rw [← ENNReal.toReal_add (measure_ne_top _ _) (measure_ne_top _ _), ← measure_union (by simp) (measurableSet_singleton x),
      Iio_union_right]
  have hzero : d.inflatedPoints = [] → ∀ x, P {x} = 0 := by
    intro hd x
    simp only [P]
    rw [d.law_no_atom hd θ x]
    rfl
  have hIcc : ∀ {a b : ℝ}, a ≤ b → P (Icc a b) = P (Iic b) - P (Iio a) := by
    intro a b hab
    have : P (Iic b) = P (Iio a) + P (Icc a b) := by
      simp only [P]
      rw [← ENNReal.toReal_add (measure_ne_top _ _) (measure_ne_top _ _), ← measure_union (by
        rw [Set.disjoint_left]
        exact fun y (hy : y < a) (hy' : a ≤ y ∧ y ≤ b) => absurd hy (not_lt.2 hy'.1)) measurableSet_Icc]
      congr 2
      ext y
      simp only [mem_Iic, mem_union, mem_Iio, mem_Icc]
      constructor
      · intro hy
        rcases lt_or_ge y a with h | h
        · exact .inl h
        · exact .inr ⟨h, hy⟩
      · rintro (h | h)
        · exact h.le.trans hab
        · exact h.2
    linarith
  have hexact : d.inflatedPoints = [] → ∀ q ∈ qs, P (Iic (v q)) = q := by
    intro hd q hq
    refine le_antisymm ?_ (hle q hq)
    rw [hsplit, hzero hd, add_zero]
    exact (hv q hq).2.2.2
  have hexact' : d.inflatedPoints = [] → ∀ q ∈ qs, P (Iio (v q)) = q := by
    intro hd q hq
    have := hsplit (v q)
    rw [hzero hd, add_zero, hexact hd q hq] at this
    exact this.symm
  refine ⟨v, ?_, fun q hq => ⟨(hv q hq).2.1, hle q hq, (hv q hq).2.2.2, fun hd => hexact hd q hq, fun q' hq' hqq => ?_⟩⟩
  · rw [h3 i hi hQ θ hrow]
    exact List.map_congr_left fun q hq => (hv q hq).1
  · have hmono : v q ≤ v q' := ((hv q hq).2.2.1 _ (hv q' hq').2.1).2 (hqq.trans (hle q' hq'))
    refine ⟨hmono, ?_, fun hd => ?_⟩
    · rw [hIcc hmono]
      linarith [hle q' hq', (hv q hq).2.2.2]
    · rw [hIcc hmono, hexact hd q' hq', hexact' hd q hq]

/-- A fitted normal model with location 1/2 and scale `exp(1/2)`: the hypotheses hold for its prediction, and the quantiles for
10% and 90% enclose exactly 80% of the predicted law. -/
example (o : ScipyOracles) (e : Elsewhere) : ∃ a b th, predictQuantile (Dist.normal.ops (1 / 10) (1 / 10) o e Dist.normal.defaultLinks) exampleState
      [fun _ => 7] [1 / 10, 9 / 10] = .ok [[.fin a, .fin b]] ∧ a ≤ b ∧ (Dist.normal.law th (Icc a b)).toReal = 8 / 10 := by
  obtain ⟨eta, h, h0, h1⟩ := exampleState_link (1 / 10) (1 / 10) o e Dist.normal Dist.normal.defaultLinks
  obtain ⟨⟨th, hth⟩, ⟨Q, hQ⟩, -⟩ := C65_available_partial (1 / 10) (1 / 10) o e Dist.normal Dist.normal.defaultLinks
    (by simp [Dist.nParams, Dist.defaultLinks]) exampleState [fun _ => 7] eta [1 / 10, 9 / 10] h
  have hlen : th.length = 1 := by rw [predictParams_length hth]; rfl
  have hval : ∀ k < 2, th[0] k = .fin ((Dist.normal.defaultLinks.getD k .identity).inverse (1 / 2)) := by
    intro k hk
    have h2 := C64_response_is_inverse_link _ (ops_keepsLength (1 / 10) (1 / 10) o e Dist.normal Dist.normal.defaultLinks) exampleState
      [fun _ => 7] th eta hth h k hk
    change withLink _ _ k _ = _ at h2
    unfold withLink at h2
    have h3 : Dist.normal.defaultLinks[k]? = some (Dist.normal.defaultLinks.getD k .identity) := by
      interval_cases k <;> rfl
    rw [h3] at h2
    injection h2 with h2
    have h4 : th[0] k = (th.col k)[0]'(by simpa [Fv.col] using (by omega : 0 < th.length)) := by simp [Fv.col]
    have hgo : ∀ (l : Arr1) (hl : 0 < l.length), List.map (LinkClass.inverseFlt e (Dist.normal.defaultLinks.getD k .identity)) (Fv.col eta k) = l →
        l[0] = .fin ((Dist.normal.defaultLinks.getD k .identity).inverse (1 / 2)) := by
      intro l hl hm
      subst hm
      simp only [List.getElem_map, Fv.col, h1 k hk]
      rfl
    rw [h4]
    exact hgo _ _ h2
  obtain ⟨th', e1, e2, e3⟩ := C101_quantiles (1 / 10) (1 / 10) (by norm_num) (by norm_num) o e Dist.normal Dist.normal.defaultLinks exampleState
    [fun _ => 7] [1 / 10, 9 / 10] (by norm_num) Q hQ
  rw [hth] at e1
  cases e1
  have hfin : ∀ j < Dist.normal.nParams, th[0] j = .fin (rowReal th[0] j) := by
    intro j hj
    rw [rowReal, hval j hj]
    rfl
  have hsup : Dist.normal.InParameterSupport (1 / 10) (1 / 10) (rowReal th[0]) := by
    intro k sup hs
    match k, hs with
    | 0, hs => cases hs; exact ⟨bot_le, le_top⟩
    | 1, hs =>
      cases hs
      refine ⟨?_, le_top⟩
      have h5 : rowReal th[0] 1 = robustExp (1 / 2) := by
        rw [rowReal, hval 1 (by norm_num)]
        rfl
      rw [h5]
      have h6 : robustExp (Real.log 1) = 1 := robustExp_log one_pos (by norm_num [largeNumber])
      have h7 : robustExp (Real.log 1) ≤ robustExp (1 / 2) := robustExp_monotone (by rw [Real.log_one]; norm_num)
      exact EReal.coe_le_coe_iff.2 (by linarith)
    | k + 2, hs => simp [Dist.parameterSupport] at hs
  obtain ⟨v, g1, g2⟩ := e3 0 (by omega) (by omega) hfin hsup
  obtain ⟨-, -, -, -, g3⟩ := g2 (1 / 10) (by simp)
  obtain ⟨g4, -, g5⟩ := g3 (9 / 10) (by simp) (by norm_num)
  refine ⟨v (1 / 10), v (9 / 10), rowReal th[0], ?_, g4, (g5 rfl).trans (by norm_num)⟩
  rw [hQ]
  congr 1
  have : Q.length = 1 := by omega
  obtain ⟨r, rfl⟩ := List.length_eq_one_iff.1 this
  simpa using g1

end Ondil
