import Verif.Spec.Working
import Verif.Lemmas.GamlssNormalValues
import Verif.Props.Links
import Verif.Props.Fisher

/-!
# The working quantities of one row
-/

namespace Ondil

open MeasureTheory Filter Topology

theorem Flt.toReal_eq (v : Flt) : v.toReal = (v.real?).getD 0 := by cases v <;> rfl

namespace Dist

theorem parameterSupport_some (tiny ulp : ℝ) (d : Dist) (k : ℕ) (hk : k < d.nParams) :
    ∃ sup, d.parameterSupport tiny ulp k = some sup := by
  cases d <;> simp only [nParams] at hk <;> interval_cases k <;> exact ⟨_, rfl⟩

theorem WorkRow.realRow {tiny ulp : ℝ} {d : Dist} {L : LinkClass} {k : ℕ} {r : ℕ → Flt} (h : d.WorkRow tiny ulp L k r) :
    d.realRow? tiny ulp r = some (rowReal r) := by
  unfold realRow?
  rw [if_pos]
  · exact congrArg some (funext fun j => ((r j).toReal_eq).symm)
  · intro j hj
    obtain ⟨sup, hs⟩ := parameterSupport_some tiny ulp d j hj
    exact ⟨_, sup, h.finite j hj, hs, h.support j sup hs⟩

/-- Almost every response of the law has positive density or positive probability. -/
theorem law_ae_responses (d : Dist) (θ : ℕ → ℝ) : ∀ᵐ y ∂d.law θ, y ∈ d.Responses := by
  unfold law lawOf
  rw [ae_add_measure_iff]
  constructor
  · exact (withDensity_absolutelyContinuous _ _).ae_le (ae_restrict_mem d.measurableSet_responses)
  · have key : ∀ (l : List ℝ), (∀ a ∈ l, a ∈ d.Responses) → ∀ c : ℝ → ENNReal,
        ∀ᵐ y ∂(l.map fun a => c a • Measure.dirac a).sum, y ∈ d.Responses := by
      intro l hl c
      induction l with
      | nil => simp
      | cons a l ih =>
        rw [List.map_cons, List.sum_cons, ae_add_measure_iff]
        refine ⟨?_, ih fun b hb => hl b (by simp [hb])⟩
        refine Measure.ae_smul_measure ?_ _
        exact (ae_dirac_iff (p := fun y => y ∈ d.Responses) d.measurableSet_responses).2 (hl a (by simp))
    exact key _ (by cases d <;> simp [inflatedPoints, Responses]) _

end Dist

theorem LinkClass.inverse_link {L : LinkClass} {x : ℝ} (hx : x ∈ L.workParam) : L.inverse (L.link x) - L.offset = x := by
  by_cases h : L.AddsSmall
  · rw [(C41_shifted_round_trip_fails L h hx).1]
    cases L <;> simp only [LinkClass.AddsSmall] at h <;> simp only [LinkClass.offset] <;> ring
  · rw [C41_inverse_link_partial L h hx]
    cases L <;> simp only [LinkClass.AddsSmall, not_true_eq_false] at h <;> simp only [LinkClass.offset] <;> ring

theorem LinkClass.inverseDerivative_pos {tiny ulp : ℝ} (ht : 0 < tiny) {L : LinkClass} {x : ℝ}
    (hs : (L.linkSupport tiny ulp).1 ≤ (x : EReal)) (hx : L.link x ∈ L.smoothPred) : 0 < L.inverseDerivative (L.link x) := by
  have hz : ∀ u : ℝ, -Real.log (10 ^ 15) ≤ u → 0 < zeroSafeDivision 1 (robustExp (-u) + 1) := by
    intro u h
    have := robustExp_pos (-u)
    rw [zeroSafeDivision_one]
    · positivity
    · rw [abs_of_pos (by linarith)]
      norm_num
      linarith
  cases L with
  | identity => exact one_pos
  | logit => exact div_pos (robustExp_pos _) (pow_pos (by linarith [robustExp_pos (LinkClass.logit.link x)]) 2)
  | log => exact robustExp_pos _
  | logShift v => exact robustExp_pos _
  | logIdent =>
    simp only [LinkClass.inverseDerivative]
    split
    · exact robustExp_pos _
    · exact one_pos
  | softplus => exact hz _ hx.1
  | softplusShift v => exact hz _ hx.1
  | sqrt =>
    have h : tiny ≤ x := EReal.coe_le_coe_iff.mp hs
    exact mul_pos two_pos (Real.sqrt_pos.2 (by linarith))
  | sqrtShift v =>
    have h : v + tiny ≤ x := EReal.coe_le_coe_iff.mp hs
    exact mul_pos two_pos (Real.sqrt_pos.2 (by have := smallNumber_pos; linarith))

namespace Dist

/-- The derivative of the log density with respect to the linear predictor: chain rule. -/
theorem hasDerivAt_logLikEta (d : Dist) (L : LinkClass) {θ : ℕ → ℝ} (hθ : d.Admissible θ) {k : ℕ} (hk : k < d.nParams)
    (hw : θ k ∈ L.workParam) (hs : L.link (θ k) ∈ L.smoothPred) {y : ℝ} (hy : y ∈ d.Responses) :
    HasDerivAt (d.logLikEta L θ k y) (d.score θ k y * L.inverseDerivative (L.link (θ k))) (L.link (θ k)) := by
  obtain ⟨s, ℓ, h1, h2, h3⟩ := C46_score_is_derivative d y θ hy hθ k hk
  have hsc : d.score θ k y = s := by
    unfold score
    rw [h1]
    rfl
  have hi : HasDerivAt (fun η => L.inverse η - L.offset) (L.inverseDerivative (L.link (θ k))) (L.link (θ k)) :=
    (C44_inverse_derivative L hs).sub_const _
  have hx : L.inverse (L.link (θ k)) - L.offset = θ k := LinkClass.inverse_link hw
  rw [hsc]
  have h3' : HasDerivAt ℓ s (L.inverse (L.link (θ k)) - L.offset) := by rwa [hx]
  have hcomp := HasDerivAt.comp (L.link (θ k)) h3' hi
  refine hcomp.congr_of_eventuallyEq ?_
  have ht : Tendsto (fun η => L.inverse η - L.offset) (𝓝 (L.link (θ k))) (𝓝 (θ k)) := by
    have := hi.continuousAt.tendsto
    rwa [hx] at this
  filter_upwards [ht.eventually h2] with η hη
  unfold logLikEta
  rw [hη]
  rfl

theorem etaInformation_eq (d : Dist) (L : LinkClass) {θ : ℕ → ℝ} (hθ : d.Admissible θ) {k : ℕ} (hk : k < d.nParams)
    (hw : θ k ∈ L.workParam) (hs : L.link (θ k) ∈ L.smoothPred) :
    d.etaInformation L θ k (L.link (θ k)) = fisher (d.law θ) (d.score θ) k k * L.inverseDerivative (L.link (θ k)) ^ 2 := by
  unfold etaInformation fisher
  rw [← integral_mul_const]
  refine integral_congr_ae ?_
  filter_upwards [law_ae_responses d θ] with y hy
  unfold etaScore
  rw [(hasDerivAt_logLikEta d L hθ hk hw hs hy).deriv]
  ring

/-! ### The arrays -/

section

variable {tiny ulp : ℝ} {o : ScipyOracles} {e : Elsewhere} {d : Dist} {links : List LinkClass} {L : LinkClass} {k : ℕ}

/-- The unclipped working weight of a row. -/
noncomputable def rawWeight (d : Dist) (L : LinkClass) (k : ℕ) (q : ℝ × (ℕ → Flt)) : ℝ :=
  -returned (d.dl2 q.1 (rowReal q.2) k) * L.inverseDerivative (L.link (rowReal q.2 k)) ^ 2

/-- The working weight of a row. -/
noncomputable def rowWeight (lo : ℝ) (d : Dist) (L : LinkClass) (k : ℕ) (q : ℝ × (ℕ → Flt)) : ℝ :=
  min (max (rawWeight d L k q) lo) 10000000000

/-- The working response of a row. -/
noncomputable def rowResponse (lo : ℝ) (d : Dist) (L : LinkClass) (k : ℕ) (q : ℝ × (ℕ → Flt)) : Flt :=
  Flt.add (.fin (L.link (rowReal q.2 k))) (Flt.div (.fin (d.score (rowReal q.2) k q.1))
    (.fin (1 / L.inverseDerivative (L.link (rowReal q.2 k)) * rowWeight lo d L k q)))

theorem mapM_fin {α : Type} {l : List α} {F : α → Except PyErr Flt} {G : α → ℝ} (h : ∀ a ∈ l, F a = .ok (.fin (G a))) :
    l.mapM F = .ok (l.map fun a => .fin (G a)) := by
  induction l with
  | nil => rfl
  | cons a l ih =>
    rw [List.mapM_cons, h a (by simp), bind_ok_eq, ih fun b hb => h b (by simp [hb])]
    rfl

theorem zip_fst_snd {α β : Type} (l : List (α × β)) : (l.map Prod.fst).zip (l.map Prod.snd) = l := by
  induction l with
  | nil => rfl
  | cons a l ih => rw [List.map_cons, List.map_cons, List.zip_cons_cons, ih]

theorem working_rows (ht : 0 < tiny) (hu : 0 < ulp) (hk : k < d.nParams) (hL : links[k]? = some L) (lo : ℝ)
    {data : List (ℝ × (ℕ → Flt))} (h : ∀ q ∈ data, q.1 ∈ d.Responses ∧ d.WorkRow tiny ulp L k q.2) :
    working (d.ops tiny ulp o e links) lo (data.map Prod.fst) (data.map Prod.snd) k =
      .ok ⟨data.map fun q => .fin (L.link (rowReal q.2 k)), data.map fun q => .fin (rowWeight lo d L k q),
        data.map (rowResponse lo d L k)⟩ := by
  have hadm : ∀ q ∈ data, d.Admissible (rowReal q.2) := fun q hq =>
    admissible_of_inParameterSupport tiny ulp ht hu d _ (h q hq).2.support
  have h1 : (d.ops tiny ulp o e links).link k (Fv.col (data.map Prod.snd) k) =
      .ok (data.map fun q => .fin (L.link (rowReal q.2 k))) := by
    change withLink links _ k _ = _
    unfold withLink Fv.col
    rw [hL, List.map_map]
    change Except.ok _ = _
    rw [List.map_map]
    refine congrArg Except.ok (List.map_congr_left fun q hq => ?_)
    have hr := (h q hq).2
    simp only [Function.comp]
    rw [hr.finite k hk]
    exact if_pos hr.linkSupport
  have h2 : (d.ops tiny ulp o e links).linkInverseDerivative k (data.map fun q => .fin (L.link (rowReal q.2 k))) =
      .ok (data.map fun q => .fin (L.inverseDerivative (L.link (rowReal q.2 k)))) := by
    change withLink links _ k _ = _
    unfold withLink
    rw [hL]
    change Except.ok _ = _
    rw [List.map_map]
    rfl
  have h3 : (d.ops tiny ulp o e links).dl1 (data.map Prod.fst) (data.map Prod.snd) k =
      .ok (data.map fun q => .fin (d.score (rowReal q.2) k q.1)) := by
    change (List.zip _ _).mapM _ = _
    rw [zip_fst_snd]
    refine mapM_fin fun q hq => ?_
    obtain ⟨s, hs, _⟩ := dl1_hasDerivAt d q.1 _ (h q hq).1 (hadm q hq) k hk
    rw [(h q hq).2.realRow]
    simp only [derivativeAt, hs, score, returned]
  have h4 : (d.ops tiny ulp o e links).dl2 (data.map Prod.fst) (data.map Prod.snd) k =
      .ok (data.map fun q => .fin (returned (d.dl2 q.1 (rowReal q.2) k))) := by
    change (List.zip _ _).mapM _ = _
    rw [zip_fst_snd]
    refine mapM_fin fun q hq => ?_
    obtain ⟨v, hv, _⟩ := C47_nonpositive d q.1 _ (hadm q hq) k hk
    rw [(h q hq).2.realRow]
    simp only [derivativeAt, hv, returned]
  unfold working
  rw [h1, bind_ok_eq, h2, bind_ok_eq, h3, bind_ok_eq, h4, bind_ok_eq]
  have hg : ∀ q ∈ data, 0 < L.inverseDerivative (L.link (rowReal q.2 k)) := fun q hq =>
    LinkClass.inverseDerivative_pos ht (h q hq).2.linkSupport.1 (h q hq).2.smooth
  have e1 : (data.map fun q => Flt.fin (L.inverseDerivative (L.link (rowReal q.2 k)))).map (Flt.div (.fin 1)) =
      data.map fun q => .fin (1 / L.inverseDerivative (L.link (rowReal q.2 k))) := by
    rw [List.map_map]
    refine List.map_congr_left fun q hq => ?_
    simp only [Function.comp, Flt.div, if_neg (hg q hq).ne']
  simp only [e1, zipWith_maps]
  have e2 : ∀ q ∈ data, Flt.clip lo 10000000000 (Flt.neg (Flt.div (.fin (returned (d.dl2 q.1 (rowReal q.2) k)))
      (Flt.mul (.fin (1 / L.inverseDerivative (L.link (rowReal q.2 k))))
        (.fin (1 / L.inverseDerivative (L.link (rowReal q.2 k))))))) = .fin (rowWeight lo d L k q) := by
    intro q hq
    have hne : 1 / L.inverseDerivative (L.link (rowReal q.2 k)) * (1 / L.inverseDerivative (L.link (rowReal q.2 k))) ≠ 0 :=
      (mul_pos (one_div_pos.2 (hg q hq)) (one_div_pos.2 (hg q hq))).ne'
    simp only [Flt.mul, Flt.div, if_neg hne, Flt.neg, Flt.clip]
    unfold rowWeight rawWeight
    have := (hg q hq).ne'
    congr 3
    field_simp
  change Except.ok (Working.mk _ _ _) = _
  congr 2
  · exact List.map_congr_left e2
  · refine List.map_congr_left fun q hq => ?_
    rw [e2 q hq]
    rfl

theorem rowResponse_fin {lo : ℝ} {q : ℝ × (ℕ → Flt)} (hg : 0 < L.inverseDerivative (L.link (rowReal q.2 k)))
    (hW : rowWeight lo d L k q ≠ 0) : ∃ z, rowResponse lo d L k q = .fin z ∧
      rowWeight lo d L k q * (z - L.link (rowReal q.2 k)) =
        d.score (rowReal q.2) k q.1 * L.inverseDerivative (L.link (rowReal q.2 k)) := by
  refine ⟨L.link (rowReal q.2 k) + d.score (rowReal q.2) k q.1 /
    (1 / L.inverseDerivative (L.link (rowReal q.2 k)) * rowWeight lo d L k q), ?_, ?_⟩
  · unfold rowResponse
    rw [Flt.div, if_neg (mul_ne_zero (one_div_pos.2 hg).ne' hW)]
    rfl
  · have := hg.ne'
    field_simp
    ring

end

end Dist
end Ondil
