import Verif.Model.GamlssInstances
import Verif.Props.GamlssCalls
import Verif.Props.Density

/-!
# Predictions of the distributional regression: C64, C65
-/

namespace Ondil

variable {μ : Type} {p : ℕ}

/-- A successful `mapM` has as many results as inputs, and each is the value of the function. -/
theorem mapM_ok_get {α β : Type} {f : α → Except PyErr β} {l : List α} {r : List β} (h : l.mapM f = .ok r) :
    r.length = l.length ∧ ∀ i (hi : i < l.length) (hr : i < r.length), f l[i] = .ok r[i] := by
  have := mapM_ok_iff.1 h
  refine ⟨this.length_eq.symm, fun i hi hr => ?_⟩
  exact (List.forall₂_iff_get.1 this).2 i hi hr

/-- The inverse links keep the number of entries. -/
def KeepsLength (D : DistOps) : Prop := ∀ k a b, D.linkInverse k a = .ok b → b.length = a.length

/-- The linear predictors: one array per distribution parameter with one entry per row, the product of the design and
the coefficients. -/
theorem linearPredictors_ok {D : DistOps} {s : GState μ p} {X : List (Row p)} {etas : Arr2}
    (h : linearPredictors D s X = .ok etas) :
    etas.length = D.nParams ∧ ∃ sc, s.scaler = some sc ∧ ∀ k (hk : k < etas.length), ∃ A b, designFor s sc X k = .ok A ∧
      s.coef k = some b ∧ (∀ x ∈ A, x.length = b.length) ∧ etas[k] = A.map fun x => dot x b := by
  unfold linearPredictors at h
  cases hn : s.nObs with
  | none => rw [hn] at h; cases h
  | some n =>
    cases X with
    | nil => rw [hn] at h; cases h
    | cons x X =>
      cases hs : s.scaler with
      | none => rw [hn, hs] at h; cases h
      | some sc =>
        rw [hn, hs] at h
        obtain ⟨h1, h2⟩ := mapM_ok_get h
        rw [List.length_range] at h1
        refine ⟨h1, sc, rfl, fun k hk => ?_⟩
        have := h2 k (by rw [List.length_range]; omega) hk
        rw [List.getElem_range] at this
        obtain ⟨A, hA, this⟩ := bind_ok.1 this
        cases hb : s.coef k with
        | none => rw [hb] at this; cases this
        | some b =>
          rw [hb] at this
          simp only at this
          unfold matVec at this
          split at this
          · rename_i hall
            injection this with this
            exact ⟨A, b, hA, rfl, hall, this.symm⟩
          · cases this

/-- A design has one row per observation. -/
theorem designFor_length {s : GState μ p} {sc : Scaler p} {X : List (Row p)} {k : ℕ} {A : Arr2}
    (h : designFor s sc X k = .ok A) : A.length = X.length := by
  unfold designFor at h
  split at h
  · have := (mapM_ok_get h).1
    rw [this]
    cases sc <;> simp [Scaler.transformFlt]
  · cases h

theorem col_stack {n : ℕ} {cols : List Arr1} {k : ℕ} (hk : k < cols.length) (hl : cols[k].length = n) :
    (Fv.stack n cols).col k = cols[k] := by
  apply List.ext_getElem
  · simp [Fv.stack, Fv.col, hl]
  · intro i h1 h2
    simp [Fv.stack, Fv.col, List.getD_eq_getElem?_getD, List.getElem?_eq_getElem hk, List.getElem?_eq_getElem h2]

/-- The predicted distribution parameters are the inverse link of the predictions on the link scale, column by column,
for every fitted state, every matrix and every distribution whose inverse links keep the shape. -/
theorem C64_response_is_inverse_link (D : DistOps) (hD : KeepsLength D) (s : GState μ p) (X : List (Row p)) (th eta : Fv)
    (hr : predictParams D s X .response = .ok th) (hl : predictParams D s X .link = .ok eta) (k : ℕ) (hk : k < D.nParams) :
    D.linkInverse k (eta.col k) = .ok (th.col k) := by
  unfold predictParams at hr hl
  obtain ⟨etas, he, hr⟩ := bind_ok.1 hr
  obtain ⟨etas', he', hl⟩ := bind_ok.1 hl
  rw [he] at he'
  cases he'
  cases hl
  obtain ⟨cols, hc, hr⟩ := bind_ok.1 hr
  cases hr
  obtain ⟨h1, sc, -, h2⟩ := linearPredictors_ok he
  obtain ⟨h3, h4⟩ := mapM_ok_get hc
  have hke : k < etas.length := by omega
  have hz : (etas.zip (List.range D.nParams)).length = D.nParams := by simp [h1]
  have hkc : k < cols.length := by omega
  obtain ⟨A, b, hA, -, -, hcol⟩ := h2 k hke
  have hlen : etas[k].length = X.length := by rw [hcol, List.length_map, designFor_length hA]
  have hinv := h4 k (by omega) hkc
  simp only [List.getElem_zip, List.getElem_range] at hinv
  rw [col_stack hke hlen, hinv, col_stack hkc ((hD _ _ _ hinv).trans hlen)]

/-- The contributions of the covariates sum to the prediction on the link scale, for every parameter and every row. -/
theorem C64_contributions_sum (D : DistOps) (s : GState μ p) (X : List (Row p)) (eta : Fv) (cs : List Arr2)
    (hl : predictParams D s X .link = .ok eta) (hc : contributions D s X = .ok cs) (k : ℕ) (hk : k < D.nParams) :
    ∃ c, cs[k]? = some c ∧ c.map asum = eta.col k := by
  unfold predictParams at hl
  obtain ⟨etas, he, hl⟩ := bind_ok.1 hl
  cases hl
  obtain ⟨h1, sc, hs, h2⟩ := linearPredictors_ok he
  unfold contributions at hc
  rw [hs] at hc
  obtain ⟨h3, h4⟩ := mapM_ok_get hc
  rw [List.length_range] at h3
  have hkc : k < cs.length := by omega
  have hke : k < etas.length := by omega
  obtain ⟨A, b, hA, hb, -, hcol⟩ := h2 k hke
  have := h4 k (by rw [List.length_range]; omega) hkc
  rw [List.getElem_range, hA] at this
  simp only [bind, Except.bind, hb] at this
  injection this with this
  refine ⟨cs[k], List.getElem?_eq_getElem hkc, ?_⟩
  have hlen : etas[k].length = X.length := by rw [hcol, List.length_map, designFor_length hA]
  rw [col_stack hke hlen, hcol, ← this, List.map_map]
  rfl

/-- The inverse links of the package keep the shape. -/
theorem ops_keepsLength (tiny ulp : ℝ) (o : ScipyOracles) (e : Elsewhere) (d : Dist) (links : List LinkClass) :
    KeepsLength (d.ops tiny ulp o e links) := by
  intro k a b h
  change withLink links _ k a = _ at h
  unfold withLink at h
  split at h
  · cases h; simp
  · cases h

/-- A prediction on the response scale exists only if there is one on the link scale. -/
theorem link_of_response {D : DistOps} {s : GState μ p} {X : List (Row p)} {th : Fv}
    (hr : predictParams D s X .response = .ok th) : ∃ eta, predictParams D s X .link = .ok eta := by
  unfold predictParams at hr ⊢
  obtain ⟨etas, he, -⟩ := bind_ok.1 hr
  exact ⟨_, by rw [he]; rfl⟩

/-- For the distributions of the package with their default links, whatever the coefficients and the data: a row whose
linear predictors are finite gets finite and admissible distribution parameters. -/
theorem C64_predictions_admissible (tiny ulp : ℝ) (o : ScipyOracles) (e : Elsewhere) (d : Dist) (s : GState μ p)
    (X : List (Row p)) (th eta : Fv)
    (hr : predictParams (d.ops tiny ulp o e d.defaultLinks) s X .response = .ok th)
    (hl : predictParams (d.ops tiny ulp o e d.defaultLinks) s X .link = .ok eta) (i : ℕ) (hi : i < th.length)
    (he : i < eta.length) (η : ℕ → ℝ) (hη : ∀ k < d.nParams, eta[i] k = .fin (η k)) :
    ∃ θ, d.Admissible θ ∧ ∀ k < d.nParams, th[i] k = .fin (θ k) := by
  have hlen : d.defaultLinks.length = d.nParams := by cases d <;> rfl
  let links : ℕ → LinkClass := fun k => d.defaultLinks.getD k .identity
  have hlinks : ∀ k, k < d.nParams → d.defaultLinks[k]? = some (links k) := fun k hk => by
    simp [links, List.getD_eq_getElem?_getD, List.getElem?_eq_getElem (hlen ▸ hk)]
  refine ⟨fun k => (links k).inverse (η k), Dist.C66_defaults_admissible d η links hlinks, fun k hk => ?_⟩
  have h := C64_response_is_inverse_link _ (ops_keepsLength tiny ulp o e d d.defaultLinks) s X th eta hr hl k hk
  change withLink d.defaultLinks _ k _ = _ at h
  unfold withLink at h
  rw [hlinks k hk] at h
  injection h with h
  have h' : th[i] k = (th.col k)[i]'(by simpa [Fv.col] using hi) := by simp [Fv.col]
  rw [h']
  have hgo : ∀ (l : Arr1) (hl : i < l.length), List.map (LinkClass.inverseFlt e (links k)) (Fv.col eta k) = l →
      l[i] = .fin ((links k).inverse (η k)) := by
    intro l hl hm
    subst hm
    simp only [List.getElem_map, Fv.col, hη k hk]
    rfl
  exact hgo _ _ h

/-- Predicted quantiles: row `i`, column `j` is the quantile function of the distribution with the predicted parameters
of row `i` at the probability `j`. -/
theorem C64_quantiles (tiny ulp : ℝ) (o : ScipyOracles) (e : Elsewhere) (d : Dist) (links : List LinkClass) (s : GState μ p)
    (X : List (Row p)) (qs : List ℝ) (Q : Arr2) (h : predictQuantile (d.ops tiny ulp o e links) s X qs = .ok Q) :
    ∃ th, predictParams (d.ops tiny ulp o e links) s X .response = .ok th ∧ Q.length = th.length ∧
      ∀ i (hi : i < th.length) (hQ : i < Q.length) θ, d.realRow? tiny ulp th[i] = some θ →
        Q[i] = qs.map fun q => d.ppf ulp q θ := by
  unfold predictQuantile at h
  obtain ⟨th, hth, h⟩ := bind_ok.1 h
  cases h
  refine ⟨th, hth, by simp, fun i hi hQ θ hθ => ?_⟩
  simp only [List.getElem_map, List.getElem_range, List.map_map]
  apply List.map_congr_left
  intro q _
  simp only [Function.comp, Dist.ops, List.getD_eq_getElem?_getD, List.getElem?_map, List.getElem?_eq_getElem hi,
    Option.map_some, Option.getD_some, hθ]

/-- `predict` returns, row by row, the mean of the scipy distribution with the predicted parameters. -/
theorem C64_mean (tiny ulp : ℝ) (o : ScipyOracles) (e : Elsewhere) (d : Dist) (links : List LinkClass) (s : GState μ p)
    (X : List (Row p)) (m : Arr1) (h : predictMean (d.ops tiny ulp o e links) s X = .ok m) :
    ∃ th, predictParams (d.ops tiny ulp o e links) s X .response = .ok th ∧ m.length = th.length ∧
      ∀ i (hi : i < th.length) (hm : i < m.length) θ f, d.realRow? tiny ulp th[i] = some θ → d.toScipy θ = some f → m[i] = o.mean f := by
  unfold predictMean at h
  obtain ⟨th, hth, h⟩ := bind_ok.1 h
  refine ⟨th, hth, ?_⟩
  by_cases hf : d.family.isSome
  · have hm : (d.ops tiny ulp o e links).mean = some fun fv => fv.map fun r =>
        match (d.realRow? tiny ulp r).bind d.toScipy with
        | some f => o.mean f
        | none => e.mean r := if_pos hf
    rw [hm] at h
    cases h
    refine ⟨by simp, fun i hi hm θ f hθ hf => ?_⟩
    simp only [List.getElem_map, hθ, Option.bind_some, hf]
  · have hm : (d.ops tiny ulp o e links).mean = none := if_neg hf
    rw [hm] at h
    cases h

/-! ### C65 -/

/-- The distribution parameters and the quantiles can be predicted for every distribution of the package whenever the
linear predictors can be computed; `predict` works for every class that has a scipy distribution.  The claim also covers
the median, and the mean of the other classes: see the theorems with suffix `_fails`. -/
theorem C65_available_partial (tiny ulp : ℝ) (o : ScipyOracles) (e : Elsewhere) (d : Dist) (links : List LinkClass)
    (hlinks : d.nParams ≤ links.length) (s : GState μ p) (X : List (Row p)) (eta : Fv) (qs : List ℝ)
    (hl : predictParams (d.ops tiny ulp o e links) s X .link = .ok eta) :
    (∃ th, predictParams (d.ops tiny ulp o e links) s X .response = .ok th) ∧
      (∃ Q, predictQuantile (d.ops tiny ulp o e links) s X qs = .ok Q) ∧
      (d.family.isSome → ∃ m, predictMean (d.ops tiny ulp o e links) s X = .ok m) := by
  have hr : ∃ th, predictParams (d.ops tiny ulp o e links) s X .response = .ok th := by
    unfold predictParams at hl ⊢
    obtain ⟨etas, he, -⟩ := bind_ok.1 hl
    obtain ⟨h1, -⟩ := linearPredictors_ok he
    rw [he]
    have : ∃ cols, (etas.zip (List.range (d.ops tiny ulp o e links).nParams)).mapM
        (fun e' => (d.ops tiny ulp o e links).linkInverse e'.2 e'.1) = .ok cols := by
      have key : ∀ l : List (Arr1 × ℕ), (∀ r ∈ l, r.2 < d.nParams) →
          ∃ cols, l.mapM (fun e' => (d.ops tiny ulp o e links).linkInverse e'.2 e'.1) = .ok cols := by
        intro l
        induction l with
        | nil => exact fun _ => ⟨[], rfl⟩
        | cons r l ih =>
          intro hl'
          obtain ⟨cols, hc⟩ := ih fun r hr => hl' r (by simp [hr])
          have hk : r.2 < links.length := lt_of_lt_of_le (hl' r (by simp)) hlinks
          have hf : (d.ops tiny ulp o e links).linkInverse r.2 r.1 = .ok (r.1.map (LinkClass.inverseFlt e links[r.2])) := by
            change withLink links _ r.2 r.1 = _
            unfold withLink
            rw [List.getElem?_eq_getElem hk]
          exact ⟨_, by rw [List.mapM_cons, hf, hc]; rfl⟩
      apply key
      intro r hr
      have := (List.of_mem_zip hr).2
      exact List.mem_range.1 this
    obtain ⟨cols, hc⟩ := this
    exact ⟨_, by simp only [bind, Except.bind, hc]; rfl⟩
  obtain ⟨th, hth⟩ := hr
  refine ⟨⟨th, hth⟩, ⟨_, by unfold predictQuantile; rw [hth]; rfl⟩, fun hf => ?_⟩
  unfold predictMean
  rw [hth]
  have hm : (d.ops tiny ulp o e links).mean = some _ := if_pos hf
  simp only [bind, Except.bind]
  rw [hm]
  exact ⟨_, rfl⟩

/-- **C65 fails**: no distribution of the package has a `median`; `predict_median` never returns, for any distribution,
state and matrix.  Where the distribution parameters can be predicted it raises `AttributeError`. -/
theorem C65_median_fails (tiny ulp : ℝ) (o : ScipyOracles) (e : Elsewhere) (d : Dist) (links : List LinkClass)
    (s : GState μ p) (X : List (Row p)) :
    (∀ m, predictMedian (d.ops tiny ulp o e links) s X ≠ .ok m) ∧
      ∀ th, predictParams (d.ops tiny ulp o e links) s X .response = .ok th →
        predictMedian (d.ops tiny ulp o e links) s X = .error .attributeError := by
  have key : ∀ th, predictParams (d.ops tiny ulp o e links) s X .response = .ok th →
      predictMedian (d.ops tiny ulp o e links) s X = .error .attributeError := by
    intro th h
    unfold predictMedian
    rw [h]
    rfl
  refine ⟨fun m hm => ?_, key⟩
  have hm' := hm
  unfold predictMedian at hm'
  obtain ⟨th, hth, -⟩ := bind_ok.1 hm'
  rw [key th hth] at hm
  cases hm

/-- **C65 fails**: `predict` raises `AttributeError` for BetaInflated, BetaInflatedZero and ZeroAdjustedGamma, which have
no `mean`. -/
theorem C65_mean_fails (tiny ulp : ℝ) (o : ScipyOracles) (e : Elsewhere) (d : Dist)
    (hd : d = .betaInflated ∨ d = .betaInflatedZero ∨ d = .zeroAdjustedGamma) (links : List LinkClass) (s : GState μ p)
    (X : List (Row p)) (th : Fv) (hth : predictParams (d.ops tiny ulp o e links) s X .response = .ok th) :
    predictMean (d.ops tiny ulp o e links) s X = .error .attributeError := by
  unfold predictMean
  rw [hth]
  have hm : (d.ops tiny ulp o e links).mean = none := by
    rcases hd with rfl | rfl | rfl <;> rfl
  simp only [bind, Except.bind]
  rw [hm]

/-! The hypotheses can be met: a fitted state with an intercept for every parameter. -/

/-- A state as after a fit with intercepts only and no scaling: coefficients 1/2. -/
noncomputable def exampleState : GState Unit 1 :=
  { GState.new Unit 1 with
    nObs := some 3
    scaler := some (.off 3)
    equation := PyDict.ofRange 4 fun _ => .str "intercept"
    fitIntercept := PyDict.ofRange 4 fun _ => true
    coef := fun _ => some [.fin (1 / 2)] }

/-- The prediction on the link scale for one row. -/
theorem exampleState_link (tiny ulp : ℝ) (o : ScipyOracles) (e : Elsewhere) (d : Dist) (links : List LinkClass) :
    ∃ eta, predictParams (d.ops tiny ulp o e links) exampleState [fun _ => 7] .link = .ok eta ∧
      ∃ h : 0 < eta.length, ∀ k < d.nParams, eta[0] k = .fin (1 / 2) := by
  have hd : ∀ k < 4, (do
      let A ← designFor exampleState (.off 3) [fun _ => 7] k
      match exampleState.coef k with
      | none => Except.error PyErr.attributeError
      | some b => matVec A b) = (.ok [.fin (1 / 2)] : Except PyErr Arr1) := by
    intro k hk
    have h1 : designFor exampleState (.off 3) [fun _ => 7] k = .ok [[.fin 1]] := by
      have : k = 0 ∨ k = 1 ∨ k = 2 ∨ k = 3 := by omega
      rcases this with rfl | rfl | rfl | rfl <;> rfl
    rw [h1]
    simp [bind, Except.bind, exampleState, matVec, dot, asum, Dist.npSum, Flt.mul, Flt.add]
  have hm : ∀ l : List ℕ, (∀ k ∈ l, k < 4) → (l.mapM fun k => do
      let A ← designFor exampleState (.off 3) [fun _ => 7] k
      match exampleState.coef k with
      | none => Except.error PyErr.attributeError
      | some b => matVec A b) = (.ok (l.map fun _ => [.fin (1 / 2)]) : Except PyErr Arr2) := by
    intro l
    induction l with
    | nil => intro _; rfl
    | cons k l ih =>
      intro hl
      rw [List.mapM_cons, hd k (hl k (by simp)), ih fun k hk => hl k (by simp [hk])]
      rfl
  have hn : d.nParams ≤ 4 := by cases d <;> simp [Dist.nParams]
  have hlin : linearPredictors (d.ops tiny ulp o e links) exampleState [fun _ => 7] =
      .ok ((List.range d.nParams).map fun _ => [.fin (1 / 2)]) :=
    hm _ fun k hk => lt_of_lt_of_le (List.mem_range.1 hk) hn
  refine ⟨_, by unfold predictParams; rw [hlin]; rfl, by simp [Fv.stack], fun k hk => ?_⟩
  have hk' : k < ((List.range d.nParams).map fun _ => [Flt.fin (1 / 2)]).length := by simpa using hk
  have he : ((List.range d.nParams).map fun _ => [Flt.fin (1 / 2)]).getD k [] = [Flt.fin (1 / 2)] := by
    rw [List.getD_eq_getElem?_getD, List.getElem?_eq_getElem hk']
    simp
  change (((List.range d.nParams).map fun _ => [Flt.fin (1 / 2)]).getD k []).getD 0 .nan = _
  rw [he]
  rfl

example (tiny ulp : ℝ) (o : ScipyOracles) (e : Elsewhere) (d : Dist) :
    ∃ th, predictParams (d.ops tiny ulp o e d.defaultLinks) exampleState [fun _ => 7] .response = .ok th ∧
      predictMedian (d.ops tiny ulp o e d.defaultLinks) exampleState [fun _ => 7] = .error .attributeError := by
  obtain ⟨eta, h, -⟩ := exampleState_link tiny ulp o e d d.defaultLinks
  obtain ⟨⟨th, hth⟩, -⟩ := C65_available_partial tiny ulp o e d d.defaultLinks (by cases d <;> simp [Dist.nParams, Dist.defaultLinks])
    exampleState [fun _ => 7] eta [] h
  exact ⟨th, hth, (C65_median_fails _ _ _ _ _ _ _ _).2 th hth⟩

example (tiny ulp : ℝ) (o : ScipyOracles) (e : Elsewhere) (d : Dist) :
    ∃ th θ, predictParams (d.ops tiny ulp o e d.defaultLinks) exampleState [fun _ => 7] .response = .ok th ∧
      d.Admissible θ ∧ ∃ h : 0 < th.length, ∀ k < d.nParams, th[0] k = .fin (θ k) := by
  obtain ⟨eta, h, h0, h1⟩ := exampleState_link tiny ulp o e d d.defaultLinks
  obtain ⟨⟨th, hth⟩, -⟩ := C65_available_partial tiny ulp o e d d.defaultLinks (by cases d <;> simp [Dist.nParams, Dist.defaultLinks])
    exampleState [fun _ => 7] eta [] h
  have hl : 0 < th.length := by rw [predictParams_length hth]; simp
  obtain ⟨θ, h2, h3⟩ := C64_predictions_admissible tiny ulp o e d exampleState _ th eta hth h 0 hl h0 (fun _ => 1 / 2) h1
  exact ⟨th, θ, hth, h2, hl, h3⟩

example (tiny ulp : ℝ) (o : ScipyOracles) (e : Elsewhere) :
    ∃ m th, predictMean (Dist.normal.ops tiny ulp o e Dist.normal.defaultLinks) exampleState [fun _ => 7] = .ok m ∧ m.length = 1 ∧
      predictParams (Dist.normal.ops tiny ulp o e Dist.normal.defaultLinks) exampleState [fun _ => 7] .response = .ok th ∧
      ∃ (h : 0 < th.length) (hm : 0 < m.length), ∀ θ, Dist.normal.realRow? tiny ulp th[0] = some θ → m[0] = o.mean (.norm (θ 0) (θ 1)) := by
  obtain ⟨eta, h, -⟩ := exampleState_link tiny ulp o e .normal Dist.normal.defaultLinks
  obtain ⟨-, -, h3⟩ := C65_available_partial tiny ulp o e .normal Dist.normal.defaultLinks (by simp [Dist.nParams, Dist.defaultLinks])
    exampleState [fun _ => 7] eta [] h
  obtain ⟨m, hm⟩ := h3 rfl
  obtain ⟨th, hth, hl, h4⟩ := C64_mean tiny ulp o e .normal Dist.normal.defaultLinks exampleState _ m hm
  have hl' : 0 < th.length := by rw [predictParams_length hth]; simp
  have h1 : m.length = 1 := by rw [hl, predictParams_length hth]; rfl
  exact ⟨m, th, hm, h1, hth, hl', by omega, fun θ hθ => h4 0 hl' (by omega) θ _ hθ rfl⟩

end Ondil
