import Verif.Model.ConditionalStart
import Verif.Props.Density
import Verif.Lemmas.GamlssOptions

/-!
# Properties of the conditional starting values: C80
-/

namespace Ondil

namespace Dist

/-- The classes for which the scipy name of every parameter carries exactly that parameter. -/
def OneToOne : Dist → Prop
  | normal | studentT | jsu _ | logNormal | logNormalMedian | logistic | gumbel | reverseGumbel | exponential => True
  | _ => False

/-- Freezing the translated parameters gives the distribution used by `pdf`, `cdf` and `ppf`, for every class with a
scipy distribution and every parameter vector. -/
theorem freeze_kwargs (d : Dist) (θ : ℕ → ℝ) (f : Family) (hf : d.family = some f) :
    ∃ fr, f.freeze (d.kwargs θ) = .ok fr ∧ d.toScipy θ = some fr := by
  cases d <;> cases hf <;>
    simp [kwargs, toScipy, Family.freeze, Family.shapes, Family.build, Kwargs.get?]

/-- The scipy distribution that the optimiser evaluates for an observation is the one of the parameter row whose
columns from `k` on are the candidate values. -/
theorem conditional_frozen (d : Dist) (hd : d.OneToOne) (f : Family) (hf : d.family = some f) (k : ℕ) (hk : 1 ≤ k)
    (x : ℕ → ℝ) (y : ℝ) (θ : ℕ → ℝ) :
    ∃ fr, d.toScipy (withTail k x θ) = some fr ∧ d.objectiveTerm f k x y θ = .ok (Flt.log (.fin (fr.pdf y))) := by
  obtain ⟨k, rfl⟩ : ∃ j, k = j + 1 := ⟨k - 1, by omega⟩
  cases d <;> try exact hd.elim
  all_goals cases hf
  all_goals rcases k with _ | _ | _ | k <;>
    simp [objectiveTerm, fixedKwargs, decision, unknown, nParams, nameOf, scipyName, kwargs, toScipy, Family.freeze,
      Family.shapes, Family.build, Kwargs.get?, Kwargs.del, withTail, List.range_succ, List.filter, bind, Except.bind,
      pure, Except.pure, List.mapM_cons, List.mapM_nil, List.foldlM,
      show ∀ k : ℕ, (k + 1 + 1 + 1 < 3) = False from fun k => eq_false (by omega)]

/-- The negative log-likelihood of rows of parameters, as `logpdf` computes it. -/
noncomputable def negLogLik (d : Dist) (ys : List ℝ) (θs : List (ℕ → ℝ)) : Flt :=
  Flt.neg (npSum ((ys.zip θs).map fun r => d.logpdf r.1 r.2))

/-- The log density of a class with 1:1 names is that of its scipy distribution.  LogNormal has its own code and is
compared on its responses; its scale `robust_exp(mu)` is cut off at a large number. -/
theorem logpdf_toScipy (d : Dist) (hd : d.OneToOne) (fr : Frozen) (y : ℝ) (θ : ℕ → ℝ) (hfr : d.toScipy θ = some fr)
    (hln : d = logNormal → 0 < y ∧ 0 < θ 1 ∧ θ 0 ≤ Real.log largeNumber) :
    d.logpdf y θ = Flt.log (.fin (fr.pdf y)) := by
  cases d <;> try exact hd.elim
  case logNormal =>
    obtain ⟨hy, hs, hm⟩ := hln rfl
    cases hfr
    have he : robustExp (θ 0) = Real.exp (θ 0) := if_neg (not_lt.mpr hm)
    obtain ⟨h1, h2⟩ := Frozen.lognorm_pdf hs (Real.exp_pos (θ 0)) hy
    change logNormalLogPdf y (θ 0) (θ 1) = Flt.log (.fin ((Frozen.lognorm (θ 1) 0 (robustExp (θ 0))).pdf y))
    rw [he, Flt.log_pos h1, h2, (logNormal_logpdf y (θ 0) (θ 1) hy hs).1, Real.log_exp]
  all_goals cases hfr; rfl

/-- What is needed of the data for LogNormal: positive responses, admissible candidates, and a location that
`robust_exp` does not cut off. -/
def LogNormalFine (d : Dist) (k : ℕ) (ys : List ℝ) (θs : List (ℕ → ℝ)) (x : ℕ → ℝ) : Prop :=
  d = logNormal → ∀ r ∈ ys.zip θs, 0 < r.1 ∧ 0 < withTail k x r.2 1 ∧ withTail k x r.2 0 ≤ Real.log largeNumber

/-- The objective that the optimiser minimises is the negative log-likelihood of the parameter rows whose columns from
`k` on are the candidate values: for Normal, StudentT, JSU, LogNormal, LogNormalMedian, Logistic, Gumbel, ReverseGumbel
and Exponential, for all data and candidates.  The claim says this of every distribution; the other classes are the
subject of the theorems with suffix `_fails`. -/
theorem C80_objective_partial (d : Dist) (hd : d.OneToOne) (f : Family) (hf : d.family = some f) (k : ℕ) (hk : 1 ≤ k)
    (ys : List ℝ) (θs : List (ℕ → ℝ)) (x : ℕ → ℝ) (hln : d.LogNormalFine k ys θs x) :
    d.objective f k ys θs x = .ok (d.negLogLik ys (θs.map (withTail k x))) := by
  have key : ∀ rs : List (ℝ × (ℕ → ℝ)), (∀ r ∈ rs, d.objectiveTerm f k x r.1 r.2 = .ok (d.logpdf r.1 (withTail k x r.2))) →
      (rs.mapM fun r => d.objectiveTerm f k x r.1 r.2) = Except.ok (rs.map fun r => d.logpdf r.1 (withTail k x r.2)) := by
    intro rs
    induction rs with
    | nil => intro _; rfl
    | cons r rs ih =>
      intro h
      rw [List.mapM_cons, h r List.mem_cons_self, ih fun r hr => h r (List.mem_cons_of_mem _ hr)]
      rfl
  have hz : (ys.zip (θs.map (withTail k x))).map (fun r => d.logpdf r.1 r.2) =
      (ys.zip θs).map fun r => d.logpdf r.1 (withTail k x r.2) := by
    rw [List.zip_map_right, List.map_map]
    rfl
  unfold objective negLogLik
  rw [key _ fun r hr => ?_, hz]
  · rfl
  · obtain ⟨fr, h1, h2⟩ := conditional_frozen d hd f hf k hk x r.1 r.2
    rw [h2, logpdf_toScipy d hd fr r.1 _ h1 fun e => hln e r hr]

/-- With an optimiser that never returns a worse point than its start, the conditional starting values of these classes
have a likelihood at least that of the unconditional ones (all rows being given the starting values of the first row,
as they are after `initial_values`), for all data. -/
theorem C80_start_no_worse_partial (d : Dist) (hd : d.OneToOne) (hf : d.family ≠ none) (k : ℕ) (hk : 1 ≤ k)
    (minimise : ((ℕ → ℝ) → Except PyErr Flt) → (ℕ → ℝ) → Option (ℕ → ℝ))
    (hmin : ∀ F x₀ x, minimise F x₀ = some x → ∀ v₀ v, F x₀ = .ok v₀ → F x = .ok v → Flt.le v v₀)
    (ys : List ℝ) (start : ℕ → ℝ) (rest out : List (ℕ → ℝ))
    (hrows : ∀ θ ∈ rest, ∀ i, k ≤ i → θ i = start i)
    (hln : ∀ x, d.LogNormalFine k ys (start :: rest) x)
    (h : d.conditionalStart minimise ys (start :: rest) k = .ok out) :
    out = start :: rest ∨ Flt.le (d.negLogLik ys out) (d.negLogLik ys (start :: rest)) := by
  obtain ⟨f, hf⟩ := Option.ne_none_iff_exists'.mp hf
  unfold conditionalStart at h
  rw [hf] at h
  have hobj : ∀ x, d.objective f k ys (start :: rest) x = .ok (d.negLogLik ys ((start :: rest).map (withTail k x))) :=
    fun x => C80_objective_partial d hd f hf k hk ys _ x (hln x)
  simp only [hobj start] at h
  have hid : (start :: rest).map (withTail k start) = start :: rest := by
    have : ∀ θ ∈ start :: rest, withTail k start θ = θ := by
      intro θ hθ
      funext i
      unfold withTail
      split
      · rename_i hi
        rcases List.mem_cons.mp hθ with rfl | h'
        · rfl
        · exact (hrows θ h' i hi).symm
      · rfl
    conv_rhs => rw [← List.map_id (start :: rest)]
    exact List.map_congr_left this
  cases hm : minimise (d.objective f k ys (start :: rest)) start with
  | none =>
    simp only [hm, bind, Except.bind, pure, Except.pure, Except.ok.injEq] at h
    exact Or.inl h.symm
  | some x =>
    simp only [hm, bind, Except.bind, pure, Except.pure, Except.ok.injEq] at h
    right
    rw [← h]
    have := hmin _ _ _ hm _ _ (hobj start) (hobj x)
    rwa [hid] at this

/-- The hypotheses can be met: Student t, two responses, an optimiser that stays where it is. -/
example : studentT.conditionalStart (fun _ x => some x) [1, 3] [fun _ => 2, fun _ => 2] 1 =
    .ok [fun _ => 2, fun _ => 2] ∧ studentT.OneToOne := by
  refine ⟨?_, trivial⟩
  have h := C80_objective_partial studentT trivial .t rfl 1 le_rfl [1, 3] [fun _ => 2, fun _ => 2] (fun _ => 2)
    (fun h => by cases h)
  unfold conditionalStart
  simp only [family, h, bind, Except.bind, pure, Except.pure]
  have : (withTail 1 (fun _ => 2) fun _ => 2) = fun _ => (2 : ℝ) := by
    funext i
    simp [withTail]
  simp [this]

/-- Gamma and Beta have no scipy names: asking for conditional starting values raises `KeyError`, for all data, whatever
the optimiser does. -/
theorem C80_gamma_beta_fails (minimise : ((ℕ → ℝ) → Except PyErr Flt) → (ℕ → ℝ) → Option (ℕ → ℝ)) (d : Dist)
    (hd : d = gamma ∨ d = beta) (y : ℝ) (ys : List ℝ) (θ : ℕ → ℝ) (θs : List (ℕ → ℝ)) :
    d.conditionalStart minimise (y :: ys) (θ :: θs) 1 = .error .keyError := by
  rcases hd with rfl | rfl <;>
    simp [conditionalStart, family, objective, objectiveTerm, fixedKwargs, unknown, nParams, nameOf, scipyName,
      List.range_succ, List.filter, List.mapM_cons, bind, Except.bind]

/-- The three inflated classes inherit an abstract method that returns `None`, on which the estimator fails, for all
data. -/
theorem C80_inflated_fails (minimise : ((ℕ → ℝ) → Except PyErr Flt) → (ℕ → ℝ) → Option (ℕ → ℝ)) (d : Dist)
    (hd : d = betaInflated ∨ d = betaInflatedZero ∨ d = zeroAdjustedGamma) (ys : List ℝ) (θs : List (ℕ → ℝ)) (k : ℕ) :
    d.conditionalStart minimise ys θs k = .error .typeError := by
  rcases hd with rfl | rfl | rfl <;> rfl

/-- One term of the objective for NormalMeanVariance: the candidate is the scale. -/
theorem term_normalMeanVariance (x : ℕ → ℝ) (y : ℝ) (θ : ℕ → ℝ) :
    normalMeanVariance.objectiveTerm .norm 1 x y θ = .ok (Flt.log (.fin ((Frozen.norm (θ 0) (x 1)).pdf y))) := by
  simp [objectiveTerm, fixedKwargs, decision, unknown, nParams, nameOf, scipyName, kwargs, Family.freeze,
      Family.shapes, Family.build, Kwargs.get?, Kwargs.del, List.range_succ, List.filter, bind, Except.bind,
      pure, Except.pure, List.mapM_cons, List.mapM_nil, List.foldlM]

/-- One term of the objective for InverseGamma: the candidate is the shape, the scale comes from the old `sigma`. -/
theorem term_inverseGamma (x : ℕ → ℝ) (y : ℝ) (θ : ℕ → ℝ) :
    inverseGamma.objectiveTerm .invgamma 1 x y θ =
      .ok (Flt.log (.fin ((Frozen.invgamma (x 1) 0 (θ 0 * (1 + θ 1 ^ 2) / θ 1 ^ 2)).pdf y))) := by
  simp [objectiveTerm, fixedKwargs, decision, unknown, nParams, nameOf, scipyName, kwargs, Family.freeze,
      Family.shapes, Family.build, Kwargs.get?, Kwargs.del, List.range_succ, List.filter, bind, Except.bind,
      pure, Except.pure, List.mapM_cons, List.mapM_nil, List.foldlM]

/-- One term of the objective for InverseGaussian: the candidate is the scale, the first parameter comes from the old
`sigma`. -/
theorem term_inverseGaussian (x : ℕ → ℝ) (y : ℝ) (θ : ℕ → ℝ) :
    inverseGaussian.objectiveTerm .invgauss 1 x y θ =
      .ok (Flt.log (.fin ((Frozen.invgauss (θ 0 * θ 1 ^ 2) 0 (x 1)).pdf y))) := by
  simp [objectiveTerm, fixedKwargs, decision, unknown, nParams, nameOf, scipyName, kwargs, Family.freeze,
      Family.shapes, Family.build, Kwargs.get?, Kwargs.del, List.range_succ, List.filter, bind, Except.bind,
      pure, Except.pure, List.mapM_cons, List.mapM_nil, List.foldlM]

/-- The objective for a single observation. -/
theorem objective_single (d : Dist) (f : Family) (k : ℕ) (y : ℝ) (θ x : ℕ → ℝ) (v : Flt)
    (h : d.objectiveTerm f k x y θ = .ok v) : d.objective f k [y] [θ] x = .ok (Flt.neg (npSum [v])) := by
  simp [objective, List.zip, h, bind, Except.bind, pure, Except.pure, List.mapM_cons]

/-- Minus a finite number, as a sum of one entry. -/
theorem neg_npSum_single (v : ℝ) : Flt.neg (npSum [.fin v]) = .fin (-v) := by
  simp [npSum, Flt.add, Flt.neg]

/-- For NormalMeanVariance the candidate variance is used as a standard deviation: for every response, mean and
candidate the objective is the negative log-likelihood of the *squared* candidate, which is another one whenever the
response is the mean and the candidate is not 1. -/
theorem C80_normal_variance_fails (y : ℝ) (θ x : ℕ → ℝ) (hx : 0 < x 1) :
    normalMeanVariance.objective .norm 1 [y] [θ] x =
        .ok (normalMeanVariance.negLogLik [y] [withTail 1 (fun i => x i ^ 2) θ]) ∧
      (y = θ 0 → x 1 ≠ 1 → normalMeanVariance.objective .norm 1 [y] [θ] x ≠
        .ok (normalMeanVariance.negLogLik [y] [withTail 1 x θ])) := by
  have e1 := objective_single _ _ _ _ _ _ _ (term_normalMeanVariance x y θ)
  have e2 : ∀ z : ℕ → ℝ, normalMeanVariance.negLogLik [y] [withTail 1 z θ] =
      Flt.neg (npSum [Flt.log (.fin ((Frozen.norm (θ 0) (z 1 ^ ((1 : ℝ) / 2))).pdf y))]) := fun _ => rfl
  constructor
  · rw [e1, e2, show (x 1 ^ 2) ^ ((1 : ℝ) / 2) = x 1 by rw [← Real.sqrt_eq_rpow, Real.sqrt_sq hx.le]]
  · intro hy hx1 he
    rw [e1, e2] at he
    have hs : 0 < x 1 ^ ((1 : ℝ) / 2) := Real.rpow_pos_of_pos hx _
    obtain ⟨p1, l1⟩ := Frozen.norm_pdf (m := θ 0) hx y
    obtain ⟨p2, l2⟩ := Frozen.norm_pdf (m := θ 0) hs y
    rw [Flt.log_pos p1, Flt.log_pos p2, neg_npSum_single, neg_npSum_single, l1, l2] at he
    injection he with he
    injection he with he
    unfold normalL at he
    rw [Real.log_rpow hx, hy] at he
    apply hx1
    have h0 : Real.log (x 1) = 0 := by
      norm_num at he
      linarith
    exact Real.eq_one_of_pos_of_log_eq_zero hx h0

/-- For InverseGamma the scale is computed from the previous `sigma` and the candidate `sigma` is used as the shape:
already for one observation the objective is not the negative log-likelihood of the candidate. -/
theorem C80_inverse_gamma_fails :
    ∃ θ : ℕ → ℝ, inverseGamma.Admissible θ ∧
      inverseGamma.objective .invgamma 1 [1] [θ] (fun _ => 1) ≠
        .ok (inverseGamma.negLogLik [1] [withTail 1 (fun _ => 1) θ]) := by
  refine ⟨fun i => if i = 0 then 1 else 1 / 2, ⟨by norm_num, by norm_num⟩, fun he => ?_⟩
  rw [objective_single _ _ _ _ _ _ _ (term_inverseGamma _ _ _)] at he
  have e2 : inverseGamma.negLogLik [1] [withTail 1 (fun _ => (1 : ℝ)) fun i => if i = 0 then 1 else 1 / 2] =
      Flt.neg (npSum [Flt.log (.fin ((Frozen.invgamma (1 / 1 ^ 2) 0 (1 * (1 + 1 ^ 2) / 1 ^ 2)).pdf 1))]) := by
    simp [negLogLik, logpdf, toScipy, withTail]
  rw [e2] at he
  obtain ⟨p1, l1⟩ := Frozen.invgamma_pdf (a := 1) (s := 5) (y := 1) (by norm_num) (by norm_num) (by norm_num)
  obtain ⟨p2, l2⟩ := Frozen.invgamma_pdf (a := 1) (s := 2) (y := 1) (by norm_num) (by norm_num) (by norm_num)
  norm_num at he p1 p2 l1 l2
  rw [Flt.log_pos p1, Flt.log_pos p2, neg_npSum_single, neg_npSum_single, l1, l2] at he
  injection he with he
  have h5 : Real.log 5 < Real.log 2 + 2 := by
    rw [Real.log_lt_iff_lt_exp (by norm_num), Real.exp_add, Real.exp_log (by norm_num)]
    have := Real.add_one_lt_exp (x := 2) (by norm_num)
    linarith
  linarith

/-- For InverseGaussian the first scipy parameter is computed from the previous `sigma` and the candidate `sigma` is used
as the scale: already for one observation the objective is not the negative log-likelihood of the candidate. -/
theorem C80_inverse_gaussian_fails :
    ∃ θ : ℕ → ℝ, inverseGaussian.Admissible θ ∧
      inverseGaussian.objective .invgauss 1 [1] [θ] (fun _ => 1) ≠
        .ok (inverseGaussian.negLogLik [1] [withTail 1 (fun _ => 1) θ]) := by
  refine ⟨fun i => if i = 0 then 1 else 1 / 2, ⟨by norm_num, by norm_num⟩, fun he => ?_⟩
  rw [objective_single _ _ _ _ _ _ _ (term_inverseGaussian _ _ _)] at he
  have e2 : inverseGaussian.negLogLik [1] [withTail 1 (fun _ => (1 : ℝ)) fun i => if i = 0 then 1 else 1 / 2] =
      Flt.neg (npSum [Flt.log (.fin ((Frozen.invgauss (1 * 1 ^ 2) 0 (1 / 1 ^ 2)).pdf 1))]) := by
    simp [negLogLik, logpdf, toScipy, withTail]
  rw [e2] at he
  obtain ⟨p1, l1⟩ := Frozen.invgauss_pdf (mu := 1 / 4) (s := 1) (y := 1) (by norm_num) (by norm_num) (by norm_num)
  obtain ⟨p2, l2⟩ := Frozen.invgauss_pdf (mu := 1) (s := 1) (y := 1) (by norm_num) (by norm_num) (by norm_num)
  norm_num at he p1 p2 l1 l2
  rw [Flt.log_pos p1, Flt.log_pos p2, neg_npSum_single, neg_npSum_single, l1, l2] at he
  injection he with he
  linarith

end Dist
end Ondil
