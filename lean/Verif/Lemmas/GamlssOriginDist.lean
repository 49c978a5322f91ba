import Verif.Lemmas.GamlssOriginCalls
import Verif.Props.CdfAll
import Verif.Lemmas.RowOrderInstances

/-!
# The classes with a location, when the response is measured from another origin
-/

namespace Ondil

open MeasureTheory

variable {δ : ℝ}

/-! ### Laws -/

theorem withDensity_translate (g : ℝ → ℝ) (δ y : ℝ) :
    (volume.withDensity fun x => ENNReal.ofReal (g (x - δ))) (Set.Iic (y + δ)) = (volume.withDensity fun x => ENNReal.ofReal (g x)) (Set.Iic y) := by
  rw [withDensity_apply _ measurableSet_Iic, withDensity_apply _ measurableSet_Iic, ← lintegral_indicator measurableSet_Iic,
    ← lintegral_indicator measurableSet_Iic,
    ← lintegral_sub_right_eq_self ((Set.Iic y).indicator fun x => ENNReal.ofReal (g x)) δ]
  congr 1
  funext x
  unfold Set.indicator
  simp only [Set.mem_Iic, sub_le_iff_le_add]

/-- Two frozen distributions that differ in their locations. -/
structure Frozen.Shifted (δ : ℝ) (f f' : Frozen) : Prop where
  pdf : ∀ y, f'.pdf (y + δ) = f.pdf y
  lower : f.lower = .ninf
  lower' : f'.lower = .ninf
  upper : f.upper = .pinf
  upper' : f'.upper = .pinf

theorem Frozen.Shifted.cdf {f f' : Frozen} (h : f.Shifted δ f') (y : ℝ) : f'.cdf (y + δ) = f.cdf y := by
  unfold Frozen.cdf Frozen.law
  have : (fun x => ENNReal.ofReal (f'.pdf x)) = fun x => ENNReal.ofReal (f.pdf (x - δ)) := by
    funext x
    rw [← h.pdf, sub_add_cancel]
  rw [this, withDensity_translate f.pdf]

theorem Frozen.Shifted.ppf {f f' : Frozen} (h : f.Shifted δ f') (hp : IsProbabilityMeasure f.law) (q : ℝ) :
    f'.ppf q = Flt.plus δ (f.ppf q) := by
  unfold Frozen.ppf
  rw [h.lower, h.lower', h.upper, h.upper']
  split_ifs with h1 h2 h3
  · rfl
  · rfl
  · rfl
  · have h0 : 0 < q := lt_of_le_of_ne (not_lt.1 fun h => h1 (.inl h)) (Ne.symm h2)
    have h4 : q < 1 := lt_of_le_of_ne (not_lt.1 fun h => h1 (.inr h)) h3
    change Flt.fin _ = Flt.fin (_ + δ)
    congr 1
    have k1 : ∀ y, sInf {x | q ≤ f.cdf x} ≤ y ↔ q ≤ f.cdf y := sInf_cdf_le_iff f.law h0 h4
    have hs : {x | q ≤ f'.cdf x} = Set.Ici (sInf {x | q ≤ f.cdf x} + δ) := by
      ext x
      rw [Set.mem_setOf_eq, Set.mem_Ici, ← sub_add_cancel x δ, h.cdf, ← k1, add_le_add_iff_right]
    rw [hs, csInf_Ici]

/-! ### Starting values -/

namespace Dist

theorem npSum_reals (y : List ℝ) : npSum (y.map Flt.fin) = .fin y.sum := by
  induction y with
  | nil => rfl
  | cons a y ih =>
    unfold npSum at ih ⊢
    rw [List.map_cons, List.foldr_cons, ih, List.sum_cons]
    rfl

theorem sum_add_const (y : List ℝ) (δ : ℝ) : (y.map (· + δ)).sum = y.sum + y.length * δ := by
  induction y with
  | nil => simp
  | cons a y ih =>
    rw [List.map_cons, List.sum_cons, List.sum_cons, ih, List.length_cons]
    push_cast
    ring

theorem npMean_reals {y : List ℝ} (h : y ≠ []) : npMean (y.map Flt.fin) = .fin (y.sum / y.length) := by
  have hn : (y.length : ℝ) ≠ 0 := by simpa using h
  unfold npMean
  rw [npSum_reals, List.length_map]
  simp [Flt.div, hn]

theorem npMean_plus {y : List ℝ} (h : y ≠ []) : npMean ((y.map (· + δ)).map Flt.fin) = Flt.plus δ (npMean (y.map Flt.fin)) := by
  have hn : (y.length : ℝ) ≠ 0 := by simpa using h
  rw [npMean_reals h, npMean_reals (by simpa using h), sum_add_const, List.length_map]
  change Flt.fin _ = Flt.fin (_ + δ)
  congr 1
  field_simp

theorem npVar_plus {y : List ℝ} (h : y ≠ []) (ddof : ℕ) : npVar ddof ((y.map (· + δ)).map Flt.fin) = npVar ddof (y.map Flt.fin) := by
  unfold npVar
  have e : (((y.map (· + δ)).map Flt.fin).map fun x => Flt.mul (Flt.sub x (npMean ((y.map (· + δ)).map Flt.fin)))
      (Flt.sub x (npMean ((y.map (· + δ)).map Flt.fin)))) =
      (y.map Flt.fin).map fun x => Flt.mul (Flt.sub x (npMean (y.map Flt.fin))) (Flt.sub x (npMean (y.map Flt.fin))) := by
    rw [npMean_plus h, List.map_map, List.map_map, List.map_map]
    refine List.map_congr_left fun x _ => ?_
    change Flt.mul (Flt.sub (Flt.plus δ (.fin x)) _) (Flt.sub (Flt.plus δ (.fin x)) _) = _
    rw [plus_sub_plus]
    rfl
  rw [e, List.length_map, List.length_map, List.length_map]

theorem locationPlus_cons (δ : ℝ) (a : Flt) (l : List Flt) : rowFn (Flt.plus δ a :: l) = locationPlus δ (rowFn (a :: l)) := by
  funext k
  unfold rowFn locationPlus
  cases k with
  | zero => simp
  | succ k => simp

theorem initialRow_plus {d : Dist} (hd : d.LocationFamily) (o : ScipyOracles) (ho : o.FitMoves δ d) {ys : List ℝ} (h : ys ≠ []) (y : ℝ) :
    rowFn (d.initialRow o.fit (ys.map (· + δ)) (y + δ)) = locationPlus δ (rowFn (d.initialRow o.fit ys y)) := by
  cases d <;> first | exact hd.elim | skip
  case jsu b =>
    cases b with
    | true =>
      simp only [initialRow]
      rw [npMean_plus h, npMean_reals h, ← locationPlus_cons]
      congr 2
      simp only [Flt.plus, Flt.add, Flt.div]
      norm_num
      ring
    | false =>
      simp only [initialRow]
      rw [ho, ho, ho, ho, ← locationPlus_cons]
      rfl
  case studentT =>
    simp only [initialRow]
    rw [ho, ho, ho, ← locationPlus_cons]
    rfl
  all_goals
    simp only [initialRow, npStd]
    rw [npMean_plus h, npVar_plus h, ← locationPlus_cons]
  case reverseGumbel =>
    congr 2
    rw [add_plus]

/-! ### Parameters -/

theorem LocationFamily.params {d : Dist} (hd : d.LocationFamily) : 0 < d.nParams := by
  cases d <;> first | exact hd.elim | simp [nParams]

theorem LocationFamily.support {d : Dist} (hd : d.LocationFamily) (tiny ulp : ℝ) : d.support tiny ulp = allReals := by
  cases d <;> first | exact hd.elim | rfl

theorem LocationFamily.support0 {d : Dist} (hd : d.LocationFamily) (tiny ulp : ℝ) : d.parameterSupport tiny ulp 0 = some allReals := by
  cases d <;> first | exact hd.elim | rfl

/-- Real parameters with another location. -/
noncomputable def moveReal (δ : ℝ) (θ : ℕ → ℝ) : ℕ → ℝ := Function.update θ 0 (θ 0 + δ)

theorem realRow_plus {d : Dist} (hd : d.LocationFamily) (tiny ulp : ℝ) (r : ℕ → Flt) :
    d.realRow? tiny ulp (locationPlus δ r) = (d.realRow? tiny ulp r).map (moveReal δ) := by
  have hiff : (∀ k < d.nParams, ∃ x sup, locationPlus δ r k = .fin x ∧ d.parameterSupport tiny ulp k = some sup ∧ sup.1 ≤ (x : EReal) ∧
      (x : EReal) ≤ sup.2) ↔ ∀ k < d.nParams, ∃ x sup, r k = .fin x ∧ d.parameterSupport tiny ulp k = some sup ∧ sup.1 ≤ (x : EReal) ∧
      (x : EReal) ≤ sup.2 := by
    refine forall_congr' fun k => forall_congr' fun _ => ?_
    by_cases hk : k = 0
    · subst hk
      rw [hd.support0]
      have h1 : locationPlus δ r 0 = Flt.plus δ (r 0) := by simp [locationPlus]
      rw [h1]
      constructor
      · rintro ⟨x, sup, h2, h3, _⟩
        cases h3
        cases hr : r 0 with
        | fin z => exact ⟨z, _, rfl, rfl, bot_le, le_top⟩
        | pinf => rw [hr] at h2; cases h2
        | ninf => rw [hr] at h2; cases h2
        | nan => rw [hr] at h2; cases h2
      · rintro ⟨x, sup, h2, h3, _⟩
        cases h3
        rw [h2]
        exact ⟨x + δ, _, rfl, rfl, bot_le, le_top⟩
    · have h1 : locationPlus δ r k = r k := by simp [locationPlus, hk]
      rw [h1]
  unfold realRow?
  by_cases h : ∀ k < d.nParams, ∃ x sup, r k = .fin x ∧ d.parameterSupport tiny ulp k = some sup ∧ sup.1 ≤ (x : EReal) ∧
      (x : EReal) ≤ sup.2
  · rw [if_pos h, if_pos (hiff.2 h)]
    change some _ = some _
    congr 1
    obtain ⟨x, _, h0, _⟩ := h 0 hd.params
    funext k
    unfold moveReal locationPlus
    by_cases hk : k = 0
    · subst hk
      simp [h0, Flt.plus, Flt.add, Flt.real?]
    · simp [hk]
  · rw [if_neg h, if_neg fun h' => h (hiff.1 h')]
    rfl

theorem moveReal_zero (θ : ℕ → ℝ) : moveReal δ θ 0 = θ 0 + δ := by simp [moveReal]

theorem moveReal_one (θ : ℕ → ℝ) : moveReal δ θ 1 = θ 1 := by simp [moveReal]

theorem moveReal_two (θ : ℕ → ℝ) : moveReal δ θ 2 = θ 2 := by simp [moveReal]

theorem moveReal_three (θ : ℕ → ℝ) : moveReal δ θ 3 = θ 3 := by simp [moveReal]

theorem dl1_plus {d : Dist} (hd : d.LocationFamily) (y : ℝ) (θ : ℕ → ℝ) (k : ℤ) : d.dl1 (y + δ) (moveReal δ θ) k = d.dl1 y θ k := by
  cases d <;> first | exact hd.elim | skip
  all_goals
    simp only [dl1, studentScore, jsuScore, moveReal_zero, moveReal_one, moveReal_two, moveReal_three, add_sub_add_right_eq_sub]

theorem dl2_plus {d : Dist} (hd : d.LocationFamily) (y : ℝ) (θ : ℕ → ℝ) (k : ℤ) : d.dl2 (y + δ) (moveReal δ θ) k = d.dl2 y θ k := by
  cases d <;> first | exact hd.elim | skip
  all_goals
    simp only [dl2, jsuScore, moveReal_zero, moveReal_one, moveReal_two, moveReal_three, add_sub_add_right_eq_sub]

theorem toScipy_plus {d : Dist} (hd : d.LocationFamily) (θ : ℕ → ℝ) :
    ∃ f f', d.toScipy θ = some f ∧ d.toScipy (moveReal δ θ) = some f' ∧ f.Shifted δ f' := by
  cases d <;> first | exact hd.elim | skip
  all_goals
    refine ⟨_, _, rfl, rfl, fun y => ?_, rfl, rfl, rfl, rfl⟩
    simp only [Frozen.pdf, Frozen.loc, Frozen.scale, Frozen.stdPdf, moveReal_zero, moveReal_one, moveReal_two, moveReal_three,
      add_sub_add_right_eq_sub]

theorem logpdf_plus {d : Dist} (hd : d.LocationFamily) (y : ℝ) (θ : ℕ → ℝ) : d.logpdf (y + δ) (moveReal δ θ) = d.logpdf y θ := by
  obtain ⟨f, f', h1, h2, h⟩ := toScipy_plus (δ := δ) hd θ
  have key : ∀ y θ f, d.toScipy θ = some f → d.logpdf y θ = Flt.log (.fin (f.pdf y)) := by
    intro y θ f hf
    cases d <;> first | exact hd.elim | (cases hf; rfl)
  rw [key _ _ _ h1, key _ _ _ h2, h.pdf]

theorem ppf_plus {d : Dist} (hd : d.LocationFamily) (ulp q : ℝ) {θ : ℕ → ℝ} (hθ : d.Admissible θ) :
    d.ppf ulp q (moveReal δ θ) = Flt.plus δ (d.ppf ulp q θ) := by
  obtain ⟨f, f', h1, h2, h⟩ := toScipy_plus (δ := δ) hd θ
  have key : ∀ θ f, d.toScipy θ = some f → d.ppf ulp q θ = f.ppf q := by
    intro θ f hf
    cases d <;> first | exact hd.elim | (cases hf; rfl)
  have hl : d ≠ logNormal := by
    rintro rfl
    exact hd
  rw [key _ _ h1, key _ _ h2]
  refine h.ppf ?_ q
  rw [← law_eq_frozen d hl θ hθ f h1]
  exact law_isProbability d θ hθ

end Dist

/-! ### Distribution objects -/

theorem plus_notFinite {v : Flt} (h : ¬ v.IsFinite) (δ : ℝ) : Flt.plus δ v = v := by
  cases v with
  | fin x => exact absurd trivial h
  | pinf => rfl
  | ninf => rfl
  | nan => rfl

theorem withLink_plus {links : List LinkClass} {f : LinkClass → Flt → Flt} (hf : ∀ v, f .identity (Flt.plus δ v) = Flt.plus δ (f .identity v))
    (k : ℕ) (a : Arr1) : withLink (.identity :: links) f k (plusAt δ k a) = (withLink (.identity :: links) f k a).map (plusAt δ k) := by
  unfold withLink
  cases k with
  | zero =>
    simp only [List.getElem?_cons_zero, plusAt_zero]
    change Except.ok _ = Except.ok _
    rw [plusAt_zero, List.map_map, List.map_map]
    congr 1
    exact List.map_congr_left fun v _ => hf v
  | succ k =>
    rw [plusAt_other δ (Nat.succ_ne_zero k)]
    have : plusAt δ (k + 1) = id := funext fun a => plusAt_other δ (Nat.succ_ne_zero k) a
    rw [this]
    cases links[k]? <;> simp [Except.map] <;> cases links[k]? <;> rfl

theorem withLink_size {links : List LinkClass} {f : LinkClass → Flt → Flt} {k : ℕ} {a r : Arr1} (h : withLink links f k a = .ok r) :
    r.length = a.length := by
  unfold withLink at h
  split at h
  · cases h
    simp
  · cases h

theorem mapM_size {α β : Type} {f : α → Except PyErr β} {l : List α} {r : List β} (h : l.mapM f = .ok r) : r.length = l.length := by
  induction l generalizing r with
  | nil =>
    cases h
    rfl
  | cons x l ih =>
    rw [List.mapM_cons] at h
    cases hx : f x with
    | error e =>
      rw [hx] at h
      cases h
    | ok y =>
      rw [hx] at h
      cases hl : l.mapM f with
      | error e =>
        rw [hl] at h
        cases h
      | ok r' =>
        rw [hl] at h
        cases h
        rw [List.length_cons, List.length_cons, ih hl]

theorem mapM_zip_plus {g g' : ℝ × (ℕ → Flt) → Except PyErr Flt} (h : ∀ y r, g' (y + δ, locationPlus δ r) = g (y, r)) (y : List ℝ) (fv : Fv) :
    ((y.map (· + δ)).zip (fv.map (locationPlus δ))).mapM g' = (y.zip fv).mapM g := by
  rw [List.zip_map, List.mapM_map]
  congr 1
  funext x
  exact h x.1 x.2

theorem outside_location {d : Dist} (hd : d.LocationFamily) (y : ℝ) (k : ℕ) (v : Flt) : d.outside y k v = v := by
  unfold Dist.outside
  cases d <;> first | exact hd.elim | simp [Dist.WhereZero]

/-- A class with a location and the identity as link of the location. -/
theorem location_moves {tiny ulp : ℝ} (ht : 0 < tiny) (hu : 0 < ulp) {o : ScipyOracles} {e : Elsewhere} (he : e.Moves δ) {d : Dist}
    (hd : d.LocationFamily) (ho : o.FitMoves δ d) (links : List LinkClass) : DistMoves (d.ops tiny ulp o e (.identity :: links)) δ where
  link := fun k a => withLink_plus (fun v => by
    by_cases hv : v.IsFinite
    · cases v with
      | fin x =>
        change LinkClass.linkFlt tiny ulp e .identity (.fin (x + δ)) = _
        have key : ∀ z : ℝ, LinkClass.linkFlt tiny ulp e .identity (.fin z) = .fin z := fun z => by
          simp [LinkClass.linkFlt, LinkClass.linkSupport, LinkClass.link]
        rw [key, key]
        rfl
      | pinf => exact hv.elim
      | ninf => exact hv.elim
      | nan => exact hv.elim
    · rw [plus_notFinite hv, plus_notFinite]
      cases v with
      | fin x => exact absurd trivial hv
      | pinf => exact he.link _ hv
      | ninf => exact he.link _ hv
      | nan => exact he.link _ hv) k a
  inverse := fun k a => withLink_plus (fun v => by
    by_cases hv : v.IsFinite
    · cases v with
      | fin x => rfl
      | pinf => exact hv.elim
      | ninf => exact hv.elim
      | nan => exact hv.elim
    · rw [plus_notFinite hv, plus_notFinite]
      cases v with
      | fin x => exact absurd trivial hv
      | pinf => exact he.inverse _ hv
      | ninf => exact he.inverse _ hv
      | nan => exact he.inverse _ hv) k a
  derivative := fun k a => by
    change withLink _ _ _ _ = withLink _ _ _ _
    unfold withLink
    cases k with
    | zero =>
      simp only [List.getElem?_cons_zero, plusAt_zero, List.map_map]
      congr 1
      exact List.map_congr_left fun v _ => by
        cases v <;> rfl
    | succ k => rw [plusAt_other δ (Nat.succ_ne_zero k)]
  dl1 := fun y fv k => mapM_zip_plus (fun y r => by
    simp only [d.realRow_plus hd, outside_location hd, he.dl1]
    cases d.realRow? tiny ulp r with
    | none => rfl
    | some θ => simp only [Option.map_some, derivativeAt, Dist.dl1_plus hd]) y fv
  dl2 := fun y fv k => mapM_zip_plus (fun y r => by
    simp only [d.realRow_plus hd, outside_location hd, he.dl2]
    cases d.realRow? tiny ulp r with
    | none => rfl
    | some θ => simp only [Option.map_some, derivativeAt, Dist.dl2_plus hd]) y fv
  logpdf := fun y fv => by
    change List.zipWith _ _ _ = List.zipWith _ _ _
    rw [List.zipWith_map]
    congr 1
    funext v r
    rw [d.realRow_plus hd]
    cases d.realRow? tiny ulp r with
    | none => exact he.logpdf v r
    | some θ => exact Dist.logpdf_plus hd v θ
  initial := fun y h => by
    change Except.ok _ = Except.ok _
    congr 1
    unfold Dist.initialValues
    rw [List.map_map, List.map_map, List.map_map, List.map_map]
    exact List.map_congr_left fun v _ => Dist.initialRow_plus hd o ho h v
  support := fun y => by
    unfold OutOfSupport
    change ((∃ v ∈ _, _ < (d.support tiny ulp).1) ∨ ∃ v ∈ _, (d.support tiny ulp).2 < _) ↔
      ((∃ v ∈ _, _ < (d.support tiny ulp).1) ∨ ∃ v ∈ _, (d.support tiny ulp).2 < _)
    rw [hd.support]
    simp [Dist.allReals]
  ppf := fun q fv => by
    change List.map _ (List.map _ _) = List.map _ (List.map _ _)
    rw [List.map_map, List.map_map]
    refine List.map_congr_left fun r _ => ?_
    simp only [Function.comp]
    rw [d.realRow_plus hd]
    cases hr : d.realRow? tiny ulp r with
    | none => exact he.ppf q r
    | some θ => exact Dist.ppf_plus hd ulp q (Dist.admissible_of_inParameterSupport tiny ulp ht hu d θ (realRow_support hr))
  linkLen := fun _ _ _ h => withLink_size h
  inverseLen := fun _ _ _ h => withLink_size h
  derivativeLen := fun _ _ _ h => withLink_size h
  dl1Len := fun y fv k r h hl => by
    have := mapM_size h
    rw [this, List.length_zip, hl, min_self]
  dl2Len := fun y fv k r h hl => by
    have := mapM_size h
    rw [this, List.length_zip, hl, min_self]
  initialLen := fun y r h => by
    cases h
    simp [Dist.initialValues]

end Ondil
