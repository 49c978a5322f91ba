import Verif.Model.GramFlt
import Verif.Props.GamlssFitted
import Verif.Props.InitialValues
import Verif.Props.Scores

/-!
# NaN through one update
-/

namespace Ondil

/-- Every entry is NaN. -/
def AllNan (a : Arr1) : Prop := ∀ v ∈ a, v = .nan

@[simp] theorem Flt.mul_nan (a : Flt) : Flt.mul a .nan = .nan := by cases a <;> rfl

@[simp] theorem Flt.nan_mul (a : Flt) : Flt.mul .nan a = .nan := by cases a <;> rfl

@[simp] theorem Flt.add_nan (a : Flt) : Flt.add a .nan = .nan := by cases a <;> rfl

@[simp] theorem Flt.nan_add (a : Flt) : Flt.add .nan a = .nan := by cases a <;> rfl

theorem asum_nan {l : Arr1} (h : Flt.nan ∈ l) : asum l = .nan := Dist.npSum_nan h

theorem mapM_real?_nan {l : Arr1} (h : Flt.nan ∈ l) : l.mapM Flt.real? = none := by
  induction l with
  | nil => cases h
  | cons a l ih =>
    rw [List.mapM_cons]
    rcases List.mem_cons.1 h with rfl | h
    · rfl
    · cases hr : a.real? with
      | none => rfl
      | some x => rw [ih h]; rfl

theorem vec?_nan {J : ℕ} {l : Arr1} (h : Flt.nan ∈ l) : vec? J l = none := by
  unfold vec?
  rw [mapM_real?_nan h]
  split <;> rfl

theorem AllNan.mem {a : Arr1} (h : AllNan a) (h0 : a ≠ []) : Flt.nan ∈ a := by
  obtain ⟨v, a, rfl⟩ := List.exists_cons_of_ne_nil h0
  rw [← h v (by simp)]
  simp

/-- The information term divided by the squared derivative of the link, and the working response: NaN for score and
information zero, whatever the derivative and the linear predictor are. -/
theorem zero_over_zero (eta dr : Flt) :
    Flt.add eta (Flt.div (.fin 0) (Flt.mul dr (Flt.clip updateClip 10000000000 (Flt.neg (Flt.div (.fin 0) (Flt.mul dr dr)))))) =
      .nan := by
  have hz : Flt.clip updateClip 10000000000 (.fin 0) = .fin 0 := by
    simp only [Flt.clip, updateClip]
    norm_num
  have hn : Flt.infSigned 0 = .nan := by simp [Flt.infSigned]
  cases dr with
  | fin x =>
    by_cases hx : x = 0
    · subst hx
      simp [Flt.mul, Flt.div, hn, Flt.neg, Flt.clip]
    · have : Flt.neg (Flt.div (.fin 0) (Flt.mul (.fin x) (.fin x))) = .fin 0 := by
        simp [Flt.mul, Flt.div, hx, Flt.neg]
      rw [this, hz]
      simp [Flt.mul, Flt.div, hn]
  | pinf =>
    have : Flt.neg (Flt.div (.fin 0) (Flt.mul .pinf .pinf)) = .fin 0 := by simp [Flt.mul, Flt.div, Flt.neg]
    rw [this, hz]
    simp [Flt.mul, Flt.div, hn]
  | ninf =>
    have : Flt.neg (Flt.div (.fin 0) (Flt.mul .ninf .ninf)) = .fin 0 := by simp [Flt.mul, Flt.div, Flt.neg]
    rw [this, hz]
    simp [Flt.mul, Flt.div, hn, Flt.neg]
  | nan => simp [Flt.div, Flt.neg, Flt.clip]

namespace Dist

theorem dl1_whereZero {d : Dist} {y : ℝ} {k : ℕ} (h : d.WhereZero y k) (θ : ℕ → ℝ) : d.dl1 y θ k = .ok (some 0) := by
  cases d <;> try exact h.elim
  all_goals
    obtain ⟨hy, hk⟩ := h
    interval_cases k
  · exact checked_ok 4 _ 0 (by norm_num) (congrArg some (if_pos hy))
  · exact checked_ok 4 _ 1 (by norm_num) (congrArg some (if_pos hy))
  · exact checked_ok 3 _ 0 (by norm_num) (congrArg some (if_pos hy))
  · exact checked_ok 3 _ 1 (by norm_num) (congrArg some (if_pos hy))
  · exact checked_ok 3 _ 0 (by norm_num) (congrArg some (if_pos hy))
  · exact checked_ok 3 _ 1 (by norm_num) (congrArg some (if_pos hy))

theorem dl2_whereZero {d : Dist} {y : ℝ} {k : ℕ} (h : d.WhereZero y k) (θ : ℕ → ℝ) : d.dl2 y θ k = .ok (some 0) := by
  cases d <;> try exact h.elim
  all_goals obtain ⟨hy, hk⟩ := h
  · rcases hy with rfl | rfl
    · exact (C47_inflated_points_fails θ k hk).1
    · exact (C47_inflated_points_fails θ k hk).2.1
  · subst hy; exact (C47_inflated_points_fails θ k hk).2.2.1
  · subst hy; exact (C47_inflated_points_fails θ k hk).2.2.2

theorem derivativeAt_whereZero {d : Dist} {y : ℝ} {k : ℕ} (h : d.WhereZero y k) {real : (ℕ → ℝ) → Except PyErr (Option ℝ)}
    (hr : ∀ θ, real θ = .ok (some 0)) (v : Flt) (row : Option (ℕ → ℝ)) :
    derivativeAt real (d.outside y k v) row = .ok (.fin 0) := by
  cases row with
  | none => simp [derivativeAt, outside, h]
  | some θ => simp [derivativeAt, hr]

end Dist

/-- The working response of an inflated observation is NaN in an update. -/
theorem working_nan {tiny ulp : ℝ} {o : ScipyOracles} {e : Elsewhere} {d : Dist} {links : List LinkClass} {y : List ℝ} {fv : Fv}
    {k : ℕ} {wk : Working} (h : working (d.ops tiny ulp o e links) updateClip y fv k = .ok wk) (hfv : fv.length = y.length)
    {a : ℝ} (ha : a ∈ y) (hz : d.WhereZero a k) :
    Flt.nan ∈ wk.wv ∧ wk.wv.length = y.length ∧ wk.wt.length = y.length := by
  unfold working at h
  obtain ⟨eta, h1, h⟩ := bind_ok.1 h
  obtain ⟨g, h2, h⟩ := bind_ok.1 h
  obtain ⟨d1, h3, h⟩ := bind_ok.1 h
  obtain ⟨d2, h4, h⟩ := bind_ok.1 h
  rw [← Except.ok.inj h]
  have l1 : eta.length = y.length := by
    change withLink links _ k _ = _ at h1
    unfold withLink at h1
    split at h1
    · rw [← Except.ok.inj h1]; simp [Fv.col, hfv]
    · cases h1
  have l2 : g.length = y.length := by
    change withLink links _ k _ = _ at h2
    unfold withLink at h2
    split at h2
    · rw [← Except.ok.inj h2]; simp [l1]
    · cases h2
  obtain ⟨e3, g3⟩ := mapM_ok_get h3
  obtain ⟨e4, g4⟩ := mapM_ok_get h4
  have lz : (y.zip fv).length = y.length := by simp [hfv]
  rw [lz] at e3 e4
  obtain ⟨i, hi, rfl⟩ := List.getElem_of_mem ha
  have v3 : d1[i] = .fin 0 := by
    have := g3 i (by omega) (by omega)
    simp only [List.getElem_zip] at this
    rw [Dist.derivativeAt_whereZero hz (fun θ => Dist.dl1_whereZero hz θ)] at this
    exact (Except.ok.inj this).symm
  have v4 : d2[i] = .fin 0 := by
    have := g4 i (by omega) (by omega)
    simp only [List.getElem_zip] at this
    rw [Dist.derivativeAt_whereZero hz (fun θ => Dist.dl2_whereZero hz θ)] at this
    exact (Except.ok.inj this).symm
  refine ⟨?_, by simp [l1, l2, e3, e4], by simp [l2, e4]⟩
  refine List.mem_iff_getElem.2 ⟨i, by simp [l1, l2, e3, e4]; omega, ?_⟩
  simp only [List.getElem_zipWith, List.getElem_map, v3, v4]
  exact zero_over_zero _ _

theorem rootWeights_length (forget : ℝ) (w : Arr1) : (rootWeights forget w).length = w.length := by
  simp [rootWeights, wmul, length_initForgetVector]

/-- One NaN among the working responses makes all entries of the Gramian of the response NaN. -/
theorem updateYGramFlt_nan {gram : Arr1} {X : Arr2} {y w : Arr1} {forget : ℝ} (hy : y.length = X.length)
    (hw : w.length = X.length) (h : Flt.nan ∈ y) : AllNan (updateYGramFlt gram X y w forget) := by
  intro v hv
  unfold updateYGramFlt at hv
  obtain ⟨j, hj, rfl⟩ := List.mem_iff_getElem.1 hv
  rw [List.getElem_mapIdx]
  split
  · rename_i h1
    obtain ⟨b, rfl⟩ := List.length_eq_one_iff.1 (hy.trans h1)
    have hb : b = .nan := (List.mem_singleton.1 h).symm
    simp [hb]
  · rw [asum_nan, Flt.add_nan]
    obtain ⟨i, hi, hn⟩ := List.mem_iff_getElem.1 h
    refine List.mem_iff_getElem.2 ⟨i, by simp [colOf, rootWeights_length]; omega, ?_⟩
    simp only [List.getElem_zipWith, hn]
    simp

/-- A Gramian of the response that is NaN stays NaN. -/
theorem updateYGramFlt_allNan {gram : Arr1} (h : AllNan gram) (X : Arr2) (y w : Arr1) (forget : ℝ) :
    AllNan (updateYGramFlt gram X y w forget) := by
  intro v hv
  unfold updateYGramFlt at hv
  obtain ⟨j, hj, rfl⟩ := List.mem_iff_getElem.1 hv
  rw [List.getElem_mapIdx, h _ (List.getElem_mem _)]
  split <;> simp

theorem updateYGramFlt_length (gram : Arr1) (X : Arr2) (y w : Arr1) (forget : ℝ) :
    (updateYGramFlt gram X y w forget).length = gram.length := by simp [updateYGramFlt]

/-- Matrix times a vector of NaN. -/
theorem matVec_nan {G : Arr2} {h b : Arr1} (hh : AllNan h) (h0 : h ≠ []) (e : matVec G h = .ok b) : AllNan b := by
  unfold matVec at e
  split at e
  · rename_i hl
    rw [← Except.ok.inj e]
    intro v hv
    obtain ⟨x, hx, rfl⟩ := List.mem_map.1 hv
    have hpos := List.length_pos_iff_ne_nil.2 h0
    refine asum_nan (List.mem_iff_getElem.2 ⟨0, by simp [hl x hx]; omega, ?_⟩)
    rw [List.getElem_zipWith, hh _ (List.getElem_mem _), Flt.mul_nan]
  · cases e

/-- A method object that hands NaN on from the working responses to the Gramian of the response and from there to the
coefficients. -/
structure NanThrough {μ : Type} (M : MethodOps μ) (m : μ) : Prop where
  notPath : M.pathBased m = false
  y : ∀ h X y w f g, M.updateY m h X y w f = .ok g → h ≠ [] →
    (Flt.nan ∈ y ∧ y.length = X.length ∧ w.length = X.length) ∨ AllNan h → AllNan g ∧ g ≠ []
  beta : ∀ G h b reg r, M.updateBeta m G h b reg = .ok r → h ≠ [] → AllNan h → AllNan r.1 ∧ r.2 = m

theorem fltOls_nanThrough {base : MethodOps MethodState} (hb : base.pathBased .ols = false) : NanThrough (fltOls base) .ols where
  notPath := hb
  y := by
    intro h X y w f g hg h0 hn
    have e : updateYGramFlt h X y w f = g := Except.ok.inj hg
    rw [← e]
    refine ⟨?_, fun e0 => h0 ?_⟩
    · rcases hn with ⟨h1, h2, h3⟩ | hn
      · exact updateYGramFlt_nan h2 h3 h1
      · exact updateYGramFlt_allNan hn _ _ _ _
    · have := updateYGramFlt_length h X y w f
      rw [e0] at this
      exact List.length_eq_zero_iff.1 this.symm
  beta := by
    intro G h b reg r hr h0 hn
    change (matVec G h).map _ = _ at hr
    cases hv : matVec G h with
    | error er => rw [hv] at hr; cases hr
    | ok v =>
      rw [hv] at hr
      rw [← Except.ok.inj hr]
      exact ⟨matVec_nan hn h0 hv, rfl⟩

/-- `OrdinaryLeastSquares` of the package. -/
theorem package_nanThrough (perm : ∀ J : ℕ, ℕ → ℕ → List (Fin J)) (base : MethodOps MethodState)
    (hb : base.pathBased .ols = false) : NanThrough (packageMethods perm (fltOls base)) .ols where
  notPath := rfl
  y := by
    intro h X y w f g hg h0 hn
    refine (fltOls_nanThrough hb).y h X y w f g ?_ h0 hn
    rw [← hg]
    rcases hn with ⟨h1, _⟩ | hn
    · simp only [packageMethods, mapM_real?_nan h1]
      split <;> first | rfl | simp_all
    · simp only [packageMethods, vec?_nan (hn.mem h0)]
  beta := by
    intro G h b reg r hr h0 hn
    refine (fltOls_nanThrough hb).beta G h b reg r ?_ h0 hn
    rw [← hr]
    simp only [packageMethods, vec?_nan (hn.mem h0)]
    split <;> first | rfl | simp_all

/-! ### Finite arrays -/

/-- Every entry of the array is a finite number. -/
def AllFin (a : Arr1) : Prop := ∀ v ∈ a, ∃ r, v = Flt.fin r

theorem AllFin.map {α : Type} (l : List α) (f : α → ℝ) : AllFin (l.map fun q => Flt.fin (f q)) := by
  intro v hv
  obtain ⟨q, _, rfl⟩ := List.mem_map.1 hv
  exact ⟨f q, rfl⟩

theorem AllFin.zipWith_mul {a b : Arr1} (ha : AllFin a) (hb : AllFin b) : AllFin (List.zipWith Flt.mul a b) := by
  intro v hv
  obtain ⟨i, hi, rfl⟩ := List.getElem_of_mem hv
  rw [List.getElem_zipWith]
  obtain ⟨r, hr⟩ := ha _ (List.getElem_mem (by simp at hi; omega : i < a.length))
  obtain ⟨r', hr'⟩ := hb _ (List.getElem_mem (by simp at hi; omega : i < b.length))
  rw [hr, hr']
  exact ⟨r * r', rfl⟩

theorem AllFin.asum {a : Arr1} (ha : AllFin a) : ∃ r, asum a = .fin r := by
  induction a with
  | nil => exact ⟨0, rfl⟩
  | cons v a ih =>
    obtain ⟨r, hr⟩ := ha v (List.mem_cons_self ..)
    obtain ⟨q, hq⟩ := ih fun u hu => ha u (List.mem_cons_of_mem _ hu)
    refine ⟨r + q, ?_⟩
    change Flt.add v (Ondil.asum a) = _
    rw [hq, hr]
    rfl

theorem AllFin.headD {a : Arr1} (ha : AllFin a) (h : a ≠ []) : ∃ r, a.headD .nan = .fin r := by
  obtain ⟨v, a, rfl⟩ := List.exists_cons_of_ne_nil h
  exact ha v (List.mem_cons_self ..)

/-- Every entry of the array is a finite nonnegative number. -/
def AllNonneg (a : Arr1) : Prop := ∀ v ∈ a, ∃ r, 0 ≤ r ∧ v = Flt.fin r

theorem AllNonneg.allFin {a : Arr1} (h : AllNonneg a) : AllFin a := fun v hv => by
  obtain ⟨r, _, e⟩ := h v hv
  exact ⟨r, e⟩

theorem mem_wmul {w : List ℝ} {a : Arr1} {v : Flt} (h : v ∈ wmul w a) : ∃ u ∈ w, ∃ x ∈ a, v = Flt.mul (.fin u) x := by
  unfold wmul at h
  obtain ⟨i, hi, rfl⟩ := List.getElem_of_mem h
  have hi' : i < w.length ∧ i < List.length a := by simpa using hi
  exact ⟨w[i]'hi'.1, List.getElem_mem _, a[i]'hi'.2, List.getElem_mem _, List.getElem_zipWith⟩

theorem AllNonneg.wmul {w : List ℝ} (hw : ∀ v ∈ w, 0 ≤ v) {a : Arr1} (ha : AllNonneg a) : AllNonneg (wmul w a) := by
  intro v hv
  obtain ⟨u, hu, x, hx, rfl⟩ := mem_wmul hv
  obtain ⟨r, hr, rfl⟩ := ha x hx
  exact ⟨u * r, mul_nonneg (hw u hu) hr, rfl⟩

theorem rootWeights_fin {forget : ℝ} (hf : forget < 1) {w : Arr1} (hw : AllNonneg w) : AllFin (rootWeights forget w) := by
  intro v hv
  obtain ⟨u, hu, rfl⟩ := List.mem_map.1 hv
  have h0 : ∀ c ∈ initForgetVector forget w.length, 0 ≤ c := by
    intro c hc
    rw [initForgetVector_eq] at hc
    obtain ⟨j, rfl⟩ := List.mem_ofFn.1 hc
    exact pow_nonneg (by linarith) _
  obtain ⟨r, hr, rfl⟩ := AllNonneg.wmul h0 hw u hu
  refine ⟨Real.sqrt r, ?_⟩
  change (if 0 ≤ r then Flt.fin (Real.sqrt r) else .nan) = _
  rw [if_pos hr]

/-- With finite numbers everywhere the Gramian of the response stays finite. -/
theorem updateYGramFlt_fin {gram : Arr1} {X : Arr2} {y w : Arr1} {forget : ℝ} (hg : AllFin gram) (hX : ∀ j < gram.length, AllFin (colOf X j))
    (hX0 : X ≠ []) (hy : AllFin y) (hyl : y.length = X.length) (hw : AllNonneg w) (hwl : w.length = X.length) (hf : forget < 1) :
    AllFin (updateYGramFlt gram X y w forget) := by
  have hy0 : y ≠ [] := by rintro rfl; exact hX0 (List.length_eq_zero_iff.1 hyl.symm)
  have hw0 : w ≠ [] := by rintro rfl; exact hX0 (List.length_eq_zero_iff.1 hwl.symm)
  intro v hv
  unfold updateYGramFlt at hv
  obtain ⟨j, hj, rfl⟩ := List.mem_mapIdx.1 hv
  obtain ⟨g, hg'⟩ := hg _ (List.getElem_mem hj)
  have hc0 : colOf X j ≠ [] := by simpa [colOf] using hX0
  split
  · obtain ⟨a, ha⟩ := hw.allFin.headD hw0
    obtain ⟨b, hb⟩ := (hX j hj).headD hc0
    obtain ⟨c, hc⟩ := hy.headD hy0
    rw [hg', ha, hb, hc]
    exact ⟨_, rfl⟩
  · obtain ⟨a, ha⟩ := ((hX j hj).zipWith_mul (rootWeights_fin hf hw)).zipWith_mul (hy.zipWith_mul (rootWeights_fin hf hw)) |>.asum
    rw [ha, hg']
    exact ⟨_, rfl⟩

/-- With finite numbers everywhere a matrix times a vector is finite. -/
theorem matVec_fin {G : Arr2} {h b : Arr1} (hG : ∀ r ∈ G, AllFin r) (hh : AllFin h) (e : matVec G h = .ok b) : AllFin b := by
  unfold matVec at e
  split at e
  · obtain rfl := Except.ok.inj e
    intro v hv
    obtain ⟨r, hr, rfl⟩ := List.mem_map.1 hv
    exact ((hG r hr).zipWith_mul hh).asum
  · cases e

end Ondil
