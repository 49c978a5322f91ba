import Verif.Lemmas.GamlssOls
import Verif.Lemmas.GamlssSuccess
import Verif.Lemmas.LogPdf
import Mathlib.Tactic.FieldSimp

/-!
# The normal distribution with constant scale on arrays of finite floats

The working quantities of the two parameters, and the deviance, when the fitted values are `g o` (location, depending on
the observation) and `σ` (scale, the same for all observations).
-/

open scoped BigOperators

namespace Ondil

variable {J : ℕ}

/-- The default normal distribution object. -/
noncomputable def normalOps (tiny ulp : ℝ) (o : ScipyOracles) (e : Elsewhere) : DistOps :=
  Dist.normal.ops tiny ulp o e Dist.normal.defaultLinks

/-- The rows of the fitted values: location `g o`, scale `σ`. -/
def FvAt (d : List (Obs J)) (g : Obs J → ℝ) (σ : ℝ) (fv : Fv) : Prop :=
  List.Forall₂ (fun o r => r 0 = .fin (g o) ∧ r 1 = .fin σ) d fv

theorem FvAt.col_zero {d : List (Obs J)} {g : Obs J → ℝ} {σ : ℝ} {fv : Fv} (h : FvAt d g σ fv) :
    fv.col 0 = d.map fun o => .fin (g o) := by
  unfold FvAt at h
  unfold Fv.col
  induction h with
  | nil => rfl
  | cons hr _ ih => rw [List.map_cons, List.map_cons, ih, hr.1]

theorem FvAt.col_one {d : List (Obs J)} {g : Obs J → ℝ} {σ : ℝ} {fv : Fv} (h : FvAt d g σ fv) :
    fv.col 1 = d.map fun _ => .fin σ := by
  unfold FvAt at h
  unfold Fv.col
  induction h with
  | nil => rfl
  | cons hr _ ih => rw [List.map_cons, List.map_cons, ih, hr.2]

theorem FvAt.set_zero {d : List (Obs J)} {g : Obs J → ℝ} {σ : ℝ} {fv : Fv} (h : FvAt d g σ fv) (g' : Obs J → ℝ) :
    FvAt d g' σ (fv.setCol 0 (d.map fun o => .fin (g' o))) := by
  unfold FvAt at h ⊢
  unfold Fv.setCol
  induction h with
  | nil => exact .nil
  | cons hr _ ih => exact .cons ⟨by simp, by simpa using hr.2⟩ ih

theorem FvAt.set_one {d : List (Obs J)} {g : Obs J → ℝ} {σ : ℝ} {fv : Fv} (h : FvAt d g σ fv) (τ : ℝ) :
    FvAt d g τ (fv.setCol 1 (d.map fun _ => .fin τ)) := by
  unfold FvAt at h ⊢
  unfold Fv.setCol
  induction h with
  | nil => exact .nil
  | cons hr _ ih => exact .cons ⟨by simpa using hr.1, by simp⟩ ih

theorem zip_mapM {R : Obs J → (ℕ → Flt) → Prop} {d : List (Obs J)} {fv : Fv} (h : List.Forall₂ R d fv)
    {F : ℝ × (ℕ → Flt) → Except PyErr Flt} {G : Obs J → ℝ} (hF : ∀ o r, R o r → F (o.y, r) = .ok (.fin (G o))) :
    ((ys d).zip fv).mapM F = .ok (d.map fun o => .fin (G o)) := by
  unfold ys
  induction h with
  | nil => rfl
  | cons hr _ ih =>
    rw [List.map_cons, List.zip_cons_cons, List.mapM_cons, ih, hF _ _ hr]
    rfl

theorem zipWith_at {R : Obs J → (ℕ → Flt) → Prop} {d : List (Obs J)} {fv : Fv} (h : List.Forall₂ R d fv)
    {F : ℝ → (ℕ → Flt) → Flt} {G : Obs J → ℝ} (hF : ∀ o r, R o r → F o.y r = .fin (G o)) :
    List.zipWith F (ys d) fv = d.map fun o => .fin (G o) := by
  unfold ys
  induction h with
  | nil => rfl
  | cons hr _ ih => rw [List.map_cons, List.zipWith_cons_cons, ih, hF _ _ hr, List.map_cons]

theorem zipWith_maps {α β γ δ : Type} (d : List α) (f : β → γ → δ) (a : α → β) (b : α → γ) :
    List.zipWith f (d.map a) (d.map b) = d.map fun o => f (a o) (b o) := by
  induction d with
  | nil => rfl
  | cons x d ih => rw [List.map_cons, List.map_cons, List.zipWith_cons_cons, ih, List.map_cons]

theorem wmul_maps (d : List (Obs J)) (v : Obs J → ℝ) :
    wmul (ws d) (d.map fun o => .fin (v o)) = d.map fun o => .fin (o.w * v o) := by
  unfold wmul ws
  rw [zipWith_maps]
  rfl

/-! ### The range of the scale -/

/-- The smallest scale that can occur in a fit. -/
noncomputable def scaleMin : ℝ := Real.exp (-(1 / 2)) * smallNumber

/-- The scales that occur in a fit. -/
def ScaleOk (σ : ℝ) : Prop := scaleMin ≤ σ ∧ σ ≤ largeNumber

theorem smallNumber_pos' : 0 < smallNumber := by unfold smallNumber; positivity

theorem scaleMin_pos : 0 < scaleMin := mul_pos (Real.exp_pos _) smallNumber_pos'

theorem ScaleOk.pos {σ : ℝ} (h : ScaleOk σ) : 0 < σ := lt_of_lt_of_le scaleMin_pos h.1

theorem scaleMin_ge : (1 / 10 ^ 11 : ℝ) ≤ scaleMin := by
  unfold scaleMin smallNumber
  have := Real.add_one_le_exp (-(1 / 2) : ℝ)
  nlinarith

theorem small_le_large : smallNumber ≤ largeNumber := by unfold smallNumber largeNumber; norm_num

theorem scaleMin_le_small : scaleMin ≤ smallNumber := by
  unfold scaleMin
  have : Real.exp (-(1 / 2)) ≤ 1 := Real.exp_le_one_iff.2 (by norm_num)
  have := smallNumber_pos'
  nlinarith

theorem robustExp_scale {σ : ℝ} (h : ScaleOk σ) : robustExp (robustLog σ) = max σ smallNumber := by
  have hl : robustLog σ = Real.log (max σ smallNumber) := by
    unfold robustLog
    split
    · next hgt => rw [max_eq_left hgt.le]
    · next hgt => rw [max_eq_right (not_lt.1 hgt)]
  have hpos : 0 < max σ smallNumber := lt_max_of_lt_right smallNumber_pos'
  have hle : max σ smallNumber ≤ largeNumber := max_le h.2 small_le_large
  rw [hl]
  unfold robustExp
  rw [if_neg (not_lt.2 (Real.log_le_log hpos hle)), Real.exp_log hpos]

theorem robustExp_mono {a b : ℝ} (h : a ≤ b) : robustExp a ≤ robustExp b := by
  have hL : 0 < largeNumber := by unfold largeNumber; norm_num
  unfold robustExp
  split
  · next h1 => rw [if_pos (lt_of_lt_of_le h1 h)]
  · next h1 =>
    split
    · exact (Real.exp_le_exp.2 (not_lt.1 h1)).trans (by rw [Real.exp_log hL])
    · exact Real.exp_le_exp.2 h

theorem robustExp_le_large (a : ℝ) : robustExp a ≤ largeNumber := by
  have hL : 0 < largeNumber := by unfold largeNumber; norm_num
  unfold robustExp
  split
  · exact le_rfl
  · next h1 => exact (Real.exp_le_exp.2 (not_lt.1 h1)).trans (by rw [Real.exp_log hL])

/-- A linear predictor at most one half below the logarithm of an admissible scale gives an admissible scale. -/
theorem scale_step {σ a : ℝ} (ha : robustLog σ - 1 / 2 ≤ a) : ScaleOk (robustExp a) := by
  refine ⟨?_, robustExp_le_large a⟩
  have hlow : Real.log smallNumber ≤ robustLog σ := by
    unfold robustLog
    split
    · next h => exact Real.log_le_log smallNumber_pos' h.le
    · exact le_rfl
  refine le_trans ?_ (robustExp_mono (le_trans (sub_le_sub_right hlow (1 / 2)) ha))
  unfold robustExp
  rw [if_neg]
  · rw [sub_eq_add_neg, Real.exp_add, Real.exp_log smallNumber_pos', mul_comm]
    rfl
  · have := Real.log_le_log smallNumber_pos' small_le_large
    linarith

/-! ### The calls of the distribution -/

variable {tiny ulp : ℝ} {so : ScipyOracles} {e : Elsewhere}

theorem realRow_normal {r : ℕ → Flt} {m σ : ℝ} (h0 : r 0 = .fin m) (h1 : r 1 = .fin σ) (hσ : tiny ≤ σ) :
    ∃ θ, Dist.normal.realRow? tiny ulp r = some θ ∧ θ 0 = m ∧ θ 1 = σ := by
  unfold Dist.realRow?
  rw [if_pos]
  · exact ⟨_, rfl, by simp [h0, Flt.real?], by simp [h1, Flt.real?]⟩
  · intro k hk
    have hk2 : k < 2 := hk
    obtain rfl | rfl : k = 0 ∨ k = 1 := by omega
    · exact ⟨m, _, h0, rfl, bot_le, le_top⟩
    · exact ⟨σ, _, h1, rfl, EReal.coe_le_coe_iff.2 hσ, le_top⟩

variable {d : List (Obs J)} {g : Obs J → ℝ} {σ : ℝ} {fv : Fv}

theorem normal_dl1_zero (h : FvAt d g σ fv) (ht : tiny ≤ σ) :
    (normalOps tiny ulp so e).dl1 (ys d) fv 0 = .ok (d.map fun o => .fin (1 / σ ^ 2 * (o.y - g o))) :=
  zip_mapM h fun o r hr => by
    obtain ⟨θ, h1, h2, h3⟩ := realRow_normal (tiny := tiny) (ulp := ulp) hr.1 hr.2 ht
    simp only [h1, derivativeAt]
    rw [← h2, ← h3]
    rfl

theorem normal_dl1_one (h : FvAt d g σ fv) (ht : tiny ≤ σ) :
    (normalOps tiny ulp so e).dl1 (ys d) fv 1 = .ok (d.map fun o => .fin (((o.y - g o) ^ 2 - σ ^ 2) / σ ^ 3)) :=
  zip_mapM h fun o r hr => by
    obtain ⟨θ, h1, h2, h3⟩ := realRow_normal (tiny := tiny) (ulp := ulp) hr.1 hr.2 ht
    simp only [h1, derivativeAt]
    rw [← h2, ← h3]
    rfl

theorem normal_dl2_zero (h : FvAt d g σ fv) (ht : tiny ≤ σ) :
    (normalOps tiny ulp so e).dl2 (ys d) fv 0 = .ok (d.map fun _ => .fin (-(1 / σ ^ 2))) :=
  zip_mapM h fun o r hr => by
    obtain ⟨θ, h1, h2, h3⟩ := realRow_normal (tiny := tiny) (ulp := ulp) hr.1 hr.2 ht
    simp only [h1, derivativeAt]
    rw [← h3]
    rfl

theorem normal_dl2_one (h : FvAt d g σ fv) (ht : tiny ≤ σ) :
    (normalOps tiny ulp so e).dl2 (ys d) fv 1 = .ok (d.map fun _ => .fin (-(2 / σ ^ 2))) :=
  zip_mapM h fun o r hr => by
    obtain ⟨θ, h1, h2, h3⟩ := realRow_normal (tiny := tiny) (ulp := ulp) hr.1 hr.2 ht
    simp only [h1, derivativeAt]
    rw [← h3]
    rfl

theorem normal_logpdf (h : FvAt d g σ fv) (ht : tiny ≤ σ) (hσ : 0 < σ) :
    (normalOps tiny ulp so e).logpdf (ys d) fv = d.map fun o => .fin (Dist.normalL o.y (g o) σ) :=
  zipWith_at h fun o r hr => by
    obtain ⟨θ, h1, h2, h3⟩ := realRow_normal (tiny := tiny) (ulp := ulp) hr.1 hr.2 ht
    simp only [h1]
    obtain ⟨hp, hl⟩ := Frozen.norm_pdf (m := g o) hσ o.y
    rw [← hl, ← Flt.log_pos hp, ← h2, ← h3]
    rfl

theorem normal_deviance (h : FvAt d g σ fv) (ht : tiny ≤ σ) (hσ : 0 < σ) :
    deviance (normalOps tiny ulp so e) (ys d) (ws d) fv =
      .fin (d.map fun o => o.w * (-2 * Dist.normalL o.y (g o) σ)).sum := by
  unfold deviance asum
  rw [normal_logpdf h ht hσ, List.map_map]
  have e1 : (d.map (Flt.mul (.fin (-2)) ∘ fun o => Flt.fin (Dist.normalL o.y (g o) σ))) =
      d.map fun o => Flt.fin (-2 * Dist.normalL o.y (g o) σ) := rfl
  rw [e1, wmul_maps, ← Dist.npSum_fin, List.map_map]
  rfl

/-! ### The working quantities -/

/-- The working weight of the location: the clipped inverse of the variance. -/
noncomputable def locWeight (σ : ℝ) : ℝ := min (max (1 / σ ^ 2) fitClip) 10000000000

theorem locWeight_pos (σ : ℝ) : 0 < locWeight σ := by
  unfold locWeight fitClip
  refine lt_min (lt_max_of_lt_right (by norm_num)) (by norm_num)

theorem normal_working_zero (h : FvAt d g σ fv) (ht : tiny ≤ σ) :
    working (normalOps tiny ulp so e) fitClip (ys d) fv 0 = .ok ⟨d.map fun o => .fin (g o), d.map fun _ => .fin (locWeight σ),
      d.map fun o => .fin (g o + 1 / σ ^ 2 / locWeight σ * (o.y - g o))⟩ := by
  have hl : (normalOps tiny ulp so e).link 0 (fv.col 0) = .ok (d.map fun o => .fin (g o)) := by
    rw [h.col_zero]
    change Except.ok ((d.map fun o => Flt.fin (g o)).map (LinkClass.linkFlt tiny ulp e .identity)) = _
    rw [List.map_map]
    refine congrArg Except.ok (List.map_congr_left fun o _ => ?_)
    rfl
  have hi : (normalOps tiny ulp so e).linkInverseDerivative 0 (d.map fun o => .fin (g o)) = .ok (d.map fun _ => .fin 1) := by
    change Except.ok ((d.map fun o => Flt.fin (g o)).map (LinkClass.inverseDerivativeFlt e .identity)) = _
    rw [List.map_map]
    rfl
  unfold working
  rw [hl, bind_ok_eq, hi, bind_ok_eq, normal_dl1_zero h ht, bind_ok_eq, normal_dl2_zero h ht, bind_ok_eq]
  have hpos := locWeight_pos σ
  have e1 : (d.map fun _ => Flt.fin 1).map (Flt.div (.fin 1)) = d.map fun _ => Flt.fin 1 := by
    rw [List.map_map]
    refine List.map_congr_left fun o _ => ?_
    simp [Flt.div]
  simp only [e1, zipWith_maps]
  have e2 : Flt.clip fitClip 10000000000 (Flt.neg (Flt.div (.fin (-(1 / σ ^ 2))) (Flt.mul (.fin 1) (.fin 1)))) =
      .fin (locWeight σ) := by
    simp [Flt.mul, Flt.div, Flt.neg, Flt.clip, locWeight]
  simp only [e2]
  change Except.ok _ = _
  congr 2
  refine List.map_congr_left fun o _ => ?_
  simp only [Flt.mul, Flt.div, one_mul, if_neg hpos.ne', Flt.add]
  congr 1
  field_simp

/-- The working weight of the scale. -/
noncomputable def scaleWeight (σ : ℝ) : ℝ := 2 * max σ smallNumber ^ 2 / σ ^ 2

theorem scaleWeight_bounds (h : ScaleOk σ) : 2 ≤ scaleWeight σ ∧ scaleWeight σ ≤ 10000000000 := by
  have hσ := h.pos
  unfold scaleWeight
  have hm : σ ≤ max σ smallNumber := le_max_left _ _
  have hm0 : 0 < max σ smallNumber := lt_of_lt_of_le hσ hm
  constructor
  · rw [le_div_iff₀ (by positivity)]
    nlinarith
  · have hexp : (1 / 2 : ℝ) ≤ Real.exp (-(1 / 2)) := by
      have := Real.add_one_le_exp (-(1 / 2) : ℝ)
      linarith
    have hup : max σ smallNumber ≤ 2 * σ := by
      refine max_le (by linarith) ?_
      have h1 := h.1
      unfold scaleMin at h1
      have := smallNumber_pos'
      nlinarith
    rw [div_le_iff₀ (by positivity)]
    nlinarith

theorem normal_working_one (h : FvAt d g σ fv) (ht : tiny ≤ scaleMin) (hσ : ScaleOk σ) :
    working (normalOps tiny ulp so e) fitClip (ys d) fv 1 = .ok ⟨d.map fun _ => .fin (robustLog σ),
      d.map fun _ => .fin (scaleWeight σ),
      d.map fun o => .fin (robustLog σ + ((o.y - g o) ^ 2 - σ ^ 2) / (2 * σ * max σ smallNumber))⟩ := by
  have ht' : tiny ≤ σ := ht.trans hσ.1
  have hpos := hσ.pos
  have hm0 : 0 < max σ smallNumber := lt_of_lt_of_le hpos (le_max_left _ _)
  obtain ⟨hb1, hb2⟩ := scaleWeight_bounds hσ
  have hl : (normalOps tiny ulp so e).link 1 (fv.col 1) = .ok (d.map fun _ => .fin (robustLog σ)) := by
    rw [h.col_one]
    change Except.ok ((d.map fun _ => Flt.fin σ).map (LinkClass.linkFlt tiny ulp e .log)) = _
    rw [List.map_map]
    refine congrArg Except.ok (List.map_congr_left fun o _ => ?_)
    exact if_pos ⟨by simpa [LinkClass.linkSupport] using ht', le_top⟩
  have hi : (normalOps tiny ulp so e).linkInverseDerivative 1 (d.map fun _ => .fin (robustLog σ)) =
      .ok (d.map fun _ => .fin (max σ smallNumber)) := by
    change Except.ok ((d.map fun _ => Flt.fin (robustLog σ)).map (LinkClass.inverseDerivativeFlt e .log)) = _
    rw [List.map_map, ← robustExp_scale hσ]
    rfl
  unfold working
  rw [hl, bind_ok_eq, hi, bind_ok_eq, normal_dl1_one h ht', bind_ok_eq, normal_dl2_one h ht', bind_ok_eq]
  have e1 : (d.map fun _ => Flt.fin (max σ smallNumber)).map (Flt.div (.fin 1)) =
      d.map fun _ => Flt.fin (1 / max σ smallNumber) := by
    rw [List.map_map]
    refine List.map_congr_left fun o _ => ?_
    simp only [Function.comp, Flt.div, if_neg hm0.ne']
  simp only [e1, zipWith_maps]
  have e2 : Flt.clip fitClip 10000000000 (Flt.neg (Flt.div (.fin (-(2 / σ ^ 2)))
      (Flt.mul (.fin (1 / max σ smallNumber)) (.fin (1 / max σ smallNumber))))) = .fin (scaleWeight σ) := by
    have hne : 1 / max σ smallNumber * (1 / max σ smallNumber) ≠ 0 := by positivity
    simp only [Flt.mul, Flt.div, if_neg hne, Flt.neg, Flt.clip]
    have e3 : -(-(2 / σ ^ 2) / (1 / max σ smallNumber * (1 / max σ smallNumber))) = scaleWeight σ := by
      unfold scaleWeight
      field_simp
    rw [e3, max_eq_left (by unfold fitClip; linarith [show (1 / 10000000000 : ℝ) ≤ 2 by norm_num]), min_eq_left hb2]
  simp only [e2]
  change Except.ok _ = _
  congr 2
  refine List.map_congr_left fun o _ => ?_
  have hne : 1 / max σ smallNumber * scaleWeight σ ≠ 0 := by positivity
  simp only [Flt.mul, Flt.div, if_neg hne, Flt.add]
  congr 2
  unfold scaleWeight
  field_simp

/-! ### The inverse links -/

theorem normal_inverse_zero (v : Obs J → ℝ) :
    (normalOps tiny ulp so e).linkInverse 0 (d.map fun o => .fin (v o)) = .ok (d.map fun o => .fin (v o)) := by
  change Except.ok ((d.map fun o => Flt.fin (v o)).map (LinkClass.inverseFlt e .identity)) = _
  rw [List.map_map]
  rfl

theorem normal_inverse_one (v : ℝ) :
    (normalOps tiny ulp so e).linkInverse 1 (d.map fun _ => .fin v) = .ok (d.map fun _ => .fin (robustExp v)) := by
  change Except.ok ((d.map fun _ => Flt.fin v).map (LinkClass.inverseFlt e .log)) = _
  rw [List.map_map]
  rfl

end Ondil
