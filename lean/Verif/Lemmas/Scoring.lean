import Verif.Spec.Likelihood
import Verif.Lemmas.GamlssNormal
import Verif.Props.GamlssWorking

/-!
# One inner iteration with least squares is a scoring step
-/

open scoped BigOperators

namespace Ondil

variable {J : ℕ → ℕ} {k : ℕ} {p : ℕ}

/-- The weighted observations of the regression in one inner iteration. -/
def scoringObs (k : ℕ) (W Z : FitRow J → ℝ) (data : List (FitRow J)) : List (Obs (J k)) :=
  data.map fun q => ⟨q.x k, Z q, q.w * W q⟩

/-- The normal equations of a minimiser. -/
theorem normal_of_isLeastSquares {q : ℕ} {f : ℝ} {d : List (Obs q)} {b : Row q} (h : IsLeastSquares f d b)
    (v : Row q) : discSum f d (fun o => o.w * (o.y - linPred o.x b) * linPred o.x v) = 0 := by
  set A := discSum f d fun o => o.w * linPred o.x v ^ 2
  set C := discSum f d fun o => o.w * (o.y - linPred o.x b) * linPred o.x v
  have key : ∀ t : ℝ, discSSE f d (b + t • v) = discSSE f d b + (t ^ 2 * A - 2 * t * C) := by
    intro t
    unfold discSSE
    rw [← discSum_mul_left, ← discSum_mul_left, ← discSum_sub, ← discSum_add]
    refine discSum_congr _ _ fun o _ => ?_
    rw [linPred_add, linPred_smul]
    ring
  have hmin : ∀ t : ℝ, 0 ≤ t ^ 2 * A - 2 * t * C := by
    intro t
    by_cases hb : b + t • v = b
    · have := key t
      rw [hb] at this
      linarith
    · have := h _ hb
      rw [key] at this
      linarith
  have h1 := hmin (C / (|A| + 1))
  have hA : 0 < |A| + 1 := by positivity
  have hle : A ≤ |A| := le_abs_self A
  by_contra hC
  have hC2 : 0 < C ^ 2 := by positivity
  have : (C / (|A| + 1)) ^ 2 * A - 2 * (C / (|A| + 1)) * C = C ^ 2 * (A - 2 * (|A| + 1)) / (|A| + 1) ^ 2 := by
    field_simp
  rw [this] at h1
  have h2 : C ^ 2 * (A - 2 * (|A| + 1)) / (|A| + 1) ^ 2 < 0 :=
    div_neg_of_neg_of_pos (mul_neg_of_pos_of_neg hC2 (by linarith [abs_nonneg A])) (by positivity)
  linarith

theorem hasDerivAt_discSum {α : Type} (f : ℝ) (h : List α) {g : α → ℝ → ℝ} {g' : α → ℝ} {x : ℝ}
    (hg : ∀ a ∈ h, HasDerivAt (g a) (g' a) x) : HasDerivAt (fun t => discSum f h fun a => g a t) (discSum f h g') x := by
  induction h with
  | nil => simpa using hasDerivAt_const x (0 : ℝ)
  | cons a h ih =>
    simp only [discSum_cons]
    exact ((hg a (by simp)).const_mul _).add (ih fun b hb => hg b (by simp [hb]))

/-- The bilinear form of the Gramian of a scoring step. -/
noncomputable def scoringForm (k : ℕ) (f : ℝ) (W : FitRow J → ℝ) (data : List (FitRow J)) (u v : Row (J k)) : ℝ :=
  discSum f data fun q => q.w * W q * linPred (q.x k) u * linPred (q.x k) v

theorem scoringForm_zero (f : ℝ) (W : FitRow J → ℝ) (data : List (FitRow J)) (v : Row (J k)) : scoringForm k f W data 0 v = 0 := by
  unfold scoringForm
  rw [← discSum_zero f data]
  refine discSum_congr _ _ fun q _ => ?_
  simp [linPred]

theorem scoringForm_pos {f : ℝ} (hf : f < 1) {W : FitRow J → ℝ} {data : List (FitRow J)} (hW : ∀ q ∈ data, 0 < W q)
    (hw : NonnegWeights (data.map (FitRow.obs k))) (hr : FullRank (data.map (FitRow.obs k))) {v : Row (J k)} (hv : v ≠ 0) :
    0 < scoringForm k f W data v v := by
  have hw' : ∀ q ∈ data, 0 ≤ q.w := fun q hq => hw (q.obs k) (List.mem_map.2 ⟨q, hq, rfl⟩)
  have hnn : ∀ q ∈ data, 0 ≤ q.w * W q * linPred (q.x k) v * linPred (q.x k) v := fun q hq => by
    rw [mul_assoc]
    exact mul_nonneg (mul_nonneg (hw' q hq) (hW q hq).le) (mul_self_nonneg _)
  refine lt_of_le_of_ne (discSum_nonneg hf.le _ hnn) fun h0 => hv ?_
  refine hr v fun o ho hwo => ?_
  obtain ⟨q, hq, rfl⟩ := List.mem_map.1 ho
  have := discSum_eq_zero hf _ hnn h0.symm q hq
  have hpos : 0 < q.w * W q := mul_pos hwo (hW q hq)
  rw [mul_assoc] at this
  exact mul_self_eq_zero.1 ((mul_eq_zero.1 this).resolve_left hpos.ne')

/-- The derivative of the log likelihood in the direction `v` at coefficients that give the fitted values. -/
theorem scoring_derivative {d : Dist} {L : LinkClass} {f : ℝ} (hf : f < 1) {W Z : FitRow J → ℝ} {data : List (FitRow J)}
    (hW : ∀ q ∈ data, 0 < W q) (hw : NonnegWeights (data.map (FitRow.obs k))) (hr : FullRank (data.map (FitRow.obs k)))
    (hd : ∀ q ∈ data, HasDerivAt (d.logLikEta L (rowReal q.θ) k q.y) (W q * (Z q - L.link (rowReal q.θ k)))
      (L.link (rowReal q.θ k))) {b : Row (J k)} (hb : FittedValuesOf L k data b) (v : Row (J k)) :
    HasDerivAt (fun t : ℝ => d.logLik L k f data (b + t • v))
      (scoringForm k f W data (lsq f (scoringObs k W Z data) - b) v) 0 := by
  have hls : IsLeastSquares f (scoringObs k W Z data) (lsq f (scoringObs k W Z data)) := by
    refine lsq_isLeastSquares hf ?_ ?_
    · intro o ho
      obtain ⟨q, hq, rfl⟩ := List.mem_map.1 ho
      exact mul_nonneg (hw (q.obs k) (List.mem_map.2 ⟨q, hq, rfl⟩)) (hW q hq).le
    · intro v hv
      refine hr v fun o ho hwo => ?_
      obtain ⟨q, hq, rfl⟩ := List.mem_map.1 ho
      exact hv ⟨q.x k, Z q, q.w * W q⟩ (List.mem_map.2 ⟨q, hq, rfl⟩) (mul_pos hwo (hW q hq))
  set b' := lsq f (scoringObs k W Z data)
  have hn := normal_of_isLeastSquares hls v
  unfold scoringObs at hn
  rw [discSum_map] at hn
  have hder : HasDerivAt (fun t : ℝ => d.logLik L k f data (b + t • v))
      (discSum f data fun q => q.w * (W q * (Z q - L.link (rowReal q.θ k)) * linPred (q.x k) v)) 0 := by
    unfold Dist.logLik
    refine hasDerivAt_discSum f data fun q hq => HasDerivAt.const_mul q.w ?_
    have h1 : HasDerivAt (fun t : ℝ => linPred (q.x k) (b + t • v)) (linPred (q.x k) v) 0 := by
      have : (fun t : ℝ => linPred (q.x k) (b + t • v)) = fun t => linPred (q.x k) b + t * linPred (q.x k) v := by
        funext t
        rw [linPred_add, linPred_smul]
      rw [this]
      simpa using ((hasDerivAt_id (0 : ℝ)).mul_const (linPred (q.x k) v)).const_add (linPred (q.x k) b)
    have h2 : HasDerivAt (d.logLikEta L (rowReal q.θ) k q.y) (W q * (Z q - L.link (rowReal q.θ k)))
        (linPred (q.x k) (b + (0 : ℝ) • v)) := by
      rw [zero_smul, add_zero, ← hb q hq]
      exact hd q hq
    exact HasDerivAt.comp (0 : ℝ) h2 h1
  refine hder.congr_deriv ?_
  unfold scoringForm
  have : ∀ q ∈ data, q.w * (W q * (Z q - L.link (rowReal q.θ k)) * linPred (q.x k) v) =
      q.w * W q * (Z q - linPred (q.x k) b') * linPred (q.x k) v +
        q.w * W q * linPred (q.x k) (b' - b) * linPred (q.x k) v := by
    intro q hq
    rw [linPred_sub, hb q hq]
    ring
  rw [discSum_congr _ _ this, discSum_add]
  rw [show discSum f data (fun q => q.w * W q * (Z q - linPred (q.x k) b') * linPred (q.x k) v) = 0 from hn, zero_add]

/-- The data and settings of a call in which parameter `k` is estimated by least squares, with nothing clipped. -/
structure ScoringCall (tiny ulp : ℝ) (so : ScipyOracles) (e : Elsewhere) (perm : ∀ J : ℕ, ℕ → ℕ → List (Fin J))
    (other : MethodOps MethodState) (d : Dist) (links : List LinkClass) (L : LinkClass) (k : ℕ) (c : Call MethodState p)
    (data : List (FitRow J)) : Prop where
  tinyPos : 0 < tiny
  ulpPos : 0 < ulp
  D : c.D = d.ops tiny ulp so e links
  M : c.M = packageMethods perm other
  param : k < d.nParams
  link : links[k]? = some L
  y : c.y = data.map FitRow.y
  w : c.w = data.map FitRow.w
  X : c.X k = some (data.map fun q => ofVec (q.x k))
  cond : c.cfg.condStartVal = false
  ne : data ≠ []
  nonneg : NonnegWeights (data.map (FitRow.obs k))
  rank : FullRank (data.map (FitRow.obs k))
  rows : ∀ q ∈ data, q.y ∈ d.Responses ∧ d.WorkRow tiny ulp L k q.θ

variable {tiny ulp : ℝ} {so : ScipyOracles} {e : Elsewhere} {perm : ∀ J : ℕ, ℕ → ℕ → List (Fin J)}
  {other : MethodOps MethodState} {d : Dist} {links : List LinkClass} {L : LinkClass} {c : Call MethodState p}
  {data : List (FitRow J)}

theorem FitRow.working (hc : ScoringCall tiny ulp so e perm other d links L k c data) : ∃ W Z : FitRow J → ℝ,
    Ondil.working c.D fitClip c.y (data.map FitRow.θ) k = .ok ⟨data.map fun q => .fin (L.link (rowReal q.θ k)),
      data.map fun q => .fin (W q), data.map fun q => .fin (Z q)⟩ ∧
    ∀ q ∈ data, 0 < W q ∧ HasDerivAt (d.logLikEta L (rowReal q.θ) k q.y) (W q * (Z q - L.link (rowReal q.θ k)))
      (L.link (rowReal q.θ k)) := by
  obtain ⟨W, Z, h1, h2⟩ := Dist.C87_fit (o := so) (e := e) hc.tinyPos hc.ulpPos hc.param hc.link (data.map fun q => (q.y, q.θ)) (by
    intro q hq
    obtain ⟨r, hr, rfl⟩ := List.mem_map.1 hq
    exact hc.rows r hr)
  refine ⟨fun q => W (q.y, q.θ), fun q => Z (q.y, q.θ), ?_, fun q hq => ?_⟩
  · rw [hc.D, hc.y]
    simp only [List.map_map] at h1
    exact h1
  · obtain ⟨h3, _, h4, _⟩ := h2 (q.y, q.θ) (List.mem_map.2 ⟨q, hq, rfl⟩)
    exact ⟨lt_of_lt_of_le (by norm_num) h3, h4⟩

/-- An inner iteration at the fitted values of the rows. -/
theorem scoring_iteration (hc : ScoringCall tiny ulp so e perm other d links L k c data) {f : ℝ} (hf : f < 1) :
    ∃ (b' : Row (J k)) (W : FitRow J → ℝ), (∀ q ∈ data, 0 < W q) ∧
      (∀ b, FittedValuesOf L k data b → ∀ v, HasDerivAt (fun t : ℝ => d.logLik L k f data (b + t • v))
        (scoringForm k f W data (b' - b) v) 0) ∧
      ∀ {itO itI sched : ℕ} {a : Inner} {s : GState MethodState p} {step : ℝ} {reg : List Bool},
        stepAt c.cfg s itO itI k = .ok step → s.method k = some .ols → s.forget.get? k = some f →
        s.isRegularized.get? k = some reg → a.fvIt = data.map FitRow.θ →
        Py.Total (fun t => t = s) (fitIteration c k itO itI sched a) (fun r t =>
          IterResult c k a (ofVec b') (data.map fun q => .fin (L.inverse (step * linPred (q.x k) b' +
            (1 - step) * L.link (rowReal q.θ k)))) r ∧ IterKeeps s t ∧ t.method = upd s.method k (some .ols) ∧
          StepKeeps itO itI k step s t) := by
  obtain ⟨W, Z, hwk, hWZ⟩ := FitRow.working hc
  refine ⟨lsq f (scoringObs k W Z data), W, fun q hq => (hWZ q hq).1, fun b hb v =>
    scoring_derivative hf (fun q hq => (hWZ q hq).1) hc.nonneg hc.rank (fun q hq => (hWZ q hq).2) hb v, ?_⟩
  intro itO itI sched a s step reg hstep hm hfo hreg hfv
  have hne : scoringObs k W Z data ≠ [] := by simpa [scoringObs] using hc.ne
  have hnn : NonnegWeights (scoringObs k W Z data) := by
    intro o ho
    obtain ⟨q, hq, rfl⟩ := List.mem_map.1 ho
    exact mul_nonneg (hc.nonneg (q.obs k) (List.mem_map.2 ⟨q, hq, rfl⟩)) (hWZ q hq).1.le
  have hrk : FullRank (scoringObs k W Z data) := by
    intro v hv
    refine hc.rank v fun o ho hwo => ?_
    obtain ⟨q, hq, rfl⟩ := List.mem_map.1 ho
    exact hv ⟨q.x k, Z q, q.w * W q⟩ (List.mem_map.2 ⟨q, hq, rfl⟩) (mul_pos hwo (hWZ q hq).1)
  obtain ⟨xg, yg, hx, hy, hb⟩ := ols_calls (perm := perm) (other := other) hf hne hnn hrk reg
  have hww : wmul c.w (data.map fun q => Flt.fin (W q)) = (ws (scoringObs k W Z data)).map Flt.fin := by
    rw [hc.w]
    unfold wmul
    rw [zipWith_maps, ws, scoringObs, List.map_map, List.map_map]
    rfl
  have hXx : (xs (scoringObs k W Z data)).map ofVec = data.map fun q => ofVec (q.x k) := by
    rw [xs, scoringObs, List.map_map, List.map_map]
    rfl
  have hyy : (data.map fun q => Flt.fin (Z q)) = (ys (scoringObs k W Z data)).map Flt.fin := by
    rw [ys, scoringObs, List.map_map, List.map_map]
    rfl
  refine fitIteration_run hstep hc.cond (by rw [hfv]; exact hwk) hc.X hm (by rw [hc.M]; rfl) hfo hreg (xg := xg) (yg := yg)
    (xb := data.map fun q => .fin (linPred (q.x k) (lsq f (scoringObs k W Z data)))) ?_ ?_ ?_ ?_ ?_
  · rw [hc.M, ← hXx]
    change (packageMethods perm other).initX _ _ (wmul c.w (data.map fun q => Flt.fin (W q))) _ = _
    rw [hww]
    exact hx
  · rw [hc.M, ← hXx]
    change (packageMethods perm other).initY _ _ (data.map fun q => Flt.fin (Z q)) (wmul c.w (data.map fun q => Flt.fin (W q))) _ = _
    rw [hww, hyy]
    exact hy
  · rw [hc.M]
    exact hb
  · have := matVec_ofVec (data.map fun q => q.x k) (lsq f (scoringObs k W Z data))
    simpa only [List.map_map, Function.comp_def] using this
  · rw [hc.D]
    change withLink links _ k (List.zipWith _ (data.map _) (data.map _)) = _
    rw [zipWith_maps]
    unfold withLink
    rw [hc.link]
    simp only [List.map_map]
    rfl

end Ondil
