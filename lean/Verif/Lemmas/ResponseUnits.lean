import Verif.Lemmas.CoordinateDescent
import Verif.Lemmas.Methods
import Verif.Lemmas.InformationCriteria

/-!
# Coordinate descent and the estimation methods when the response is measured in other units
-/

open scoped BigOperators

namespace Ondil

variable {p : ℕ} {k : ℝ}

theorem softThreshold_scale (hk : 0 < k) (v t : ℝ) : softThreshold (k * v) (k * t) = k * softThreshold v t := by
  unfold softThreshold
  have h1 : Real.sign (k * v) = Real.sign v := by
    rcases lt_trichotomy v 0 with h | h | h
    · rw [Real.sign_of_neg h, Real.sign_of_neg (mul_neg_of_pos_of_neg hk h)]
    · rw [h, mul_zero]
    · rw [Real.sign_of_pos h, Real.sign_of_pos (mul_pos hk h)]
  have h2 : max (|k * v| - k * t) 0 = k * max (|v| - t) 0 := by
    rw [abs_mul, abs_of_pos hk, ← mul_sub, mul_max_of_nonneg _ _ hk.le, mul_zero]
  rw [h1, h2]
  ring

/-- Two problems of coordinate descent without bounds that differ by the unit of the response. -/
structure ScaledProblem (k : ℝ) (P P' : CDProblem p) : Prop where
  G : P'.G = P.G
  reg : P'.reg = P.reg
  h : P'.h = k • P.h
  denom : P'.lam * (1 - P'.alpha) = P.lam * (1 - P.alpha)
  threshold : P'.alpha * P'.lam = k * (P.alpha * P.lam)
  lower : ∀ j, P.lower j = none ∧ P'.lower j = none
  upper : ∀ j, P.upper j = none ∧ P'.upper j = none

variable {P P' : CDProblem p}

theorem ScaledProblem.denom_eq (h : ScaledProblem k P P') (j : Fin p) : P'.denom j = P.denom j := by
  unfold CDProblem.denom
  rw [h.G, h.reg, h.denom]

theorem ScaledProblem.target_eq (h : ScaledProblem k P P') (hk : 0 < k) (b : Row p) (j : Fin p) :
    P'.target (k • b) j = k * P.target b j := by
  have e : P'.h j - (∑ i, P'.G j i * (k • b) i) + P'.G j j * (k • b) j =
      k * (P.h j - (∑ i, P.G j i * b i) + P.G j j * b j) := by
    rw [h.h, h.G]
    simp only [Pi.smul_apply, smul_eq_mul]
    rw [mul_add, mul_sub, Finset.mul_sum]
    congr 1
    · congr 1
      exact Finset.sum_congr rfl fun i _ => by ring
    · ring
  unfold CDProblem.target
  rw [h.reg, h.threshold, e]
  split_ifs
  · exact softThreshold_scale hk _ _
  · rfl

theorem ScaledProblem.newValue_eq (h : ScaledProblem k P P') (hk : 0 < k) (b : Row p) (j : Fin p) :
    P'.newValue (k • b) j = k * P.newValue b j := by
  unfold CDProblem.newValue
  rw [(h.lower j).1, (h.lower j).2, (h.upper j).1, (h.upper j).2, h.target_eq hk, h.denom_eq]
  simp only [clipHigh, clipLow]
  rw [mul_div_assoc]

theorem ScaledProblem.step (h : ScaledProblem k P P') (hk : 0 < k) (i : ℕ) (b : Row p) (j : Fin p) :
    cdStep P' i (k • b) j = (cdStep P i b j).map (k • ·) := by
  unfold cdStep
  have hj : (k • b) j ≠ 0 ↔ b j ≠ 0 := by simp [hk.ne']
  rw [h.denom_eq]
  by_cases h1 : i < 2 ∨ b j ≠ 0
  · rw [if_pos (by rwa [hj]), if_pos h1]
    by_cases h2 : P.denom j = 0
    · rw [if_pos h2, if_pos h2]; rfl
    · rw [if_neg h2, if_neg h2, h.newValue_eq hk]
      refine congrArg Except.ok ?_
      funext l
      by_cases hl : l = j
      · subst hl; simp
      · simp [Function.update_of_ne hl]
  · rw [if_neg (by rwa [hj]), if_neg h1]; rfl

theorem foldlM_map {α β γ ε : Type} (f : β → α → Except ε β) (f' : γ → α → Except ε γ) (g : β → γ)
    (h : ∀ b a, f' (g b) a = (f b a).map g) (l : List α) (b : β) : l.foldlM f' (g b) = (l.foldlM f b).map g := by
  induction l generalizing b with
  | nil => rfl
  | cons a l ih =>
    rw [List.foldlM_cons, List.foldlM_cons, h]
    cases f b a with
    | error e => rfl
    | ok b' => exact ih b'

theorem ScaledProblem.sweep (h : ScaledProblem k P P') (hk : 0 < k) (i : ℕ) (JJ : List (Fin p)) (b : Row p) :
    cdSweep P' i JJ (k • b) = (cdSweep P i JJ b).map (k • ·) :=
  foldlM_map _ _ (k • · : Row p → Row p) (fun b j => h.step hk i b j) JJ b

theorem whileLoop_map {S T : Type} {sweep : ℕ → S → Except PyErr S} {sweep' : ℕ → T → Except PyErr T} {conv : S → S → Prop}
    {conv' : T → T → Prop} (g : S → T) (hs : ∀ i s, sweep' i (g s) = (sweep i s).map g)
    (hc : ∀ a b, conv' (g a) (g b) ↔ conv a b) (m i : ℕ) (s : S) :
    whileLoop sweep' conv' m i (g s) = (whileLoop sweep conv m i s).map fun r => (g r.1, r.2) := by
  induction hn : m + 1 - i using Nat.strong_induction_on generalizing i s with
  | _ n ih =>
    rw [whileLoop, whileLoop, hs]
    cases sweep (i + 1) s with
    | error e => rfl
    | ok s' =>
      simp only [Except.map]
      by_cases h1 : conv s' s
      · rw [if_pos h1, if_pos ((hc _ _).2 h1)]
      · rw [if_neg h1, if_neg (mt (hc _ _).1 h1)]
        by_cases h2 : i + 1 > m
        · rw [dif_pos h2, dif_pos h2]
        · rw [dif_neg h2, dif_neg h2]
          exact ih (m + 1 - (i + 1)) (by omega) (i + 1) s' rfl

theorem foldl_max_scale {α : Type} (hk : 0 < k) (f : α → ℝ) (l : List α) (m : ℝ) :
    l.foldl (fun m j => max m (k * f j)) (k * m) = k * l.foldl (fun m j => max m (f j)) m := by
  induction l generalizing m with
  | nil => rfl
  | cons a l ih =>
    rw [List.foldl_cons, List.foldl_cons, ← mul_max_of_nonneg _ _ hk.le, ih]

theorem maxAbs_scale (hk : 0 < k) (v : Row p) : maxAbs (k • v) = k * maxAbs v := by
  unfold maxAbs
  have := foldl_max_scale hk (fun j => |v j|) (List.finRange p) 0
  rw [mul_zero] at this
  rw [← this]
  congr 1
  funext m j
  rw [Pi.smul_apply, smul_eq_mul, abs_mul, abs_of_pos hk]

theorem cdConverged_scale (hk : 0 < k) (tol : ℝ) (a b : Row p) : cdConverged tol (k • a) (k • b) ↔ cdConverged tol a b := by
  unfold cdConverged
  rw [← smul_sub, maxAbs_scale hk, maxAbs_scale hk, mul_left_comm]
  exact mul_le_mul_iff_right₀ hk

theorem ScaledProblem.cd (h : ScaledProblem k P P') (hk : 0 < k) (sel : Selection) (perm : ℕ → List (Fin p)) (tol : ℝ) (m : ℕ)
    (b : Row p) : onlineCD P' sel perm tol m (k • b) = (onlineCD P sel perm tol m b).map fun r => (k • r.1, r.2) :=
  whileLoop_map (k • · : Row p → Row p) (fun i b => h.sweep hk i _ b) (fun a b => cdConverged_scale hk tol a b) m 0 b

/-- A path method that has no units of its own: only a lasso penalty and no bounds. -/
structure PathConfig.UnitFree (c : PathConfig p) : Prop where
  alpha : c.alpha = 1
  lower : ∀ j, c.lower j = none
  upper : ∀ j, c.upper j = none

theorem PathConfig.UnitFree.scaled {c : PathConfig p} (hc : c.UnitFree) (k : ℝ) (G : Matrix (Fin p) (Fin p) ℝ) (h : Row p) (lam : ℝ) :
    ScaledProblem k (c.problem G h lam) (c.problem G (k • h) (k * lam)) where
  G := rfl
  reg := rfl
  h := rfl
  denom := by simp [PathConfig.problem, hc.alpha]
  threshold := by simp [PathConfig.problem, hc.alpha]
  lower j := ⟨hc.lower j, hc.lower j⟩
  upper j := ⟨hc.upper j, hc.upper j⟩

theorem countNonzero_scale (hk : 0 < k) (v : Row p) : countNonzero (k • v) = countNonzero v := by
  unfold countNonzero
  congr 2
  funext j
  simp [hk.ne']

theorem startValue_scale (w : StartValue) (a b : Row p) : startValue w (k • a) (k • b) = k • startValue w a b := by
  unfold startValue
  simp only
  split_ifs <;> rfl

theorem cdPathRow_scale {c : PathConfig p} (hc : c.UnitFree) (hk : 0 < k) (G : Matrix (Fin p) (Fin p) ℝ) (h : Row p) (i : ℕ) (lam : ℝ)
    (a b : Row p) :
    cdPathRow c G (k • h) i (k * lam) (k • a) (k • b) = (cdPathRow c G h i lam a b).map fun r => (k • r.1, r.2) := by
  unfold cdPathRow
  simp only [startValue_scale, countNonzero_scale hk]
  split_ifs
  · rfl
  · exact (hc.scaled k G h lam).cd hk ..

theorem cdPathLoop_scale {c : PathConfig p} (hc : c.UnitFree) (hk : 0 < k) (G : Matrix (Fin p) (Fin p) ℝ) (h : Row p) (i : ℕ)
    (a : Row p) (lams : List ℝ) (olds : List (Row p)) :
    cdPathLoop c G (k • h) i (k • a) (lams.map (k * ·)) (olds.map (k • ·)) =
      (cdPathLoop c G h i a lams olds).map (List.map fun r => (k • r.1, r.2)) := by
  induction lams generalizing i a olds with
  | nil => rw [List.map_nil, cdPathLoop_nil_left, cdPathLoop_nil_left]; rfl
  | cons lam lams ih =>
    cases olds with
    | nil => rw [List.map_nil, cdPathLoop_nil_right, cdPathLoop_nil_right]; rfl
    | cons old olds =>
      rw [List.map_cons, List.map_cons, cdPathLoop, cdPathLoop, cdPathRow_scale hc hk]
      cases cdPathRow c G h i lam a old with
      | error e => rfl
      | ok r =>
        simp only [Except.map]
        rw [ih]
        cases cdPathLoop c G h (i + 1) r.1 lams olds <;> rfl

theorem npMax_scale (hk : 0 < k) (l : List ℝ) : npMax (l.map (k * ·)) = (npMax l).map (k * ·) := by
  cases l with
  | nil => rfl
  | cons a l =>
    simp only [List.map_cons, npMax, Except.map]
    rw [List.foldl_map]
    exact congrArg _ (foldl_max_scale hk id l a)

theorem getLambdaMax_scale (hk : 0 < k) (G : Matrix (Fin p) (Fin p) ℝ) (h : Row p) (reg : Fin p → Bool) :
    getLambdaMax G (k • h) reg = (getLambdaMax G h reg).map (k * ·) := by
  unfold getLambdaMax
  split
  · rw [← npMax_scale hk, List.map_map]; rfl
  · rename_i j0 _
    rw [← npMax_scale hk, List.map_map]
    congr 2
    funext i
    simp only [Function.comp, Pi.smul_apply, smul_eq_mul]
    rw [show k * h i - G j0 i * (k * h j0 / G j0 j0) = k * (h i - G j0 i * (h j0 / G j0 j0)) by ring, abs_mul, abs_of_pos hk]
  · rfl

theorem geomspace_scale (hk : 0 < k) (a b : ℝ) (n : ℕ) : geomspace (k * a) (k * b) n = (geomspace a b n).map (List.map (k * ·)) := by
  unfold geomspace
  have h0 : ∀ x : ℝ, k * x = 0 ↔ x = 0 := fun x => by simp [hk.ne']
  by_cases h : a = 0 ∨ b = 0
  · rw [if_pos h, if_pos (by rwa [h0, h0])]; rfl
  · rw [if_neg h, if_neg (by rwa [h0, h0])]
    simp only [Except.map, List.map_map, Except.ok.injEq]
    congr 1
    funext i
    simp only [Function.comp]
    rw [mul_div_mul_left _ _ hk.ne', mul_assoc]

theorem EnetArgs.lambdaPath_scale (a : EnetArgs) (hk : 0 < k) (G : Matrix (Fin p) (Fin p) ℝ) (h : Row p) (reg : Fin p → Bool) :
    a.lambdaPath G (k • h) reg = (a.lambdaPath G h reg).map (List.map (k * ·)) := by
  unfold EnetArgs.lambdaPath
  rw [getLambdaMax_scale hk]
  cases getLambdaMax G h reg with
  | error e => rfl
  | ok m =>
    change geomspace (k * m) (k * m * a.lambdaEps) _ = (geomspace m (m * a.lambdaEps) _).map _
    rw [mul_assoc]
    exact geomspace_scale hk _ _ _

/-- `LassoPath` without bounds. -/
structure EnetArgs.UnitFree (a : EnetArgs) : Prop where
  alpha : a.alpha = 1
  lower : a.lower = none
  upper : a.upper = none

theorem EnetArgs.path_scale {a : EnetArgs} (ha : a.UnitFree) (hk : 0 < k) (G : Matrix (Fin p) (Fin p) ℝ) (h : Row p) (reg : Fin p → Bool)
    (which : StartValue) (perm : ℕ → ℕ → List (Fin p)) (path0 : List (Row p)) (lams : List ℝ) :
    onlineCDPath (a.pathConfig which reg (fun _ => none) (fun _ => none) perm) G (k • h) (lams.map (k * ·)) (path0.map (k • ·)) =
      (onlineCDPath (a.pathConfig which reg (fun _ => none) (fun _ => none) perm) G h lams path0).map
        (List.map fun r => (k • r.1, r.2)) := by
  have := cdPathLoop_scale (c := a.pathConfig which reg (fun _ => none) (fun _ => none) perm) ⟨ha.alpha, fun _ => rfl, fun _ => rfl⟩
    hk G h 0 0 lams path0
  rw [smul_zero] at this
  exact this

theorem EnetArgs.updateBetaPath_scale {a : EnetArgs} (ha : a.UnitFree) (hk : 0 < k) (G : Matrix (Fin p) (Fin p) ℝ) (h : Row p)
    (path0 : List (Row p)) (reg : Fin p → Bool) (perm : ℕ → ℕ → List (Fin p)) :
    a.updateBetaPath G (k • h) (path0.map (k • ·)) reg perm = (a.updateBetaPath G h path0 reg perm).map (List.map (k • ·)) := by
  unfold EnetArgs.updateBetaPath
  rw [ha.lower, ha.upper, a.lambdaPath_scale hk]
  cases a.lambdaPath G h reg with
  | error e => rfl
  | ok lams =>
    change (onlineCDPath _ _ _ (lams.map (k * ·)) _ >>= _) = (onlineCDPath _ _ _ lams _ >>= _ : Except _ _).map _
    rw [EnetArgs.path_scale ha hk]
    cases onlineCDPath (a.pathConfig a.startUpdate reg (fun _ => none) (fun _ => none) perm) G h lams path0 with
    | error e => rfl
    | ok rows =>
      change Except.ok _ = Except.ok _
      rw [List.map_map, List.map_map]
      rfl

theorem EnetArgs.fitBetaPath_scale {a : EnetArgs} (ha : a.UnitFree) (hk : 0 < k) (G : Matrix (Fin p) (Fin p) ℝ) (h : Row p)
    (reg : Fin p → Bool) (perm : ℕ → ℕ → List (Fin p)) :
    a.fitBetaPath G (k • h) reg perm = (a.fitBetaPath G h reg perm).map (List.map (k • ·)) := by
  unfold EnetArgs.fitBetaPath
  rw [ha.lower, ha.upper, a.lambdaPath_scale hk]
  cases a.lambdaPath G h reg with
  | error e => rfl
  | ok lams =>
    have := EnetArgs.path_scale ha hk G h reg a.startInitial perm (List.replicate a.lambdaN 0) lams
    rw [List.map_replicate, smul_zero] at this
    change (onlineCDPath _ _ _ (lams.map (k * ·)) _ >>= _) = (onlineCDPath _ _ _ lams _ >>= _ : Except _ _).map _
    rw [this]
    cases onlineCDPath (a.pathConfig a.startInitial reg (fun _ => none) (fun _ => none) perm) G h lams (List.replicate a.lambdaN 0) with
    | error e => rfl
    | ok rows =>
      change Except.ok _ = Except.ok _
      rw [List.map_map, List.map_map]
      rfl

/-- `Ridge` without bounds and start value. -/
structure RidgeArgs.UnitFree (a : RidgeArgs p) : Prop where
  start : a.startBeta = none
  lower : a.lower = none
  upper : a.upper = none

theorem ridge_scaled (k : ℝ) (G : Matrix (Fin p) (Fin p) ℝ) (h : Row p) (lam : ℝ) (reg : Fin p → Bool) :
    ScaledProblem k
      { G := G, h := h, lam := lam, alpha := 0, reg := reg, lower := fun _ => none, upper := fun _ => none }
      { G := G, h := k • h, lam := lam, alpha := 0, reg := reg, lower := fun _ => none, upper := fun _ => none } where
  G := rfl
  reg := rfl
  h := rfl
  denom := rfl
  threshold := by simp
  lower _ := ⟨rfl, rfl⟩
  upper _ := ⟨rfl, rfl⟩

theorem RidgeArgs.updateBeta_scale {a : RidgeArgs p} (ha : a.UnitFree) (hk : 0 < k) (lam : ℝ) (G : Matrix (Fin p) (Fin p) ℝ) (h b : Row p)
    (reg : Fin p → Bool) (perm : ℕ → List (Fin p)) :
    a.updateBeta lam G (k • h) (k • b) reg perm = (a.updateBeta lam G h b reg perm).map (k • ·) := by
  unfold RidgeArgs.updateBeta
  rw [ha.lower, ha.upper]
  change (onlineCD _ _ _ _ _ _ >>= _) = (onlineCD _ _ _ _ _ _ >>= _ : Except _ _).map _
  rw [(ridge_scaled k G h lam reg).cd hk]
  cases onlineCD _ a.selection perm a.tolerance a.maxIterations b <;> rfl

theorem RidgeArgs.fitBeta_scale {a : RidgeArgs p} (ha : a.UnitFree) (hk : 0 < k) (G : Matrix (Fin p) (Fin p) ℝ) (h : Row p)
    (reg : Fin p → Bool) (perm : ℕ → List (Fin p)) :
    a.fitBeta G (k • h) reg perm = (a.fitBeta G h reg perm).map fun r => (k • r.1, r.2) := by
  have hs : a.start G (k • h) = k • a.start G h := by
    unfold RidgeArgs.start
    rw [ha.start]
    simp only
    split_ifs
    · exact Matrix.mulVec_smul _ _ _
    · rw [smul_zero]
  unfold RidgeArgs.fitBeta
  rw [ha.lower, ha.upper, hs]
  change (onlineCD _ _ _ _ _ _ >>= _) = (onlineCD _ _ _ _ _ _ >>= _ : Except _ _).map _
  rw [(ridge_scaled k G h (a.penalty G) reg).cd hk]
  cases onlineCD _ a.selection perm a.tolerance a.maxIterations (a.start G h) <;> rfl

end Ondil
