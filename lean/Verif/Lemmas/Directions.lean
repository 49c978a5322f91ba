import Verif.Lemmas.ResponseUnits
import Verif.Lemmas.LinearModelUnits
import Verif.Spec.Directions

/-!
# The linear model when features or the response change their direction
-/

open scoped BigOperators Matrix

namespace Ondil

variable {p : ℕ} {fi : Bool} {e : Fin p → ℝ} {t : ℝ}

theorem IsSign.mul_self {a : ℝ} (h : IsSign a) : a * a = 1 := by rcases h with rfl | rfl <;> norm_num

theorem IsSign.sq {a : ℝ} (h : IsSign a) : a ^ 2 = 1 := by rcases h with rfl | rfl <;> norm_num

theorem IsSign.abs {a : ℝ} (h : IsSign a) : |a| = 1 := by rcases h with rfl | rfl <;> norm_num

theorem IsSign.ne {a : ℝ} (h : IsSign a) : a ≠ 0 := by rcases h with rfl | rfl <;> norm_num

theorem IsSign.mul {a b : ℝ} (h : IsSign a) (h' : IsSign b) : IsSign (a * b) := by
  unfold IsSign
  rcases h with rfl | rfl <;> rcases h' with rfl | rfl <;> norm_num

/-! ### Coordinate descent -/

theorem softThreshold_turn {a : ℝ} (h : IsSign a) (v b : ℝ) : softThreshold (a * v) b = a * softThreshold v b := by
  unfold softThreshold
  rcases h with rfl | rfl
  · simp
  · simp [Real.sign_neg]

/-- The bounds of a problem and of the reversed problem. -/
structure TurnedLimits (e : Fin p → ℝ) (lower upper lower' upper' : Fin p → Option ℝ) : Prop where
  ordered : ∀ j a b, lower j = some a → upper j = some b → a ≤ b
  same : ∀ j, e j = 1 → lower' j = lower j ∧ upper' j = upper j
  reversed : ∀ j, e j = -1 → lower' j = (upper j).map (fun b => -b) ∧ upper' j = (lower j).map (fun b => -b)

theorem turnedLimits_none (e : Fin p → ℝ) : TurnedLimits e (fun _ => none) (fun _ => none) (fun _ => none) (fun _ => none) :=
  ⟨fun _ _ _ h => (Option.some_ne_none _ h.symm).elim, fun _ _ => ⟨rfl, rfl⟩, fun _ _ => ⟨rfl, rfl⟩⟩

theorem setBound_of_length {q : ℕ} {l : Option (List (Option ℝ))} (h : ∀ b, l = some b → b.length = q) :
    setBound q l = .ok fun j => boundAt l j := by
  cases l with
  | none => rfl
  | some b =>
    have hb := h b rfl
    simp only [setBound, hb, dite_true, boundAt, Option.bind_some]
    congr 1
    funext j
    simp [List.getD, List.getElem?_eq_getElem (show (j : ℕ) < b.length by rw [hb]; exact j.2)]

theorem TurnedBounds.setBounds {s : Fin p → ℝ} {l u l' u' : Option (List (Option ℝ))} (h : TurnedBounds s l u l' u') :
    ∃ lo hi lo' hi', setBound p l = .ok lo ∧ setBound p u = .ok hi ∧ setBound p l' = .ok lo' ∧ setBound p u' = .ok hi' ∧
      TurnedLimits s lo hi lo' hi' :=
  ⟨_, _, _, _, setBound_of_length fun b hb => h.lengths b (by simp [hb]), setBound_of_length fun b hb => h.lengths b (by simp [hb]),
    setBound_of_length fun b hb => h.lengths b (by simp [hb]), setBound_of_length fun b hb => h.lengths b (by simp [hb]),
    ⟨h.ordered, h.same, h.reversed⟩⟩

theorem turnedBounds_none (s : Fin p → ℝ) : TurnedBounds s none none none none :=
  ⟨by simp, by simp [boundAt], by simp, by simp [boundAt]⟩

/-- The method itself, if it has no bounds and no start value. -/
theorem MethodObj.SignFree.turned {reg : Fin p → Bool} {m : MethodObj p} (h : m.SignFree reg) (s : Fin p → ℝ) : m.Turned reg s m := by
  cases m with
  | ols => trivial
  | path a => exact ⟨rfl, by rw [h.1, h.2.1]; exact turnedBounds_none s, h.2.2⟩
  | ridge a =>
    refine ⟨?_, by rw [h.2.1, h.2.2]; exact turnedBounds_none s⟩
    rw [h.1]
    rcases a with ⟨_, b, _, _, _, _, _⟩
    have h1 : b = none := h.1
    rw [h1]
    rfl

theorem clip_turn {lo hi lo' hi' : Fin p → Option ℝ} (h : TurnedLimits e lo hi lo' hi') {j : Fin p} (he : IsSign (e j)) (v : ℝ) :
    clipHigh (hi' j) (clipLow (lo' j) (e j * v)) = e j * clipHigh (hi j) (clipLow (lo j) v) := by
  rcases he with he | he
  · rw [(h.same j he).1, (h.same j he).2, he, one_mul, one_mul]
  · rw [(h.reversed j he).1, (h.reversed j he).2, he]
    rcases hl : lo j with _ | a <;> rcases hu : hi j with _ | b <;> simp only [clipLow, clipHigh, Option.map]
    · rw [neg_one_mul, neg_one_mul, max_neg_neg]
    · rw [neg_one_mul, neg_one_mul, min_neg_neg]
    · have := h.ordered j a b hl hu
      rw [neg_one_mul, neg_one_mul, max_neg_neg, min_neg_neg, max_comm (min v b), min_comm v b]
      rcases le_total v a with h1 | h1
      · rw [max_eq_right h1, min_eq_right (h1.trans this), max_eq_left h1, min_eq_left this]
      · rw [max_eq_left h1, min_comm, max_eq_right (le_min h1 this)]

/-- The matrix with rows and columns reversed. -/
def turnMat (e : Fin p → ℝ) (G : Matrix (Fin p) (Fin p) ℝ) : Matrix (Fin p) (Fin p) ℝ := fun i j => e i * e j * G i j

structure TurnedProblem (e : Fin p → ℝ) (P P' : CDProblem p) : Prop where
  G : P'.G = turnMat e P.G
  reg : P'.reg = P.reg
  h : P'.h = Row.turn e P.h
  alpha : P'.alpha = P.alpha
  lam : P'.lam = P.lam
  bounds : TurnedLimits e P.lower P.upper P'.lower P'.upper

variable {P P' : CDProblem p}

theorem TurnedProblem.denom_eq (h : TurnedProblem e P P') (he : ∀ j, IsSign (e j)) (j : Fin p) : P'.denom j = P.denom j := by
  unfold CDProblem.denom
  rw [h.G, h.reg, h.lam, h.alpha]
  simp only [turnMat, (he j).mul_self, one_mul]

theorem TurnedProblem.target_eq (h : TurnedProblem e P P') (he : ∀ j, IsSign (e j)) (b : Row p) (j : Fin p) :
    P'.target (Row.turn e b) j = e j * P.target b j := by
  have e1 : P'.h j - (∑ i, P'.G j i * Row.turn e b i) + P'.G j j * Row.turn e b j =
      e j * (P.h j - (∑ i, P.G j i * b i) + P.G j j * b j) := by
    rw [h.h, h.G]
    simp only [turnMat, Row.turn]
    rw [mul_add, mul_sub, Finset.mul_sum]
    congr 1
    · congr 1
      refine Finset.sum_congr rfl fun i _ => ?_
      rw [show e j * e i * P.G j i * (e i * b i) = (e i * e i) * (e j * (P.G j i * b i)) by ring, (he i).mul_self, one_mul]
    · rw [show e j * e j * P.G j j * (e j * b j) = (e j * e j) * (e j * (P.G j j * b j)) by ring, (he j).mul_self, one_mul]
  unfold CDProblem.target
  rw [h.reg, h.alpha, h.lam, e1]
  split_ifs
  · exact softThreshold_turn (he j) _ _
  · rfl

theorem TurnedProblem.newValue_eq (h : TurnedProblem e P P') (he : ∀ j, IsSign (e j)) (b : Row p) (j : Fin p) :
    P'.newValue (Row.turn e b) j = e j * P.newValue b j := by
  unfold CDProblem.newValue
  rw [h.target_eq he, h.denom_eq he, mul_div_assoc, clip_turn h.bounds (he j)]

theorem TurnedProblem.step (h : TurnedProblem e P P') (he : ∀ j, IsSign (e j)) (i : ℕ) (b : Row p) (j : Fin p) :
    cdStep P' i (Row.turn e b) j = (cdStep P i b j).map (Row.turn e) := by
  unfold cdStep
  have hj : Row.turn e b j ≠ 0 ↔ b j ≠ 0 := by simp [Row.turn, (he j).ne]
  rw [h.denom_eq he]
  by_cases h1 : i < 2 ∨ b j ≠ 0
  · rw [if_pos (by rwa [hj]), if_pos h1]
    by_cases h2 : P.denom j = 0
    · rw [if_pos h2, if_pos h2]; rfl
    · rw [if_neg h2, if_neg h2, h.newValue_eq he]
      refine congrArg Except.ok ?_
      funext l
      by_cases hl : l = j
      · subst hl; simp [Row.turn]
      · simp [Row.turn, Function.update_of_ne hl]
  · rw [if_neg (by rwa [hj]), if_neg h1]; rfl

theorem TurnedProblem.sweep (h : TurnedProblem e P P') (he : ∀ j, IsSign (e j)) (i : ℕ) (JJ : List (Fin p)) (b : Row p) :
    cdSweep P' i JJ (Row.turn e b) = (cdSweep P i JJ b).map (Row.turn e) :=
  foldlM_map _ _ (Row.turn e) (fun b j => h.step he i b j) JJ b

theorem maxAbs_turn (he : ∀ j, IsSign (e j)) (v : Row p) : maxAbs (Row.turn e v) = maxAbs v := by
  unfold maxAbs
  congr 1
  funext m j
  rw [Row.turn, abs_mul, (he j).abs, one_mul]

theorem turn_sub (e : Fin p → ℝ) (a b : Row p) : Row.turn e a - Row.turn e b = Row.turn e (a - b) := by
  funext j
  simp only [Row.turn, Pi.sub_apply]
  ring

theorem cdConverged_turn (he : ∀ j, IsSign (e j)) (tol : ℝ) (a b : Row p) :
    cdConverged tol (Row.turn e a) (Row.turn e b) ↔ cdConverged tol a b := by
  unfold cdConverged
  rw [turn_sub, maxAbs_turn he, maxAbs_turn he]

theorem TurnedProblem.cd (h : TurnedProblem e P P') (he : ∀ j, IsSign (e j)) (sel : Selection) (perm : ℕ → List (Fin p)) (tol : ℝ)
    (m : ℕ) (b : Row p) :
    onlineCD P' sel perm tol m (Row.turn e b) = (onlineCD P sel perm tol m b).map fun r => (Row.turn e r.1, r.2) :=
  whileLoop_map (Row.turn e) (fun i b => h.sweep he i _ b) (fun a b => cdConverged_turn he tol a b) m 0 b

theorem countNonzero_turn (he : ∀ j, IsSign (e j)) (v : Row p) : countNonzero (Row.turn e v) = countNonzero v := by
  unfold countNonzero
  congr 2
  funext j
  simp [Row.turn, (he j).ne]

theorem startValue_turn (w : StartValue) (a b : Row p) : startValue w (Row.turn e a) (Row.turn e b) = Row.turn e (startValue w a b) := by
  unfold startValue
  simp only
  split_ifs <;> rfl

/-- The same configuration up to its bounds. -/
structure TurnedConfig (e : Fin p → ℝ) (c c' : PathConfig p) : Prop where
  rest : c' = { c with lower := c'.lower, upper := c'.upper }
  bounds : TurnedLimits e c.lower c.upper c'.lower c'.upper

theorem TurnedConfig.problem {c c' : PathConfig p} (h : TurnedConfig e c c')
    (G : Matrix (Fin p) (Fin p) ℝ) (v : Row p) (lam : ℝ) :
    TurnedProblem e (c.problem G v lam) (c'.problem (turnMat e G) (Row.turn e v) lam) where
  G := rfl
  reg := by rw [h.rest]; rfl
  h := rfl
  alpha := by rw [h.rest]; rfl
  lam := rfl
  bounds := h.bounds

theorem cdPathRow_turn {c c' : PathConfig p} (hc : TurnedConfig e c c') (he : ∀ j, IsSign (e j))
    (G : Matrix (Fin p) (Fin p) ℝ) (h : Row p) (i : ℕ) (lam : ℝ) (a b : Row p) :
    cdPathRow c' (turnMat e G) (Row.turn e h) i lam (Row.turn e a) (Row.turn e b) =
      (cdPathRow c G h i lam a b).map fun r => (Row.turn e r.1, r.2) := by
  have h1 : c'.which = c.which := by rw [hc.rest]
  have h2 : c'.earlyStop = c.earlyStop := by rw [hc.rest]
  have h3 : c'.selection = c.selection := by rw [hc.rest]
  have h4 : c'.perm = c.perm := by rw [hc.rest]
  have h5 : c'.tolerance = c.tolerance := by rw [hc.rest]
  have h6 : c'.maxIterations = c.maxIterations := by rw [hc.rest]
  unfold cdPathRow
  simp only [startValue_turn, countNonzero_turn he, h1, h2, h3, h4, h5, h6]
  split_ifs
  · rfl
  · exact (hc.problem G h lam).cd he ..

theorem cdPathLoop_turn {c c' : PathConfig p} (hc : TurnedConfig e c c') (he : ∀ j, IsSign (e j))
    (G : Matrix (Fin p) (Fin p) ℝ) (h : Row p) (i : ℕ) (a : Row p) (lams : List ℝ) (olds : List (Row p)) :
    cdPathLoop c' (turnMat e G) (Row.turn e h) i (Row.turn e a) lams (olds.map (Row.turn e)) =
      (cdPathLoop c G h i a lams olds).map (List.map fun r => (Row.turn e r.1, r.2)) := by
  induction lams generalizing i a olds with
  | nil => rw [cdPathLoop_nil_left, cdPathLoop_nil_left]; rfl
  | cons lam lams ih =>
    cases olds with
    | nil => rw [List.map_nil, cdPathLoop_nil_right, cdPathLoop_nil_right]; rfl
    | cons old olds =>
      rw [List.map_cons, cdPathLoop, cdPathLoop, cdPathRow_turn hc he]
      cases cdPathRow c G h i lam a old with
      | error e => rfl
      | ok r =>
        simp only [Except.map]
        rw [ih]
        cases cdPathLoop c G h (i + 1) r.1 lams olds <;> rfl

theorem getLambdaMax_turn (he : ∀ j, IsSign (e j)) (G : Matrix (Fin p) (Fin p) ℝ) (h : Row p) {reg : Fin p → Bool}
    (hr : ∃ j, reg j = false) : getLambdaMax (turnMat e G) (Row.turn e h) reg = getLambdaMax G h reg := by
  unfold getLambdaMax
  split
  · rename_i h0
    obtain ⟨j, hj⟩ := hr
    have : j ∈ (List.finRange p).filter (fun j => !reg j) := List.mem_filter.2 ⟨List.mem_finRange j, by simp [hj]⟩
    rw [h0] at this
    cases this
  · rename_i j0 _
    congr 2
    funext i
    simp only [turnMat, Row.turn]
    have : e i * h i - e j0 * e i * G j0 i * (e j0 * h j0 / (e j0 * e j0 * G j0 j0)) =
        e i * (h i - G j0 i * (h j0 / G j0 j0)) := by
      rw [(he j0).mul_self, one_mul, mul_div_assoc]
      rw [show e j0 * e i * G j0 i * (e j0 * (h j0 / G j0 j0)) = (e j0 * e j0) * (e i * (G j0 i * (h j0 / G j0 j0))) by ring,
        (he j0).mul_self]
      ring
    rw [this, abs_mul, (he i).abs, one_mul]
  · rfl

theorem turn_zero (e : Fin p → ℝ) : Row.turn e 0 = 0 := by
  funext j
  simp [Row.turn]

theorem EnetArgs.lambdaPath_turn (a : EnetArgs) (he : ∀ j, IsSign (e j)) (G : Matrix (Fin p) (Fin p) ℝ) (h : Row p)
    {reg : Fin p → Bool} (hr : ∃ j, reg j = false) : a.lambdaPath (turnMat e G) (Row.turn e h) reg = a.lambdaPath G h reg := by
  unfold EnetArgs.lambdaPath
  rw [getLambdaMax_turn he G h hr]

theorem EnetArgs.updateBetaPath_turn {a a' : EnetArgs} (ha : a' = { a with lower := a'.lower, upper := a'.upper })
    (hb : TurnedBounds e a.lower a.upper a'.lower a'.upper) (he : ∀ j, IsSign (e j))
    (G : Matrix (Fin p) (Fin p) ℝ) (h : Row p) (path0 : List (Row p)) {reg : Fin p → Bool} (hr : ∃ j, reg j = false)
    (perm : ℕ → ℕ → List (Fin p)) :
    a'.updateBetaPath (turnMat e G) (Row.turn e h) (path0.map (Row.turn e)) reg perm =
      (a.updateBetaPath G h path0 reg perm).map (List.map (Row.turn e)) := by
  obtain ⟨lo, hi, lo', hi', h1, h2, h3, h4, h5⟩ := hb.setBounds
  have hl : a'.lambdaPath (turnMat e G) (Row.turn e h) reg = a.lambdaPath G h reg := by
    rw [← a.lambdaPath_turn he G h hr, ha]
    rfl
  have hc : TurnedConfig e (a.pathConfig a.startUpdate reg lo hi perm) (a'.pathConfig a'.startUpdate reg lo' hi' perm) := by
    refine ⟨?_, h5⟩
    rw [ha]
    rfl
  unfold EnetArgs.updateBetaPath
  rw [h1, h2, h3, h4, hl]
  cases a.lambdaPath G h reg with
  | error e => rfl
  | ok lams =>
    have := cdPathLoop_turn hc he G h 0 0 lams path0
    rw [turn_zero] at this
    change (onlineCDPath _ _ _ lams _ >>= _) = (onlineCDPath _ _ _ lams _ >>= _ : Except _ _).map _
    unfold onlineCDPath
    rw [this]
    cases cdPathLoop (a.pathConfig a.startUpdate reg lo hi perm) G h 0 0 lams path0 with
    | error e => rfl
    | ok rows =>
      change Except.ok _ = Except.ok _
      rw [List.map_map, List.map_map]
      rfl

theorem EnetArgs.fitBetaPath_turn {a a' : EnetArgs} (ha : a' = { a with lower := a'.lower, upper := a'.upper })
    (hb : TurnedBounds e a.lower a.upper a'.lower a'.upper) (he : ∀ j, IsSign (e j))
    (G : Matrix (Fin p) (Fin p) ℝ) (h : Row p) {reg : Fin p → Bool} (hr : ∃ j, reg j = false)
    (perm : ℕ → ℕ → List (Fin p)) :
    a'.fitBetaPath (turnMat e G) (Row.turn e h) reg perm =
      (a.fitBetaPath G h reg perm).map (List.map (Row.turn e)) := by
  obtain ⟨lo, hi, lo', hi', h1, h2, h3, h4, h5⟩ := hb.setBounds
  have hl : a'.lambdaPath (turnMat e G) (Row.turn e h) reg = a.lambdaPath G h reg := by
    rw [← a.lambdaPath_turn he G h hr, ha]
    rfl
  have hN : a'.lambdaN = a.lambdaN := by rw [ha]
  have hc : TurnedConfig e (a.pathConfig a.startInitial reg lo hi perm) (a'.pathConfig a'.startInitial reg lo' hi' perm) := by
    refine ⟨?_, h5⟩
    rw [ha]
    rfl
  unfold EnetArgs.fitBetaPath
  rw [h1, h2, h3, h4, hl]
  cases a.lambdaPath G h reg with
  | error e => rfl
  | ok lams =>
    have := cdPathLoop_turn hc he G h 0 0 lams (List.replicate a.lambdaN 0)
    rw [turn_zero, List.map_replicate, turn_zero] at this
    change (onlineCDPath _ _ _ lams _ >>= _) = (onlineCDPath _ _ _ lams _ >>= _ : Except _ _).map _
    unfold onlineCDPath
    rw [hN, this]
    cases cdPathLoop (a.pathConfig a.startInitial reg lo hi perm) G h 0 0 lams (List.replicate a.lambdaN 0) with
    | error e => rfl
    | ok rows =>
      change Except.ok _ = Except.ok _
      rw [List.map_map, List.map_map]
      rfl

/-! ### Matrices -/

theorem turnMat_eq (e : Fin p → ℝ) (G : Matrix (Fin p) (Fin p) ℝ) : turnMat e G = Matrix.diagonal e * G * Matrix.diagonal e := by
  ext i j
  rw [Matrix.mul_diagonal, Matrix.diagonal_mul]
  simp only [turnMat]
  ring

theorem diag_mul_self (he : ∀ j, IsSign (e j)) : Matrix.diagonal e * Matrix.diagonal e = (1 : Matrix (Fin p) (Fin p) ℝ) := by
  rw [Matrix.diagonal_mul_diagonal]
  rw [show (fun i => e i * e i) = fun _ => 1 from funext fun i => (he i).mul_self]
  exact Matrix.diagonal_one

theorem diag_isUnit (he : ∀ j, IsSign (e j)) : IsUnit (Matrix.diagonal e).det := by
  have := congrArg Matrix.det (diag_mul_self he)
  rw [Matrix.det_mul, Matrix.det_one] at this
  exact IsUnit.of_mul_eq_one _ this

theorem turnMat_mul (he : ∀ j, IsSign (e j)) (A B : Matrix (Fin p) (Fin p) ℝ) : turnMat e A * turnMat e B = turnMat e (A * B) := by
  rw [turnMat_eq, turnMat_eq, turnMat_eq]
  have := diag_mul_self he
  calc Matrix.diagonal e * A * Matrix.diagonal e * (Matrix.diagonal e * B * Matrix.diagonal e)
      = Matrix.diagonal e * A * (Matrix.diagonal e * Matrix.diagonal e) * B * Matrix.diagonal e := by simp only [Matrix.mul_assoc]
    _ = _ := by rw [this, Matrix.mul_one]; simp only [Matrix.mul_assoc]

theorem turnMat_rank (he : ∀ j, IsSign (e j)) (A : Matrix (Fin p) (Fin p) ℝ) : (turnMat e A).rank = A.rank := by
  rw [turnMat_eq, Matrix.rank_mul_eq_left_of_isUnit_det _ _ (diag_isUnit he), Matrix.rank_mul_eq_right_of_isUnit_det _ _ (diag_isUnit he)]

theorem turnMat_inv (he : ∀ j, IsSign (e j)) (A : Matrix (Fin p) (Fin p) ℝ) : (turnMat e A)⁻¹ = turnMat e A⁻¹ := by
  have hd : (Matrix.diagonal e)⁻¹ = Matrix.diagonal e := Matrix.inv_eq_right_inv (diag_mul_self he)
  rw [turnMat_eq, turnMat_eq, Matrix.mul_inv_rev, Matrix.mul_inv_rev, hd, Matrix.mul_assoc]

theorem turnMat_mulVec (he : ∀ j, IsSign (e j)) (A : Matrix (Fin p) (Fin p) ℝ) (v : Row p) :
    turnMat e A *ᵥ Row.turn e v = Row.turn e (A *ᵥ v) := by
  funext i
  simp only [Matrix.mulVec, dotProduct, turnMat, Row.turn]
  rw [Finset.mul_sum]
  refine Finset.sum_congr rfl fun j _ => ?_
  rw [show e i * e j * A i j * (e j * v j) = (e j * e j) * (e i * (A i j * v j)) by ring, (he j).mul_self, one_mul]

theorem turnMat_smul (e : Fin p → ℝ) (a : ℝ) (A : Matrix (Fin p) (Fin p) ℝ) : a • turnMat e A = turnMat e (a • A) := by
  ext i j
  simp only [turnMat, Matrix.smul_apply, smul_eq_mul]
  ring

theorem turnMat_sub (e : Fin p → ℝ) (A B : Matrix (Fin p) (Fin p) ℝ) : turnMat e A - turnMat e B = turnMat e (A - B) := by
  ext i j
  simp only [turnMat, Matrix.sub_apply]
  ring

theorem turnMat_add (e : Fin p → ℝ) (A B : Matrix (Fin p) (Fin p) ℝ) : turnMat e A + turnMat e B = turnMat e (A + B) := by
  ext i j
  simp only [turnMat, Matrix.add_apply]
  ring

theorem turnMat_vecMulVec (e : Fin p → ℝ) (x : Row p) :
    Matrix.vecMulVec (Row.turn e x) (Row.turn e x) = turnMat e (Matrix.vecMulVec x x) := by
  ext i j
  simp only [turnMat, Matrix.vecMulVec_apply, Row.turn]
  ring

theorem turnMat_trace (he : ∀ j, IsSign (e j)) (A : Matrix (Fin p) (Fin p) ℝ) : (turnMat e A).trace = A.trace := by
  unfold Matrix.trace
  refine Finset.sum_congr rfl fun j _ => ?_
  simp only [Matrix.diag_apply, turnMat, (he j).mul_self, one_mul]

/-! ### Ridge -/

theorem ridge_turned {lo hi lo' hi' : Fin p → Option ℝ} (hb : TurnedLimits e lo hi lo' hi') (G : Matrix (Fin p) (Fin p) ℝ) (h : Row p)
    (lam : ℝ) (reg : Fin p → Bool) :
    TurnedProblem e
      { G := G, h := h, lam := lam, alpha := 0, reg := reg, lower := lo, upper := hi }
      { G := turnMat e G, h := Row.turn e h, lam := lam, alpha := 0, reg := reg, lower := lo', upper := hi' } where
  G := rfl
  reg := rfl
  h := rfl
  alpha := rfl
  lam := rfl
  bounds := hb

/-- The arguments of the reversed ridge regression. -/
structure TurnedRidge (e : Fin p → ℝ) (a a' : RidgeArgs p) : Prop where
  rest : a' = { a with startBeta := a.startBeta.map (Row.turn e), lower := a'.lower, upper := a'.upper }
  bounds : TurnedBounds e a.lower a.upper a'.lower a'.upper

theorem RidgeArgs.updateBeta_turn {a a' : RidgeArgs p} (ha : TurnedRidge e a a') (he : ∀ j, IsSign (e j)) (lam : ℝ)
    (G : Matrix (Fin p) (Fin p) ℝ) (h b : Row p) (reg : Fin p → Bool) (perm : ℕ → List (Fin p)) :
    a'.updateBeta lam (turnMat e G) (Row.turn e h) (Row.turn e b) reg perm = (a.updateBeta lam G h b reg perm).map (Row.turn e) := by
  obtain ⟨lo, hi, lo', hi', h1, h2, h3, h4, h5⟩ := ha.bounds.setBounds
  have g1 : a'.selection = a.selection := by rw [ha.rest]
  have g2 : a'.tolerance = a.tolerance := by rw [ha.rest]
  have g3 : a'.maxIterations = a.maxIterations := by rw [ha.rest]
  unfold RidgeArgs.updateBeta
  rw [h1, h2, h3, h4, g1, g2, g3]
  change (onlineCD _ _ _ _ _ _ >>= _) = (onlineCD _ _ _ _ _ _ >>= _ : Except _ _).map _
  rw [(ridge_turned h5 G h lam reg).cd he]
  cases onlineCD _ a.selection perm a.tolerance a.maxIterations b <;> rfl

theorem RidgeArgs.fitBeta_turn {a a' : RidgeArgs p} (ha : TurnedRidge e a a')
    (he : ∀ j, IsSign (e j)) (G : Matrix (Fin p) (Fin p) ℝ) (h : Row p) (reg : Fin p → Bool) (perm : ℕ → List (Fin p)) :
    a'.fitBeta (turnMat e G) (Row.turn e h) reg perm = (a.fitBeta G h reg perm).map fun r => (Row.turn e r.1, r.2) := by
  obtain ⟨lo, hi, lo', hi', h1, h2, h3, h4, h5⟩ := ha.bounds.setBounds
  have g1 : a'.selection = a.selection := by rw [ha.rest]
  have g2 : a'.tolerance = a.tolerance := by rw [ha.rest]
  have g3 : a'.maxIterations = a.maxIterations := by rw [ha.rest]
  have g4 : a'.lambdaReg = a.lambdaReg := by rw [ha.rest]
  have g5 : a'.startBeta = a.startBeta.map (Row.turn e) := by rw [ha.rest]
  have hs : a'.start (turnMat e G) (Row.turn e h) = Row.turn e (a.start G h) := by
    unfold RidgeArgs.start
    rw [g5]
    cases a.startBeta with
    | some b => rfl
    | none =>
      simp only [Option.map]
      rw [turnMat_rank he, turnMat_inv he]
      split_ifs
      · exact turnMat_mulVec he _ _
      · rw [turn_zero]
  have hp : a'.penalty (turnMat e G) = a.penalty G := by
    unfold RidgeArgs.penalty
    rw [turnMat_trace he, g4]
  unfold RidgeArgs.fitBeta
  rw [h1, h2, h3, h4, hs, hp, g1, g2, g3]
  change (onlineCD _ _ _ _ _ _ >>= _) = (onlineCD _ _ _ _ _ _ >>= _ : Except _ _).map _
  rw [(ridge_turned h5 G h (a.penalty G) reg).cd he]
  cases onlineCD _ a.selection perm a.tolerance a.maxIterations (a.start G h) <;> rfl

/-! ### Sufficient statistics -/

theorem scaleRows_turn (e : Fin p → ℝ) (X : List (Row p)) (s : List ℝ) :
    scaleRows (X.map (Row.turn e)) s = (scaleRows X s).map (Row.turn e) := by
  unfold scaleRows
  rw [List.zipWith_map_left, List.map_zipWith]
  congr 1
  funext x c j
  simp only [Row.turn]
  ring

theorem sum_scale_list (k : ℝ) (l : List ℝ) : (l.map (k * ·)).sum = k * l.sum := by
  induction l with
  | nil => simp
  | cons a l ih => rw [List.map_cons, List.sum_cons, List.sum_cons, ih, mul_add]

theorem tDot_turn (e : Fin p → ℝ) (A B : List (Row p)) : tDot (A.map (Row.turn e)) (B.map (Row.turn e)) = turnMat e (tDot A B) := by
  funext i j
  simp only [tDot, turnMat]
  rw [List.zipWith_map, ← sum_scale_list, List.map_zipWith]
  congr 2
  funext x z
  simp only [Row.turn]
  ring

theorem tDotVec_turn (e : Fin p → ℝ) (t : ℝ) (A : List (Row p)) (v : List ℝ) :
    tDotVec (A.map (Row.turn e)) (v.map (t * ·)) = Row.turn (fun j => t * e j) (tDotVec A v) := by
  funext j
  simp only [tDotVec, Row.turn]
  rw [List.zipWith_map, ← sum_scale_list, List.map_zipWith]
  congr 2
  funext x c
  simp only [Row.turn]
  ring

theorem zipWith_mul_turn (t : ℝ) (y s : List ℝ) :
    List.zipWith (fun a b => a * b) (y.map (t * ·)) s = (List.zipWith (fun a b => a * b) y s).map (t * ·) := zipWith_mul_scale t y s

theorem initGram_turn (e : Fin p → ℝ) (X : List (Row p)) (w : List ℝ) (f : ℝ) :
    initGram (X.map (Row.turn e)) w f = turnMat e (initGram X w f) := by
  unfold initGram
  simp only [List.length_map]
  rw [scaleRows_turn, tDot_turn]

theorem initYGram_turn (e : Fin p → ℝ) (t : ℝ) (X : List (Row p)) (y w : List ℝ) (f : ℝ) :
    initYGram (X.map (Row.turn e)) (y.map (t * ·)) w f = Row.turn (fun j => t * e j) (initYGram X y w f) := by
  unfold initYGram
  simp only [List.length_map]
  rw [scaleRows_turn, zipWith_mul_turn, tDotVec_turn]

theorem initInvertedGram_turn (he : ∀ j, IsSign (e j)) (X : List (Row p)) (w : List ℝ) (f : ℝ) :
    initInvertedGram (X.map (Row.turn e)) w f = (initInvertedGram X w f).map (turnMat e) := by
  unfold initInvertedGram
  simp only
  rw [initGram_turn, turnMat_rank he, turnMat_inv he]
  split_ifs <;> rfl

theorem updateGram_turn (e : Fin p → ℝ) (G : Matrix (Fin p) (Fin p) ℝ) (X : List (Row p)) (f : ℝ) (w : WeightArg) :
    updateGram (turnMat e G) (X.map (Row.turn e)) f w = turnMat e (updateGram G X f w) := by
  rcases X with _ | ⟨x, _ | ⟨x', X⟩⟩
  · unfold updateGram
    simp only [List.map_nil]
    rw [turnMat_smul, show scaleRows ([] : List (Row p)) = fun _ => [] from rfl]
    ext i j
    simp [turnMat, tDot]
  · unfold updateGram
    simp only [List.map_cons, List.map_nil]
    rw [turnMat_vecMulVec, turnMat_smul, turnMat_smul, turnMat_add]
  · have h := scaleRows_turn e (x :: x' :: X)
    unfold updateGram
    simp only [List.map_cons, List.length_cons, List.length_map] at h ⊢
    rw [h, tDot_turn, turnMat_smul, turnMat_add]

theorem turn_add (e : Fin p → ℝ) (a b : Row p) : Row.turn e a + Row.turn e b = Row.turn e (a + b) := by
  funext j
  simp only [Row.turn, Pi.add_apply]
  ring

theorem turn_smul (e : Fin p → ℝ) (c : ℝ) (a : Row p) : c • Row.turn e a = Row.turn e (c • a) := by
  funext j
  simp only [Row.turn, Pi.smul_apply, smul_eq_mul]
  ring

theorem updateYGram_turn (e : Fin p → ℝ) (t : ℝ) (h : Row p) (X : List (Row p)) (y : List ℝ) (f : ℝ) (w : WeightArg) :
    updateYGram (Row.turn (fun j => t * e j) h) (X.map (Row.turn e)) (y.map (t * ·)) f w =
      Row.turn (fun j => t * e j) (updateYGram h X y f w) := by
  rcases X with _ | ⟨x, _ | ⟨x', X⟩⟩
  · unfold updateYGram
    simp only [List.map_nil]
    rw [turn_smul, show scaleRows ([] : List (Row p)) = fun _ => [] from rfl]
    funext j
    simp [Row.turn, tDotVec]
  · unfold updateYGram
    simp only [List.map_cons, List.map_nil]
    rw [turn_smul, ← turn_add]
    congr 1
    funext j
    cases y with
    | nil => simp [Row.turn]
    | cons a y => simp only [List.map_cons, List.headD_cons, Pi.smul_apply, Row.turn, smul_eq_mul]; ring
  · have h1 := scaleRows_turn e (x :: x' :: X)
    unfold updateYGram
    simp only [List.map_cons, List.length_cons, List.length_map] at h1 ⊢
    rw [h1, zipWith_mul_turn, tDotVec_turn, turn_smul, turn_add]

theorem dot_turn (he : ∀ j, IsSign (e j)) (a b : Row p) : dotProduct (Row.turn e a) (Row.turn e b) = dotProduct a b := by
  unfold dotProduct
  refine Finset.sum_congr rfl fun j _ => ?_
  simp only [Row.turn]
  rw [show e j * a j * (e j * b j) = (e j * e j) * (a j * b j) by ring, (he j).mul_self, one_mul]

theorem vecMul_turn (he : ∀ j, IsSign (e j)) (A : Matrix (Fin p) (Fin p) ℝ) (v : Row p) :
    Matrix.vecMul (Row.turn e v) (turnMat e A) = Row.turn e (Matrix.vecMul v A) := by
  funext i
  simp only [Matrix.vecMul, dotProduct, turnMat, Row.turn]
  rw [Finset.mul_sum]
  refine Finset.sum_congr rfl fun j _ => ?_
  rw [show e j * v j * (e j * e i * A j i) = (e j * e j) * (e i * (v j * A j i)) by ring, (he j).mul_self, one_mul]

theorem updateInvertedGramStep_turn (he : ∀ j, IsSign (e j)) (G : Matrix (Fin p) (Fin p) ℝ) (x : Row p) (f w : ℝ) :
    updateInvertedGramStep (turnMat e G) (Row.turn e x) f w = turnMat e (updateInvertedGramStep G x f w) := by
  unfold updateInvertedGramStep
  simp only
  rw [turn_smul, vecMul_turn he, dot_turn he, turnMat_smul, turnMat_vecMulVec, turnMat_mul he, turnMat_mul he, turnMat_smul,
    turnMat_sub, turnMat_smul]

theorem updateInvertedGramLoop_turn (he : ∀ j, IsSign (e j)) (f : ℝ) (G : Matrix (Fin p) (Fin p) ℝ) (X : List (Row p)) (w : List ℝ) :
    updateInvertedGramLoop f (turnMat e G) (X.map (Row.turn e)) w = turnMat e (updateInvertedGramLoop f G X w) := by
  induction X generalizing G w with
  | nil => cases w <;> rfl
  | cons x X ih =>
    cases w with
    | nil => rfl
    | cons a w =>
      simp only [List.map_cons, updateInvertedGramLoop]
      rw [updateInvertedGramStep_turn he, ih]

theorem updateInvertedGram_turn (he : ∀ j, IsSign (e j)) (G : Matrix (Fin p) (Fin p) ℝ) (X : List (Row p)) (f : ℝ) (w : List ℝ) :
    updateInvertedGram (turnMat e G) (X.map (Row.turn e)) f (.array w) =
      (updateInvertedGram G X f (.array w)).map (turnMat e) := by
  rcases X with _ | ⟨x, _ | ⟨x', X⟩⟩
  · simp [updateInvertedGram, Except.map]
  · simp only [List.map_cons, List.map_nil, updateInvertedGram, Except.map]
    rw [updateInvertedGramStep_turn he]
  · have := updateInvertedGramLoop_turn he f G (x :: x' :: X) w
    simp only [List.map_cons] at this
    simp only [List.map_cons, updateInvertedGram, List.length_cons, List.length_map, this]
    split_ifs <;> first | rfl | simp_all

/-! ### The scaler -/

/-- The statistics of the reversed features. -/
def ScalerState.turn {k : ℕ} (e : Fin k → ℝ) (s : ScalerState k) : ScalerState k := { s with mean := fun i => e i * s.mean i }

/-- The scaler of the reversed features. -/
def Scaler.turn (e : Fin p → ℝ) : Scaler p → Scaler p
  | .off n => .off n
  | .on k sel s => .on k sel (s.turn fun i => e (sel i))

theorem npAverage_scale (a : ℝ) (v w : List ℝ) : npAverage (v.map (a * ·)) w = a * npAverage v w := by
  unfold npAverage
  rw [zipWith_mul_turn, sum_scale_list, mul_div_assoc]

theorem scalerFit_turn (he : ∀ j, IsSign (e j)) {k : ℕ} (sel : Fin k → Fin p) (f : ℝ) (X : List (Row p)) (w : List ℝ) :
    scalerFit sel f (X.map (Row.turn e)) w = (scalerFit sel f X w).map (ScalerState.turn fun i => e (sel i)) := by
  unfold scalerFit
  simp only [List.length_map, List.map_map]
  split_ifs
  · rfl
  · rfl
  · have hm : ∀ (i : Fin k) (v : List ℝ), npAverage (X.map ((fun x => x (sel i)) ∘ Row.turn e)) v =
        e (sel i) * npAverage (X.map fun x => x (sel i)) v := by
      intro i v
      rw [← npAverage_scale, List.map_map]
      rfl
    have hv : ∀ (i : Fin k) (m : ℝ), (fun x : Row p => (x (sel i) - e (sel i) * m) ^ 2) ∘ Row.turn e =
        fun x => (x (sel i) - m) ^ 2 := by
      intro i m
      funext x
      simp only [Function.comp, Row.turn]
      rw [show (e (sel i) * x (sel i) - e (sel i) * m) ^ 2 = e (sel i) ^ 2 * (x (sel i) - m) ^ 2 by ring, (he _).sq, one_mul]
    simp only [Except.map, ScalerState.turn, Except.ok.injEq, hm, hv]

theorem scalerStep_turn (he : ∀ j, IsSign (e j)) {k : ℕ} (sel : Fin k → Fin p) (f : ℝ) (s : ScalerState k) (x : Row p) (w : ℝ) :
    scalerStep sel f (s.turn fun i => e (sel i)) (Row.turn e x) w = (scalerStep sel f s x w).turn fun i => e (sel i) := by
  have hm : ∀ i, (e (sel i) * s.mean i * (s.cumW * (1 - f)) + e (sel i) * x (sel i) * w) / (s.cumW * (1 - f) + w) =
      e (sel i) * ((s.mean i * (s.cumW * (1 - f)) + x (sel i) * w) / (s.cumW * (1 - f) + w)) := by
    intro i
    rw [← mul_div_assoc]
    congr 1
    ring
  have hM : ∀ (i : Fin k) (a b : ℝ), w * (e (sel i) * x (sel i) - e (sel i) * a) * (e (sel i) * x (sel i) - e (sel i) * b) =
      w * (x (sel i) - a) * (x (sel i) - b) := by
    intro i a b
    rw [show w * (e (sel i) * x (sel i) - e (sel i) * a) * (e (sel i) * x (sel i) - e (sel i) * b) =
      (e (sel i) * e (sel i)) * (w * (x (sel i) - a) * (x (sel i) - b)) by ring, (he _).mul_self, one_mul]
  unfold scalerStep
  simp only [ScalerState.turn, Row.turn, hm, hM]

theorem scalerLoop_turn (he : ∀ j, IsSign (e j)) {k : ℕ} (sel : Fin k → Fin p) (f : ℝ) (s : ScalerState k) (X : List (Row p))
    (w : List ℝ) :
    scalerLoop sel f (s.turn fun i => e (sel i)) (X.map (Row.turn e)) w = (scalerLoop sel f s X w).turn fun i => e (sel i) := by
  induction X generalizing s w with
  | nil => cases w <;> rfl
  | cons x X ih =>
    cases w with
    | nil => rfl
    | cons a w =>
      simp only [List.map_cons, scalerLoop]
      rw [scalerStep_turn he, ih]

theorem assignCols_turn (e : Fin p → ℝ) {k : ℕ} (sel : Fin k → Fin p) (x : Row p) (v : Fin k → ℝ) :
    assignCols sel (Row.turn e x) (fun i => e (sel i) * v i) = Row.turn e (assignCols sel x v) := by
  unfold assignCols
  generalize List.finRange k = l
  induction l generalizing x with
  | nil => rfl
  | cons i l ih =>
    rw [List.foldl_cons, List.foldl_cons, ← ih]
    congr 1
    funext j
    by_cases hj : j = sel i
    · subst hj; simp [Row.turn]
    · simp [Row.turn, Function.update_of_ne hj]

theorem Scaler.fit_turn (he : ∀ j, IsSign (e j)) (ts : ToScale p) (f : ℝ) (X : List (Row p)) (w : List ℝ) :
    Scaler.fit ts f (X.map (Row.turn e)) w = (Scaler.fit ts f X w).map (Scaler.turn e) := by
  unfold Scaler.fit
  cases ts.selection with
  | none =>
    simp only [List.length_map]
    split_ifs <;> rfl
  | some l =>
    simp only
    rw [scalerFit_turn he]
    cases scalerFit l.get f X w <;> rfl

theorem Scaler.update_turn (he : ∀ j, IsSign (e j)) (f : ℝ) (X : List (Row p)) (w : List ℝ) (sc : Scaler p) :
    (sc.turn e).update f (X.map (Row.turn e)) w = (sc.update f X w).map (Scaler.turn e) := by
  cases sc with
  | off n =>
    simp only [Scaler.turn, Scaler.update, List.length_map]
    split_ifs <;> rfl
  | on k sel s =>
    simp only [Scaler.turn, Scaler.update, scalerUpdate, List.length_map]
    split_ifs
    · rfl
    · have := scalerLoop_turn he sel f { s with nObs := s.nObs + w.sum } X w
      change Except.ok (Scaler.on k sel (scalerLoop sel f (ScalerState.turn _ { s with nObs := s.nObs + w.sum }) _ w)) = _
      rw [this]
      rfl

theorem Scaler.transform_turn (e : Fin p → ℝ) (X : List (Row p)) (sc : Scaler p) :
    (sc.turn e).transform (X.map (Row.turn e)) = (sc.transform X).map (Row.turn e) := by
  cases sc with
  | off n => rfl
  | on k sel s =>
    simp only [Scaler.turn, Scaler.transform, List.map_map]
    refine List.map_congr_left fun x _ => ?_
    simp only [Function.comp, transformRow]
    rw [← assignCols_turn]
    congr 1
    funext i
    simp only [ScalerState.turn, Row.turn]
    rw [← mul_sub, mul_div_assoc]

/-! ### The estimator -/

/-- The signs of the columns of the design: the intercept keeps its direction. -/
def designSign (fi : Bool) (e : Fin p → ℝ) : Fin (designDim p fi) → ℝ := designRow fi e

theorem designSign_isSign (he : ∀ j, IsSign (e j)) (j : Fin (designDim p fi)) : IsSign (designSign fi e j) := by
  cases fi
  · exact he j
  · change IsSign ((Fin.cons 1 e : Fin (p + 1) → ℝ) j)
    exact Fin.cases (motive := fun j => IsSign ((Fin.cons 1 e : Fin (p + 1) → ℝ) j)) (.inl rfl) he j

theorem designRow_turn (e : Fin p → ℝ) (x : Row p) : designRow fi (Row.turn e x) = Row.turn (designSign fi e) (designRow fi x) := by
  cases fi
  · rfl
  · change (Fin.cons 1 (Row.turn e x) : Fin (p + 1) → ℝ) = fun j => (Fin.cons 1 e : Fin (p + 1) → ℝ) j * (Fin.cons 1 x : Fin (p + 1) → ℝ) j
    funext j
    refine Fin.cases ?_ (fun i => ?_) j
    · simp
    · simp [Row.turn]

theorem scaledDesign_turn (e : Fin p → ℝ) (sc : Scaler p) (X : List (Row p)) :
    scaledDesign fi (sc.turn e) (X.map (Row.turn e)) = (scaledDesign fi sc X).map (Row.turn (designSign fi e)) := by
  unfold scaledDesign
  rw [Scaler.transform_turn, List.map_map, List.map_map]
  exact List.map_congr_left fun x _ => designRow_turn e x

theorem rowDot_turn (he : ∀ j, IsSign (e j)) (t : ℝ) (x b : Row p) :
    rowDot (Row.turn e x) (Row.turn (fun j => t * e j) b) = t * rowDot x b := by
  unfold rowDot
  rw [Finset.mul_sum]
  refine Finset.sum_congr rfl fun j _ => ?_
  simp only [Row.turn]
  rw [show e j * x j * (t * e j * b j) = (e j * e j) * (t * (x j * b j)) by ring, (he j).mul_self, one_mul]

theorem rssFit_turn (he : ∀ j, IsSign (e j)) (ht : IsSign t) (X : List (Row p)) (y w : List ℝ) (b : Row p) :
    rssFit (X.map (Row.turn e)) (y.map (t * ·)) w (Row.turn (fun j => t * e j) b) = rssFit X y w b := by
  unfold rssFit
  rw [List.zip_map_left, List.zipWith_map]
  congr 2
  funext xw a
  simp only [Prod.map]
  rw [rowDot_turn he, ← mul_sub, show (id xw.2 * (t * (a - rowDot xw.1 b))) ^ 2 = t ^ 2 * (xw.2 * (a - rowDot xw.1 b)) ^ 2 by
    simp only [id]; ring, ht.sq, one_mul]

theorem rssBatch_turn (he : ∀ j, IsSign (e j)) (ht : IsSign t) (X : List (Row p)) (y : List ℝ) (b : Row p) :
    rssBatch (X.map (Row.turn e)) (y.map (t * ·)) (Row.turn (fun j => t * e j) b) = rssBatch X y b := by
  unfold rssBatch
  rw [List.zipWith_map]
  congr 2
  funext x a
  rw [rowDot_turn he, ← mul_sub, mul_pow, ht.sq, one_mul]

theorem rssUpdate_turn (he : ∀ j, IsSign (e j)) (ht : IsSign t) (f : ℝ) (rss : List ℝ) (path X : List (Row p)) (y : List ℝ) :
    rssUpdate f rss (path.map (Row.turn fun j => t * e j)) (X.map (Row.turn e)) (y.map (t * ·)) = rssUpdate f rss path X y := by
  unfold rssUpdate
  rw [List.zipWith_map_right]
  congr 1
  funext r b
  rw [rssBatch_turn he ht]

theorem nParams_turn (he : ∀ j, IsSign (e j)) (b : Row p) : nParams (Row.turn e b) = nParams b := by
  rw [nParams_eq, nParams_eq]
  unfold modelSize
  congr 1
  refine Finset.filter_congr fun j _ => ?_
  rw [Row.turn, abs_mul, (he j).abs, one_mul]

theorem selectCoef_turn (he : ∀ j, IsSign (e j)) (ic : Criterion) (n : ℝ) (path : List (Row p)) (rss : List ℝ) :
    selectCoef ic n (path.map (Row.turn e)) rss = (selectCoef ic n path rss).map (Row.turn e) := by
  unfold selectCoef
  rw [List.map_map, show ((fun b => (nParams b : ℝ)) ∘ Row.turn e) = fun b => (nParams b : ℝ) from funext fun b => by
    simp only [Function.comp, nParams_turn he]]
  cases selectByRss ic n (path.map fun b => (nParams b : ℝ)) rss with
  | error e => rfl
  | ok i =>
    change (match (path.map (Row.turn e))[i]? with | some b => pure b | none => throw PyErr.indexError) =
      Except.map (Row.turn e) (match path[i]? with | some b => pure b | none => throw PyErr.indexError)
    rw [List.getElem?_map]
    cases path[i]? <;> rfl

theorem MethodObj.initXGram_turn (he : ∀ j, IsSign (e j)) (m : MethodObj p) (X : List (Row p)) (w : List ℝ) (f : ℝ) :
    m.initXGram (X.map (Row.turn e)) w f = (m.initXGram X w f).map (turnMat e) := by
  cases m with
  | ols => exact initInvertedGram_turn he X w f
  | path a => exact congrArg Except.ok (initGram_turn e X w f)
  | ridge a => exact congrArg Except.ok (initGram_turn e X w f)

theorem MethodObj.updateXGram_turn (he : ∀ j, IsSign (e j)) (m : MethodObj p) (G : Matrix (Fin p) (Fin p) ℝ) (X : List (Row p))
    (w : List ℝ) (f : ℝ) :
    m.updateXGram (turnMat e G) (X.map (Row.turn e)) w f = (m.updateXGram G X w f).map (turnMat e) := by
  cases m with
  | ols => exact updateInvertedGram_turn he G X f w
  | path a => exact congrArg Except.ok (updateGram_turn e G X f (.array w))
  | ridge a => exact congrArg Except.ok (updateGram_turn e G X f (.array w))

/-- The response cancels in a Gramian. -/
theorem turnMat_response (ht : IsSign t) (e : Fin p → ℝ) (G : Matrix (Fin p) (Fin p) ℝ) : turnMat (fun j => t * e j) G = turnMat e G := by
  ext i j
  simp only [turnMat]
  rw [show t * e i * (t * e j) * G i j = (t * t) * (e i * e j * G i j) by ring, ht.mul_self, one_mul]

/-- The signs of the coefficients. -/
def coefSign (fi : Bool) (e : Fin p → ℝ) (t : ℝ) : Fin (designDim p fi) → ℝ := fun j => t * designSign fi e j

theorem coefSign_isSign (he : ∀ j, IsSign (e j)) (ht : IsSign t) (j : Fin (designDim p fi)) : IsSign (coefSign fi e t j) :=
  ht.mul (designSign_isSign he j)

/-- The models after runs with opposite directions. -/
structure TurnedLM (e : Fin p → ℝ) (t : ℝ) (reg : Fin (designDim p fi) → Bool) (s s' : LM p fi) : Prop where
  method : (s.method = none ∧ s'.method = none) ∨
    ∃ m m', s.method = some m ∧ s'.method = some m' ∧ m.Turned reg (coefSign fi e t) m'
  nObs : s'.nObs = s.nObs
  scaler : s'.scaler = s.scaler.map (Scaler.turn e)
  xGram : s'.xGram = s.xGram.map (turnMat (coefSign fi e t))
  yGram : s'.yGram = s.yGram.map (Row.turn (coefSign fi e t))
  coef : s'.coef = s.coef.map (Row.turn (coefSign fi e t))
  path : ∀ a, s.method = some (.path a) → s'.coefPath = s.coefPath.map (List.map (Row.turn (coefSign fi e t))) ∧ s'.rss = s.rss

theorem ys_turn (e : Fin p → ℝ) (t : ℝ) (data : List (Obs p)) : ys (data.map (Obs.turn e t)) = (ys data).map (t * ·) := by
  simp [ys, Obs.turn]

theorem ws_turn (e : Fin p → ℝ) (t : ℝ) (data : List (Obs p)) : ws (data.map (Obs.turn e t)) = ws data := by
  simp [ws, Obs.turn]

theorem xs_turn (e : Fin p → ℝ) (t : ℝ) (data : List (Obs p)) : xs (data.map (Obs.turn e t)) = (xs data).map (Row.turn e) := by
  simp [xs, Obs.turn]

/-- Arguments `method` of runs with opposite directions. -/
structure TurnedArg {q : ℕ} (reg : Fin q → Bool) (s : Fin q → ℝ) (ma ma' : MethodArg q) : Prop where
  other : ma' = .other ↔ ma = .other
  ols : ma' = .str "ols" ↔ ma = .str "ols"
  method : (∃ er, getEstimationMethod ma = .error er ∧ getEstimationMethod ma' = .error er) ∨
    ∃ m m', getEstimationMethod ma = .ok m ∧ getEstimationMethod ma' = .ok m' ∧ m.Turned reg s m'

theorem TurnedArg.refl {q : ℕ} {reg : Fin q → Bool} (s : Fin q → ℝ) {ma : MethodArg q}
    (h : ∀ m, getEstimationMethod ma = .ok m → m.SignFree reg) : TurnedArg reg s ma ma := by
  refine ⟨Iff.rfl, Iff.rfl, ?_⟩
  cases hm : getEstimationMethod ma with
  | error er => exact .inl ⟨er, rfl, rfl⟩
  | ok m => exact .inr ⟨m, m, rfl, rfl, (h m hm).turned s⟩

theorem TurnedArg.obj {q : ℕ} {reg : Fin q → Bool} {s : Fin q → ℝ} {m m' : MethodObj q} (h : m.Turned reg s m') :
    TurnedArg reg s (.obj m) (.obj m') :=
  ⟨by simp, by simp, .inr ⟨m, m', rfl, rfl, h⟩⟩

theorem MethodObj.Turned.initXGram_eq {q : ℕ} {reg : Fin q → Bool} {s : Fin q → ℝ} {m m' : MethodObj q} (h : m.Turned reg s m') :
    m'.initXGram = m.initXGram := by
  cases m <;> cases m' <;> first | rfl | exact h.elim

theorem MethodObj.Turned.updateXGram_eq {q : ℕ} {reg : Fin q → Bool} {s : Fin q → ℝ} {m m' : MethodObj q} (h : m.Turned reg s m') :
    m'.updateXGram = m.updateXGram := by
  cases m <;> cases m' <;> first | rfl | exact h.elim

theorem valid_turned {c : LMConfig p fi} {ma : MethodArg (designDim p fi)} (h : ma = .other ↔ c.method = .other) :
    ¬ LMConfig.Valid { c with method := ma } ↔ ¬ c.Valid := by
  unfold LMConfig.Valid
  simp only [ne_eq, h]

theorem LM.fit_turned (he : ∀ j, IsSign (e j)) (ht : IsSign t) (c : LMConfig p fi) {ma : MethodArg (designDim p fi)}
    (hm : TurnedArg (isRegularized p fi c.regularizeIntercept) (coefSign fi e t) c.method ma)
    (perm : ℕ → ℕ → List (Fin (designDim p fi))) (data : List (Obs p)) :
    Py.RelTo (fun _ _ => True) (TurnedLM e t (isRegularized p fi c.regularizeIntercept)) (LM.fit c perm data)
      (LM.fit { c with method := ma } perm (data.map (Obs.turn e t))) := by
  have hq := fun j => coefSign_isSign (fi := fi) he ht j
  unfold LM.fit
  rw [ys_turn, ws_turn, xs_turn]
  refine Py.RelTo.bind (Py.Rel.to (Py.rel_raiseIf (valid_turned hm.other).symm _)) fun _ => ?_
  rcases hm.method with hm0 | ⟨m, m', hm1, hm2, hu⟩
  · exact Py.RelTo.bind_call (.inl hm0)
  refine Py.RelTo.bind_call (.inr ⟨m, m', hm1, hm2, ?_⟩)
  refine Py.RelTo.bind (Py.relTo_set _ _) fun _ => ?_
  refine Py.RelTo.bind (Py.Rel.to (Py.rel_raiseIf Iff.rfl _)) fun _ => ?_
  refine Py.RelTo.bind (Py.Rel.to (Py.rel_raiseIf (or_congr (by simp) Iff.rfl) _)) fun _ => ?_
  refine Py.RelTo.bind (Py.relTo_set _ _) fun _ => ?_
  refine Py.RelTo.bind (Py.Rel.to (Py.rel_raiseIf (and_congr Iff.rfl hm.ols.symm) _)) fun _ => ?_
  refine Py.RelTo.bind (Py.Rel.to (Py.rel_raiseIf Iff.rfl _)) fun _ => ?_
  refine Py.RelTo.bind (Py.relTo_set _ _) fun _ => ?_
  refine Py.RelTo.bind_call_map (Scaler.fit_turn he c.scaleInputs c.forget (xs data) (ws data)) fun sc _ => ?_
  refine Py.RelTo.bind (Py.relTo_set _ _) fun _ => ?_
  simp only
  rw [scaledDesign_turn, hu.initXGram_eq]
  refine Py.RelTo.bind_call_map (g := turnMat (coefSign fi e t)) (by
    rw [m.initXGram_turn (designSign_isSign he)]
    congr 1
    funext G
    exact (turnMat_response ht _ G).symm) fun G _ => ?_
  refine Py.RelTo.bind (Py.relTo_set _ _) fun _ => ?_
  refine Py.RelTo.bind (Py.relTo_set _ _) fun _ => ?_
  rw [initYGram_turn]
  change Py.RelTo _ _ _ _
  cases m with
  | ols =>
    cases m' with
    | path a' => exact hu.elim
    | ridge a' => exact hu.elim
    | ols =>
      refine Py.RelTo.mono (Py.relTo_set _ _) (fun _ _ h => h) ?_
      rintro _ _ ⟨_, _, ⟨_, _, ⟨_, _, ⟨_, _, ⟨_, _, ⟨_, _, ⟨s, s', _, rfl, rfl⟩, rfl, rfl⟩, rfl, rfl⟩, rfl, rfl⟩, rfl, rfl⟩,
        rfl, rfl⟩, rfl, rfl⟩
      exact ⟨.inr ⟨_, _, rfl, rfl, hu⟩, rfl, rfl, rfl, rfl, congrArg some (turnMat_mulVec hq _ _), fun a ha => by cases ha⟩
  | path a =>
    cases m' with
    | ols => exact hu.elim
    | ridge a' => exact hu.elim
    | path a' =>
      refine Py.RelTo.bind_call_map (EnetArgs.fitBetaPath_turn hu.1 hu.2.1 hq G _ hu.2.2 perm) fun path _ => ?_
      refine Py.RelTo.bind (Py.relTo_set _ _) fun _ => ?_
      refine Py.RelTo.bind (Py.relTo_set _ _) fun _ => ?_
      have hr : (path.map (Row.turn (coefSign fi e t))).map (rssFit ((scaledDesign fi sc (xs data)).map (Row.turn (designSign fi e)))
          ((ys data).map (t * ·)) (ws data)) = path.map (rssFit (scaledDesign fi sc (xs data)) (ys data) (ws data)) := by
        rw [List.map_map]
        exact List.map_congr_left fun b _ => rssFit_turn (designSign_isSign he) ht ..
      rw [hr]
      refine Py.RelTo.bind_call_map (selectCoef_turn hq ..) fun b _ => ?_
      refine Py.RelTo.mono (Py.relTo_set _ _) (fun _ _ h => h) ?_
      rintro _ _ ⟨_, _, ⟨_, _, ⟨_, _, ⟨_, _, ⟨_, _, ⟨_, _, ⟨_, _, ⟨_, _, ⟨s, s', _, rfl, rfl⟩, rfl, rfl⟩, rfl, rfl⟩, rfl, rfl⟩,
        rfl, rfl⟩, rfl, rfl⟩, rfl, rfl⟩, rfl, rfl⟩, rfl, rfl⟩
      exact ⟨.inr ⟨_, _, rfl, rfl, hu⟩, rfl, rfl, rfl, rfl, rfl, fun a' _ => ⟨rfl, rfl⟩⟩
  | ridge a =>
    cases m' with
    | ols => exact hu.elim
    | path a' => exact hu.elim
    | ridge a' =>
      refine Py.RelTo.bind_call_map (RidgeArgs.fitBeta_turn ⟨hu.1, hu.2⟩ hq G _ _ (perm 0)) fun r _ => ?_
      refine Py.RelTo.mono (Py.relTo_set _ _) (fun _ _ h => h) ?_
      rintro _ _ ⟨_, _, ⟨_, _, ⟨_, _, ⟨_, _, ⟨_, _, ⟨_, _, ⟨s, s', _, rfl, rfl⟩, rfl, rfl⟩, rfl, rfl⟩, rfl, rfl⟩, rfl, rfl⟩,
        rfl, rfl⟩, rfl, rfl⟩
      exact ⟨.inr ⟨_, _, rfl, rfl,
        ⟨congrArg (fun z => { z with lambdaReg := some r.2 }) hu.1, hu.2⟩⟩, rfl, rfl, rfl, rfl, rfl, fun a ha => by cases ha⟩

theorem LM.update_turned (he : ∀ j, IsSign (e j)) (ht : IsSign t) (c : LMConfig p fi)
    {ma : MethodArg (designDim p fi)} (hma : ma = .other ↔ c.method = .other) (perm : ℕ → ℕ → List (Fin (designDim p fi)))
    (data : List (Obs p)) :
    Py.RelTo (TurnedLM e t (isRegularized p fi c.regularizeIntercept)) (TurnedLM e t (isRegularized p fi c.regularizeIntercept))
      (LM.update c perm data) (LM.update { c with method := ma } perm (data.map (Obs.turn e t))) := by
  have hq := fun j => coefSign_isSign (fi := fi) he ht j
  unfold LM.update
  rw [ys_turn, ws_turn, xs_turn]
  refine Py.RelTo.bind (Py.Rel.to (Py.rel_raiseIf (valid_turned hma).symm _)) fun _ => ?_
  refine Py.RelTo.bind (Py.Rel.to (Py.rel_raiseIf (or_congr (by simp) Iff.rfl) _)) fun _ => ?_
  refine Py.RelTo.bind_self ?_
  intro s s' hst
  obtain ⟨e1, e2, e3, e4, e5, e6, e7⟩ := hst
  rw [e2, e3, e4, e5, e6]
  refine Py.RelTo.bind (Py.Rel.to (Py.rel_attr rfl _)) fun n0 => ?_
  refine Py.RelTo.bind (Py.relTo_set _ _) fun _ => ?_
  refine Py.RelTo.bind (Py.relTo_set _ _) fun _ => ?_
  have attr_map : ∀ {α α' : Type} (o : Option α) (g : α → α') (er : PyErr) {R R' : LM p fi → LM p fi → Prop}
      {f : α → Py (LM p fi) Unit} {f' : α' → Py (LM p fi) Unit}, (∀ a, o = some a → Py.RelTo R R' (f a) (f' (g a))) →
      Py.RelTo R R' (Py.attr o er >>= f) (Py.attr (o.map g) er >>= f') := by
    intro α α' o g er R R' f f' h
    cases o with
    | none =>
      intro s s' _
      exact ⟨rfl, fun _ h => by cases h⟩
    | some a =>
      change Py.RelTo _ _ (Py.call (.ok a) >>= _) (Py.call (.ok (g a)) >>= _)
      exact Py.RelTo.bind_call (.inr ⟨a, g a, rfl, rfl, h a rfl⟩)
  refine attr_map _ _ _ fun sc0 _ => ?_
  refine Py.RelTo.bind_call_map (Scaler.update_turn he c.forget (xs data) (ws data) sc0) fun sc _ => ?_
  refine Py.RelTo.bind (Py.relTo_set _ _) fun _ => ?_
  simp only
  rw [scaledDesign_turn]
  rcases e1 with ⟨hm, hm'⟩ | ⟨m, m', hm, hm', hu⟩
  · rw [hm, hm']
    intro s t _
    exact ⟨rfl, fun _ h => by cases h⟩
  rw [hm, hm']
  change Py.RelTo _ _ (Py.call (.ok m) >>= _) (Py.call (.ok m') >>= _)
  refine Py.RelTo.bind_call (.inr ⟨m, m', rfl, rfl, ?_⟩)
  rw [hu.updateXGram_eq]
  refine attr_map _ _ _ fun G0 _ => ?_
  refine Py.RelTo.bind_call_map (g := turnMat (coefSign fi e t)) (by
    rw [show turnMat (coefSign fi e t) G0 = turnMat (designSign fi e) G0 from turnMat_response ht _ G0,
      m.updateXGram_turn (designSign_isSign he)]
    congr 1
    funext G
    exact (turnMat_response ht _ G).symm) fun G _ => ?_
  refine Py.RelTo.bind (Py.relTo_set _ _) fun _ => ?_
  refine attr_map _ _ _ fun h0 _ => ?_
  rw [show updateYGram (Row.turn (coefSign fi e t) h0) ((scaledDesign fi sc (xs data)).map (Row.turn (designSign fi e)))
    ((ys data).map (t * ·)) c.forget (.array (ws data)) = Row.turn (coefSign fi e t) _ from updateYGram_turn (designSign fi e) t h0 _ _ _ _]
  refine Py.RelTo.bind (Py.relTo_set _ _) fun _ => ?_
  cases m with
  | ols =>
    cases m' with
    | path a' => exact hu.elim
    | ridge a' => exact hu.elim
    | ols =>
      refine attr_map _ _ _ fun b0 _ => ?_
      refine Py.RelTo.mono (Py.relTo_set _ _) (fun _ _ h => h) ?_
      rintro _ _ ⟨_, _, ⟨_, _, ⟨_, _, ⟨_, _, ⟨_, _, ⟨s, t, ⟨rfl, rfl⟩, rfl, rfl⟩, rfl, rfl⟩, rfl, rfl⟩, rfl, rfl⟩, rfl, rfl⟩,
        rfl, rfl⟩
      exact ⟨.inr ⟨_, _, hm, hm', hu⟩, rfl, rfl, rfl, rfl, congrArg some (turnMat_mulVec hq _ _), fun a ha => by cases hm.symm.trans ha⟩
  | path a =>
    cases m' with
    | ols => exact hu.elim
    | ridge a' => exact hu.elim
    | path a' =>
      obtain ⟨f1, f2⟩ := e7 a hm
      rw [f1, f2]
      refine attr_map _ _ _ fun path0 _ => ?_
      refine Py.RelTo.bind_call_map (EnetArgs.updateBetaPath_turn hu.1 hu.2.1 hq G _ path0 hu.2.2 perm) fun path hp => ?_
      refine Py.RelTo.bind (Py.relTo_set _ _) fun _ => ?_
      refine Py.RelTo.bind (Py.Rel.to (Py.rel_attr rfl _)) fun rss0 => ?_
      rw [show rssUpdate c.forget rss0 (path.map (Row.turn (coefSign fi e t)))
        ((scaledDesign fi sc (xs data)).map (Row.turn (designSign fi e))) ((ys data).map (t * ·)) = _ from
        rssUpdate_turn (designSign_isSign he) ht c.forget rss0 path _ (ys data)]
      refine Py.RelTo.bind (Py.relTo_set _ _) fun _ => ?_
      refine Py.RelTo.bind_call_map (selectCoef_turn hq ..) fun b _ => ?_
      refine Py.RelTo.mono (Py.relTo_set _ _) (fun _ _ h => h) ?_
      rintro _ _ ⟨_, _, ⟨_, _, ⟨_, _, ⟨_, _, ⟨_, _, ⟨_, _, ⟨_, _, ⟨s, t, ⟨rfl, rfl⟩, rfl, rfl⟩, rfl, rfl⟩, rfl, rfl⟩, rfl, rfl⟩,
        rfl, rfl⟩, rfl, rfl⟩, rfl, rfl⟩, rfl, rfl⟩
      exact ⟨.inr ⟨_, _, hm, hm', hu⟩, rfl, rfl, rfl, rfl, rfl, fun a' _ => ⟨rfl, rfl⟩⟩
  | ridge a =>
    cases m' with
    | ols => exact hu.elim
    | path a' => exact hu.elim
    | ridge a' =>
      refine attr_map _ _ _ fun b0 _ => ?_
      refine Py.RelTo.bind (Py.Rel.to (Py.rel_attr (congrArg RidgeArgs.lambdaReg hu.1).symm _)) fun lam => ?_
      refine Py.RelTo.bind_call_map (RidgeArgs.updateBeta_turn ⟨hu.1, hu.2⟩ hq lam G _ b0 _ (perm 0)) fun b _ => ?_
      refine Py.RelTo.mono (Py.relTo_set _ _) (fun _ _ h => h) ?_
      rintro _ _ ⟨_, _, ⟨_, _, ⟨_, _, ⟨_, _, ⟨_, _, ⟨s, t, ⟨rfl, rfl⟩, rfl, rfl⟩, rfl, rfl⟩, rfl, rfl⟩, rfl, rfl⟩, rfl, rfl⟩,
        rfl, rfl⟩
      exact ⟨.inr ⟨_, _, hm, hm', hu⟩, rfl, rfl, rfl, rfl, rfl, fun a ha => by cases hm.symm.trans ha⟩

theorem LM.updates_turned (he : ∀ j, IsSign (e j)) (ht : IsSign t) (c : LMConfig p fi)
    {ma : MethodArg (designDim p fi)} (hma : ma = .other ↔ c.method = .other)
    (rng : ℕ → ℕ → ℕ → List (Fin (designDim p fi))) (bs : List (List (Obs p))) (i : ℕ) :
    Py.RelTo (TurnedLM e t (isRegularized p fi c.regularizeIntercept)) (TurnedLM e t (isRegularized p fi c.regularizeIntercept))
      (LM.updates c rng i bs) (LM.updates { c with method := ma } rng i (bs.map fun d => d.map (Obs.turn e t))) := by
  induction bs generalizing i with
  | nil => exact Py.Rel.to (Py.rel_pure _)
  | cons b bs ih =>
    rw [List.map_cons]
    exact Py.RelTo.bind (LM.update_turned he ht c hma (rng i) b) fun _ => ih _

end Ondil
