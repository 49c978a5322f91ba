import Verif.Lemmas.CoordinateDescent
import Mathlib.Data.Fin.VecNotation
import Mathlib.Tactic.NormNum
import Mathlib.Tactic.FinCases

/-!
# Properties of coordinate descent (C19–C25, C28, C29)
-/

open scoped BigOperators

namespace Ondil

variable {p : ℕ}

/-! ## C19 soft thresholding -/

/-- C19: for `t ≥ 0` the thresholded value is the unique minimiser of `(z - v)²/2 + t |z|`. -/
theorem C19_prox {v t : ℝ} (ht : 0 ≤ t) (z : ℝ) (hz : z ≠ softThreshold v t) :
    (softThreshold v t - v) ^ 2 / 2 + t * |softThreshold v t| < (z - v) ^ 2 / 2 + t * |z| := by
  obtain ⟨h1, h2⟩ := softThreshold_subgrad (v := v) ht
  generalize softThreshold v t = s at *
  have h3 : (v - s) * z ≤ t * |z| := le_trans (le_abs_self _) (by
    rw [abs_mul]; exact mul_le_mul_of_nonneg_right h1 (abs_nonneg z))
  have h4 : 0 < (z - s) ^ 2 := by
    have : z - s ≠ 0 := sub_ne_zero.mpr hz
    positivity
  nlinarith

/-- C19: it is zero exactly for `|v| ≤ t`. -/
theorem C19_zero_iff {v t : ℝ} (ht : 0 ≤ t) : softThreshold v t = 0 ↔ |v| ≤ t := by
  constructor
  · intro h
    rcases softThreshold_cases (v := v) ht with ⟨h1, e⟩ | ⟨h1, e⟩ | ⟨h1, _⟩
    · rw [h] at e; linarith
    · rw [h] at e; linarith
    · exact h1
  · exact softThreshold_eq_zero

/-- C19: the sign never changes and the magnitude never grows. -/
theorem C19_sign {v t : ℝ} (ht : 0 ≤ t) : 0 ≤ v * softThreshold v t ∧ |softThreshold v t| ≤ |v| := by
  rcases softThreshold_cases (v := v) ht with ⟨h1, e⟩ | ⟨h1, e⟩ | ⟨_, e⟩
  · rw [e, abs_of_pos (by linarith), abs_of_pos (by linarith)]
    exact ⟨mul_nonneg (by linarith) (by linarith), by linarith⟩
  · rw [e, abs_of_neg (by linarith), abs_of_neg (by linarith)]
    exact ⟨by nlinarith, by linarith⟩
  · rw [e]; simp

/-- C19: thresholding is odd. -/
theorem C19_odd (v t : ℝ) : softThreshold (-v) t = -softThreshold v t := by
  unfold softThreshold
  rw [Real.sign_neg, abs_neg]; ring

/-- C19: thresholding is non-expansive. -/
theorem C19_nonexpansive {v w t : ℝ} (ht : 0 ≤ t) :
    |softThreshold v t - softThreshold w t| ≤ |v - w| := by
  rcases softThreshold_cases (v := v) ht with ⟨h1, e⟩ | ⟨h1, e⟩ | ⟨h1, e⟩ <;>
    rcases softThreshold_cases (v := w) ht with ⟨h2, f⟩ | ⟨h2, f⟩ | ⟨h2, f⟩ <;> rw [e, f] <;>
    rw [abs_le] at * <;> constructor <;>
    (have := le_abs_self (v - w); have := neg_abs_le (v - w); linarith)

/-- Non-vacuity. -/
example : softThreshold 3 1 = 2 ∧ softThreshold (-3) 1 = -2 ∧ softThreshold (1/2) 1 = 0 := by
  refine ⟨?_, ?_, ?_⟩
  · rw [softThreshold_of_pos (by norm_num)]; norm_num
  · rw [softThreshold_of_neg (by norm_num)]; norm_num
  · exact softThreshold_eq_zero (by rw [abs_of_pos] <;> norm_num)

/-! ## C20 one coordinate step -/

/-- C20: in a full sweep, a coordinate step that does not raise returns the coefficient vector in which
coordinate `j` is the unique minimiser of the elastic net objective over the values allowed by
the bounds, the other coordinates being held fixed. -/
theorem C20_exact_minimiser (P : CDProblem p) (hG : P.G.IsSymm) (hdiag : ∀ j, 0 ≤ P.G j j)
    (hlam : 0 ≤ P.lam) (ha0 : 0 ≤ P.alpha) (ha1 : P.alpha ≤ 1) (hb : BoundsOk P.lower P.upper)
    (b b' : Row p) (j : Fin p) (hstep : cdStep P 1 b j = .ok b') :
    InBounds (P.lower j) (P.upper j) (b' j) ∧ (∀ k, k ≠ j → b' k = b k) ∧
    ∀ t, InBounds (P.lower j) (P.upper j) t → t ≠ b' j →
      enetObjective P.G P.h P.lam P.alpha P.reg b'
        < enetObjective P.G P.h P.lam P.alpha P.reg (Function.update b j t) := by
  unfold cdStep at hstep
  rw [if_pos (Or.inl (by norm_num))] at hstep
  split at hstep
  · cases hstep
  · rename_i hd
    have hd' : 0 < P.denom j := by
      refine lt_of_le_of_ne ?_ (Ne.symm hd)
      unfold CDProblem.denom
      split
      · exact add_nonneg (hdiag j) (mul_nonneg hlam (by linarith))
      · exact hdiag j
    have e := (Except.ok.inj hstep).symm
    subst e
    refine ⟨?_, fun k hk => Function.update_of_ne hk _ _, fun t ht hne => ?_⟩
    · rw [Function.update_self]
      exact clip_inBounds (fun l u => hb j l u) _
    · rw [Function.update_self] at hne
      have := newValue_minimises P hG hlam ha0 b j hd' ht
      have h2 : 0 < (t - P.newValue b j) ^ 2 := by
        have : t - P.newValue b j ≠ 0 := sub_ne_zero.mpr hne
        positivity
      have h3 := mul_pos (half_pos hd') h2
      linarith

/-- C20: the step raises exactly when the curvature of the coordinate is zero. -/
theorem C20_error_iff (P : CDProblem p) (b : Row p) (j : Fin p) :
    (∃ e, cdStep P 1 b j = .error e) ↔
      (if P.reg j then P.G j j + P.lam * (1 - P.alpha) else P.G j j) = 0 := by
  unfold cdStep
  rw [if_pos (Or.inl (by norm_num))]
  change _ ↔ P.denom j = 0
  split
  · rename_i h; exact ⟨fun _ => h, fun _ => ⟨_, rfl⟩⟩
  · rename_i h; exact ⟨fun h' => (by obtain ⟨e, he⟩ := h'; cases he), fun h' => absurd h' h⟩

/-- A two-dimensional lasso problem used in the examples and counterexamples. -/
noncomputable def exProblem : CDProblem 2 :=
  { G := !![1, -1/2; -1/2, 1], h := ![0, 5], lam := 1, alpha := 1, reg := fun _ => true,
    lower := fun _ => none, upper := fun _ => none }

theorem exProblem_symm : exProblem.G.IsSymm := by
  ext i j; fin_cases i <;> fin_cases j <;> simp [exProblem, Matrix.transpose]

theorem exProblem_denom (j : Fin 2) : exProblem.denom j = 1 := by
  fin_cases j <;> simp [exProblem, CDProblem.denom]

/-- Non-vacuity of the hypotheses of C20, C21, C24: symmetric, positive diagonal, admissible penalty and bounds. -/
example : exProblem.G.IsSymm ∧ (∀ j, 0 ≤ exProblem.G j j) ∧ 0 ≤ exProblem.lam ∧ 0 ≤ exProblem.alpha ∧
    exProblem.alpha ≤ 1 ∧ BoundsOk exProblem.lower exProblem.upper ∧ exProblem.NoZero ∧
    (∃ b', cdStep exProblem 1 0 1 = .ok b') := by
  refine ⟨exProblem_symm, ?_, ?_, ?_, ?_, ?_, ?_, ?_⟩
  · intro j; fin_cases j <;> simp [exProblem]
  · simp [exProblem]
  · simp [exProblem]
  · simp [exProblem]
  · intro j l u h; simp [exProblem] at h
  · intro j; rw [exProblem_denom]; norm_num
  · exact ⟨_, cdStep_eq _ (fun j => by rw [exProblem_denom]; norm_num) _ _ _⟩

/-! ## C21 monotone objective -/

theorem pureStep_objective (P : CDProblem p) (hG : P.G.IsSymm) (hlam : 0 ≤ P.lam) (ha0 : 0 ≤ P.alpha)
    (hd : ∀ j, 0 < P.denom j) (hb : BoundsOk P.lower P.upper) (i : ℕ) (b : Row p) (j : Fin p)
    (hf : Feasible P.lower P.upper b) :
    Feasible P.lower P.upper (pureStep P i b j) ∧
    enetObjective P.G P.h P.lam P.alpha P.reg (pureStep P i b j)
      ≤ enetObjective P.G P.h P.lam P.alpha P.reg b := by
  unfold pureStep
  split
  · constructor
    · intro k
      by_cases hk : k = j
      · subst hk; rw [Function.update_self]; exact clip_inBounds (fun l u => hb k l u) _
      · rw [Function.update_of_ne hk]; exact hf k
    · have := newValue_minimises P hG hlam ha0 b j (hd j) (hf j)
      rw [Function.update_eq_self] at this
      have h3 := mul_nonneg (half_pos (hd j)).le (sq_nonneg (b j - P.newValue b j))
      linarith
  · exact ⟨hf, le_rfl⟩

theorem pureSweep_objective (P : CDProblem p) (hG : P.G.IsSymm) (hlam : 0 ≤ P.lam) (ha0 : 0 ≤ P.alpha)
    (hd : ∀ j, 0 < P.denom j) (hb : BoundsOk P.lower P.upper) (i : ℕ) (JJ : List (Fin p)) (b : Row p)
    (hf : Feasible P.lower P.upper b) :
    Feasible P.lower P.upper (pureSweep P i JJ b) ∧
    enetObjective P.G P.h P.lam P.alpha P.reg (pureSweep P i JJ b)
      ≤ enetObjective P.G P.h P.lam P.alpha P.reg b := by
  induction JJ generalizing b with
  | nil => exact ⟨hf, le_rfl⟩
  | cons j JJ ih =>
    obtain ⟨h1, h2⟩ := pureStep_objective P hG hlam ha0 hd hb i b j hf
    obtain ⟨h3, h4⟩ := ih _ h1
    exact ⟨h3, le_trans h4 h2⟩

theorem denom_pos (P : CDProblem p) (hdiag : ∀ j, 0 ≤ P.G j j)
    (hlam : 0 ≤ P.lam) (ha1 : P.alpha ≤ 1) (h : P.NoZero) (j : Fin p) : 0 < P.denom j := by
  refine lt_of_le_of_ne ?_ (Ne.symm (h j))
  unfold CDProblem.denom
  split
  · exact add_nonneg (hdiag j) (mul_nonneg hlam (by linarith))
  · exact hdiag j

/-- C21: whatever coordinate descent returns from a feasible start value has an objective not larger than
the start value's, for every selection rule, every oracle of coordinate orders, every tolerance and every
iteration limit. -/
theorem C21_objective_nonincreasing (P : CDProblem p) (hG : P.G.IsSymm) (hdiag : ∀ j, 0 ≤ P.G j j)
    (hlam : 0 ≤ P.lam) (ha0 : 0 ≤ P.alpha) (ha1 : P.alpha ≤ 1) (hb : BoundsOk P.lower P.upper)
    (sel : Selection) (perm : ℕ → List (Fin p)) (tol : ℝ) (m : ℕ) (b : Row p)
    (hf : Feasible P.lower P.upper b) (r : Row p) (n : ℕ)
    (hr : onlineCD P sel perm tol m b = .ok (r, n)) :
    enetObjective P.G P.h P.lam P.alpha P.reg r ≤ enetObjective P.G P.h P.lam P.alpha P.reg b := by
  obtain ⟨hz, e⟩ := (onlineCD_ok_iff ..).mp hr
  have hd := denom_pos P hdiag hlam ha1 hz
  have := pureLoop_invariant (fun i b => pureSweep P i (cdOrder sel perm i) b) (cdConverged tol) m
    (fun s => Feasible P.lower P.upper s ∧ enetObjective P.G P.h P.lam P.alpha P.reg s
      ≤ enetObjective P.G P.h P.lam P.alpha P.reg b) 0 b
    (pureSweep_objective P hG hlam ha0 hd hb _ _ b hf)
    (fun k s _ hq => by
      obtain ⟨h1, h2⟩ := pureSweep_objective P hG hlam ha0 hd hb (k + 1) (cdOrder sel perm (k + 1)) s hq.1
      exact ⟨h1, le_trans h2 hq.2⟩)
  unfold pureCD at e
  rw [e] at this
  exact this.2

/-! ## C22 bounds -/

theorem pureSweep_covers_bounds (P : CDProblem p) (hb : BoundsOk P.lower P.upper) {i : ℕ} (hi : i < 2)
    (JJ : List (Fin p)) (b : Row p) :
    ∀ j ∈ JJ, InBounds (P.lower j) (P.upper j) (pureSweep P i JJ b j) := by
  have key : ∀ (JJ : List (Fin p)) (b : Row p) (j : Fin p),
      (j ∈ JJ ∨ InBounds (P.lower j) (P.upper j) (b j)) →
      InBounds (P.lower j) (P.upper j) (pureSweep P i JJ b j) := by
    intro JJ
    induction JJ with
    | nil => intro b j h; rcases h with h | h
             · cases h
             · exact h
    | cons k JJ ih =>
      intro b j h
      rw [pureSweep_cons]
      by_cases hj : j = k
      · subst hj
        refine ih _ _ (Or.inr ?_)
        rw [pureStep_eq_update P (Or.inl hi), Function.update_self]
        exact clip_inBounds (fun l u => hb j l u) _
      · refine ih _ _ ?_
        rcases h with h | h
        · rcases List.mem_cons.mp h with h | h
          · exact absurd h hj
          · exact Or.inl h
        · right; rw [pureStep_apply_ne _ _ _ hj]; exact h
  intro j hj
  exact key JJ b j (Or.inl hj)

theorem pureSweep_feasible (P : CDProblem p) (hb : BoundsOk P.lower P.upper) (i : ℕ)
    (JJ : List (Fin p)) (b : Row p) (hf : Feasible P.lower P.upper b) :
    Feasible P.lower P.upper (pureSweep P i JJ b) := by
  induction JJ generalizing b with
  | nil => exact hf
  | cons k JJ ih =>
    refine ih _ fun j => ?_
    unfold pureStep
    split
    · by_cases hj : j = k
      · subst hj; rw [Function.update_self]; exact clip_inBounds (fun l u => hb j l u) _
      · rw [Function.update_of_ne hj]; exact hf j
    · exact hf j

/-- C22: whatever coordinate descent returns lies within the bounds, from every start value, feasible
or not, for every schedule. -/
theorem C22_bounds (P : CDProblem p) (hb : BoundsOk P.lower P.upper)
    (sel : Selection) (perm : ℕ → List (Fin p)) (tol : ℝ) (m : ℕ) (b r : Row p) (n : ℕ)
    (hr : onlineCD P sel perm tol m b = .ok (r, n)) : Feasible P.lower P.upper r := by
  obtain ⟨_, e⟩ := (onlineCD_ok_iff ..).mp hr
  have := pureLoop_invariant (fun i b => pureSweep P i (cdOrder sel perm i) b) (cdConverged tol) m
    (fun s => Feasible P.lower P.upper s) 0 b
    (fun j => pureSweep_covers_bounds P hb (by norm_num) _ _ j (by
      rw [Nat.zero_add, cdOrder_one]; exact List.mem_finRange j))
    (fun k s _ hq => pureSweep_feasible P hb _ _ s hq)
  unfold pureCD at e
  rw [e] at this
  exact this

/-- C22: all rows of a path computed from an old path whose rows are zero or within the bounds lie within
the bounds, with and without early stopping and for every start-value rule. -/
theorem C22_bounds_path (c : PathConfig p) (hb : BoundsOk c.lower c.upper)
    (G : Matrix (Fin p) (Fin p) ℝ) (h : Row p) (lams : List ℝ) (olds : List (Row p))
    (ho : ∀ o ∈ olds, o = 0 ∨ Feasible c.lower c.upper o) (l : List (Row p × ℕ))
    (hl : onlineCDPath c G h lams olds = .ok l) : ∀ r ∈ l, Feasible c.lower c.upper r.1 := by
  -- the zero vector never triggers early stopping, so a row is a copy of a feasible row or a result
  have hrow : ∀ i lam prev old r, cdPathRow c G h i lam prev old = .ok r →
      (prev = 0 ∨ Feasible c.lower c.upper prev) → (old = 0 ∨ Feasible c.lower c.upper old) →
      Feasible c.lower c.upper r.1 := by
    intro i lam prev old r hr h1 h2
    have hs : startValue c.which prev old = 0 ∨ Feasible c.lower c.upper (startValue c.which prev old) := by
      unfold startValue
      simp only
      split
      · exact h1
      · exact h2
    unfold cdPathRow at hr
    simp only at hr
    split at hr
    · rename_i hc
      rw [← Except.ok.inj hr]
      rcases hs with hs | hs
      · rw [hs, countNonzero_zero] at hc; omega
      · exact hs
    · exact C22_bounds (c.problem G h lam) hb _ _ _ _ _ r.1 r.2 hr
  have hall : ∀ (lams : List ℝ) (k : ℕ) (np : Row p) (olds : List (Row p)) (l : List (Row p × ℕ)),
      cdPathLoop c G h k np lams olds = .ok l → (np = 0 ∨ Feasible c.lower c.upper np) →
      (∀ o ∈ olds, o = 0 ∨ Feasible c.lower c.upper o) → ∀ r ∈ l, Feasible c.lower c.upper r.1 := by
    intro lams
    induction lams with
    | nil =>
      intro k np olds l hl _ _ r hr
      rw [cdPathLoop_nil_left] at hl; rw [← Except.ok.inj hl] at hr; cases hr
    | cons lam lams ih =>
      intro k np olds l hl hnp ho r hr
      cases olds with
      | nil => rw [cdPathLoop_nil_right] at hl; rw [← Except.ok.inj hl] at hr; cases hr
      | cons old olds =>
        obtain ⟨r', rs, rfl, h1, h2⟩ := cdPathLoop_cons_ok hl
        have hq := hrow _ _ _ _ _ h1 hnp (ho old (List.mem_cons_self ..))
        rcases List.mem_cons.mp hr with rfl | hr
        · exact hq
        · exact ih _ _ _ _ h2 (Or.inr hq) (fun o h => ho o (List.mem_cons_of_mem _ h)) r hr
  exact hall _ _ _ _ _ hl (Or.inl rfl) ho

/-! ## C23 termination -/

/-- The state after `n` sweeps, numbered from 1. -/
def afterSweeps {S : Type*} (sweep : ℕ → S → S) : ℕ → S → S
  | 0, s => s
  | n + 1, s => sweep (n + 1) (afterSweeps sweep n s)

theorem pureLoop_count {S : Type*} (sweep : ℕ → S → S) (conv : S → S → Prop) (m : ℕ) (s0 : S) (i : ℕ)
    (hi : i ≤ m) : ∃ n, i + 1 ≤ n ∧ n ≤ m + 1 ∧
      pureLoop sweep conv m i (afterSweeps sweep i s0) = (afterSweeps sweep n s0, n) ∧
      (n < m + 1 → conv (afterSweeps sweep n s0) (afterSweeps sweep (n - 1) s0)) := by
  induction hk : m + 1 - i using Nat.strong_induction_on generalizing i with
  | _ k ih =>
    rw [pureLoop_eq]
    split
    · rename_i hc
      exact ⟨i + 1, le_rfl, by omega, rfl, fun _ => hc⟩
    · split
      · exact ⟨i + 1, le_rfl, by omega, rfl, fun h => by omega⟩
      · obtain ⟨n, h1, h2, h3, h4⟩ := ih (m + 1 - (i + 1)) (by omega) (i + 1) (by omega) rfl
        exact ⟨n, by omega, h2, h3, h4⟩

/-- C23: for every state type, every sweep function, every outcome of the convergence comparison (hence
also when NaN makes every comparison false) the loop ends after `n` sweeps, `1 ≤ n ≤ max_iterations + 1`,
and returns the state after exactly `n` sweeps together with `n`; if `n` is not the maximum it stopped because
the convergence test succeeded. -/
theorem C23_terminates {S : Type*} (sweep : ℕ → S → S) (conv : S → S → Prop) (max_iterations : ℕ) (s : S) :
    ∃ n, 1 ≤ n ∧ n ≤ max_iterations + 1 ∧
      whileLoop (fun i s => .ok (sweep i s)) conv max_iterations 0 s = .ok (afterSweeps sweep n s, n) ∧
      (n < max_iterations + 1 → conv (afterSweeps sweep n s) (afterSweeps sweep (n - 1) s)) := by
  obtain ⟨n, h1, h2, h3, h4⟩ := pureLoop_count sweep conv max_iterations s 0 (Nat.zero_le _)
  exact ⟨n, by omega, h2, by rw [whileLoop_eq _ sweep (fun _ _ => rfl)]; exact congrArg _ h3, h4⟩

/-- C23: the iteration count of `online_coordinate_descent`. -/
theorem C23_iteration_count (P : CDProblem p) (sel : Selection) (perm : ℕ → List (Fin p)) (tol : ℝ) (m : ℕ)
    (b r : Row p) (n : ℕ) (hr : onlineCD P sel perm tol m b = .ok (r, n)) : 1 ≤ n ∧ n ≤ m + 1 := by
  obtain ⟨_, e⟩ := (onlineCD_ok_iff ..).mp hr
  obtain ⟨k, h1, h2, h3, _⟩ := pureLoop_count (fun i b => pureSweep P i (cdOrder sel perm i) b)
    (cdConverged tol) m b 0 (Nat.zero_le _)
  unfold pureCD at e
  rw [show b = afterSweeps (fun i b => pureSweep P i (cdOrder sel perm i) b) 0 b from rfl, h3] at e
  have : k = n := congrArg Prod.snd e
  omega

/-- C23: the only exception is the division by a zero curvature, decided by the problem alone. -/
theorem C23_error_iff (P : CDProblem p) (sel : Selection) (perm : ℕ → List (Fin p)) (tol : ℝ) (m : ℕ)
    (b : Row p) (e : PyErr) : onlineCD P sel perm tol m b = .error e ↔
      e = .zeroDivision ∧ ∃ j, (if P.reg j then P.G j j + P.lam * (1 - P.alpha) else P.G j j) = 0 := by
  by_cases h : P.NoZero
  · rw [onlineCD_eq P h]
    constructor
    · intro h'; cases h'
    · rintro ⟨_, j, hj⟩; exact absurd hj (h j)
  · rw [onlineCD_error P h]
    unfold CDProblem.NoZero at h
    push Not at h
    constructor
    · intro h'; cases h'; exact ⟨rfl, h⟩
    · rintro ⟨rfl, _⟩; rfl

/-- C23: every row of a path reports a count in `1 .. max_iterations + 1`, or 0 when early
stopping skipped it. -/
theorem C23_path_counts (c : PathConfig p) (G : Matrix (Fin p) (Fin p) ℝ) (h : Row p) (lams : List ℝ)
    (olds : List (Row p)) (l : List (Row p × ℕ)) (hl : onlineCDPath c G h lams olds = .ok l) :
    ∀ r ∈ l, (1 ≤ r.2 ∧ r.2 ≤ c.maxIterations + 1) ∨ (r.2 = 0 ∧ 0 < c.earlyStop) := by
  intro r hr
  obtain ⟨i, hi⟩ := List.mem_iff_getElem?.mp hr
  obtain ⟨lam, old, prev, _, _, _, he⟩ := cdPathLoop_row hl i r hi
  unfold cdPathRow at he
  simp only at he
  split at he
  · rename_i hc
    right; rw [← Except.ok.inj he]; exact ⟨rfl, hc.1⟩
  · left; exact C23_iteration_count _ _ _ _ _ _ r.1 r.2 he

/-! ## C24 fixed points are global optima -/

/-- The quadratic form of the Gramian is non-negative. -/
def PSD (G : Matrix (Fin p) (Fin p) ℝ) : Prop := ∀ v : Row p, 0 ≤ ∑ i, v i * ∑ j, G i j * v j

theorem fixed_coord_optimal (P : CDProblem p) (hlam : 0 ≤ P.lam) (ha0 : 0 ≤ P.alpha) (ha1 : P.alpha ≤ 1)
    (b : Row p) (j : Fin p) (hd : 0 < P.denom j) (hfix : P.newValue b j = b j) {t : ℝ}
    (ht : InBounds (P.lower j) (P.upper j) t) :
    0 ≤ grad P.G P.h b j * (t - b j)
      + (pen P.lam P.alpha (P.reg j) t - pen P.lam P.alpha (P.reg j) (b j)) := by
  have key := newValue_vi P hlam ha0 b j hd ht
  rw [hfix] at key
  unfold CDProblem.denom at key
  unfold pen
  have h1 : 0 ≤ P.lam * (1 - P.alpha) := mul_nonneg hlam (by linarith)
  by_cases hr : P.reg j
  · simp only [hr, if_true] at key ⊢
    nlinarith [mul_nonneg h1 (sq_nonneg (t - b j))]
  · simp only [hr] at key ⊢
    simp only [Bool.false_eq_true, if_false] at key ⊢
    nlinarith

theorem coordwise_optimal_global (P : CDProblem p) (hG : P.G.IsSymm) (hpsd : PSD P.G) (b c : Row p)
    (h : ∀ j, 0 ≤ grad P.G P.h b j * (c j - b j)
      + (pen P.lam P.alpha (P.reg j) (c j) - pen P.lam P.alpha (P.reg j) (b j))) :
    enetObjective P.G P.h P.lam P.alpha P.reg b ≤ enetObjective P.G P.h P.lam P.alpha P.reg c := by
  have e := enetObjective_expand P.G hG P.h P.lam P.alpha P.reg b c
  have h1 := Finset.sum_nonneg (s := Finset.univ) fun j _ => h j
  have h2 := hpsd (fun j => c j - b j)
  linarith

theorem psd_diag {G : Matrix (Fin p) (Fin p) ℝ} (h : PSD G) (j : Fin p) : 0 ≤ G j j := by
  have := h (Pi.single j 1)
  rw [sum_update_diff (j := j) _ (fun k hk => by simp [hk])] at this
  rw [sum_update_diff (j := j) _ (fun k hk => by simp [hk])] at this
  simpa using this

/-- C24: if a full sweep in any order leaves the coefficients unchanged, they minimise the elastic net
objective over all coefficient vectors within the bounds. -/
theorem C24_fixed_point_optimal (P : CDProblem p) (hG : P.G.IsSymm) (hpsd : PSD P.G)
    (hlam : 0 ≤ P.lam) (ha0 : 0 ≤ P.alpha) (ha1 : P.alpha ≤ 1)
    (JJ : List (Fin p)) (hJ : JJ.Perm (List.finRange p)) (b : Row p)
    (hfix : cdSweep P 1 JJ b = .ok b) (c : Row p) (hc : Feasible P.lower P.upper c) :
    enetObjective P.G P.h P.lam P.alpha P.reg b ≤ enetObjective P.G P.h P.lam P.alpha P.reg c := by
  have hz : P.NoZero := by
    intro j hj
    rw [cdSweep_error P (by norm_num) JJ b ⟨j, hJ.mem_iff.mpr (List.mem_finRange j), hj⟩] at hfix
    cases hfix
  have hd := denom_pos P (psd_diag hpsd) hlam ha1 hz
  rw [cdSweep_eq P hz] at hfix
  have hst := pureSweep_fixed P 1 JJ (hJ.nodup_iff.mpr (List.nodup_finRange p)) b (Except.ok.inj hfix)
  refine coordwise_optimal_global P hG hpsd b c fun j => ?_
  refine fixed_coord_optimal P hlam ha0 ha1 b j (hd j) ?_ (hc j)
  have := hst j (hJ.mem_iff.mpr (List.mem_finRange j))
  rw [pureStep_eq_update P (Or.inl (by norm_num))] at this
  have := congrFun this j
  rwa [Function.update_self] at this

/-- C24: with `alpha = 0` and no bounds a fixed point solves the ridge normal equations
`(G + λ D) b = h`, `D` the indicator of the regularised coefficients. -/
theorem C24_ridge_normal_equations (P : CDProblem p) (ha : P.alpha = 0)
    (hlo : ∀ j, P.lower j = none) (hup : ∀ j, P.upper j = none)
    (JJ : List (Fin p)) (hJ : JJ.Perm (List.finRange p)) (b : Row p)
    (hfix : cdSweep P 1 JJ b = .ok b) (j : Fin p) :
    (∑ k, P.G j k * b k) + (if P.reg j then P.lam * b j else 0) = P.h j := by
  have hz : P.NoZero := by
    intro j hj
    rw [cdSweep_error P (by norm_num) JJ b ⟨j, hJ.mem_iff.mpr (List.mem_finRange j), hj⟩] at hfix
    cases hfix
  rw [cdSweep_eq P hz] at hfix
  have hst := pureSweep_fixed P 1 JJ (hJ.nodup_iff.mpr (List.nodup_finRange p)) b (Except.ok.inj hfix)
  have := hst j (hJ.mem_iff.mpr (List.mem_finRange j))
  rw [pureStep_eq_update P (Or.inl (by norm_num))] at this
  have := congrFun this j
  rw [Function.update_self] at this
  unfold CDProblem.newValue at this
  rw [hlo, hup] at this
  simp only [clipHigh, clipLow] at this
  rw [div_eq_iff (hz j)] at this
  have h0 : ∀ v, softThreshold v 0 = v := fun v => by
    rcases softThreshold_cases (v := v) le_rfl with ⟨h, e⟩ | ⟨h, e⟩ | ⟨h, e⟩
    · rw [e]; ring
    · rw [e]; ring
    · rw [e]; exact (abs_eq_zero.mp (le_antisymm h (abs_nonneg v))).symm
  unfold CDProblem.target CDProblem.denom at this
  rw [ha, zero_mul] at this
  simp only [h0, ite_self] at this
  by_cases hr : P.reg j
  · rw [if_pos hr] at this ⊢; linarith
  · rw [if_neg hr] at this ⊢; linarith

/-! ## C25 what convergence guarantees -/

theorem converged_zero {new old : Row p} (h : cdConverged 0 new old) : new = old := by
  unfold cdConverged at h
  rw [zero_mul] at h
  funext j
  have := le_trans (abs_le_maxAbs (new - old) j) h
  have := abs_eq_zero.mp (le_antisymm this (abs_nonneg _))
  exact sub_eq_zero.mp this

/-- C25, partial.  Full statement: if coordinate descent stops because the last sweep changed nothing
(`tolerance = 0`, fewer sweeps than the limit), the result minimises the objective over the box.  Proved: it
minimises the objective among the vectors of the box that are zero wherever the result is zero.
Missing (and false, see `C25_fails`): optimality with respect to the coefficients that are zero. -/
theorem C25_optimal_on_support_partial (P : CDProblem p) (hG : P.G.IsSymm) (hpsd : PSD P.G)
    (hlam : 0 ≤ P.lam) (ha0 : 0 ≤ P.alpha) (ha1 : P.alpha ≤ 1)
    (sel : Selection) (perm : ℕ → List (Fin p)) (hperm : ∀ i, (perm i).Perm (List.finRange p))
    (m : ℕ) (b r : Row p) (n : ℕ) (hr : onlineCD P sel perm 0 m b = .ok (r, n)) (hn : n < m + 1)
    (c : Row p) (hc : Feasible P.lower P.upper c) (hsupp : ∀ j, r j = 0 → c j = 0) :
    enetObjective P.G P.h P.lam P.alpha P.reg r ≤ enetObjective P.G P.h P.lam P.alpha P.reg c := by
  obtain ⟨hz, e⟩ := (onlineCD_ok_iff ..).mp hr
  have hd := denom_pos P (psd_diag hpsd) hlam ha1 hz
  obtain ⟨k, h1, h2, h3, h4⟩ := pureLoop_count (fun i b => pureSweep P i (cdOrder sel perm i) b)
    (cdConverged 0) m b 0 (Nat.zero_le _)
  unfold pureCD at e
  rw [show b = afterSweeps (fun i b => pureSweep P i (cdOrder sel perm i) b) 0 b from rfl, h3] at e
  have hk : k = n := congrArg Prod.snd e
  have hs : afterSweeps (fun i b => pureSweep P i (cdOrder sel perm i) b) k b = r := congrArg Prod.fst e
  have hconv := converged_zero (h4 (by omega))
  obtain ⟨k', rfl⟩ : ∃ k', k = k' + 1 := ⟨k - 1, by omega⟩
  rw [Nat.add_sub_cancel] at hconv
  have hfix : pureSweep P (k' + 1) (cdOrder sel perm (k' + 1)) r = r := by
    rw [← hs]; nth_rewrite 2 [hconv]; rw [hconv]; exact hconv
  have hJ : (cdOrder sel perm (k' + 1)).Perm (List.finRange p) := by
    unfold cdOrder; split
    · exact hperm _
    · exact List.Perm.refl _
  have hst := pureSweep_fixed P _ _ (hJ.nodup_iff.mpr (List.nodup_finRange p)) r hfix
  refine coordwise_optimal_global P hG hpsd r c fun j => ?_
  by_cases hj : r j = 0
  · rw [hj, hsupp j hj]; simp
  · refine fixed_coord_optimal P hlam ha0 ha1 r j (hd j) ?_ (hc j)
    have := hst j (hJ.mem_iff.mpr (List.mem_finRange j))
    rw [pureStep_eq_update P (Or.inr hj)] at this
    have := congrFun this j
    rwa [Function.update_self] at this

theorem exProblem_psd : PSD exProblem.G := by
  intro v
  simp only [exProblem, Fin.sum_univ_two, Matrix.of_apply, Matrix.cons_val', Matrix.cons_val_zero,
    Matrix.cons_val_one, Matrix.cons_val_fin_one]
  nlinarith [sq_nonneg (v 0 - v 1 / 2), sq_nonneg (v 1)]

theorem exProblem_noZero : exProblem.NoZero := fun j => by rw [exProblem_denom]; norm_num

theorem exProblem_step0 (b : Row 2) (h : b 1 = 0) : exProblem.newValue b 0 = 0 := by
  unfold CDProblem.newValue CDProblem.target
  rw [exProblem_denom]
  simp [exProblem, clipHigh, clipLow, Fin.sum_univ_two, h, softThreshold_zero]

theorem exProblem_step1 (b : Row 2) (h : b 0 = 0) : exProblem.newValue b 1 = 4 := by
  unfold CDProblem.newValue CDProblem.target
  rw [exProblem_denom]
  simp only [exProblem, clipHigh, clipLow, Fin.sum_univ_two, h, if_true, Matrix.of_apply, Matrix.cons_val',
    Matrix.cons_val_zero, Matrix.cons_val_one, Matrix.cons_val_fin_one]
  rw [softThreshold_of_pos (by linarith)]
  rw [max_eq_left] <;> linarith

theorem exProblem_sweep1 : pureSweep exProblem 1 (List.finRange 2) 0 = ![0, 4] := by
  have : List.finRange 2 = [0, 1] := by decide
  rw [this, pureSweep_cons, pureSweep_cons, pureSweep_nil]
  have e0 : pureStep exProblem 1 0 0 = 0 := by
    rw [pureStep_eq_update _ (Or.inl (by norm_num)), exProblem_step0 _ rfl]
    exact Function.update_eq_self (0 : Fin 2) (0 : Row 2)
  rw [e0, pureStep_eq_update _ (Or.inl (by norm_num)), exProblem_step1 _ (by simp)]
  ext k; fin_cases k <;> simp

/-- C25 fails: for the lasso problem `G = [[1,-1/2],[-1/2,1]]`, `h = (0,5)`, `λ = 1`, coordinate descent
started at zero stops with `(0, 4)` after 2 sweeps, the second of which changed nothing, for every
tolerance in `[0,1)`, every iteration limit ≥ 1 and every schedule; the vector `(1, 4)` has a smaller objective. -/
theorem C25_fails (sel : Selection) (perm : ℕ → List (Fin 2)) (tol : ℝ) (h0 : 0 ≤ tol) (h1 : tol < 1)
    (m : ℕ) (hm : 1 ≤ m) :
    onlineCD exProblem sel perm tol m 0 = .ok (![0, 4], 2) ∧
    (∀ JJ, cdSweep exProblem 2 JJ ![0, 4] = .ok ![0, 4]) ∧
    enetObjective exProblem.G exProblem.h exProblem.lam exProblem.alpha exProblem.reg ![1, 4]
      < enetObjective exProblem.G exProblem.h exProblem.lam exProblem.alpha exProblem.reg ![0, 4] := by
  have hs1 := exProblem_sweep1
  have hfix : ∀ JJ, pureSweep exProblem 2 JJ ![0, 4] = ![0, 4] := by
    intro JJ
    induction JJ with
    | nil => rfl
    | cons j JJ ih =>
      have : pureStep exProblem 2 ![0, 4] j = ![0, 4] := by
        fin_cases j
        · unfold pureStep; rw [if_neg (by simp)]
        · unfold pureStep; rw [if_pos (by simp)]
          rw [show ((⟨1, by norm_num⟩ : Fin 2)) = 1 from rfl, exProblem_step1 _ rfl]
          ext k; fin_cases k <;> simp
      rw [pureSweep_cons, this, ih]
  have hmax : maxAbs (![0, 4] : Row 2) = 4 := by
    refine le_antisymm (maxAbs_le (by norm_num) fun j => by fin_cases j <;> simp) ?_
    have := abs_le_maxAbs (![0, 4] : Row 2) 1
    simpa using this
  refine ⟨?_, fun JJ => by rw [cdSweep_eq _ exProblem_noZero, hfix], ?_⟩
  · rw [onlineCD_eq _ exProblem_noZero]
    unfold pureCD
    rw [pureLoop_eq]
    simp only [Nat.zero_add]
    rw [cdOrder_one, hs1, if_neg, if_neg (by omega), pureLoop_eq]
    · rw [hfix, if_pos]
      unfold cdConverged
      rw [sub_self, maxAbs_zero]
      exact mul_nonneg h0 (maxAbs_nonneg _)
    · unfold cdConverged
      rw [sub_zero, hmax]; linarith
  · simp only [enetObjective, exProblem, Fin.sum_univ_two, Matrix.of_apply, Matrix.cons_val',
      Matrix.cons_val_zero, Matrix.cons_val_one, Matrix.cons_val_fin_one, if_true]
    norm_num

/-- Non-vacuity of the partial theorem: the run of `C25_fails` with tolerance 0. -/
example : onlineCD exProblem .cyclic (fun _ => List.finRange 2) 0 1000 0 = .ok (![0, 4], 2) ∧ 2 < 1000 + 1 ∧
    PSD exProblem.G :=
  ⟨(C25_fails _ _ 0 le_rfl one_pos 1000 (by norm_num)).1, by norm_num, exProblem_psd⟩

/-! ## C28 early stopping -/

/-- C28: with warm starts along the path and `early_stop = k > 0`, once a row has at least `k` non-zero
coefficients all later rows are copies of it with 0 iterations. -/
theorem C28_frozen (c : PathConfig p) (hw : c.which = .previousLambda) (hk : 0 < c.earlyStop)
    (G : Matrix (Fin p) (Fin p) ℝ) (h : Row p) (lams : List ℝ) (olds : List (Row p))
    (l : List (Row p × ℕ)) (hl : onlineCDPath c G h lams olds = .ok l)
    (i j : ℕ) (hij : i < j) (ri rj : Row p × ℕ) (hi : l[i]? = some ri) (hj : l[j]? = some rj)
    (hnz : c.earlyStop ≤ countNonzero ri.1) : rj = (ri.1, 0) := by
  have hstep : ∀ (i : ℕ) (r r' : Row p × ℕ), l[i]? = some r → l[i + 1]? = some r' →
      c.earlyStop ≤ countNonzero r.1 → r' = (r.1, 0) := by
    intro i r r' hr hr' hnz
    obtain ⟨lam, old, prev, _, _, hp, he⟩ := cdPathLoop_row hl (i + 1) r' hr'
    have : prev = r.1 := by
      rw [List.getElem?_cons_succ, List.getElem?_map, hr] at hp
      exact (Option.some.inj hp).symm
    unfold cdPathRow startValue at he
    simp only [hw, if_true, this] at he
    rw [if_pos ⟨hk, hnz⟩] at he
    exact (Except.ok.inj he).symm
  have hlen : j < l.length := (List.getElem?_eq_some_iff.mp hj).1
  obtain ⟨d, rfl⟩ : ∃ d, j = i + 1 + d := ⟨j - (i + 1), by omega⟩
  clear hij
  induction d generalizing rj with
  | zero => exact hstep i ri rj hi hj hnz
  | succ d ih =>
    have hm : l[i + 1 + d]? = some (l[i + 1 + d]'(by omega)) := List.getElem?_eq_getElem (by omega)
    have e := ih _ hm (by omega)
    have := hstep (i + 1 + d) _ rj hm hj (by rw [e]; exact hnz)
    rw [this, e]

/-- C28: without early stopping, and for rows whose start value has fewer than `k` non-zeros, the row is
optimised by coordinate descent from its start value: the row before (zero for the first row), or the row of the path
before, as the option says. -/
theorem C28_optimised (c : PathConfig p)
    (G : Matrix (Fin p) (Fin p) ℝ) (h : Row p) (lams : List ℝ) (olds : List (Row p))
    (l : List (Row p × ℕ)) (hl : onlineCDPath c G h lams olds = .ok l) (i : ℕ) (r : Row p × ℕ) (hr : l[i]? = some r)
    (start : Row p) (hs : (c.which = .previousLambda ∧ i = 0 ∧ start = 0) ∨
      (c.which = .previousLambda ∧ 0 < i ∧ ∃ n, l[i - 1]? = some (start, n)) ∨
      (c.which ≠ .previousLambda ∧ olds[i]? = some start))
    (hk : c.earlyStop = 0 ∨ countNonzero start < c.earlyStop) :
    ∃ lam, lams[i]? = some lam ∧
      onlineCD (c.problem G h lam) c.selection (c.perm i) c.tolerance c.maxIterations start = .ok r := by
  obtain ⟨lam, old, prev, h1, h2, h3, he⟩ := cdPathLoop_row hl i r hr
  have hstart : startValue c.which prev old = start := by
    unfold startValue
    rcases hs with ⟨hw, rfl, rfl⟩ | ⟨hw, hi, n, hn⟩ | ⟨hw, ho⟩
    · rw [if_pos hw]
      simpa using h3.symm
    · rw [if_pos hw]
      obtain ⟨i, rfl⟩ : ∃ m, i = m + 1 := ⟨i - 1, by omega⟩
      rw [List.getElem?_cons_succ, List.getElem?_map] at h3
      rw [Nat.add_sub_cancel] at hn
      rw [hn] at h3
      exact (Option.some.inj h3).symm
    · rw [if_neg hw]
      rw [ho] at h2
      exact (Option.some.inj h2).symm
  unfold cdPathRow at he
  simp only [hstart] at he
  rw [if_neg (by omega), Nat.zero_add] at he
  exact ⟨lam, h1, he⟩

/-! ## C29 start values -/

/-- C29, partial.  Full statement: row `i` is warm-started from the previous new row, the same row of the
previous fit or their average, as selected.  Proved for the first two options (without early stopping);
"average" does not do what is documented, see `C29_average_fails`. -/
theorem C29_start_value_partial (c : PathConfig p) (hes : c.earlyStop = 0)
    (G : Matrix (Fin p) (Fin p) ℝ) (h : Row p) (lams : List ℝ) (olds : List (Row p))
    (l : List (Row p × ℕ)) (hl : onlineCDPath c G h lams olds = .ok l) (i : ℕ) (r : Row p × ℕ)
    (hr : l[i]? = some r) : ∃ lam, lams[i]? = some lam ∧
    (c.which = .previousFit → ∃ start, olds[i]? = some start ∧
      onlineCD (c.problem G h lam) c.selection (c.perm i) c.tolerance c.maxIterations start = .ok r) ∧
    (c.which = .previousLambda → ∃ start,
      start = (if i = 0 then (0 : Row p) else ((l[i - 1]?).map Prod.fst).getD 0) ∧
      onlineCD (c.problem G h lam) c.selection (c.perm i) c.tolerance c.maxIterations start = .ok r) := by
  obtain ⟨lam, old, prev, h1, h2, h3, he⟩ := cdPathLoop_row hl i r hr
  unfold cdPathRow startValue at he
  simp only at he
  rw [if_neg (by omega), Nat.zero_add] at he
  refine ⟨lam, h1, fun hw => ?_, fun hw => ?_⟩
  · rw [if_neg (by rw [hw]; decide)] at he
    exact ⟨old, h2, he⟩
  · rw [if_pos hw] at he
    refine ⟨prev, ?_, he⟩
    cases i with
    | zero => simpa using h3.symm
    | succ i =>
      rw [if_neg (by omega), Nat.add_sub_cancel]
      rw [List.getElem?_cons_succ, List.getElem?_map] at h3
      rw [h3]; rfl

/-- C29 fails, general form: the option "average" behaves exactly like "previous_fit", for all inputs. -/
theorem C29_average_is_previous_fit (c : PathConfig p) (G : Matrix (Fin p) (Fin p) ℝ) (h : Row p)
    (lams : List ℝ) (olds : List (Row p)) :
    onlineCDPath { c with which := .average } G h lams olds
      = onlineCDPath { c with which := .previousFit } G h lams olds := by
  have hrow : ∀ i lam prev old, cdPathRow { c with which := .average } G h i lam prev old
      = cdPathRow { c with which := .previousFit } G h i lam prev old := fun _ _ _ _ => rfl
  unfold onlineCDPath
  generalize (0 : ℕ) = k
  generalize (0 : Row p) = np
  induction lams generalizing k np olds with
  | nil => rw [cdPathLoop_nil_left, cdPathLoop_nil_left]
  | cons lam lams ih =>
    cases olds with
    | nil => rw [cdPathLoop_nil_right, cdPathLoop_nil_right]
    | cons old olds =>
      rw [cdPathLoop, cdPathLoop, hrow]
      split
      · rfl
      · rw [ih]

/-- The path configuration of `exProblem`. -/
noncomputable def exConfig (which : StartValue) (earlyStop maxIterations : ℕ) : PathConfig 2 :=
  { alpha := 1, earlyStop := earlyStop, which := which, selection := .cyclic, tolerance := 0,
    maxIterations := maxIterations, reg := fun _ => true, lower := fun _ => none, upper := fun _ => none,
    perm := fun _ _ => List.finRange 2 }

/-- C29 fails: a row computed with "average" differs from coordinate descent started at the average of the
previous new row `(0, 8)` and the old row `(0, 0)` (one sweep allowed). -/
theorem C29_average_fails :
    cdPathRow (exConfig .average 0 0) exProblem.G exProblem.h 1 1 ![0, 8] 0 = .ok (![0, 4], 1) ∧
    ∀ r n, onlineCD exProblem .cyclic (fun _ => List.finRange 2) 0 0
      ((1 / 2 : ℝ) • (![0, 8] + (0 : Row 2))) = .ok (r, n) → r ≠ ![0, 4] := by
  have hone : ∀ b : Row 2, pureCD exProblem .cyclic (fun _ => List.finRange 2) 0 0 b
      = (pureSweep exProblem 1 (List.finRange 2) b, 1) := by
    intro b
    unfold pureCD
    rw [pureLoop_eq]
    simp only [Nat.zero_add, cdOrder_one]
    split
    · rfl
    · rw [if_pos (by norm_num)]
  constructor
  · change onlineCD exProblem .cyclic (fun _ => List.finRange 2) 0 0 0 = _
    rw [onlineCD_eq _ exProblem_noZero, hone, exProblem_sweep1]
  · intro r n hr hcon
    obtain ⟨_, e⟩ := (onlineCD_ok_iff ..).mp hr
    rw [hone] at e
    have e' : pureSweep exProblem 1 (List.finRange 2) ((1 / 2 : ℝ) • (![0, 8] + (0 : Row 2))) 0 = 0 := by
      have e2 := congrArg Prod.fst e
      simp only at e2
      rw [e2, hcon]; rfl
    have : List.finRange 2 = [0, 1] := by decide
    rw [this, pureSweep_cons, pureSweep_cons, pureSweep_nil, pureStep_apply_ne _ _ _ (by decide),
      pureStep_eq_update _ (Or.inl (by norm_num)), Function.update_self] at e'
    unfold CDProblem.newValue CDProblem.target at e'
    rw [exProblem_denom] at e'
    simp only [exProblem, clipHigh, clipLow, Fin.sum_univ_two, if_true, Matrix.of_apply, Matrix.cons_val',
      Matrix.cons_val_zero, Matrix.cons_val_one, Matrix.cons_val_fin_one, Pi.smul_apply, Pi.add_apply,
      Pi.zero_apply, smul_eq_mul] at e'
    norm_num at e'
    rw [softThreshold_of_pos (by norm_num)] at e'
    norm_num at e'

/-- Non-vacuity of C28 and C22/C23 on paths: two grid points, the second row is frozen. -/
example : onlineCDPath (exConfig .previousLambda 1 1000) exProblem.G exProblem.h [1, 1 / 2] [0, 0]
    = .ok [(![0, 4], 2), (![0, 4], 0)] := by
  have h1 : cdPathRow (exConfig .previousLambda 1 1000) exProblem.G exProblem.h 0 1 0 0
      = .ok (![0, 4], 2) := by
    have hs : startValue (exConfig .previousLambda 1 1000).which (0 : Row 2) 0 = 0 := rfl
    unfold cdPathRow
    simp only [hs, countNonzero_zero]
    rw [if_neg (by change ¬ (1 > 0 ∧ 0 ≥ 1); decide)]
    exact (C25_fails _ _ 0 le_rfl one_pos 1000 (by norm_num)).1
  have h2 : cdPathRow (exConfig .previousLambda 1 1000) exProblem.G exProblem.h 1 (1 / 2) ![0, 4] 0
      = .ok (![0, 4], 0) := by
    have hs : startValue (exConfig .previousLambda 1 1000).which (![0, 4] : Row 2) 0 = ![0, 4] := rfl
    unfold cdPathRow
    simp only [hs]
    have : countNonzero (![0, 4] : Row 2) = 1 := by
      unfold countNonzero
      rw [show List.finRange 2 = [0, 1] by decide, List.filter_cons_of_neg (by simp),
        List.filter_cons_of_pos (by simp)]
      rfl
    simp only [this]
    rw [if_pos (by change 1 > 0 ∧ 1 ≥ 1; decide)]
  unfold onlineCDPath
  rw [cdPathLoop, h1]
  simp only
  rw [cdPathLoop, h2]
  simp only
  rw [cdPathLoop_nil_left]

end Ondil
