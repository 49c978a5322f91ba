import Verif.Lemmas.CDConvergence

/-!
# Accuracy and convergence of coordinate descent (C97)
-/

open scoped BigOperators Topology
open Filter

namespace Ondil

variable {p : ℕ}

/-- The common part of C97: what the last sweep of a run that passed the convergence test says. -/
theorem onlineCD_accuracy {P : CDProblem p} (hG : P.G.IsSymm) (hlam : 0 ≤ P.lam) (ha0 : 0 ≤ P.alpha)
    (hcv : CurvedAtLeast P.G P.lam P.alpha P.reg 0) {sel : Selection} {perm : ℕ → List (Fin p)}
    (hperm : ∀ i, (perm i).Perm (List.finRange p)) {tol : ℝ} {m : ℕ} {b r : Row p} {n : ℕ}
    (hr : onlineCD P sel perm tol m b = .ok (r, n)) (hn : n < m + 1) {c : Row p}
    (hc : Feasible P.lower P.upper c) (hsupp : n = 1 ∨ ∀ j, r j = 0 → c j = 0) :
    enetObjective P.G P.h P.lam P.alpha P.reg r
        + 1 / 2 * smoothForm P.G P.lam P.alpha P.reg (fun j => c j - r j)
      ≤ enetObjective P.G P.h P.lam P.alpha P.reg c
        + tol * maxAbs r * ∑ j, coupling P.G j * |c j - r j| := by
  obtain ⟨hz, h1, _, rfl, h4⟩ := onlineCD_seq hr
  have hconv := h4 hn
  obtain ⟨k, rfl⟩ : ∃ k, n = k + 1 := ⟨n - 1, by omega⟩
  rw [Nat.add_sub_cancel] at hconv
  have hd : ∀ j, 0 < P.denom j := fun j => lt_of_le_of_ne (denom_of_curved P hcv j) (Ne.symm (hz j))
  refine pureSweep_accuracy P hG hlam ha0 hd (k + 1) _ (cdOrder_perm sel hperm _) (cdSeq P sel perm b k) _
    (fun i => le_trans (abs_le_maxAbs (cdSeq P sel perm b (k + 1) - cdSeq P sel perm b k) i) hconv) c hc
    fun j => ?_
  by_cases hv : k + 1 < 2 ∨ cdSeq P sel perm b k j ≠ 0
  · exact Or.inl hv
  · right
    push Not at hv
    have h0 : cdSeq P sel perm b (k + 1) j = 0 :=
      cdSeq_zero P sel perm b (n := k) (by omega) j hv.2 (k + 1) (by omega)
    rcases hsupp with h | h
    · omega
    · rw [h j h0]; exact h0.symm

/-- C97, value: if a run of coordinate descent ended because its convergence test succeeded (fewer sweeps than
the limit), then no coefficient vector within the bounds that is zero wherever the result is zero has an
objective smaller by more than `tolerance · max|r| · ∑_j coupling_j |c_j − r_j|`, for every start value, order of
the coordinates, penalty and tolerance.  If the first sweep passed the test, the zeros need not agree. -/
theorem C97_value (P : CDProblem p) (hG : P.G.IsSymm) (hlam : 0 ≤ P.lam) (ha0 : 0 ≤ P.alpha)
    (hcv : CurvedAtLeast P.G P.lam P.alpha P.reg 0) (sel : Selection) (perm : ℕ → List (Fin p))
    (hperm : ∀ i, (perm i).Perm (List.finRange p)) (tol : ℝ) (m : ℕ) (b r : Row p) (n : ℕ)
    (hr : onlineCD P sel perm tol m b = .ok (r, n)) (hn : n < m + 1) (c : Row p)
    (hc : Feasible P.lower P.upper c) (hsupp : n = 1 ∨ ∀ j, r j = 0 → c j = 0) :
    enetObjective P.G P.h P.lam P.alpha P.reg r
      ≤ enetObjective P.G P.h P.lam P.alpha P.reg c
        + tol * maxAbs r * ∑ j, coupling P.G j * |c j - r j| := by
  have h := onlineCD_accuracy hG hlam ha0 hcv hperm hr hn hc hsupp
  have h2 := hcv fun j => c j - r j
  rw [zero_mul] at h2
  linarith

/-- C97, value, for the rows of a path: every row that coordinate descent ended by its convergence test has
this accuracy for its own lambda. -/
theorem C97_path_value (k : PathConfig p) (G : Matrix (Fin p) (Fin p) ℝ) (h : Row p) (hG : G.IsSymm)
    (ha0 : 0 ≤ k.alpha) (lams : List ℝ) (hlam : ∀ lam ∈ lams, 0 ≤ lam)
    (hcv : ∀ lam ∈ lams, CurvedAtLeast G lam k.alpha k.reg 0)
    (hperm : ∀ i i', (k.perm i i').Perm (List.finRange p)) (olds : List (Row p)) (l : List (Row p × ℕ))
    (hl : onlineCDPath k G h lams olds = .ok l) (i : ℕ) (r : Row p) (n : ℕ) (hi : l[i]? = some (r, n))
    (hn : 1 ≤ n ∧ n < k.maxIterations + 1) : ∃ lam, lams[i]? = some lam ∧
      ∀ c, Feasible k.lower k.upper c → (n = 1 ∨ ∀ j, r j = 0 → c j = 0) →
        enetObjective G h lam k.alpha k.reg r
          ≤ enetObjective G h lam k.alpha k.reg c
            + k.tolerance * maxAbs r * ∑ j, coupling G j * |c j - r j| := by
  obtain ⟨lam, old, prev, h1, _, _, he⟩ := cdPathLoop_row hl i (r, n) hi
  have hmem : lam ∈ lams := List.mem_of_getElem? h1
  refine ⟨lam, h1, fun c hc hs => ?_⟩
  unfold cdPathRow at he
  simp only at he
  split at he
  · exact absurd (congrArg Prod.snd (Except.ok.inj he)) (by simp only; omega)
  · exact C97_value (k.problem G h lam) hG (hlam lam hmem) ha0 (hcv lam hmem) _ _ (hperm _) _ _ _ r n he hn.2 c
      hc hs

/-- C97, distance: if the smooth part of the objective has curvature at least `mu > 0`, every vector within the
bounds that is zero wherever the result is zero and that is at least as good as the result, in particular
the best such vector, lies within `2 · tolerance · max|r| · ‖coupling‖ / mu` of the result. -/
theorem C97_distance (P : CDProblem p) (hG : P.G.IsSymm) (hlam : 0 ≤ P.lam) (ha0 : 0 ≤ P.alpha) (mu : ℝ)
    (hmu : 0 < mu) (hcv : CurvedAtLeast P.G P.lam P.alpha P.reg mu) (sel : Selection)
    (perm : ℕ → List (Fin p)) (hperm : ∀ i, (perm i).Perm (List.finRange p)) (tol : ℝ) (htol : 0 ≤ tol) (m : ℕ)
    (b r : Row p) (n : ℕ) (hr : onlineCD P sel perm tol m b = .ok (r, n)) (hn : n < m + 1) (c : Row p)
    (hc : Feasible P.lower P.upper c) (hsupp : n = 1 ∨ ∀ j, r j = 0 → c j = 0)
    (hbest : enetObjective P.G P.h P.lam P.alpha P.reg c ≤ enetObjective P.G P.h P.lam P.alpha P.reg r) :
    euclid r c ≤ 2 * tol * maxAbs r * Real.sqrt (∑ j, coupling P.G j ^ 2) / mu := by
  have h := onlineCD_accuracy hG hlam ha0
    (fun v => by
      refine le_trans ?_ (hcv v)
      rw [zero_mul]
      exact mul_nonneg hmu.le (Finset.sum_nonneg fun j _ => sq_nonneg _)) hperm hr hn hc hsupp
  have h2 := hcv fun j => c j - r j
  set D := ∑ j, (c j - r j) ^ 2 with hD
  have hD0 : 0 ≤ D := Finset.sum_nonneg fun j _ => sq_nonneg _
  set C := ∑ j, coupling P.G j ^ 2 with hC
  have hcs : ∑ j, coupling P.G j * |c j - r j| ≤ Real.sqrt C * Real.sqrt D := by
    have := Finset.sum_mul_sq_le_sq_mul_sq Finset.univ (fun j => coupling P.G j) fun j => |c j - r j|
    simp only [sq_abs] at this
    rw [← Real.sqrt_mul (Finset.sum_nonneg fun j _ => sq_nonneg _)]
    exact Real.le_sqrt_of_sq_le this
  have hmax := maxAbs_nonneg r
  have h3 := mul_le_mul_of_nonneg_left hcs (mul_nonneg htol hmax)
  have h4 : mu * (Real.sqrt D * Real.sqrt D) ≤ 2 * (tol * maxAbs r * (Real.sqrt C * Real.sqrt D)) := by
    rw [Real.mul_self_sqrt hD0]; linarith
  change Real.sqrt D ≤ _
  rw [le_div_iff₀ hmu]
  by_cases h0 : Real.sqrt D = 0
  · rw [h0, zero_mul]; have := Real.sqrt_nonneg C; positivity
  · have hpos : 0 < Real.sqrt D := lt_of_le_of_ne (Real.sqrt_nonneg _) (Ne.symm h0)
    refine le_of_mul_le_mul_right ?_ hpos
    linarith

/-- C97, convergence: if the smooth part of the objective is curved in every direction, the coefficients
returned with tolerance zero converge as `max_iterations` grows, for every start value, penalty, bounds and every
sequence of coordinate orders; the limit respects the bounds and minimises the objective among the vectors
within the bounds that are zero wherever one of the returned vectors is zero.  In particular it is the optimum
when no returned vector has a zero coefficient. -/
theorem C97_converges (P : CDProblem p) (hG : P.G.IsSymm) (hlam : 0 ≤ P.lam) (ha0 : 0 ≤ P.alpha) (mu : ℝ)
    (hmu : 0 < mu) (hcv : CurvedAtLeast P.G P.lam P.alpha P.reg mu) (hb : BoundsOk P.lower P.upper)
    (sel : Selection) (perm : ℕ → List (Fin p)) (hperm : ∀ i, (perm i).Perm (List.finRange p)) (b : Row p) :
    ∃ (r : ℕ → Row p) (n : ℕ → ℕ) (L : Row p), (∀ m, onlineCD P sel perm 0 m b = .ok (r m, n m)) ∧
      Tendsto r atTop (𝓝 L) ∧ Feasible P.lower P.upper L ∧
      ∀ c, Feasible P.lower P.upper c → (∀ j, (∃ m, r m j = 0) → c j = 0) →
        enetObjective P.G P.h P.lam P.alpha P.reg L ≤ enetObjective P.G P.h P.lam P.alpha P.reg c := by
  have hz : P.NoZero := fun j => ne_of_gt (lt_of_lt_of_le hmu (denom_of_curved P hcv j))
  obtain ⟨L, hL, hfeas, hopt⟩ := cdSeq_limit P hG hlam ha0 hmu hcv hb sel hperm b
  have hrun : ∀ m, ∃ q : Row p × ℕ, onlineCD P sel perm 0 m b = .ok q := fun m => ⟨_, onlineCD_eq P hz sel perm 0 m b⟩
  choose q hq using hrun
  have hqs : ∀ m, (q m).1 = cdSeq P sel perm b (m + 1) := fun m => onlineCD_zero_tol sel hperm (hq m)
  refine ⟨fun m => (q m).1, fun m => (q m).2, L, hq, ?_, hfeas, fun c hc hs => hopt c hc fun j hj => ?_⟩
  · simp only [hqs]
    exact hL.comp (tendsto_add_atTop_nat 1)
  · obtain ⟨n, hn, h0⟩ := hj
    refine hs j ⟨n - 1, ?_⟩
    simp only [hqs]
    rwa [Nat.sub_add_cancel hn]

/-- C97, termination by the test: with a positive tolerance and a limit of the sweeps other than the zero vector
the convergence test succeeds after some number `n` of sweeps; every larger iteration limit gives the same
result after the same `n` sweeps. -/
theorem C97_stops (P : CDProblem p) (sel : Selection) (perm : ℕ → List (Fin p))
    (hperm : ∀ i, (perm i).Perm (List.finRange p)) (b : Row p) (r : ℕ → Row p) (k : ℕ → ℕ) (L : Row p)
    (hr : ∀ m, onlineCD P sel perm 0 m b = .ok (r m, k m)) (hL : Tendsto r atTop (𝓝 L)) (h0 : L ≠ 0)
    (tol : ℝ) (htol : 0 < tol) :
    ∃ x n, ∀ m, n ≤ m → onlineCD P sel perm tol m b = .ok (x, n) := by
  obtain ⟨hz, _⟩ := onlineCD_seq (hr 0)
  have hseq : Tendsto (fun m => cdSeq P sel perm b (m + 1)) atTop (𝓝 L) := by
    have : r = fun m => cdSeq P sel perm b (m + 1) := funext fun m => onlineCD_zero_tol sel hperm (hr m)
    rwa [this] at hL
  obtain ⟨j, hj⟩ : ∃ j, L j ≠ 0 := by
    by_contra h; push Not at h; exact h0 (funext h)
  have hsub : Tendsto (fun m => cdSeq P sel perm b (m + 2) - cdSeq P sel perm b (m + 1)) atTop (𝓝 0) := by
    have := (hseq.comp (tendsto_add_atTop_nat 1)).sub hseq
    rw [sub_self] at this
    exact this
  -- eventually the changes are small and coefficient `j` is large
  have hpos : 0 < |L j| / 2 := by positivity
  have hev1 : ∀ᶠ m in atTop, ∀ i,
      |(cdSeq P sel perm b (m + 2) - cdSeq P sel perm b (m + 1)) i| < tol * (|L j| / 2) := by
    rw [eventually_all]
    intro i
    have hi := (tendsto_pi_nhds.mp hsub i).abs
    rw [Pi.zero_apply, abs_zero] at hi
    exact hi.eventually_lt_const (mul_pos htol hpos)
  have hev2 : ∀ᶠ m in atTop, |L j| / 2 < |cdSeq P sel perm b (m + 2) j| := by
    have hi := ((tendsto_pi_nhds.mp hseq j).comp (tendsto_add_atTop_nat 1)).abs
    exact hi.eventually_const_lt (by linarith [abs_pos.mpr hj])
  obtain ⟨k, hk1, hk2⟩ := (hev1.and hev2).exists
  have hconv : cdConverged tol (cdSeq P sel perm b (k + 1 + 1)) (cdSeq P sel perm b (k + 1)) := by
    unfold cdConverged
    refine le_trans (maxAbs_le (mul_pos htol hpos).le fun i => (hk1 i).le) ?_
    exact mul_le_mul_of_nonneg_left (le_trans hk2.le (abs_le_maxAbs _ j)) htol.le
  obtain ⟨n, _, hn⟩ := pureLoop_first (fun i b => pureSweep P i (cdOrder sel perm i) b) (cdConverged tol) b (k + 1)
    hconv 0 (Nat.zero_le _)
  refine ⟨cdSeq P sel perm b n, n, fun m hm => ?_⟩
  rw [onlineCD_eq P hz]
  exact congrArg Except.ok (hn m hm)

/-! ### Examples -/

theorem exProblem_curved : CurvedAtLeast exProblem.G exProblem.lam exProblem.alpha exProblem.reg (1 / 2) := by
  intro v
  unfold smoothForm
  simp only [exProblem, Fin.sum_univ_two, Matrix.of_apply, Matrix.cons_val', Matrix.cons_val_zero,
    Matrix.cons_val_one, Matrix.cons_val_fin_one]
  nlinarith [sq_nonneg (v 0 - v 1)]

/-- Non-vacuity: the lasso problem of `C25_fails` meets the hypotheses of the accuracy theorems, with a run of
two sweeps that ends by the test for the usual tolerance. -/
example : exProblem.G.IsSymm ∧ 0 ≤ exProblem.lam ∧ 0 ≤ exProblem.alpha ∧
    CurvedAtLeast exProblem.G exProblem.lam exProblem.alpha exProblem.reg (1 / 2) ∧
    BoundsOk exProblem.lower exProblem.upper ∧
    onlineCD exProblem .cyclic (fun _ => List.finRange 2) (1 / 10000) 1000 0 = .ok (![0, 4], 2) ∧ 2 < 1000 + 1 :=
  ⟨exProblem_symm, by simp [exProblem], by simp [exProblem], exProblem_curved,
    fun j l u h => by simp [exProblem] at h,
    (C25_fails _ _ (1 / 10000) (by norm_num) (by norm_num) 1000 (by norm_num)).1, by norm_num⟩

/-- Non-vacuity of `C97_stops`: the limit of that problem is the vector `(0, 4)`. -/
example : ∃ (r : ℕ → Row 2) (k : ℕ → ℕ),
    (∀ m, onlineCD exProblem .cyclic (fun _ => List.finRange 2) 0 m 0 = .ok (r m, k m)) ∧
    Tendsto r atTop (𝓝 ![0, 4]) ∧ (![0, 4] : Row 2) ≠ 0 := by
  obtain ⟨r, k, L, h1, h2, _⟩ := C97_converges exProblem exProblem_symm (by simp [exProblem]) (by simp [exProblem])
    (1 / 2) (by norm_num) exProblem_curved (fun j l u h => by simp [exProblem] at h) .cyclic
    (fun _ => List.finRange 2) (fun _ => List.Perm.refl _) 0
  refine ⟨r, k, h1, tendsto_atTop_of_eventually_const (i₀ := 1) fun m hm => ?_, fun h => ?_⟩
  · have h3 := h1 m
    rw [(C25_fails _ _ 0 le_rfl one_pos m hm).1] at h3
    exact (congrArg Prod.fst (Except.ok.inj h3)).symm
  · have := congrFun h 1
    simp at this

/-- Two features with correlation one half and a response that is orthogonal to both: the optimum is zero. -/
noncomputable def zeroProblem : CDProblem 2 where
  G := !![1, 1 / 2; 1 / 2, 1]
  h := 0
  lam := 0
  alpha := 0
  reg := fun _ => false
  lower := fun _ => none
  upper := fun _ => none

theorem zeroProblem_denom (j : Fin 2) : zeroProblem.denom j = 1 := by
  fin_cases j <;> simp [zeroProblem, CDProblem.denom]

theorem zeroProblem_curved :
    CurvedAtLeast zeroProblem.G zeroProblem.lam zeroProblem.alpha zeroProblem.reg (1 / 2) := by
  intro v
  unfold smoothForm
  simp only [zeroProblem, Fin.sum_univ_two, Matrix.of_apply, Matrix.cons_val', Matrix.cons_val_zero,
    Matrix.cons_val_one, Matrix.cons_val_fin_one]
  nlinarith [sq_nonneg (v 0 + v 1)]

theorem zeroProblem_step0 (b : Row 2) : zeroProblem.newValue b 0 = -(b 1 / 2) := by
  unfold CDProblem.newValue CDProblem.target
  rw [zeroProblem_denom]
  simp [zeroProblem, clipHigh, clipLow, Fin.sum_univ_two]
  ring

theorem zeroProblem_step1 (b : Row 2) : zeroProblem.newValue b 1 = -(b 0 / 2) := by
  unfold CDProblem.newValue CDProblem.target
  rw [zeroProblem_denom]
  simp [zeroProblem, clipHigh, clipLow, Fin.sum_univ_two]
  ring

theorem zeroProblem_sweep (i : ℕ) (x y : ℝ) (hy : y ≠ 0) (hi : i < 2 ∨ x ≠ 0) :
    pureSweep zeroProblem i (List.finRange 2) ![x, y] = ![-(y / 2), y / 4] := by
  have : List.finRange 2 = [0, 1] := by decide
  rw [this, pureSweep_cons, pureSweep_cons, pureSweep_nil]
  have e0 : pureStep zeroProblem i ![x, y] 0 = ![-(y / 2), y] := by
    rw [pureStep_eq_update _ (by simpa using hi), zeroProblem_step0]
    ext k; fin_cases k <;> simp
  rw [e0, pureStep_eq_update _ (Or.inr (by simpa using hy)), zeroProblem_step1]
  ext k; fin_cases k
  · simp
  · simp; ring

theorem zeroProblem_seq (perm : ℕ → List (Fin 2)) (n : ℕ) :
    cdSeq zeroProblem .cyclic perm ![0, 1] (n + 1) = ![-(2 / 4 ^ (n + 1)), 1 / 4 ^ (n + 1)] := by
  have ho : ∀ i, cdOrder .cyclic perm i = List.finRange 2 := fun i => by unfold cdOrder; simp
  induction n with
  | zero =>
    rw [cdSeq_succ, ho]
    change pureSweep zeroProblem 1 (List.finRange 2) ![0, 1] = _
    rw [zeroProblem_sweep 1 0 1 one_ne_zero (Or.inl (by norm_num))]
    norm_num
  | succ n ih =>
    have h4 : (4 : ℝ) ^ (n + 1) ≠ 0 := by positivity
    rw [cdSeq_succ, ho, ih, zeroProblem_sweep _ _ _ (by positivity)
      (Or.inr (neg_ne_zero.mpr (by positivity)))]
    congr 1
    · rw [pow_succ 4 (n + 1)]; field_simp; norm_num
    · congr 1
      rw [pow_succ 4 (n + 1)]; field_simp

/-- C97, the exception is necessary: when the sweeps tend to the zero vector the test need not succeed, because the
tolerance is relative to the largest coefficient.  In the unpenalised problem `G = [[1,1/2],[1/2,1]]`, `h = 0` started at `(0, 1)` every
sweep divides the coefficients by four, so for every tolerance below one no sweep passes the test and every
limit `m` is exhausted, though the coefficients `(−2/4ᵐ⁺¹, 1/4ᵐ⁺¹)` are arbitrarily close to the optimum zero. -/
theorem C97_zero_limit (perm : ℕ → List (Fin 2)) (tol : ℝ) (htol : tol < 1) (m : ℕ) :
    onlineCD zeroProblem .cyclic perm tol m ![0, 1]
      = .ok (![-(2 / 4 ^ (m + 1)), 1 / 4 ^ (m + 1)], m + 1) := by
  have hz : zeroProblem.NoZero := fun j => by rw [zeroProblem_denom]; norm_num
  have hnot : ∀ n, ¬ cdConverged tol (cdSeq zeroProblem .cyclic perm ![0, 1] (n + 1))
      (cdSeq zeroProblem .cyclic perm ![0, 1] n) := by
    intro n hc
    unfold cdConverged at hc
    have h4 : (0 : ℝ) < 4 ^ (n + 1) := by positivity
    have hmax : maxAbs (cdSeq zeroProblem .cyclic perm ![0, 1] (n + 1)) = 2 / 4 ^ (n + 1) := by
      rw [zeroProblem_seq]
      refine le_antisymm (maxAbs_le (by positivity) fun j => ?_) ?_
      · fin_cases j
        · simp only [Fin.zero_eta, Matrix.cons_val_zero, abs_neg]
          rw [abs_of_pos (by positivity)]
        · simp only [Fin.mk_one, Matrix.cons_val_one, Matrix.cons_val_fin_one]
          rw [abs_of_pos (by positivity)]
          gcongr; norm_num
      · have := abs_le_maxAbs (![-(2 / 4 ^ (n + 1)), 1 / 4 ^ (n + 1)] : Row 2) 0
        refine le_trans (le_of_eq ?_) this
        simp only [Matrix.cons_val_zero, abs_neg]
        rw [abs_of_pos (by positivity)]
    rw [hmax] at hc
    have h1 := abs_le_maxAbs (cdSeq zeroProblem .cyclic perm ![0, 1] (n + 1)
      - cdSeq zeroProblem .cyclic perm ![0, 1] n) 1
    have hpos : 0 < 2 / (4 : ℝ) ^ (n + 1) := by positivity
    have h3 : |(cdSeq zeroProblem .cyclic perm ![0, 1] (n + 1)
        - cdSeq zeroProblem .cyclic perm ![0, 1] n) 1| = 3 / 4 ^ (n + 1) := by
      rw [Pi.sub_apply, zeroProblem_seq]
      cases n with
      | zero =>
        change |(1 / 4 ^ (0 + 1) : ℝ) - 1| = _
        rw [abs_sub_comm, abs_of_pos] <;> norm_num
      | succ n =>
        rw [zeroProblem_seq]
        change |(1 / 4 ^ (n + 1 + 1) : ℝ) - 1 / 4 ^ (n + 1)| = _
        have h5 : (0 : ℝ) < 4 ^ (n + 1) := by positivity
        have : (1 / 4 ^ (n + 1 + 1) : ℝ) - 1 / 4 ^ (n + 1) = -(3 / 4 ^ (n + 1 + 1)) := by
          rw [pow_succ 4 (n + 1)]; field_simp; norm_num
        rw [this, abs_neg, abs_of_pos (by positivity)]
    rw [h3] at h1
    have h6 : 3 / (4 : ℝ) ^ (n + 1) = 3 / 2 * (2 / 4 ^ (n + 1)) := by ring
    rw [h6] at h1
    nlinarith
  obtain ⟨q, hq⟩ : ∃ q, onlineCD zeroProblem .cyclic perm tol m ![0, 1] = .ok q := ⟨_, onlineCD_eq _ hz _ _ _ _ _⟩
  obtain ⟨r, n⟩ := q
  obtain ⟨_, h1, h2, rfl, h5⟩ := onlineCD_seq hq
  have hn : n = m + 1 := by
    rcases Nat.lt_or_eq_of_le h2 with hlt | heq
    · exfalso
      have := h5 hlt
      obtain ⟨k, rfl⟩ : ∃ k, n = k + 1 := ⟨n - 1, by omega⟩
      exact hnot k this
    · exact heq
  rw [hq, hn, zeroProblem_seq]

/-- Non-vacuity of the last clause of `C97_converges`: the sweeps of `zeroProblem` never produce a zero
coefficient, so the limit is the optimum over all coefficient vectors. -/
example : ∃ (r : ℕ → Row 2) (n : ℕ → ℕ) (L : Row 2),
    (∀ m, onlineCD zeroProblem .cyclic (fun _ => List.finRange 2) 0 m ![0, 1] = .ok (r m, n m)) ∧
    Tendsto r atTop (𝓝 L) ∧ ∀ c, enetObjective zeroProblem.G zeroProblem.h zeroProblem.lam zeroProblem.alpha
      zeroProblem.reg L ≤ enetObjective zeroProblem.G zeroProblem.h zeroProblem.lam zeroProblem.alpha
        zeroProblem.reg c := by
  obtain ⟨r, k, L, h1, h2, _, h4⟩ := C97_converges zeroProblem
    (by ext i j; fin_cases i <;> fin_cases j <;> simp [zeroProblem, Matrix.transpose])
    (by simp [zeroProblem]) (by simp [zeroProblem]) (1 / 2) (by norm_num) zeroProblem_curved
    (fun j l u h => by simp [zeroProblem] at h) .cyclic (fun _ => List.finRange 2) (fun _ => List.Perm.refl _) ![0, 1]
  refine ⟨r, k, L, h1, h2, fun c => h4 c (fun j => ⟨fun l h => by simp [zeroProblem] at h,
    fun u h => by simp [zeroProblem] at h⟩) fun j hj => ?_⟩
  obtain ⟨m, hm⟩ := hj
  have h3 := h1 m
  rw [C97_zero_limit _ 0 (by norm_num) m] at h3
  have h5 : (![-(2 / 4 ^ (m + 1)), 1 / 4 ^ (m + 1)] : Row 2) = r m := congrArg Prod.fst (Except.ok.inj h3)
  rw [← h5] at hm
  exfalso
  fin_cases j <;> simp at hm

end Ondil
