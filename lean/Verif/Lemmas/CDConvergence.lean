import Verif.Lemmas.CDAccuracy
import Mathlib.Topology.MetricSpace.Cauchy
import Mathlib.Topology.Algebra.Order.LiminfLimsup
import Mathlib.Topology.Order.MonotoneConvergence
import Mathlib.Topology.MetricSpace.Pseudo.Pi
import Mathlib.Topology.Instances.Real.Lemmas

/-! # Lemmas: the sequence of the sweeps of coordinate descent -/

open scoped BigOperators Topology
open Filter

namespace Ondil

variable {p : ℕ}

theorem cdOrder_perm (sel : Selection) {perm : ℕ → List (Fin p)}
    (hperm : ∀ i, (perm i).Perm (List.finRange p)) (i : ℕ) :
    (cdOrder sel perm i).Perm (List.finRange p) := by
  unfold cdOrder; split
  · exact hperm _
  · exact List.Perm.refl _

/-- The coefficients after `n` sweeps. -/
noncomputable def cdSeq (P : CDProblem p) (sel : Selection) (perm : ℕ → List (Fin p)) (b : Row p) (n : ℕ) :
    Row p :=
  afterSweeps (fun i b => pureSweep P i (cdOrder sel perm i) b) n b

theorem cdSeq_succ (P : CDProblem p) (sel : Selection) (perm : ℕ → List (Fin p)) (b : Row p) (n : ℕ) :
    cdSeq P sel perm b (n + 1) = pureSweep P (n + 1) (cdOrder sel perm (n + 1)) (cdSeq P sel perm b n) := rfl

/-- What a call returns, in terms of the sequence of the sweeps. -/
theorem onlineCD_seq {P : CDProblem p} {sel : Selection} {perm : ℕ → List (Fin p)} {tol : ℝ} {m : ℕ}
    {b r : Row p} {n : ℕ} (hr : onlineCD P sel perm tol m b = .ok (r, n)) :
    P.NoZero ∧ 1 ≤ n ∧ n ≤ m + 1 ∧ r = cdSeq P sel perm b n ∧
      (n < m + 1 → cdConverged tol (cdSeq P sel perm b n) (cdSeq P sel perm b (n - 1))) := by
  obtain ⟨hz, e⟩ := (onlineCD_ok_iff ..).mp hr
  obtain ⟨k, h1, h2, h3, h4⟩ := pureLoop_count (fun i b => pureSweep P i (cdOrder sel perm i) b)
    (cdConverged tol) m b 0 (Nat.zero_le _)
  unfold pureCD at e
  rw [show b = afterSweeps (fun i b => pureSweep P i (cdOrder sel perm i) b) 0 b from rfl, h3] at e
  have hk : k = n := congrArg Prod.snd e
  have hs : afterSweeps (fun i b => pureSweep P i (cdOrder sel perm i) b) k b = r := congrArg Prod.fst e
  subst hk
  exact ⟨hz, h1, h2, hs.symm, h4⟩

theorem pureSweep_zero (P : CDProblem p) {i : ℕ} (hi : 2 ≤ i) (JJ : List (Fin p)) (b : Row p) (j : Fin p)
    (h : b j = 0) : pureSweep P i JJ b j = 0 := by
  induction JJ generalizing b with
  | nil => exact h
  | cons k JJ ih =>
    rw [pureSweep_cons]
    refine ih _ ?_
    by_cases hk : j = k
    · subst hk
      unfold pureStep
      rw [if_neg (by push Not; exact ⟨hi, h⟩)]; exact h
    · rw [pureStep_apply_ne _ _ _ hk]; exact h

/-- A coefficient that is zero after some sweep stays zero. -/
theorem cdSeq_zero (P : CDProblem p) (sel : Selection) (perm : ℕ → List (Fin p)) (b : Row p) {n : ℕ}
    (hn : 1 ≤ n) (j : Fin p) (h : cdSeq P sel perm b n j = 0) (m : ℕ) (hm : n ≤ m) :
    cdSeq P sel perm b m j = 0 := by
  induction m, hm using Nat.le_induction with
  | base => exact h
  | succ m hm ih => exact pureSweep_zero P (by omega) _ _ j ih

theorem cdSeq_feasible (P : CDProblem p) (hb : BoundsOk P.lower P.upper) (sel : Selection)
    (perm : ℕ → List (Fin p)) (b : Row p) (n : ℕ) : Feasible P.lower P.upper (cdSeq P sel perm b (n + 1)) := by
  induction n with
  | zero =>
    exact fun j => pureSweep_covers_bounds P hb (by norm_num) _ _ j (by
      rw [Nat.zero_add, cdOrder_one]; exact List.mem_finRange j)
  | succ n ih => exact pureSweep_feasible P hb _ _ _ ih

/-- A sweep that changes nothing is followed only by sweeps that change nothing. -/
theorem cdSeq_const (P : CDProblem p) (sel : Selection) {perm : ℕ → List (Fin p)}
    (hperm : ∀ i, (perm i).Perm (List.finRange p)) (b : Row p) {n : ℕ}
    (h : cdSeq P sel perm b (n + 1) = cdSeq P sel perm b n) (m : ℕ) (hm : n ≤ m) :
    cdSeq P sel perm b m = cdSeq P sel perm b n := by
  have hJ := cdOrder_perm sel hperm (n + 1)
  have hfix := pureSweep_fixed P _ _ (hJ.nodup_iff.mpr (List.nodup_finRange p)) _ h
  have hstep : ∀ i, n + 1 ≤ i → ∀ j, pureStep P i (cdSeq P sel perm b n) j = cdSeq P sel perm b n := by
    intro i hi j
    have h1 : pureStep P (n + 1) (cdSeq P sel perm b n) j = cdSeq P sel perm b n := hfix j (hJ.mem_iff.mpr (List.mem_finRange j))
    by_cases hv : i < 2 ∨ cdSeq P sel perm b n j ≠ 0
    · rw [pureStep_eq_update P hv]
      rw [pureStep_eq_update P (hv.imp (fun h => by omega) id)] at h1
      exact h1
    · unfold pureStep; rw [if_neg hv]
  have hsweep : ∀ i, n + 1 ≤ i → ∀ JJ, pureSweep P i JJ (cdSeq P sel perm b n) = cdSeq P sel perm b n := by
    intro i hi JJ
    induction JJ with
    | nil => rfl
    | cons j JJ ih => rw [pureSweep_cons, hstep i hi, ih]
  induction m, hm using Nat.le_induction with
  | base => rfl
  | succ m hm ih => rw [cdSeq_succ, ih, hsweep _ (by omega)]

/-- With tolerance zero the call with limit `m` returns the state after `m + 1` sweeps. -/
theorem onlineCD_zero_tol {P : CDProblem p} (sel : Selection) {perm : ℕ → List (Fin p)}
    (hperm : ∀ i, (perm i).Perm (List.finRange p)) {m : ℕ} {b r : Row p} {n : ℕ}
    (hr : onlineCD P sel perm 0 m b = .ok (r, n)) : r = cdSeq P sel perm b (m + 1) := by
  obtain ⟨_, h1, h2, rfl, h4⟩ := onlineCD_seq hr
  rcases Nat.lt_or_eq_of_le h2 with hlt | heq
  · have := converged_zero (h4 hlt)
    obtain ⟨k, rfl⟩ : ∃ k, n = k + 1 := ⟨n - 1, by omega⟩
    rw [Nat.add_sub_cancel] at this
    rw [cdSeq_const P sel hperm b this (k + 1) (by omega), cdSeq_const P sel hperm b this (m + 1) (by omega)]
  · rw [heq]

/-- A loop whose test succeeds somewhere ends at the same place for every sufficiently large limit. -/
theorem pureLoop_first {S : Type*} (sweep : ℕ → S → S) (conv : S → S → Prop) (s0 : S) (k : ℕ)
    (hk : conv (afterSweeps sweep (k + 1) s0) (afterSweeps sweep k s0)) (i : ℕ) (hi : i ≤ k) :
    ∃ n, i + 1 ≤ n ∧ ∀ m, n ≤ m →
      pureLoop sweep conv m i (afterSweeps sweep i s0) = (afterSweeps sweep n s0, n) := by
  induction hd : k - i generalizing i with
  | zero =>
    obtain rfl : i = k := by omega
    refine ⟨i + 1, le_rfl, fun m _ => ?_⟩
    rw [pureLoop_eq, if_pos]
    · rfl
    · exact hk
  | succ d ih =>
    by_cases hc : conv (afterSweeps sweep (i + 1) s0) (afterSweeps sweep i s0)
    · refine ⟨i + 1, le_rfl, fun m _ => ?_⟩
      rw [pureLoop_eq, if_pos]
      · rfl
      · exact hc
    · obtain ⟨n, h1, h2⟩ := ih (i + 1) (by omega) (by omega)
      refine ⟨n, by omega, fun m hm => ?_⟩
      rw [pureLoop_eq, if_neg, if_neg (by omega)]
      · exact h2 m hm
      · exact hc

/-- The change made by sweep `n + 2`. -/
noncomputable def cdChange (P : CDProblem p) (sel : Selection) (perm : ℕ → List (Fin p)) (b : Row p) (n : ℕ) :
    ℝ :=
  maxAbs (cdSeq P sel perm b (n + 2) - cdSeq P sel perm b (n + 1))

section Convergence

variable (P : CDProblem p) (hG : P.G.IsSymm) (hlam : 0 ≤ P.lam) (ha0 : 0 ≤ P.alpha) {mu : ℝ} (hmu : 0 < mu)
  (hcv : CurvedAtLeast P.G P.lam P.alpha P.reg mu) (hb : BoundsOk P.lower P.upper)
  (sel : Selection) {perm : ℕ → List (Fin p)} (hperm : ∀ i, (perm i).Perm (List.finRange p)) (b : Row p)

include hG hlam ha0 hmu hcv hb hperm

theorem cdSeq_decrease (n : ℕ) (k : Fin p) :
    enetObjective P.G P.h P.lam P.alpha P.reg (cdSeq P sel perm b (n + 2))
        + mu / 2 * (cdSeq P sel perm b (n + 2) k - cdSeq P sel perm b (n + 1) k) ^ 2
      ≤ enetObjective P.G P.h P.lam P.alpha P.reg (cdSeq P sel perm b (n + 1)) :=
  pureSweep_decrease P hG hlam ha0 hmu (denom_of_curved P hcv) hb _ _
    ((cdOrder_perm sel hperm _).nodup_iff.mpr (List.nodup_finRange p)) _ (cdSeq_feasible P hb sel perm b n) k

theorem cdSeq_antitone :
    Antitone fun n => enetObjective P.G P.h P.lam P.alpha P.reg (cdSeq P sel perm b (n + 1)) := by
  refine antitone_nat_of_succ_le fun n => ?_
  exact (pureSweep_objective P hG hlam ha0 (fun j => lt_of_lt_of_le hmu (denom_of_curved P hcv j)) hb _ _ _
    (cdSeq_feasible P hb sel perm b n)).2

theorem cdChange_tendsto : Tendsto (cdChange P sel perm b) atTop (𝓝 0) := by
  set F := fun n => enetObjective P.G P.h P.lam P.alpha P.reg (cdSeq P sel perm b (n + 1)) with hF
  have hanti : Antitone F := cdSeq_antitone P hG hlam ha0 hmu hcv hb sel hperm b
  have hlim := tendsto_atTop_ciInf hanti
    ⟨_, by rintro _ ⟨n, rfl⟩; exact enetObjective_below P hlam ha0 hmu hcv _⟩
  have hdiff : Tendsto (fun n => Real.sqrt (2 / mu * (F n - F (n + 1)))) atTop (𝓝 0) := by
    have h1 : Tendsto (fun n => F n - F (n + 1)) atTop (𝓝 0) := by
      have := hlim.sub (hlim.comp (tendsto_add_atTop_nat 1))
      rw [sub_self] at this
      exact this
    have h2 := (h1.const_mul (2 / mu)).sqrt
    rw [mul_zero, Real.sqrt_zero] at h2
    exact h2
  refine squeeze_zero (fun n => maxAbs_nonneg _) (fun n => ?_) hdiff
  refine maxAbs_le (Real.sqrt_nonneg _) fun k => ?_
  refine Real.abs_le_sqrt ?_
  have := cdSeq_decrease P hG hlam ha0 hmu hcv hb sel hperm b n k
  have h2 : mu / 2 * (cdSeq P sel perm b (n + 2) k - cdSeq P sel perm b (n + 1) k) ^ 2 ≤ F n - F (n + 1) := by
    simp only [hF]; linarith
  rw [Pi.sub_apply, div_mul_eq_mul_div, le_div_iff₀ hmu]
  linarith

/-- Accuracy of sweep `n + 2`. -/
theorem cdSeq_accuracy (n : ℕ) (c : Row p) (hc : Feasible P.lower P.upper c)
    (hz : ∀ j, cdSeq P sel perm b (n + 1) j = 0 → c j = 0) :
    enetObjective P.G P.h P.lam P.alpha P.reg (cdSeq P sel perm b (n + 2))
        + mu / 4 * ∑ j, (c j - cdSeq P sel perm b (n + 2) j) ^ 2
      ≤ enetObjective P.G P.h P.lam P.alpha P.reg c
        + cdChange P sel perm b n ^ 2 / mu * ∑ j, coupling P.G j ^ 2 := by
  refine pureSweep_accuracy_curved P hG hlam ha0 (fun j => lt_of_lt_of_le hmu (denom_of_curved P hcv j)) hmu hcv
    (n + 2) _ (cdOrder_perm sel hperm _) (cdSeq P sel perm b (n + 1)) _ (fun k => ?_) c hc fun j => ?_
  · exact abs_le_maxAbs (cdSeq P sel perm b (n + 2) - cdSeq P sel perm b (n + 1)) k
  · by_cases h : cdSeq P sel perm b (n + 1) j = 0
    · right
      rw [hz j h]
      exact (cdSeq_zero P sel perm b (n := n + 1) (by omega) j h (n + 2) (by omega)).symm
    · exact Or.inl (Or.inr h)

theorem cdSeq_cauchy : CauchySeq (cdSeq P sel perm b) := by
  -- from some sweep on the zero coefficients are the same
  have hev : ∀ᶠ N in atTop, ∀ j, (∃ n, 1 ≤ n ∧ cdSeq P sel perm b n j = 0) →
      ∀ n, N ≤ n → cdSeq P sel perm b n j = 0 := by
    rw [eventually_all]
    intro j
    by_cases h : ∃ n, 1 ≤ n ∧ cdSeq P sel perm b n j = 0
    · obtain ⟨n, hn, h0⟩ := h
      filter_upwards [eventually_ge_atTop n] with N hN _ k hk
      exact cdSeq_zero P sel perm b hn j h0 k (by omega)
    · exact Eventually.of_forall fun N hN => absurd hN h
  obtain ⟨N, hN⟩ := hev.exists
  set K := Real.sqrt (4 * (∑ j, coupling P.G j ^ 2)) / mu with hK
  have hS : 0 ≤ ∑ j, coupling P.G j ^ 2 := Finset.sum_nonneg fun j _ => sq_nonneg _
  have hK0 : 0 ≤ K := div_nonneg (Real.sqrt_nonneg _) hmu.le
  have hdist : ∀ n m, n ≤ m → dist (cdSeq P sel perm b (n + (N + 2))) (cdSeq P sel perm b (m + (N + 2)))
      ≤ cdChange P sel perm b (n + N) * K := by
    intro n m hnm
    have hδ : 0 ≤ cdChange P sel perm b (n + N) := maxAbs_nonneg _
    rw [dist_pi_le_iff (mul_nonneg hδ hK0)]
    intro k
    rw [Real.dist_eq, abs_sub_comm]
    have hacc := cdSeq_accuracy P hG hlam ha0 hmu hcv hb sel hperm b (n + N) (cdSeq P sel perm b (m + (N + 2)))
      (cdSeq_feasible P hb sel perm b (m + (N + 1))) (fun j hj => hN j ⟨n + N + 1, by omega, hj⟩ _ (by omega))
    have hmono : enetObjective P.G P.h P.lam P.alpha P.reg (cdSeq P sel perm b (m + (N + 2)))
        ≤ enetObjective P.G P.h P.lam P.alpha P.reg (cdSeq P sel perm b (n + N + 2)) := cdSeq_antitone P hG hlam ha0 hmu hcv hb sel hperm b
      (show n + N + 1 ≤ m + (N + 1) by omega)
    have hle : mu / 4 * ∑ j, (cdSeq P sel perm b (m + (N + 2)) j - cdSeq P sel perm b (n + N + 2) j) ^ 2
        ≤ cdChange P sel perm b (n + N) ^ 2 / mu * ∑ j, coupling P.G j ^ 2 := by linarith
    have hone : (cdSeq P sel perm b (m + (N + 2)) k - cdSeq P sel perm b (n + N + 2) k) ^ 2
        ≤ ∑ j, (cdSeq P sel perm b (m + (N + 2)) j - cdSeq P sel perm b (n + N + 2) j) ^ 2 :=
      Finset.single_le_sum (f := fun j => (cdSeq P sel perm b (m + (N + 2)) j
        - cdSeq P sel perm b (n + N + 2) j) ^ 2) (fun j _ => sq_nonneg _) (Finset.mem_univ k)
    refine abs_le_of_sq_le_sq ?_ (mul_nonneg hδ hK0)
    rw [mul_pow, hK, div_pow, Real.sq_sqrt (by positivity)]
    have h5 : (cdSeq P sel perm b (m + (N + 2)) k - cdSeq P sel perm b (n + N + 2) k) ^ 2
        ≤ 4 / mu * (cdChange P sel perm b (n + N) ^ 2 / mu * ∑ j, coupling P.G j ^ 2) := by
      rw [div_mul_eq_mul_div, le_div_iff₀ hmu]
      nlinarith
    refine le_trans h5 (le_of_eq ?_)
    field_simp
  have hc : CauchySeq fun n => cdSeq P sel perm b (n + (N + 2)) := by
    refine cauchySeq_of_le_tendsto_0' (fun n => cdChange P sel perm b (n + N) * K) hdist ?_
    have := ((cdChange_tendsto P hG hlam ha0 hmu hcv hb sel hperm b).comp (tendsto_add_atTop_nat N)).mul_const K
    rw [zero_mul] at this
    exact this
  exact (cauchySeq_shift (N + 2)).mp hc

omit hG hlam ha0 hmu hcv hb hperm in
theorem enetObjective_continuous : Continuous fun v : Row p => enetObjective P.G P.h P.lam P.alpha P.reg v := by
  unfold enetObjective
  refine ((continuous_const.mul (continuous_finset_sum _ fun i _ => continuous_finset_sum _ fun j _ =>
    ((continuous_apply i).mul continuous_const).mul (continuous_apply j))).sub
    (continuous_finset_sum _ fun j _ => continuous_const.mul (continuous_apply j))).add
    (continuous_const.mul (continuous_finset_sum _ fun j _ => ?_))
  split
  · exact (continuous_const.mul (continuous_apply j).abs).add (continuous_const.mul ((continuous_apply j).pow 2))
  · exact continuous_const

/-- The sweeps converge, and the limit is optimal among the feasible vectors that are zero wherever a sweep
has ever produced a zero. -/
theorem cdSeq_limit : ∃ L, Tendsto (cdSeq P sel perm b) atTop (𝓝 L) ∧ Feasible P.lower P.upper L ∧
    ∀ c, Feasible P.lower P.upper c → (∀ j, (∃ n, 1 ≤ n ∧ cdSeq P sel perm b n j = 0) → c j = 0) →
      enetObjective P.G P.h P.lam P.alpha P.reg L ≤ enetObjective P.G P.h P.lam P.alpha P.reg c := by
  obtain ⟨L, hL⟩ := cauchySeq_tendsto_of_complete (cdSeq_cauchy P hG hlam ha0 hmu hcv hb sel hperm b)
  refine ⟨L, hL, fun j => ?_, fun c hc hz => ?_⟩
  · have hj : Tendsto (fun n => cdSeq P sel perm b (n + 1) j) atTop (𝓝 (L j)) :=
      (tendsto_pi_nhds.mp hL j).comp (tendsto_add_atTop_nat 1)
    exact ⟨fun l hl => ge_of_tendsto' hj fun n => (cdSeq_feasible P hb sel perm b n j).1 l hl,
      fun u hu => le_of_tendsto' hj fun n => (cdSeq_feasible P hb sel perm b n j).2 u hu⟩
  · have hobj : Tendsto (fun n => enetObjective P.G P.h P.lam P.alpha P.reg (cdSeq P sel perm b (n + 2))) atTop
        (𝓝 (enetObjective P.G P.h P.lam P.alpha P.reg L)) :=
      ((enetObjective_continuous P).tendsto L).comp
        (hL.comp (tendsto_add_atTop_nat 2))
    have hrhs : Tendsto (fun n => enetObjective P.G P.h P.lam P.alpha P.reg c
        + cdChange P sel perm b n ^ 2 / mu * ∑ j, coupling P.G j ^ 2) atTop
        (𝓝 (enetObjective P.G P.h P.lam P.alpha P.reg c)) := by
      have := ((((cdChange_tendsto P hG hlam ha0 hmu hcv hb sel hperm b).pow 2).div_const mu).mul_const
        (∑ j, coupling P.G j ^ 2)).const_add (enetObjective P.G P.h P.lam P.alpha P.reg c)
      simpa using this
    refine le_of_tendsto_of_tendsto' hobj hrhs fun n => ?_
    have hacc := cdSeq_accuracy P hG hlam ha0 hmu hcv hb sel hperm b n c hc
      (fun j hj => hz j ⟨n + 1, by omega, hj⟩)
    have : 0 ≤ mu / 4 * ∑ j, (c j - cdSeq P sel perm b (n + 2) j) ^ 2 :=
      mul_nonneg (by linarith) (Finset.sum_nonneg fun j _ => sq_nonneg _)
    linarith

end Convergence

end Ondil
