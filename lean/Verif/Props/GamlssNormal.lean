import Verif.Lemmas.GamlssNormalFit

/-!
# C86: the location of a normal regression is estimated by least squares
-/

open scoped BigOperators

namespace Ondil

variable {p : ℕ}

section

variable {tiny ulp : ℝ} {so : ScipyOracles} {e : Elsewhere} {perm : ∀ J : ℕ, ℕ → ℕ → List (Fin J)}
  {other : MethodOps MethodState}

theorem locWeight_of_mem {σ : ℝ} (h1 : 1 / 10 ^ 5 ≤ σ) (h2 : σ ≤ 10 ^ 5) : locWeight σ = 1 / σ ^ 2 := by
  have h0 : (0 : ℝ) < σ := lt_of_lt_of_le (by norm_num) h1
  have h3 : σ ^ 2 ≤ 10000000000 := by nlinarith
  have h4 : (1 / 10000000000 : ℝ) ≤ σ ^ 2 := by nlinarith
  unfold locWeight fitClip
  rw [max_eq_left, min_eq_left]
  · rw [div_le_iff₀ (by positivity)]
    linarith
  · exact one_div_le_one_div_of_le (by positivity) h3

theorem ScaleOk.of_mem {σ : ℝ} (h1 : 1 / 10 ^ 5 ≤ σ) (h2 : σ ≤ 10 ^ 5) : ScaleOk σ := by
  refine ⟨scaleMin_le_small.trans ?_, h2.trans ?_⟩
  · unfold smallNumber
    exact le_trans (by norm_num) h1
  · unfold largeNumber
    norm_num

theorem locFixed_lsq {J : ℕ} {f : ℝ} (hf : f < 1) {d : List (Obs J)} (hw : NonnegWeights d) (hr : FullRank d) :
    LocFixed f d (lsq f d) := by
  intro σ hσ
  unfold locBeta
  rw [lsq_shift hf hw hr (lsq f d) (r := 1 / σ ^ 2 / locWeight σ)]
  · simp
  · have := hσ.pos
    have := locWeight_pos σ
    positivity
  · exact locWeight_pos σ
  · exact fun o _ => rfl

theorem sum_mul_normalL {J : ℕ} (d : List (Obs J)) (g : Obs J → ℝ) {σ : ℝ} (hσ : σ ≠ 0) :
    (d.map fun o => o.w * (-2 * Dist.normalL o.y (g o) σ)).sum =
      (d.map fun o => o.w * (2 * Real.log σ + 2 * Real.log (Real.sqrt (2 * Real.pi)))).sum +
        (d.map fun o => o.w * (o.y - g o) ^ 2).sum / σ ^ 2 := by
  induction d with
  | nil => simp
  | cons o d ih =>
    simp only [List.map_cons, List.sum_cons, ih]
    unfold Dist.normalL
    field_simp
    ring

/-- **C86** in general: the fit succeeds and the coefficients of the location are the discounted weighted least squares
coefficients.  Missing: responses whose standard deviation is outside of `[1e-5, 1e5]` (there the working weights are
clipped, see `C86_units_matter_fails`), and, if `forget > 0`, data on which the discounted least squares solution is worse
than the mean in the undiscounted sum of squares. -/
theorem C86_least_squares_partial {frames : Bool} {c : GConfig MethodState p} {f : ℝ} {sel : List (Fin p)}
    (h : NormalOptions frames c f sel) (hp : p ≠ 0) {data : List (Obs p)} (h2 : 2 ≤ data.length) (hw : PosWeights data)
    (hv : Varies c.scaleInputs f data) (hr : FullRank (locationObs c.scaleInputs f sel data)) (ht : tiny ≤ 1 / 10 ^ 11)
    (h1 : 1 / 10 ^ 5 ≤ Dist.std 1 (ys data)) (h5 : Dist.std 1 (ys data) ≤ 10 ^ 5)
    (hbetter : ∀ b, IsLeastSquares f (locationObs c.scaleInputs f sel data) b →
      discSSE 0 (locationObs c.scaleInputs f sel data) b ≤
        discSSE 0 (locationObs c.scaleInputs f sel data) (Fin.cons (Dist.mean (ys data)) 0))
    (s₀ : GState MethodState p) :
    ∃ s, GState.fit frames (normalOps tiny ulp so e) (packageMethods perm other) c data s₀ = (.ok (), s) ∧
      ∃ b, s.coef 0 = some (ofVec b) ∧ IsLeastSquares f (locationObs c.scaleInputs f sel data) b := by
  obtain ⟨_, hf1⟩ := h.forget_mem
  have hw' : NonnegWeights (locationObs c.scaleInputs f sel data) := by
    intro o ho
    obtain ⟨o', ho', rfl⟩ := List.mem_map.1 ho
    exact (hw o' ho').le
  have hσ := ScaleOk.of_mem h1 h5
  have hls := lsq_isLeastSquares hf1 hw' hr
  have hys : ys (locationObs c.scaleInputs f sel data) = ys data := by simp [ys, locationObs, Function.comp_def]
  have hws : ws (locationObs c.scaleInputs f sel data) = ws data := by simp [ws, locationObs, Function.comp_def]
  have hb : locBeta f (Dist.std 1 (ys data)) (fun _ => Dist.mean (ys data)) (locationObs c.scaleInputs f sel data) =
      lsq f (locationObs c.scaleInputs f sel data) := by
    refine lsq_response hf1 hw' hr (locWeight_pos _) fun o _ => ?_
    have := hσ.pos
    unfold locWorking
    rw [locWeight_of_mem h1 h5, div_self (by positivity)]
    ring
  have ht' := ht.trans scaleMin_ge
  have hacc : ∀ fv fv', FvAt (locationObs c.scaleInputs f sel data) (fun _ => Dist.mean (ys data)) (Dist.std 1 (ys data)) fv →
      FvAt (locationObs c.scaleInputs f sel data) (fun o => linPred o.x (lsq f (locationObs c.scaleInputs f sel data)))
        (Dist.std 1 (ys data)) fv' →
      ¬ Flt.lt (deviance (normalOps tiny ulp so e) (ys data) (ws data) fv)
        (deviance (normalOps tiny ulp so e) (ys data) (ws data) fv') := by
    intro fv fv' h3 h4
    have e1 := normal_deviance (ulp := ulp) (so := so) (e := e) h3 (ht'.trans hσ.1) hσ.pos
    have e2 := normal_deviance (ulp := ulp) (so := so) (e := e) h4 (ht'.trans hσ.1) hσ.pos
    rw [hys, hws] at e1 e2
    rw [e1, e2, sum_mul_normalL _ _ hσ.pos.ne', sum_mul_normalL _ _ hσ.pos.ne']
    have := hbetter _ hls
    unfold discSSE at this
    rw [discSum_forget_zero, discSum_forget_zero] at this
    have hm : ∀ o ∈ locationObs c.scaleInputs f sel data,
        linPred o.x (Fin.cons (Dist.mean (ys data)) 0) = Dist.mean (ys data) := by
      intro o ho
      obtain ⟨o', _, rfl⟩ := List.mem_map.1 ho
      simp [linPred, Fin.sum_univ_succ]
    rw [List.map_congr_left (f := fun o : Obs (sel.length + 1) => o.w * (o.y - linPred o.x (Fin.cons (Dist.mean (ys data)) 0)) ^ 2)
      (g := fun o : Obs (sel.length + 1) => o.w * (o.y - Dist.mean (ys data)) ^ 2) fun o ho => by simp only [hm o ho]] at this
    change ¬ (_ < _)
    rw [not_lt, add_le_add_iff_left]
    exact div_le_div_of_nonneg_right this (by positivity)
  obtain ⟨_, s, hs, hq⟩ := normal_fit (tiny := tiny) (ulp := ulp) (so := so) (e := e) (perm := perm) (other := other)
    h hp h2 hw hv hr ht' rfl hσ hb (.inr ⟨locFixed_lsq hf1 hw' hr, hacc⟩) s₀ trivial
  exact ⟨s, hs, _, hq, hls⟩

/-- **C86** without discounting: then the least squares solution is at least as good as the mean, so only the range of the
standard deviation of the response remains. -/
theorem C86_undiscounted_partial {frames : Bool} {c : GConfig MethodState p} {sel : List (Fin p)}
    (h : NormalOptions frames c 0 sel) (hp : p ≠ 0) {data : List (Obs p)} (h2 : 2 ≤ data.length) (hw : PosWeights data)
    (hv : Varies c.scaleInputs 0 data) (hr : FullRank (locationObs c.scaleInputs 0 sel data)) (ht : tiny ≤ 1 / 10 ^ 11)
    (h1 : 1 / 10 ^ 5 ≤ Dist.std 1 (ys data)) (h5 : Dist.std 1 (ys data) ≤ 10 ^ 5) (s₀ : GState MethodState p) :
    ∃ s, GState.fit frames (normalOps tiny ulp so e) (packageMethods perm other) c data s₀ = (.ok (), s) ∧
      ∃ b, s.coef 0 = some (ofVec b) ∧ IsLeastSquares 0 (locationObs c.scaleInputs 0 sel data) b := by
  refine C86_least_squares_partial h hp h2 hw hv hr ht h1 h5 (fun b hb => ?_) s₀
  by_cases he : Fin.cons (Dist.mean (ys data)) 0 = b
  · rw [he]
  · exact (hb _ he).le

/-- Renaming the features of a least squares problem. -/
theorem isLeastSquares_cast {n m : ℕ} (hnm : n = m) {f : ℝ} (data : List (Obs p)) (x : Obs p → Row n) (x' : Obs p → Row m)
    (hx : ∀ o ∈ data, x' o = fun i => x o (Fin.cast hnm.symm i)) {b' : Row m}
    (hb : IsLeastSquares f (data.map fun o => (⟨x' o, o.y, o.w⟩ : Obs m)) b') :
    IsLeastSquares f (data.map fun o => (⟨x o, o.y, o.w⟩ : Obs n)) (fun i => b' (Fin.cast hnm i)) := by
  subst hnm
  have : (data.map fun o => (⟨x o, o.y, o.w⟩ : Obs n)) = data.map fun o => (⟨x' o, o.y, o.w⟩ : Obs n) :=
    List.map_congr_left fun o ho => by rw [hx o ho]; rfl
  rw [this]
  exact hb

theorem fullRank_cast {n m : ℕ} (hnm : n = m) (data : List (Obs p)) (x : Obs p → Row n) (x' : Obs p → Row m)
    (hx : ∀ o ∈ data, x' o = fun i => x o (Fin.cast hnm.symm i))
    (hb : FullRank (data.map fun o => (⟨x' o, o.y, o.w⟩ : Obs m))) :
    FullRank (data.map fun o => (⟨x o, o.y, o.w⟩ : Obs n)) := by
  subst hnm
  have : (data.map fun o => (⟨x o, o.y, o.w⟩ : Obs n)) = data.map fun o => (⟨x' o, o.y, o.w⟩ : Obs n) :=
    List.map_congr_left fun o ho => by rw [hx o ho]; rfl
  rw [this]
  exact hb

theorem ofVec_cast {n m : ℕ} (hnm : n = m) (b : Row m) : ofVec (fun i => b (Fin.cast hnm i)) = ofVec b := by
  subst hnm
  rfl

/-- **C86**, the two estimators agree: an `OnlineLinearModel` with ordinary least squares and a normal distributional
regression on all columns compute the same coefficients of the mean from the same data. -/
theorem C86_linear_model_partial {frames : Bool} {c : GConfig MethodState p} {f : ℝ}
    (h : NormalOptions frames c f (List.finRange p)) {data : List (Obs p)} (h2 : 2 ≤ data.length) (hw : PosWeights data)
    (hv : Varies c.scaleInputs f data) (ht : tiny ≤ 1 / 10 ^ 11)
    (h1 : 1 / 10 ^ 5 ≤ Dist.std 1 (ys data)) (h5 : Dist.std 1 (ys data) ≤ 10 ^ 5)
    (lc : LMConfig p true) (hlm : getEstimationMethod lc.method = .ok .ols) (hlf : lc.forget = f)
    (hls : lc.scaleInputs = c.scaleInputs) {order : ℕ → ℕ → List (Fin (designDim p true))} {l₀ l : LM p true}
    (hlfit : LM.fit lc order data l₀ = (.ok (), l))
    (hbetter : ∀ b, l.coef = some b → discSSE 0 (designObs c.scaleInputs f true data data) b ≤
      discSSE 0 (designObs c.scaleInputs f true data data) (Fin.cons (Dist.mean (ys data)) 0))
    (s₀ : GState MethodState p) :
    ∃ s b, GState.fit frames (normalOps tiny ulp so e) (packageMethods perm other) c data s₀ = (.ok (), s) ∧
      l.coef = some b ∧ s.coef 0 = some (ofVec b) := by
  obtain ⟨hval, _, h3, _⟩ := LM.fit_ok hlfit
  have hw' : NonnegWeights data := fun o ho => (hw o ho).le
  have inv := OlsInv.of_fit hlm hw' hlfit
  obtain ⟨b, hb, hbl⟩ : ∃ b : Row (p + 1), l.coef = some b ∧ _ := inv.leastSquares hval
  rw [hlf, hls] at hbl
  have hrank := inv.isUnit
  rw [isUnit_det_iff_fullRank hval.2.1 _ inv.nonneg, hlf, hls] at hrank
  have hlen : (List.finRange p).length + 1 = p + 1 := by simp
  have hx : ∀ o ∈ data, designRow true (standardise c.scaleInputs f data o.x) = fun i =>
      (Fin.cons 1 fun i => standardise c.scaleInputs f data o.x ((List.finRange p).get i) :
        Row ((List.finRange p).length + 1)) (Fin.cast hlen.symm i) := by
    intro o _
    funext i
    refine Fin.cases rfl (fun j => ?_) i
    have : Fin.cast hlen.symm j.succ = Fin.succ (Fin.cast (by simp) j) := rfl
    rw [this]
    simp [designRow]
    rfl
  have hr' : FullRank (locationObs c.scaleInputs f (List.finRange p) data) := fullRank_cast hlen data _ _ hx hrank
  have hb' : IsLeastSquares f (locationObs c.scaleInputs f (List.finRange p) data) _ :=
    isLeastSquares_cast hlen data _ _ hx hbl
  have hsse : ∀ b : Row (p + 1), discSSE 0 (locationObs c.scaleInputs f (List.finRange p) data) (fun i => b (Fin.cast hlen i)) =
      discSSE 0 (designObs c.scaleInputs f true data data) b := by
    intro b
    unfold discSSE locationObs designObs
    rw [discSum_map, discSum_map]
    refine discSum_congr _ _ fun o ho => ?_
    simp only
    rw [hx o ho]
    congr 3
    unfold linPred
    exact (Fintype.sum_equiv (finCongr hlen) _ _ fun i => by simp [finCongr]).trans rfl
  obtain ⟨s, hs, b2, hb2, hb2l⟩ := C86_least_squares_partial (tiny := tiny) (ulp := ulp) (so := so) (e := e) (perm := perm)
    (other := other) h (fun hp => h3 (.inr hp)) h2 hw hv hr' ht h1 h5 (fun b1 hb1 => by
      rw [isLeastSquares_unique hb1 hb', hsse b]
      have h6 := hsse (Fin.cons (Dist.mean (ys data)) 0)
      have h7 := hbetter b hb
      refine h7.trans_eq (Eq.trans h6.symm ?_)
      congr 1
      funext i
      refine Fin.cases rfl (fun j => ?_) i
      have : Fin.cast hlen j.succ = Fin.succ (Fin.cast (by simp) j) := rfl
      rw [this]
      simp) s₀
  refine ⟨s, b, hs, hb, ?_⟩
  rw [hb2, isLeastSquares_unique hb2l hb', ofVec_cast hlen b]
  rfl

/-! ### Examples and the counterexample -/

/-- The default options with ordinary least squares and given numbers of iterations. -/
noncomputable def normalConfig (outer inner : ℕ) : GConfig MethodState 1 where
  equation := none
  forget := .value 0
  method := .value (some .ols)
  scaleInputs := .off
  fitIntercept := .value true
  regularizeIntercept := .value false
  ic := .value .aic
  modelSelection := .localRss
  prefitInitial := 0
  prefitUpdate := 0
  stepSize := .value 1
  debug := false
  paramOrder := none
  cautiousUpdates := false
  condStartVal := false
  maxOuter := outer
  maxInner := inner
  absTolOuter := 1 / 1000
  absTolInner := 1 / 1000
  relTolOuter := 1 / 100000
  relTolInner := 1 / 100000
  minItOuter := 1

theorem normalConfig_options (frames : Bool) {outer inner : ℕ} (ho : 1 ≤ outer) (hi : 1 ≤ inner) :
    NormalOptions frames (normalConfig outer inner) 0 [0] where
  valid := by
    refine ⟨⟨le_refl _, by norm_num⟩, trivial, trivial, trivial, by simp [normalConfig, OptArg.OnlyValue], ho, hi, ?_, ?_, ?_, ?_⟩ <;>
      norm_num [normalConfig]
  method := rfl
  intercept := rfl
  forget := rfl
  step := rfl
  cond := rfl
  order := rfl
  location := ⟨by simp [GConfig.equationFor, normalConfig, Equation.accepted], by simp [GConfig.equationFor, normalConfig],
    Selects.all⟩
  scale := rfl
  minIt := ⟨le_refl _, ho⟩
  prefit := Nat.zero_le _

/-- Three observations on the line `y = u x`. -/
def lineObs (u : ℝ) : List (Obs 1) := [⟨![-1], -u, 1⟩, ⟨![0], 0, 1⟩, ⟨![1], u, 1⟩]

theorem lineObs_pos (u : ℝ) : PosWeights (lineObs u) := by
  intro o ho
  simp only [lineObs, List.mem_cons, List.not_mem_nil, or_false] at ho
  rcases ho with rfl | rfl | rfl <;> norm_num

theorem lineObs_mean (u : ℝ) : Dist.mean (ys (lineObs u)) = 0 := by simp [Dist.mean, ys, lineObs]

theorem lineObs_std {u : ℝ} (hu : 0 ≤ u) : Dist.std 1 (ys (lineObs u)) = u := by
  unfold Dist.std Dist.ssd
  rw [lineObs_mean]
  simp only [ys, lineObs, List.map_cons, List.map_nil, List.sum_cons, List.sum_nil, List.length_cons, List.length_nil]
  rw [show ((-u - 0) ^ 2 + ((0 - 0) ^ 2 + ((u - 0) ^ 2 + 0))) / ((0 + 1 + 1 + 1 - 1 : ℕ) : ℝ) = u ^ 2 by norm_num]
  exact Real.sqrt_sq hu

theorem lineObs_location (u : ℝ) : locationObs .off 0 [0] (lineObs u) =
    [⟨![1, -1], -u, 1⟩, ⟨![1, 0], 0, 1⟩, ⟨![1, 1], u, 1⟩] := by
  have hx : ∀ a : ℝ, (Fin.cons 1 fun i => standardise (p := 1) .off 0 (lineObs u) ![a] ([(0 : Fin 1)].get i) : Row 2) = ![1, a] := by
    intro a
    rw [standardise_off rfl]
    funext i
    fin_cases i <;> rfl
  exact List.cons_eq_cons.2 ⟨congrArg (fun v => Obs.mk v (-u) 1) (hx (-1)), List.cons_eq_cons.2
    ⟨congrArg (fun v => Obs.mk v 0 1) (hx 0), List.cons_eq_cons.2 ⟨congrArg (fun v => Obs.mk v u 1) (hx 1), rfl⟩⟩⟩

theorem lineObs_fullRank (u : ℝ) : FullRank (locationObs .off 0 [0] (lineObs u)) := by
  rw [lineObs_location]
  intro v hv
  have h1 := hv ⟨![1, 0], 0, 1⟩ (by simp) (by norm_num)
  have h2 := hv ⟨![1, 1], u, 1⟩ (by simp) (by norm_num)
  simp [linPred, Fin.sum_univ_two] at h1 h2
  funext i
  fin_cases i
  · simpa using h1
  · have : v 1 = 0 := by linarith
    simpa using this

/-- The line is the least squares solution. -/
theorem lineObs_lsq (u : ℝ) : lsq 0 (locationObs .off 0 [0] (lineObs u)) = ![0, u] := by
  have hw : NonnegWeights (locationObs .off 0 [0] (lineObs u)) := by
    intro o ho
    obtain ⟨o', ho', rfl⟩ := List.mem_map.1 ho
    exact (lineObs_pos u o' ho').le
  have hls := lsq_isLeastSquares (f := 0) (by norm_num) hw (lineObs_fullRank u)
  by_contra hne
  have h1 := hls ![0, u] (Ne.symm hne)
  have h2 : discSSE 0 (locationObs .off 0 [0] (lineObs u)) ![0, u] = 0 := by
    rw [lineObs_location]
    unfold discSSE
    simp [discSum_forget_zero, linPred, Fin.sum_univ_two]
  have h3 : 0 ≤ discSSE 0 (locationObs .off 0 [0] (lineObs u)) (lsq 0 (locationObs .off 0 [0] (lineObs u))) :=
    discSum_nonneg (by norm_num) _ fun o ho => mul_nonneg (hw o ho) (sq_nonneg _)
  linarith

/-- Non-vacuity of C86, with the default options and data on the line `y = x`. -/
theorem lineObs_default_fit (frames : Bool) (s₀ : GState MethodState 1) :
    ∃ s, GState.fit frames (normalOps (1 / 10 ^ 300) ulp so e) (packageMethods perm other) (normalConfig 30 30) (lineObs 1) s₀ =
        (.ok (), s) ∧ s.coef 0 = some (ofVec ![0, 1]) := by
  obtain ⟨s, hs, b, hb, hl⟩ := C86_undiscounted_partial (tiny := 1 / 10 ^ 300) (ulp := ulp) (so := so) (e := e) (perm := perm)
    (other := other) (normalConfig_options frames (outer := 30) (inner := 30) (by norm_num) (by norm_num)) (by norm_num)
    (data := lineObs 1) (by simp [lineObs]) (lineObs_pos 1) (fun j hj => absurd hj id) (lineObs_fullRank 1)
    (one_div_le_one_div_of_le (by positivity) (pow_le_pow_right₀ (by norm_num) (by norm_num))) (by rw [lineObs_std (by norm_num)]; norm_num)
    (by rw [lineObs_std (by norm_num)]; norm_num) s₀
  refine ⟨s, hs, ?_⟩
  rw [hb, ← lineObs_lsq 1]
  refine congrArg (fun v => some (ofVec v)) (isLeastSquares_unique hl (lsq_isLeastSquares (by norm_num) ?_ (lineObs_fullRank 1)))
  intro o ho
  obtain ⟨o', ho', rfl⟩ := List.mem_map.1 ho
  exact (lineObs_pos 1 o' ho').le

/-- One iteration of the fit, for data on the line `y = u x` with `1e5 ≤ u ≤ 1e15`: the slope is `1e10 / u`. -/
theorem lineObs_fit (frames : Bool) (ht : tiny ≤ 1 / 10 ^ 11) {u : ℝ} (h1 : 10 ^ 5 ≤ u) (h2 : u ≤ 10 ^ 15)
    (s₀ : GState MethodState 1) :
    ∃ s, GState.fit frames (normalOps tiny ulp so e) (packageMethods perm other) (normalConfig 1 1) (lineObs u) s₀ =
        (.ok (), s) ∧ s.coef 0 = some (ofVec ![0, 10 ^ 10 / u]) := by
  have h0 : (0 : ℝ) < u := lt_of_lt_of_le (by norm_num) h1
  have hσ : ScaleOk u := by
    refine ⟨scaleMin_le_small.trans ?_, h2⟩
    unfold smallNumber
    exact le_trans (by norm_num) h1
  have hlw : locWeight u = 1 / 10 ^ 10 := by
    have h3 : 1 / u ^ 2 ≤ 1 / 10000000000 := one_div_le_one_div_of_le (by norm_num) (by nlinarith)
    unfold locWeight fitClip
    rw [max_eq_right h3, min_eq_left (by norm_num)]
    norm_num
  have hw : NonnegWeights (locationObs .off 0 [0] (lineObs u)) := by
    intro o ho
    obtain ⟨o', ho', rfl⟩ := List.mem_map.1 ho
    exact (lineObs_pos u o' ho').le
  have hb : locBeta 0 u (fun _ => Dist.mean (ys (lineObs u))) (locationObs .off 0 [0] (lineObs u)) = ![0, 10 ^ 10 / u] := by
    unfold locBeta
    rw [lsq_shift (by norm_num) hw (lineObs_fullRank u) 0 (r := 10 ^ 10 / u ^ 2) (by positivity) (locWeight_pos u)
      (fun o _ => ?_), lineObs_lsq]
    · funext i
      fin_cases i
      · simp
      · simp
        field_simp
    · unfold locWorking
      rw [lineObs_mean, hlw]
      simp [linPred]
      exact .inl (by field_simp)
  obtain ⟨_, s, hs, hq⟩ := normal_fit (tiny := tiny) (ulp := ulp) (so := so) (e := e) (perm := perm) (other := other)
    (normalConfig_options frames (outer := 1) (inner := 1) (by norm_num) (by norm_num)) (by norm_num)
    (data := lineObs u) (by simp [lineObs]) (lineObs_pos u) (fun j hj => absurd hj id) (lineObs_fullRank u)
    (ht.trans scaleMin_ge) (lineObs_std h0.le).symm hσ hb (.inl ⟨.inr rfl, rfl⟩) s₀ trivial
  exact ⟨s, hs, hq⟩

/-- **C86** fails for responses with a large standard deviation, because the working weights are clipped: with the same
options, one iteration finds the line `y = 1e5 x` exactly, but for the line `y = 1e6 x` (the response in another unit) it
returns the slope `1e4`, a hundredth of the true one. -/
theorem C86_units_matter_fails (frames : Bool) (ht : tiny ≤ 1 / 10 ^ 11) (s₀ : GState MethodState 1) :
    (∃ s, GState.fit frames (normalOps tiny ulp so e) (packageMethods perm other) (normalConfig 1 1) (lineObs (10 ^ 5)) s₀ =
        (.ok (), s) ∧ s.coef 0 = some (ofVec ![0, 10 ^ 5])) ∧
    (∃ s, GState.fit frames (normalOps tiny ulp so e) (packageMethods perm other) (normalConfig 1 1) (lineObs (10 ^ 6)) s₀ =
        (.ok (), s) ∧ s.coef 0 = some (ofVec ![0, 10 ^ 4])) ∧
    ¬ IsLeastSquares 0 (locationObs .off 0 [0] (lineObs (10 ^ 6))) ![0, 10 ^ 4] := by
  refine ⟨?_, ?_, ?_⟩
  · have := lineObs_fit (ulp := ulp) (so := so) (e := e) (perm := perm) (other := other) frames ht (u := 10 ^ 5) (le_refl _)
      (by norm_num) s₀
    norm_num at this ⊢
    exact this
  · have := lineObs_fit (ulp := ulp) (so := so) (e := e) (perm := perm) (other := other) frames ht (u := 10 ^ 6)
      (by norm_num) (by norm_num) s₀
    norm_num at this ⊢
    exact this
  · intro h
    have h1 := h ![0, 10 ^ 6] (by
      intro he
      have := congrFun he 1
      norm_num at this)
    rw [lineObs_location] at h1
    unfold discSSE at h1
    simp [discSum_forget_zero, linPred, Fin.sum_univ_two] at h1
    norm_num at h1

end

end Ondil
