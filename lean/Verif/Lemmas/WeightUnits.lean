import Verif.Lemmas.LinearModelUnits

/-!
# The linear model when the sample weights are measured in another unit
-/

open scoped BigOperators

namespace Ondil

variable {p q : ℕ} {fi : Bool} {k : ℝ}

theorem list_sum_scale (k : ℝ) (l : List ℝ) : (l.map (k * ·)).sum = k * l.sum := by
  induction l with
  | nil => simp
  | cons a l ih => rw [List.map_cons, List.sum_cons, List.sum_cons, ih, mul_add]

/-! ### Sufficient statistics -/

theorem sqrtVec_scale (hk : 0 ≤ k) (v : List ℝ) : sqrtVec (v.map (k * ·)) = (sqrtVec v).map (Real.sqrt k * ·) := by
  unfold sqrtVec
  rw [List.map_map, List.map_map]
  exact List.map_congr_left fun a _ => Real.sqrt_mul hk a

theorem scaleRows_scale (c : ℝ) (X : List (Row p)) (s : List ℝ) :
    scaleRows X (s.map (c * ·)) = (scaleRows X s).map (c • ·) := by
  unfold scaleRows
  induction X generalizing s with
  | nil => rfl
  | cons x X ih =>
    cases s with
    | nil => rfl
    | cons a s =>
      simp only [List.map_cons, List.zipWith_cons_cons, ih]
      congr 1
      funext j
      simp only [Pi.smul_apply, smul_eq_mul]
      ring

theorem tDot_scale (c : ℝ) (A : List (Row p)) : tDot (A.map (c • ·)) (A.map (c • ·)) = (c * c) • tDot A A := by
  ext a b
  simp only [tDot, Matrix.smul_apply, smul_eq_mul]
  induction A with
  | nil => simp
  | cons x A ih =>
    simp only [List.map_cons, List.zipWith_cons_cons, List.sum_cons]
    rw [ih]
    simp only [Pi.smul_apply, smul_eq_mul]
    ring

theorem tDotVec_rows_scale (c : ℝ) (A : List (Row p)) (v : List ℝ) : tDotVec (A.map (c • ·)) v = c • tDotVec A v := by
  funext a
  simp only [tDotVec, Pi.smul_apply, smul_eq_mul]
  induction A generalizing v with
  | nil => simp
  | cons x A ih =>
    cases v with
    | nil => simp
    | cons b v =>
      simp only [List.map_cons, List.zipWith_cons_cons, List.sum_cons]
      rw [ih]
      simp only [Pi.smul_apply, smul_eq_mul]
      ring

theorem zipWith_mul_scale_right (c : ℝ) (y s : List ℝ) :
    List.zipWith (fun a b => a * b) y (s.map (c * ·)) = (List.zipWith (fun a b => a * b) y s).map (c * ·) := by
  induction y generalizing s with
  | nil => rfl
  | cons a y ih =>
    cases s with
    | nil => rfl
    | cons b s =>
      simp only [List.map_cons, List.zipWith_cons_cons, ih]
      rw [mul_left_comm]

theorem weights_mul_scale (k : ℝ) (w f : List ℝ) :
    (WeightArg.array (w.map (k * ·))).mul f = ((WeightArg.array w).mul f).map (k * ·) := zipWith_mul_scale k w f

theorem gramPart_weights (hk : 0 ≤ k) (X : List (Row p)) (w f : List ℝ) :
    tDot (scaleRows X (sqrtVec ((WeightArg.array (w.map (k * ·))).mul f)))
      (scaleRows X (sqrtVec ((WeightArg.array (w.map (k * ·))).mul f))) =
    k • tDot (scaleRows X (sqrtVec ((WeightArg.array w).mul f))) (scaleRows X (sqrtVec ((WeightArg.array w).mul f))) := by
  rw [weights_mul_scale, sqrtVec_scale hk, scaleRows_scale, tDot_scale, Real.mul_self_sqrt hk]

theorem yGramPart_weights (hk : 0 ≤ k) (X : List (Row p)) (y w f : List ℝ) :
    tDotVec (scaleRows X (sqrtVec ((WeightArg.array (w.map (k * ·))).mul f)))
      (List.zipWith (fun a b => a * b) y (sqrtVec ((WeightArg.array (w.map (k * ·))).mul f))) =
    k • tDotVec (scaleRows X (sqrtVec ((WeightArg.array w).mul f)))
      (List.zipWith (fun a b => a * b) y (sqrtVec ((WeightArg.array w).mul f))) := by
  rw [weights_mul_scale, sqrtVec_scale hk, scaleRows_scale, zipWith_mul_scale_right, tDotVec_rows_scale, tDotVec_scale, smul_smul,
    Real.mul_self_sqrt hk]

theorem initGram_weights (hk : 0 ≤ k) (X : List (Row p)) (w : List ℝ) (f : ℝ) :
    initGram X (w.map (k * ·)) f = k • initGram X w f := gramPart_weights hk X w _

theorem initYGram_weights (hk : 0 ≤ k) (X : List (Row p)) (y w : List ℝ) (f : ℝ) :
    initYGram X y (w.map (k * ·)) f = k • initYGram X y w f := yGramPart_weights hk X y w _

theorem headD_scale (k : ℝ) (w : List ℝ) : (w.map (k * ·)).headD 0 = k * w.headD 0 := by cases w <;> simp

theorem updateGram_weights (hk : 0 ≤ k) (G : Matrix (Fin p) (Fin p) ℝ) (X : List (Row p)) (w : List ℝ) (f : ℝ) :
    updateGram (k • G) X f (.array (w.map (k * ·))) = k • updateGram G X f (.array w) := by
  unfold updateGram
  split
  · simp only [WeightArg.one]
    rw [headD_scale, smul_add, mul_smul, smul_comm]
  · simp only
    rw [gramPart_weights hk, smul_add, smul_comm]

theorem updateYGram_weights (hk : 0 ≤ k) (h : Row p) (X : List (Row p)) (y w : List ℝ) (f : ℝ) :
    updateYGram (k • h) X y f (.array (w.map (k * ·))) = k • updateYGram h X y f (.array w) := by
  unfold updateYGram
  split
  · simp only [WeightArg.one]
    rw [headD_scale, smul_add, mul_smul, smul_comm]
  · simp only
    rw [yGramPart_weights hk, smul_add, smul_comm]

theorem inv_smul_weights (hk : k ≠ 0) (G : Matrix (Fin p) (Fin p) ℝ) (hG : IsUnit G.det) : (k • G)⁻¹ = k⁻¹ • G⁻¹ := by
  have := invertibleOfNonzero hk
  rw [Matrix.inv_smul G k hG]
  congr 1
  exact invOf_eq_inv k

theorem isUnit_det_of_rank {G : Matrix (Fin p) (Fin p) ℝ} (h : G.rank = p) : IsUnit G.det := (rank_eq_iff_isUnit_det G).1 h

theorem rank_smul_weights (hk : k ≠ 0) (G : Matrix (Fin p) (Fin p) ℝ) : (k • G).rank = p ↔ G.rank = p := by
  rw [rank_eq_iff_isUnit_det, rank_eq_iff_isUnit_det, Matrix.det_smul, isUnit_iff_ne_zero, isUnit_iff_ne_zero, mul_ne_zero_iff]
  exact and_iff_right (pow_ne_zero _ hk)

theorem initInvertedGram_weights (hk : 0 < k) (X : List (Row p)) (w : List ℝ) (f : ℝ) :
    initInvertedGram X (w.map (k * ·)) f = (initInvertedGram X w f).map (k⁻¹ • ·) := by
  classical
  unfold initInvertedGram
  simp only
  rw [initGram_weights hk.le]
  by_cases h : (initGram X w f).rank = p
  · rw [if_pos h, if_pos ((rank_smul_weights hk.ne' _).2 h), inv_smul_weights hk.ne' _ (isUnit_det_of_rank h)]
    rfl
  · rw [if_neg h, if_neg (fun h' => h ((rank_smul_weights hk.ne' _).1 h'))]
    rfl

theorem updateInvertedGramStep_weights (hk : k ≠ 0) (G : Matrix (Fin p) (Fin p) ℝ) (x : Row p) (f w : ℝ) :
    updateInvertedGramStep (k⁻¹ • G) x f (k * w) = k⁻¹ • updateInvertedGramStep G x f w := by
  unfold updateInvertedGramStep
  have h1 : Matrix.vecMul ((k * w) • x) (k⁻¹ • G) = Matrix.vecMul (w • x) G := by
    rw [Matrix.vecMul_smul, Matrix.smul_vecMul, Matrix.smul_vecMul, smul_smul]
    congr 1
    field_simp
  have h2 : ((k * w) • k⁻¹ • G) * Matrix.vecMulVec x x * (k⁻¹ • G) = k⁻¹ • ((w • G) * Matrix.vecMulVec x x * G) := by
    rw [smul_smul, show k * w * k⁻¹ = w by field_simp, Matrix.mul_smul]
  simp only
  rw [h1, h2, smul_comm _ k⁻¹, ← smul_sub, smul_comm]

theorem updateInvertedGramLoop_weights (hk : k ≠ 0) (f : ℝ) (G : Matrix (Fin p) (Fin p) ℝ) (X : List (Row p)) (w : List ℝ) :
    updateInvertedGramLoop f (k⁻¹ • G) X (w.map (k * ·)) = k⁻¹ • updateInvertedGramLoop f G X w := by
  induction X generalizing w G with
  | nil => simp [updateInvertedGramLoop]
  | cons x X ih =>
    cases w with
    | nil => simp [updateInvertedGramLoop]
    | cons a w =>
      simp only [List.map_cons, updateInvertedGramLoop]
      rw [updateInvertedGramStep_weights hk, ih]

theorem updateInvertedGram_weights (hk : k ≠ 0) (G : Matrix (Fin p) (Fin p) ℝ) (X : List (Row p)) (f : ℝ) (w : List ℝ) :
    updateInvertedGram (k⁻¹ • G) X f (.array (w.map (k * ·))) = (updateInvertedGram G X f (.array w)).map (k⁻¹ • ·) := by
  unfold updateInvertedGram
  split
  · simp only [WeightArg.one, Except.map]
    rw [headD_scale, updateInvertedGramStep_weights hk]
  · simp only [List.length_map]
    split_ifs
    · rfl
    · rw [updateInvertedGramLoop_weights hk]
      rfl

/-- How the Gramian of a method changes with the unit of the weights: least squares keeps the inverse. -/
noncomputable def MethodObj.gramFactor (k : ℝ) : MethodObj q → ℝ
  | .ols => k⁻¹
  | _ => k

theorem MethodObj.initXGram_weights (hk : 0 < k) (m : MethodObj q) (X : List (Row q)) (w : List ℝ) (f : ℝ) :
    m.initXGram X (w.map (k * ·)) f = (m.initXGram X w f).map (m.gramFactor k • ·) := by
  cases m with
  | ols => exact initInvertedGram_weights hk X w f
  | path a => exact congrArg Except.ok (initGram_weights hk.le X w f)
  | ridge a => exact congrArg Except.ok (initGram_weights hk.le X w f)

theorem MethodObj.updateXGram_weights (hk : 0 < k) (m : MethodObj q) (G : Matrix (Fin q) (Fin q) ℝ) (X : List (Row q)) (w : List ℝ)
    (f : ℝ) : m.updateXGram (m.gramFactor k • G) X (w.map (k * ·)) f = (m.updateXGram G X w f).map (m.gramFactor k • ·) := by
  cases m with
  | ols => exact updateInvertedGram_weights hk.ne' G X f w
  | path a => exact congrArg Except.ok (updateGram_weights hk.le G X w f)
  | ridge a => exact congrArg Except.ok (updateGram_weights hk.le G X w f)

theorem olsBeta_weights (hk : k ≠ 0) (G : Matrix (Fin p) (Fin p) ℝ) (h : Row p) : olsBeta (k⁻¹ • G) (k • h) = olsBeta G h := by
  unfold olsBeta
  rw [Matrix.smul_mulVec, Matrix.mulVec_smul, smul_smul, inv_mul_cancel₀ hk, one_smul]

/-! ### Scaler -/

/-- The statistics of the scaler for weights in another unit. -/
def ScalerState.scaleW (k : ℝ) (s : ScalerState q) : ScalerState q :=
  { nObs := k * s.nObs, cumW := k * s.cumW, mean := s.mean, var := s.var, M := fun i => k * s.M i }

/-- The scaler for weights in another unit. -/
def Scaler.scaleW (k : ℝ) : Scaler p → Scaler p
  | .off n => .off (k * n)
  | .on K sel s => .on K sel (s.scaleW k)

theorem Scaler.scaleW_transform (k : ℝ) (sc : Scaler p) (X : List (Row p)) : (sc.scaleW k).transform X = sc.transform X := by
  cases sc <;> rfl

theorem scaledDesign_scaleW (k : ℝ) (sc : Scaler p) (X : List (Row p)) :
    scaledDesign fi (sc.scaleW k) X = scaledDesign fi sc X := by
  unfold scaledDesign
  rw [Scaler.scaleW_transform]

theorem npAverage_weights (hk : k ≠ 0) (v w : List ℝ) : npAverage v (w.map (k * ·)) = npAverage v w := by
  unfold npAverage
  rw [zipWith_mul_scale_right, list_sum_scale, list_sum_scale, mul_div_mul_left _ _ hk]

theorem Scaler.fit_weights (hk : k ≠ 0) (t : ToScale p) (f : ℝ) (X : List (Row p)) (w : List ℝ) :
    Scaler.fit t f X (w.map (k * ·)) = (Scaler.fit t f X w).map (Scaler.scaleW k) := by
  unfold Scaler.fit
  split
  · rw [list_sum_scale]
    split_ifs <;> rfl
  · rename_i l _
    have h : scalerFit l.get f X (w.map (k * ·)) = (scalerFit l.get f X w).map (ScalerState.scaleW k) := by
      unfold scalerFit
      simp only [zipWith_mul_scale, npAverage_weights hk, list_sum_scale, mul_eq_zero, hk, false_or]
      split_ifs
      · rfl
      · rfl
      · simp only [Except.map, ScalerState.scaleW, Except.ok.injEq, ScalerState.mk.injEq, true_and]
        funext i
        ring
    rw [h]
    cases scalerFit l.get f X w <;> rfl

theorem scalerLoop_weights (hk : k ≠ 0) (sel : Fin q → Fin p) (f : ℝ) (s : ScalerState q) (X : List (Row p)) (w : List ℝ) :
    scalerLoop sel f (s.scaleW k) X (w.map (k * ·)) = (scalerLoop sel f s X w).scaleW k := by
  induction X generalizing w s with
  | nil => rfl
  | cons x X ih =>
    cases w with
    | nil => rfl
    | cons a w =>
      simp only [List.map_cons, scalerLoop]
      rw [← ih]
      congr 1
      have h1 : k * s.cumW * (1 - f) + k * a = k * (s.cumW * (1 - f) + a) := by ring
      have h2 : ∀ i, (s.mean i * (k * s.cumW * (1 - f)) + x (sel i) * (k * a)) / (k * (s.cumW * (1 - f) + a)) =
          (s.mean i * (s.cumW * (1 - f)) + x (sel i) * a) / (s.cumW * (1 - f) + a) := fun i => by
        rw [← mul_div_mul_left (s.mean i * (s.cumW * (1 - f)) + x (sel i) * a) _ hk]
        congr 1
        ring
      simp only [scalerStep, ScalerState.scaleW, ScalerState.mk.injEq, true_and, h1, h2]
      refine ⟨?_, ?_⟩
      · funext i
        rw [← mul_div_mul_left (s.M i * (1 - f) + _) _ hk]
        congr 1
        ring
      · funext i
        ring

theorem Scaler.update_weights (hk : k ≠ 0) (f : ℝ) (X : List (Row p)) (w : List ℝ) (sc : Scaler p) :
    (sc.scaleW k).update f X (w.map (k * ·)) = (sc.update f X w).map (Scaler.scaleW k) := by
  cases sc with
  | off n =>
    simp only [Scaler.update, Scaler.scaleW, list_sum_scale]
    split_ifs
    · rfl
    · simp only [Except.map, Scaler.scaleW, mul_add]
  | on K sel s =>
    simp only [Scaler.update, Scaler.scaleW, scalerUpdate]
    split_ifs
    · rfl
    · have : ({ s.scaleW k with nObs := (s.scaleW k).nObs + (w.map (k * ·)).sum } : ScalerState K) =
          ScalerState.scaleW k { s with nObs := s.nObs + w.sum } := by
        simp only [ScalerState.scaleW, list_sum_scale, mul_add]
      rw [this, scalerLoop_weights hk]
      rfl

/-! ### Ridge -/

/-- A method for weights in another unit: the stored penalty of ridge has their unit. -/
noncomputable def MethodObj.scaleW (k : ℝ) : MethodObj q → MethodObj q
  | .ridge a => .ridge { a with lambdaReg := a.lambdaReg.map (k * ·) }
  | m => m

theorem RidgeArgs.fitBeta_weights (hk : 0 < k) (a : RidgeArgs q) (ha : a.lambdaReg = none) (G : Matrix (Fin q) (Fin q) ℝ) (h : Row q)
    (reg : Fin q → Bool) (perm : ℕ → List (Fin q)) :
    a.fitBeta (k • G) (k • h) reg perm = (a.fitBeta G h reg perm).map fun r => (r.1, k * r.2) := by
  have h1 : a.penalty (k • G) = k * a.penalty G := by
    simp only [RidgeArgs.penalty, ha, Option.getD_none, Matrix.trace_smul, smul_eq_mul, mul_div_assoc]
  have h2 : a.start (k • G) (k • h) = a.start G h := by
    classical
    unfold RidgeArgs.start
    cases a.startBeta with
    | some b => rfl
    | none =>
      simp only
      by_cases hr : G.rank = q
      · rw [if_pos hr, if_pos ((rank_smul_weights hk.ne' _).2 hr), inv_smul_weights hk.ne' _ (isUnit_det_of_rank hr)]
        exact olsBeta_weights hk.ne' _ _
      · rw [if_neg hr, if_neg (fun h' => hr ((rank_smul_weights hk.ne' _).1 h'))]
  unfold RidgeArgs.fitBeta
  rw [h1, h2]
  cases setBound q a.lower with
  | error e => rfl
  | ok lo =>
    cases setBound q a.upper with
    | error e => rfl
    | ok up =>
      have := onlineCD_scale { G := G, h := h, lam := a.penalty G, alpha := 0, reg := reg, lower := lo, upper := up } hk a.selection perm
        a.tolerance a.maxIterations (a.start G h)
      change (onlineCD _ _ _ _ _ _ >>= _) = Except.map _ (onlineCD _ _ _ _ _ _ >>= _)
      rw [this]
      cases onlineCD { G := G, h := h, lam := a.penalty G, alpha := 0, reg := reg, lower := lo, upper := up } a.selection perm
        a.tolerance a.maxIterations (a.start G h) <;> rfl

theorem RidgeArgs.updateBeta_weights (hk : 0 < k) (a : RidgeArgs q) (lam : ℝ) (G : Matrix (Fin q) (Fin q) ℝ) (h b : Row q)
    (reg : Fin q → Bool) (perm : ℕ → List (Fin q)) :
    a.updateBeta (k * lam) (k • G) (k • h) b reg perm = a.updateBeta lam G h b reg perm := by
  unfold RidgeArgs.updateBeta
  cases setBound q a.lower with
  | error e => rfl
  | ok lo =>
    cases setBound q a.upper with
    | error e => rfl
    | ok up =>
      have := onlineCD_scale { G := G, h := h, lam := lam, alpha := 0, reg := reg, lower := lo, upper := up } hk a.selection perm
        a.tolerance a.maxIterations b
      change (onlineCD _ _ _ _ _ _ >>= _) = (onlineCD _ _ _ _ _ _ >>= _)
      rw [this]

/-! ### The estimator -/

theorem ys_scaleW (k : ℝ) (data : List (Obs p)) : ys (data.map (Obs.scaleW k)) = ys data := by
  simp [ys, Obs.scaleW]

theorem ws_scaleW (k : ℝ) (data : List (Obs p)) : ws (data.map (Obs.scaleW k)) = (ws data).map (k * ·) := by
  simp [ws, Obs.scaleW]

theorem xs_scaleW (k : ℝ) (data : List (Obs p)) : xs (data.map (Obs.scaleW k)) = xs data := by
  simp [xs, Obs.scaleW]

/-- Selections from the same path raise alike, whatever the criteria are. -/
theorem selectCoef_both {ic : Criterion} (hic : ic ≠ .aicc) (n n' : ℝ) {path : List (Row q)} {rss rss' : List ℝ}
    (hlen : path.length = rss.length) (hlen' : path.length = rss'.length) :
    (∃ e, selectCoef ic n path rss = .error e ∧ selectCoef ic n' path rss' = .error e) ∨
    ∃ b b', selectCoef ic n path rss = .ok b ∧ selectCoef ic n' path rss' = .ok b' := by
  by_cases hne : path = []
  · subst hne
    have h1 : rss = [] := List.length_eq_zero_iff.1 hlen.symm
    have h2 : rss' = [] := List.length_eq_zero_iff.1 hlen'.symm
    subst h1
    subst h2
    exact .inl ⟨.valueError, by cases ic <;> rfl, by cases ic <;> rfl⟩
  · obtain ⟨_, b, _, _, h⟩ := selectCoef_succeeds hic n hlen hne
    obtain ⟨_, b', _, _, h'⟩ := selectCoef_succeeds hic n' hlen' hne
    exact .inr ⟨b, b', h, h'⟩

/-- The models after runs with the sample weights in two units. -/
structure WeightedLM (k : ℝ) (s t : LM p fi) : Prop where
  method : t.method = s.method.map (MethodObj.scaleW k)
  nObs : t.nObs = s.nObs.map (k * ·)
  scaler : t.scaler = s.scaler.map (Scaler.scaleW k)
  xGram : ∀ m, s.method = some m → t.xGram = s.xGram.map (m.gramFactor k • ·)
  yGram : t.yGram = s.yGram.map (k • ·)
  coef : (∀ a, s.method ≠ some (.path a)) → t.coef = s.coef
  path : ∀ a, s.method = some (.path a) → ∃ path rss rss' b b', s.coefPath = some path ∧ t.coefPath = some path ∧
    s.rss = some rss ∧ t.rss = some rss' ∧ path.length = rss.length ∧ path.length = rss'.length ∧ s.coef = some b ∧ t.coef = some b'

theorem LM.fit_weighted (hk : 0 < k) (c : LMConfig p fi) (hv : c.Valid) (hm : ∀ m, getEstimationMethod c.method = .ok m → m.WeightFree)
    (perm : ℕ → ℕ → List (Fin (designDim p fi))) (data : List (Obs p))
    (hols : c.method = .str "ols" → ((ws data).sum ≤ designDim p fi ↔ k * (ws data).sum ≤ designDim p fi))
    (hone : (ws data).sum = 1 ↔ k * (ws data).sum = 1) :
    Py.RelTo (fun _ _ => True) (WeightedLM k) (LM.fit c perm data) (LM.fit c perm (data.map (Obs.scaleW k))) := by
  unfold LM.fit
  rw [ys_scaleW, ws_scaleW, xs_scaleW, list_sum_scale]
  refine Py.RelTo.bind (Py.Rel.to (Py.rel_raiseIf Iff.rfl _)) fun _ => ?_
  refine Py.RelTo.bind_call_map (g := id) (by cases getEstimationMethod c.method <;> rfl) fun m he => ?_
  have hu := hm m he
  refine Py.RelTo.bind (Py.relTo_set _ _) fun _ => ?_
  refine Py.RelTo.bind (Py.Rel.to (Py.rel_raiseIf Iff.rfl _)) fun _ => ?_
  refine Py.RelTo.bind (Py.Rel.to (Py.rel_raiseIf (or_congr (by simp) Iff.rfl) _)) fun _ => ?_
  refine Py.RelTo.bind (Py.relTo_set _ _) fun _ => ?_
  refine Py.RelTo.bind (Py.Rel.to (Py.rel_raiseIf (and_congr_left hols) _)) fun _ => ?_
  refine Py.RelTo.bind (Py.Rel.to (Py.rel_raiseIf hone _)) fun _ => ?_
  refine Py.RelTo.bind (Py.relTo_set _ _) fun _ => ?_
  refine Py.RelTo.bind_call_map (Scaler.fit_weights hk.ne' c.scaleInputs c.forget (xs data) (ws data)) fun sc _ => ?_
  refine Py.RelTo.bind (Py.relTo_set _ _) fun _ => ?_
  simp only [id]
  rw [scaledDesign_scaleW]
  refine Py.RelTo.bind_call_map (m.initXGram_weights hk _ (ws data) c.forget) fun G _ => ?_
  refine Py.RelTo.bind (Py.relTo_set _ _) fun _ => ?_
  refine Py.RelTo.bind (Py.relTo_set _ _) fun _ => ?_
  rw [initYGram_weights hk.le]
  cases m with
  | ols =>
    refine Py.RelTo.mono (Py.relTo_set _ _) (fun _ _ h => h) ?_
    rintro _ _ ⟨_, _, ⟨_, _, ⟨_, _, ⟨_, _, ⟨_, _, ⟨_, _, ⟨s, t, _, rfl, rfl⟩, rfl, rfl⟩, rfl, rfl⟩, rfl, rfl⟩, rfl, rfl⟩,
      rfl, rfl⟩, rfl, rfl⟩
    exact ⟨rfl, rfl, rfl, fun m hm => by cases hm; rfl, rfl,
      fun _ => congrArg some (olsBeta_weights hk.ne' _ _), fun a ha => by cases ha⟩
  | path a =>
    refine Py.RelTo.bind_call_map (g := id) (f := fun path => _) (f' := fun path => _)
      (by rw [show MethodObj.gramFactor k (.path a : MethodObj (designDim p fi)) = k from rfl, C30_fit a G _ _ perm hk]; cases a.fitBetaPath G _ _ perm <;> rfl) fun path _ => ?_
    refine Py.RelTo.bind (Py.relTo_set _ _) fun _ => ?_
    refine Py.RelTo.bind (Py.relTo_set _ _) fun _ => ?_
    simp only [id]
    refine Py.RelTo.bind_call ?_
    rcases selectCoef_both hv.2.2.1 (effectiveTrainingLength c.forget (ws data).sum)
      (effectiveTrainingLength c.forget (k * (ws data).sum)) (path := path)
      (rss := path.map (rssFit (scaledDesign fi sc (xs data)) (ys data) (ws data)))
      (rss' := path.map (rssFit (scaledDesign fi sc (xs data)) (ys data) ((ws data).map (k * ·)))) (by simp) (by simp) with
      ⟨e, h1, h2⟩ | ⟨b, b', h1, h2⟩
    · exact .inl ⟨e, h1, h2⟩
    refine .inr ⟨b, b', h1, h2, ?_⟩
    refine Py.RelTo.mono (Py.relTo_set _ _) (fun _ _ h => h) ?_
    rintro _ _ ⟨_, _, ⟨_, _, ⟨_, _, ⟨_, _, ⟨_, _, ⟨_, _, ⟨_, _, ⟨_, _, ⟨s, t, _, rfl, rfl⟩, rfl, rfl⟩, rfl, rfl⟩, rfl, rfl⟩,
      rfl, rfl⟩, rfl, rfl⟩, rfl, rfl⟩, rfl, rfl⟩, rfl, rfl⟩
    exact ⟨rfl, rfl, rfl, fun m hm => by cases hm; rfl, rfl, fun h => absurd rfl (h a),
      fun a' _ => ⟨path, _, _, b, b', rfl, rfl, rfl, rfl, by simp, by simp, rfl, rfl⟩⟩
  | ridge a =>
    refine Py.RelTo.bind_call_map (a.fitBeta_weights hk hu G _ _ (perm 0)) fun r _ => ?_
    refine Py.RelTo.mono (Py.relTo_set _ _) (fun _ _ h => h) ?_
    rintro _ _ ⟨_, _, ⟨_, _, ⟨_, _, ⟨_, _, ⟨_, _, ⟨_, _, ⟨s, t, _, rfl, rfl⟩, rfl, rfl⟩, rfl, rfl⟩, rfl, rfl⟩, rfl, rfl⟩,
      rfl, rfl⟩, rfl, rfl⟩
    exact ⟨rfl, rfl, rfl, fun m hm => by cases hm; rfl, rfl, fun _ => rfl, fun a ha => by cases ha⟩

theorem MethodObj.scaleW_updateXGram (m : MethodObj q) (G : Matrix (Fin q) (Fin q) ℝ) (X : List (Row q)) (w : List ℝ) (f : ℝ) :
    (m.scaleW k).updateXGram G X w f = m.updateXGram G X w f := by cases m <;> rfl

theorem LM.update_weighted (hk : 0 < k) (c : LMConfig p fi) (hv : c.Valid) (perm : ℕ → ℕ → List (Fin (designDim p fi)))
    (data : List (Obs p)) :
    Py.RelTo (WeightedLM k) (WeightedLM k) (LM.update c perm data) (LM.update c perm (data.map (Obs.scaleW k))) := by
  unfold LM.update
  rw [ys_scaleW, ws_scaleW, xs_scaleW, list_sum_scale]
  refine Py.RelTo.bind (Py.Rel.to (Py.rel_raiseIf Iff.rfl _)) fun _ => ?_
  refine Py.RelTo.bind (Py.Rel.to (Py.rel_raiseIf (or_congr (by simp) Iff.rfl) _)) fun _ => ?_
  refine Py.RelTo.bind_self ?_
  intro s t hst
  obtain ⟨e1, e2, e3, e4, e5, e6, e7⟩ := hst
  rw [e1, e2, e3, e5]
  rcases hn : s.nObs with _ | n0
  · intro s t _
    exact ⟨rfl, fun _ h => by cases h⟩
  change Py.RelTo _ _ (Py.call (.ok n0) >>= _) (Py.call (.ok (k * n0)) >>= _)
  refine Py.RelTo.bind_call (.inr ⟨n0, k * n0, rfl, rfl, ?_⟩)
  refine Py.RelTo.bind (Py.relTo_set _ _) fun _ => ?_
  refine Py.RelTo.bind (Py.relTo_set _ _) fun _ => ?_
  rcases hs : s.scaler with _ | sc0
  · intro s t _
    exact ⟨rfl, fun _ h => by cases h⟩
  change Py.RelTo _ _ (Py.call (.ok sc0) >>= _) (Py.call (.ok (sc0.scaleW k)) >>= _)
  refine Py.RelTo.bind_call (.inr ⟨sc0, sc0.scaleW k, rfl, rfl, ?_⟩)
  refine Py.RelTo.bind_call_map (Scaler.update_weights hk.ne' c.forget (xs data) (ws data) sc0) fun sc _ => ?_
  refine Py.RelTo.bind (Py.relTo_set _ _) fun _ => ?_
  rcases hm : s.method with _ | m
  · intro s t _
    exact ⟨rfl, fun _ h => by cases h⟩
  change Py.RelTo _ _ (Py.call (.ok m) >>= _) (Py.call (.ok (m.scaleW k)) >>= _)
  refine Py.RelTo.bind_call (.inr ⟨m, m.scaleW k, rfl, rfl, ?_⟩)
  rw [e4 m hm]
  rcases hg : s.xGram with _ | G0
  · intro s t _
    exact ⟨rfl, fun _ h => by cases h⟩
  change Py.RelTo _ _ (Py.call (.ok G0) >>= _) (Py.call (.ok (m.gramFactor k • G0)) >>= _)
  refine Py.RelTo.bind_call (.inr ⟨G0, m.gramFactor k • G0, rfl, rfl, ?_⟩)
  simp only [scaledDesign_scaleW, MethodObj.scaleW_updateXGram]
  refine Py.RelTo.bind_call_map (m.updateXGram_weights hk G0 _ (ws data) c.forget) fun G _ => ?_
  refine Py.RelTo.bind (Py.relTo_set _ _) fun _ => ?_
  rcases hy : s.yGram with _ | h0
  · intro s t _
    exact ⟨rfl, fun _ h => by cases h⟩
  change Py.RelTo _ _ (Py.call (.ok h0) >>= _) (Py.call (.ok (k • h0)) >>= _)
  refine Py.RelTo.bind_call (.inr ⟨h0, k • h0, rfl, rfl, ?_⟩)
  rw [updateYGram_weights hk.le]
  refine Py.RelTo.bind (Py.relTo_set _ _) fun _ => ?_
  cases m with
  | ols =>
    rw [e6 (fun a ha => by cases hm.symm.trans ha)]
    refine Py.RelTo.bind (Py.Rel.to (Py.rel_attr rfl _)) fun b0 => ?_
    refine Py.RelTo.mono (Py.relTo_set _ _) (fun _ _ h => h) ?_
    rintro _ _ ⟨_, _, ⟨_, _, ⟨_, _, ⟨_, _, ⟨_, _, ⟨s, t, ⟨rfl, rfl⟩, rfl, rfl⟩, rfl, rfl⟩, rfl, rfl⟩, rfl, rfl⟩, rfl, rfl⟩,
      rfl, rfl⟩
    exact ⟨e1, congrArg some (mul_add _ _ _).symm, rfl, fun m h => by cases hm.symm.trans h; rfl, rfl,
      fun _ => congrArg some (olsBeta_weights hk.ne' _ _), fun a ha => by cases hm.symm.trans ha⟩
  | path a =>
    obtain ⟨path0, rss0, rss0', b0, b0', f1, f2, f3, f4, f5, f6, f7, f8⟩ := e7 a hm
    rw [f1, f2, f3, f4]
    change Py.RelTo _ _ (Py.call (.ok path0) >>= _) (Py.call (.ok path0) >>= _)
    refine Py.RelTo.bind_call (.inr ⟨path0, path0, rfl, rfl, ?_⟩)
    rw [show MethodObj.gramFactor k (.path a : MethodObj (designDim p fi)) = k from rfl]
    refine Py.RelTo.bind_call_map (g := id)
      (by rw [C30_update a G _ path0 _ perm hk]; cases a.updateBetaPath G _ path0 _ perm <;> rfl) fun path hp => ?_
    have hl : path.length ≤ path0.length := by
      unfold EnetArgs.updateBetaPath at hp
      simp only [bind_ok] at hp
      obtain ⟨lo, _, up, _, lams, _, rows, hrows, hp⟩ := hp
      cases hp
      rw [List.length_map, cdPathLoop_length hrows]
      exact min_le_right _ _
    simp only [id]
    refine Py.RelTo.bind (Py.relTo_set _ _) fun _ => ?_
    change Py.RelTo _ _ (Py.call (.ok rss0) >>= _) (Py.call (.ok rss0') >>= _)
    refine Py.RelTo.bind_call (.inr ⟨rss0, rss0', rfl, rfl, ?_⟩)
    have hl' : ∀ r : List ℝ, path0.length = r.length →
        path.length = (rssUpdate c.forget r path (scaledDesign fi sc (xs data)) (ys data)).length := by
      intro r hr
      unfold rssUpdate
      rw [List.length_zipWith, ← hr, min_eq_right hl]
    refine Py.RelTo.bind (Py.relTo_set _ _) fun _ => ?_
    refine Py.RelTo.bind_call ?_
    rcases selectCoef_both hv.2.2.1 (effectiveTrainingLength c.forget (n0 + (ws data).sum))
      (effectiveTrainingLength c.forget (k * n0 + k * (ws data).sum)) (hl' rss0 f5) (hl' rss0' f6) with
      ⟨e, h1, h2⟩ | ⟨b, b', h1, h2⟩
    · exact .inl ⟨e, h1, h2⟩
    refine .inr ⟨b, b', h1, h2, ?_⟩
    refine Py.RelTo.mono (Py.relTo_set _ _) (fun _ _ h => h) ?_
    rintro _ _ ⟨_, _, ⟨_, _, ⟨_, _, ⟨_, _, ⟨_, _, ⟨_, _, ⟨_, _, ⟨s, t, ⟨rfl, rfl⟩, rfl, rfl⟩, rfl, rfl⟩, rfl, rfl⟩, rfl, rfl⟩,
      rfl, rfl⟩, rfl, rfl⟩, rfl, rfl⟩, rfl, rfl⟩
    have hg : ∀ m, s.method = some m → some (k • G) = some (m.gramFactor k • G) := by
      intro m h
      cases hm.symm.trans h
      rfl
    exact ⟨e1, congrArg some (mul_add _ _ _).symm, rfl, hg, rfl, fun h => absurd hm (h a),
      fun a' _ => ⟨path, _, _, b, b', rfl, rfl, rfl, rfl, hl' rss0 f5, hl' rss0' f6, rfl, rfl⟩⟩
  | ridge a =>
    rw [e6 (fun a ha => by cases hm.symm.trans ha)]
    refine Py.RelTo.bind (Py.Rel.to (Py.rel_attr rfl _)) fun b0 => ?_
    simp only
    rcases hl : a.lambdaReg with _ | lam
    · intro s t _
      exact ⟨rfl, fun _ h => by cases h⟩
    change Py.RelTo _ _ (Py.call (.ok lam) >>= _) (Py.call (.ok (k * lam)) >>= _)
    refine Py.RelTo.bind_call (.inr ⟨lam, k * lam, rfl, rfl, ?_⟩)
    refine Py.RelTo.bind_call_map (g := id)
      (by
        change RidgeArgs.updateBeta a (k * lam) (k • G) (k • _) b0 _ (perm 0) = _
        rw [a.updateBeta_weights hk lam G _ b0 _ (perm 0)]
        cases a.updateBeta lam G _ b0 _ (perm 0) <;> rfl) fun b _ => ?_
    refine Py.RelTo.mono (Py.relTo_set _ _) (fun _ _ h => h) ?_
    rintro _ _ ⟨_, _, ⟨_, _, ⟨_, _, ⟨_, _, ⟨_, _, ⟨s, t, ⟨rfl, rfl⟩, rfl, rfl⟩, rfl, rfl⟩, rfl, rfl⟩, rfl, rfl⟩, rfl, rfl⟩,
      rfl, rfl⟩
    have hg : ∀ m, s.method = some m → some (k • G) = some (m.gramFactor k • G) := by
      intro m h
      cases hm.symm.trans h
      rfl
    have hp : ∀ a, s.method ≠ some (.path a) := by
      intro a h
      cases hm.symm.trans h
    exact ⟨e1, congrArg some (mul_add _ _ _).symm, rfl, hg, rfl, fun _ => rfl, fun a ha => absurd ha (hp a)⟩

theorem LM.updates_weighted (hk : 0 < k) (c : LMConfig p fi) (hv : c.Valid) (rng : ℕ → ℕ → ℕ → List (Fin (designDim p fi)))
    (bs : List (List (Obs p))) (i : ℕ) :
    Py.RelTo (WeightedLM k) (WeightedLM k) (LM.updates c rng i bs) (LM.updates c rng i (bs.map fun d => d.map (Obs.scaleW k))) := by
  induction bs generalizing i with
  | nil => exact Py.Rel.to (Py.rel_pure _)
  | cons b bs ih =>
    rw [List.map_cons]
    unfold LM.updates
    exact Py.RelTo.bind (LM.update_weighted hk c hv (rng i) b) fun _ => ih (i + 1)

end Ondil
