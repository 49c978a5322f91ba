import Verif.Lemmas.GamlssPackage

/-!
# The coefficients of the distributional regression solve the weighted regression on all data: C102
-/

open scoped BigOperators Matrix

namespace Ondil

variable {p J : ℕ} {perm : ∀ J : ℕ, ℕ → ℕ → List (Fin J)} {other : MethodOps MethodState}

/-! ### Helpers -/

theorem gram_of_entries {forget : ℝ} (hf : forget ≤ 1) {d : List (Obs J)} (hw : NonnegWeights d) {G : Matrix (Fin J) (Fin J) ℝ}
    (h : ∀ i j, G i j = discSum forget d fun o => o.w * o.x i * o.x j) : G = initGram (xs d) (ws d) forget := by
  ext i j; rw [h, initGram_apply hf d hw]

theorem yGram_of_entries {forget : ℝ} (hf : forget ≤ 1) {d : List (Obs J)} (hw : NonnegWeights d) {g : Row J}
    (h : ∀ j, g j = discSum forget d fun o => o.w * o.y * o.x j) : g = initYGram (xs d) (ys d) (ws d) forget := by
  funext j; rw [h, initYGram_apply hf d hw]

theorem WorkingRows.nonempty {D : DistOps} {clip : ℝ} {data : List (Obs p)} {X : Arr2} {fv : Fv} {k : ℕ} {d : List (Obs J)}
    (h : WorkingRows D clip data X fv k d) (hl : X.length = data.length) (hd : data ≠ []) : xs d ≠ [] := by
  intro e
  rw [h.X, e] at hl
  exact hd (List.length_eq_zero_iff.1 hl.symm)

theorem leastSquares_of_fullRank {forget : ℝ} (hf : forget < 1) {d : List (Obs J)} (hw : NonnegWeights d)
    (hu : IsUnit (initGram (xs d) (ws d) forget).det) : IsLeastSquares forget d
      (olsBeta (initGram (xs d) (ws d) forget)⁻¹ (initYGram (xs d) (ys d) (ws d) forget)) :=
  lsq_isLeastSquares hf hw ((isUnit_det_iff_fullRank hf d hw).1 hu)

/-! ### Ordinary least squares -/

/-- **C102, least squares, `fit`.**  After a fit the coefficients of a parameter estimated by `OrdinaryLeastSquares` minimise the
discounted weighted squared error of the working rows of its last accepted pass, and nothing else does. -/
theorem C102_fit_ols {frames : Bool} {D : DistOps} (ho : KeepsObjects other) {c : GConfig MethodState p} {data : List (Obs p)}
    {s t : GState MethodState p} {u : Unit} (h : GState.fit frames D (packageMethods perm other) c data s = (.ok u, t)) (it : ℕ)
    (hit : t.itOuter = some it) (h1 : 1 ≤ it) {k : ℕ} (hk : k ∈ t.paramOrder) {ms : PyDict (Option MethodState)}
    (hms : (c.method.process D.nParams (.value (some .ols))).result = .ok ms) (hm : ms.get? k = some (some .ols)) :
    ∃ X fv sc forget, t.scaler = some sc ∧ designFor t sc (xs data) k = .ok X ∧ t.forget.get? k = some forget ∧
      (∃ wk, working D fitClip (ys data) fv k = .ok wk) ∧ ∀ (J : ℕ) (d : List (Obs J)), WorkingRows D fitClip data X fv k d → forget < 1 → NonnegWeights d → FullRank d →
        KeepsLeastSquares t k forget d := by
  obtain ⟨Xs, sc, ms', m0, mt, K, fi, ri, eq, forget, xg, yg, b, a1, a2, a3, a4, a5, _, _, _, _, _, a11, a12, a13, a14,
    fv, wk, X, m, m', b1, b2, b3, b4, b5, b6, b7, b8⟩ := fit_source h it hit h1 hk
  obtain rfl : ms = ms' := Except.ok.inj (hms.symm.trans a3)
  obtain rfl : m0 = .ols := (Option.some.inj (Option.some.inj (hm.symm.trans a4))).symm
  obtain rfl := later_ols ho b3
  obtain rfl : m' = .ols := methodStep_mayBecome ho b4
  obtain rfl := later_ols ho b5
  have hd := a2 k X b2
  refine ⟨X, fv, sc, forget, a1, hd, a11, ⟨wk, b1⟩, fun J d hwr hf hw hr => ?_⟩
  have hne : data ≠ [] := by
    obtain ⟨r⟩ := fit_ok h
    exact fun e => r.nonempty (.inl e)
  have hX := hwr.nonempty (by rw [designFor_length hd]; simp [xs]) hne
  obtain ⟨wk', w1, w2, w3⟩ := hwr.working
  obtain rfl : wk = wk' := Except.ok.inj (b1.symm.trans w1)
  change (packageMethods perm other).initX .ols X (wmul (ws data) wk.wt) forget = .ok xg at b6
  change (packageMethods perm other).initY .ols X wk.wv (wmul (ws data) wk.wt) forget = .ok yg at b7
  have hu := (isUnit_det_iff_fullRank hf d hw).2 hr
  rw [hwr.X, w3, initX_ols hX, initInvertedGram_of_isUnit hu] at b6
  obtain rfl := (Except.ok.inj b6).symm
  rw [hwr.X, w2, w3, initY_ols hX] at b7
  obtain rfl := (Except.ok.inj b7).symm
  rcases b8 with ⟨_, _, b8⟩ | ⟨b8, _⟩
  · change (packageMethods perm other).fitBeta .ols _ _ _ = _ at b8
    rw [fitBeta_ols] at b8
    cases b8
    exact ⟨a5, a11, ⟨_, initGram_apply hf.le d hw, hu, a12⟩, ⟨_, a13, initYGram_apply hf.le d hw⟩, ⟨_, a14, leastSquares_of_fullRank hf hw hu⟩⟩
  · cases b8

/-- **C102, least squares, `update`.**  An update turns the least squares estimates on the rows of the past `d0` into the least
squares estimates on the past and the working rows of the new batch, each of which enters once. -/
theorem C102_update_ols {D : DistOps} (ho : KeepsObjects other) {c : GConfig MethodState p} {data : List (Obs p)}
    {s t : GState MethodState p} {u : Unit} (h : GState.update D (packageMethods perm other) c data s = (.ok u, t)) (it : ℕ)
    (hit : t.itOuter = some it) (h1 : 1 ≤ it) {k : ℕ} (hk : k ∈ s.paramOrder) {forget : ℝ} (hf : forget < 1) {d0 : List (Obs J)}
    (hw0 : NonnegWeights d0) (hs : KeepsLeastSquares s k forget d0) :
    ∃ X fv sc, t.scaler = some sc ∧ designFor s sc (xs data) k = .ok X ∧ (∃ wk, working D updateClip (ys data) fv k = .ok wk) ∧
      ∀ d : List (Obs J), WorkingRows D updateClip data X fv k d → NonnegWeights d → KeepsLeastSquares t k forget (d0 ++ d) := by
  have hforget : t.forget = s.forget := by
    obtain ⟨r⟩ := update_ok h
    have hset := (outerUpdate_committed _ _ _).ok (SameCommitted.refl _) r.hloop
    have e1 : r.s1.forget = s.forget := r.proj GState.forget (fun _ => rfl) fun _ _ => rfl
    exact ((congrArg GState.forget r.ht).trans rfl).trans (hset.setup.forget.trans e1)
  obtain ⟨Xs, sc, m0, mt, forget', reg, x0, y0, b0, start, xg, yg, b, a1, a2, a3, a4, a5, a6, a7, a8, a9, a10, a11,
    ⟨fv, wk, X, m, m', b1, b2, b3, b4, b5, b6, b7, b8⟩, _⟩ := update_source h it hit h1 hk
  obtain rfl : m0 = .ols := Option.some.inj (a3.symm.trans hs.method)
  obtain rfl := later_ols ho b3
  obtain rfl : m' = .ols := methodStep_mayBecome ho b4
  obtain rfl := later_ols ho b5
  obtain rfl : forget' = forget := Option.some.inj (a5.symm.trans hs.stored)
  have hd := a2 k X b2
  refine ⟨X, fv, sc, a1, hd, ⟨wk, b1⟩, fun d hwr hw => ?_⟩
  have hne : data ≠ [] := by
    obtain ⟨r⟩ := update_ok h
    exact fun e => r.nonempty (.inl e)
  have hX := hwr.nonempty (by rw [designFor_length hd]; simp [xs]) hne
  have hdne : d ≠ [] := fun e => hX (by rw [e]; rfl)
  obtain ⟨wk', w1, w2, w3⟩ := hwr.working
  obtain rfl : wk = wk' := Except.ok.inj (b1.symm.trans w1)
  obtain ⟨G, hG, hGu, hx⟩ := hs.xGram
  obtain ⟨g, hy, hg⟩ := hs.yGram
  obtain rfl := gram_of_entries hf.le hw0 hG
  obtain rfl := yGram_of_entries hf.le hw0 hg
  obtain rfl : x0 = _ := Option.some.inj (a7.symm.trans hx)
  obtain rfl : y0 = _ := Option.some.inj (a8.symm.trans hy)
  obtain ⟨hu, hinv⟩ := inverted_batch hf d d0 hdne hw0 hw hGu
  change (packageMethods perm other).updateX .ols _ X (wmul (ws data) wk.wt) forget' = .ok xg at b6
  change (packageMethods perm other).updateY .ols _ X wk.wv (wmul (ws data) wk.wt) forget' = .ok yg at b7
  rw [hwr.X, w3, updateX_real hX] at b6
  change (updateInvertedGram _ (xs d) forget' (.array (ws d))).map ofMat = _ at b6
  rw [hinv] at b6
  obtain rfl := (Except.ok.inj b6).symm
  rw [hwr.X, w2, w3, updateY_real hX, updateYGram_initYGram hf.le d0 d hw0 hw] at b7
  obtain rfl := (Except.ok.inj b7).symm
  rcases b8 with ⟨_, _, v, _, b8⟩ | ⟨b8, _⟩
  · change (packageMethods perm other).updateBeta .ols _ _ _ _ = _ at b8
    rw [updateBeta_ols] at b8
    cases b8
    exact ⟨a4, by rw [hforget]; exact a5, ⟨_, initGram_apply hf.le _ (hw0.append hw), hu, a9⟩,
      ⟨_, a10, initYGram_apply hf.le _ (hw0.append hw)⟩, ⟨_, a11, leastSquares_of_fullRank hf (hw0.append hw) hu⟩⟩
  · cases b8

/-! ### Ridge -/

/-- A start value for the ridge regression: the one given to the constructor, otherwise the least squares estimate if there is
exactly one, otherwise zero. -/
def RidgeStart (a : RidgeObj) (forget : ℝ) (d : List (Obs J)) (b0 : Row J) : Prop :=
  (a.args J).startBeta = some b0 ∨
    (a.args J).startBeta = none ∧ (FullRank d ∧ IsLeastSquares forget d b0 ∨ ¬ FullRank d ∧ b0 = 0)

theorem ridgeStart_eq {a : RidgeObj} {l : Option ℝ} {forget : ℝ} (hf : forget < 1) {d : List (Obs J)} (hw : NonnegWeights d) {b0 : Row J}
    (h : RidgeStart a forget d b0) : (({ a with lambdaReg := l } : RidgeObj).args J).start (initGram (xs d) (ws d) forget)
      (initYGram (xs d) (ys d) (ws d) forget) = b0 := by
  have e : (({ a with lambdaReg := l } : RidgeObj).args J).startBeta = (a.args J).startBeta := rfl
  unfold RidgeArgs.start
  rw [e]
  rcases h with h | ⟨h, ⟨hr, hl⟩ | ⟨hr, rfl⟩⟩
  · rw [h]
  · rw [h]
    have hu := (isUnit_det_iff_fullRank hf d hw).2 hr
    simp only
    rw [if_pos ((rank_eq_iff_isUnit_det _).2 hu)]
    have := leastSquares_of_fullRank hf hw hu
    unfold olsBeta at this
    by_contra hne
    exact absurd (hl _ hne) (not_lt.2 (this _ (Ne.symm hne)).le)
  · rw [h]
    simp only
    rw [if_neg fun h => hr ((isUnit_det_iff_fullRank hf d hw).1 ((rank_eq_iff_isUnit_det _).1 h))]

/-- **C102, ridge regression, `fit`.**  After a fit the estimator keeps the cross products of the working rows of the last accepted
pass; the penalty is `lambda_reg` if it was given and is stored with the method otherwise; and the penalised weighted squared
error of the coefficients, every coefficient but the intercept being penalised, is at most that of the start value. -/
theorem C102_fit_ridge {frames : Bool} {D : DistOps} (ho : KeepsObjects other) {c : GConfig MethodState p} {data : List (Obs p)}
    {s t : GState MethodState p} {u : Unit} (h : GState.fit frames D (packageMethods perm other) c data s = (.ok u, t)) (it : ℕ)
    (hit : t.itOuter = some it) (h1 : 1 ≤ it) {k : ℕ} (hk : k ∈ t.paramOrder) {ms : PyDict (Option MethodState)} {a : RidgeObj}
    (hms : (c.method.process D.nParams (.value (some .ols))).result = .ok ms) (hm : ms.get? k = some (some (.ridge a))) :
    ∃ X fv sc forget lam K fi ri eq, t.scaler = some sc ∧ designFor t sc (xs data) k = .ok X ∧ getJ p fi eq = .ok K ∧
      t.fitIntercept.get? k = some fi ∧ t.regularizeIntercept.get? k = some ri ∧ t.equation.get? k = some eq ∧
      t.method k = some (.ridge { a with lambdaReg := some lam }) ∧ (∀ l, a.lambdaReg = some l → lam = l) ∧
      t.forget.get? k = some forget ∧ (∃ wk, working D fitClip (ys data) fv k = .ok wk) ∧
      ∀ d : List (Obs K), WorkingRows D fitClip data X fv k d → forget < 1 → NonnegWeights d →
        KeepsRows t k forget (Penalised fi ri eq) d ∧ ∃ b : Row K, t.coef k = some (ofVec b) ∧
          ∀ b0 lower upper, RidgeStart a forget d b0 → setBound K a.lower = .ok lower → setBound K a.upper = .ok upper →
            BoundsOk lower upper → Feasible lower upper b0 → 0 ≤ lam →
            penalisedError forget lam 0 (Penalised fi ri eq) d b ≤ penalisedError forget lam 0 (Penalised fi ri eq) d b0 := by
  obtain ⟨Xs, sc, ms', m0, mt, K, fi, ri, eq, forget, xg, yg, b, a1, a2, a3, a4, a5, a6, a7, a8, a9, a10, a11, a12, a13, a14,
    fv, wk, X, m, m', b1, b2, b3, b4, b5, b6, b7, b8⟩ := fit_source h it hit h1 hk
  obtain rfl : ms = ms' := Except.ok.inj (hms.symm.trans a3)
  obtain rfl : m0 = .ridge a := (Option.some.inj (Option.some.inj (hm.symm.trans a4))).symm
  obtain ⟨l, rfl, hl⟩ := later_ridge ho b3
  obtain ⟨lam, rfl, hlam⟩ := methodStep_mayBecome ho b4
  obtain ⟨l', rfl, hl'⟩ := later_ridge ho b5
  obtain rfl : l' = some lam := hl' lam rfl
  have hd := a2 k X b2
  refine ⟨X, fv, sc, forget, lam, K, fi, ri, eq, a1, hd, a6, a7, a8, a9, a5, fun q hq => hlam q (hl q hq), a11, ⟨wk, b1⟩, fun d hwr hf hw => ?_⟩
  have hne : data ≠ [] := by
    obtain ⟨r⟩ := fit_ok h
    exact fun e => r.nonempty (.inl e)
  have hX := hwr.nonempty (by rw [designFor_length hd]; simp [xs]) hne
  obtain ⟨wk', w1, w2, w3⟩ := hwr.working
  obtain rfl : wk = wk' := Except.ok.inj (b1.symm.trans w1)
  change (packageMethods perm other).initX _ X (wmul (ws data) wk.wt) forget = .ok xg at b6
  change (packageMethods perm other).initY _ X wk.wv (wmul (ws data) wk.wt) forget = .ok yg at b7
  rw [hwr.X, w3, initX_gram hX _ _ (by simp)] at b6
  obtain rfl := (Except.ok.inj b6).symm
  rw [hwr.X, w2, w3, initY_ols hX] at b7
  obtain rfl := (Except.ok.inj b7).symm
  refine ⟨⟨a11, ⟨_, a10, regularizedFlags_iff K fi ri eq⟩, ⟨_, a12, initGram_apply hf.le d hw⟩, ⟨_, a13, initYGram_apply hf.le d hw⟩⟩, ?_⟩
  rcases b8 with ⟨_, _, b8⟩ | ⟨b8, _⟩
  · change (packageMethods perm other).fitBeta _ _ _ _ = _ at b8
    rw [fitBeta_ridge] at b8
    obtain ⟨r, hr, e⟩ := map_ok_iff.1 b8
    simp only [Prod.mk.injEq, MethodState.ridge.injEq, RidgeObj.mk.injEq, Option.some.injEq, and_true, true_and] at e
    obtain ⟨rfl, rfl⟩ := e
    refine ⟨r.1, a14, fun b0 lower upper hst hlo hup hbd hfeas hlam0 => ?_⟩
    unfold RidgeArgs.fitBeta at hr
    simp only [bind_ok] at hr
    obtain ⟨lo, g1, up, g2, q, g3, g4⟩ := hr
    obtain rfl : lo = lower := Except.ok.inj (g1.symm.trans hlo)
    obtain rfl : up = upper := Except.ok.inj (g2.symm.trans hup)
    obtain rfl := (Except.ok.inj g4).symm
    rw [ridgeStart_eq hf hw hst] at g3
    exact onlineCD_penalisedError hf.le d hw _ 0 hlam0 le_rfl zero_le_one _ (regularizedFlags_iff K fi ri eq) _ _ hbd _ _ _ _ b0 hfeas q g3
  · cases b8

/-- **C102, ridge regression, `update`.**  An update adds the working rows of the new batch to the rows `d0` of the past, keeps the
penalty, and does not increase the penalised squared error on all rows: with one outer iteration it is at most that of the
coefficients before the update (`v`, generally the coefficients before the last pass over the parameters). -/
theorem C102_update_ridge {D : DistOps} (ho : KeepsObjects other) {c : GConfig MethodState p} {data : List (Obs p)}
    {s t : GState MethodState p} {u : Unit} (h : GState.update D (packageMethods perm other) c data s = (.ok u, t)) (it : ℕ)
    (hit : t.itOuter = some it) (h1 : 1 ≤ it) {k : ℕ} (hk : k ∈ s.paramOrder) {forget lam : ℝ} (hf : forget ≤ 1) {a : RidgeObj}
    (hm : s.method k = some (.ridge { a with lambdaReg := some lam })) {pen : ℕ → Prop} {d0 : List (Obs J)} (hw0 : NonnegWeights d0)
    (hs : KeepsRows s k forget pen d0) :
    ∃ X fv sc v, t.scaler = some sc ∧ designFor s sc (xs data) k = .ok X ∧
      t.method k = some (.ridge { a with lambdaReg := some lam }) ∧ (it = 1 → s.paramOrder.Nodup → s.coef k = some v) ∧
      (∃ wk, working D updateClip (ys data) fv k = .ok wk) ∧
      ∀ d : List (Obs J), WorkingRows D updateClip data X fv k d → NonnegWeights d →
        KeepsRows t k forget pen (d0 ++ d) ∧ ∀ b0 : Row J, v = ofVec b0 → ∃ b : Row J, t.coef k = some (ofVec b) ∧
          ∀ lower upper, setBound J a.lower = .ok lower → setBound J a.upper = .ok upper → BoundsOk lower upper →
            Feasible lower upper b0 → 0 ≤ lam →
            penalisedError forget lam 0 pen (d0 ++ d) b ≤ penalisedError forget lam 0 pen (d0 ++ d) b0 := by
  have hsetup : t.forget = s.forget ∧ t.isRegularized = s.isRegularized := by
    obtain ⟨r⟩ := update_ok h
    have hset := (outerUpdate_committed _ _ _).ok (SameCommitted.refl _) r.hloop
    have e1 : r.s1.forget = s.forget := r.proj GState.forget (fun _ => rfl) fun _ _ => rfl
    have e2 : r.s1.isRegularized = s.isRegularized := r.proj GState.isRegularized (fun _ => rfl) fun _ _ => rfl
    exact ⟨((congrArg GState.forget r.ht).trans rfl).trans (hset.setup.forget.trans e1),
      ((congrArg GState.isRegularized r.ht).trans rfl).trans (hset.setup.isRegularized.trans e2)⟩
  obtain ⟨Xs, sc, m0, mt, forget', reg, x0, y0, b0, start, xg, yg, b, a1, a2, a3, a4, a5, a6, a7, a8, a9, a10, a11,
    ⟨fv, wk, X, m, m', b1, b2, b3, b4, b5, b6, b7, b8⟩, hone⟩ := update_source h it hit h1 hk
  obtain rfl : m0 = _ := Option.some.inj (a3.symm.trans hm)
  obtain ⟨l1, rfl, hl1⟩ := later_ridge ho b3
  obtain rfl : l1 = some lam := hl1 lam rfl
  obtain ⟨lam', rfl, hlam⟩ := methodStep_mayBecome ho b4
  obtain rfl : lam' = lam := hlam lam rfl
  obtain ⟨l', rfl, hl'⟩ := later_ridge ho b5
  obtain rfl : l' = some lam' := hl' lam' rfl
  obtain rfl : forget' = forget := Option.some.inj (a5.symm.trans hs.stored)
  obtain ⟨reg', hreg', hpen⟩ := hs.penalised
  obtain rfl : reg = reg' := Option.some.inj (a6.symm.trans hreg')
  have hd := a2 k X b2
  rcases b8 with ⟨_, _, v, hv, b8⟩ | ⟨b8, _⟩
  swap
  · cases b8
  refine ⟨X, fv, sc, v, a1, hd, a4, fun q1 q2 => (hone q1 q2).1 ▸ hv, ⟨wk, b1⟩, fun d hwr hw => ?_⟩
  have hne : data ≠ [] := by
    obtain ⟨r⟩ := update_ok h
    exact fun e => r.nonempty (.inl e)
  have hX := hwr.nonempty (by rw [designFor_length hd]; simp [xs]) hne
  obtain ⟨wk', w1, w2, w3⟩ := hwr.working
  obtain rfl : wk = wk' := Except.ok.inj (b1.symm.trans w1)
  obtain ⟨G, hx, hG⟩ := hs.xGram
  obtain ⟨g, hy, hg⟩ := hs.yGram
  obtain rfl := gram_of_entries hf hw0 hG
  obtain rfl := yGram_of_entries hf hw0 hg
  obtain rfl : x0 = _ := Option.some.inj (a7.symm.trans hx)
  obtain rfl : y0 = _ := Option.some.inj (a8.symm.trans hy)
  change (packageMethods perm other).updateX _ _ X (wmul (ws data) wk.wt) forget' = .ok xg at b6
  change (packageMethods perm other).updateY _ _ X wk.wv (wmul (ws data) wk.wt) forget' = .ok yg at b7
  rw [hwr.X, w3, updateX_real hX] at b6
  change Except.ok (ofMat (updateGram _ (xs d) forget' (.array (ws d)))) = _ at b6
  rw [updateGram_initGram hf d0 d hw0 hw] at b6
  obtain rfl := (Except.ok.inj b6).symm
  rw [hwr.X, w2, w3, updateY_real hX, updateYGram_initYGram hf d0 d hw0 hw] at b7
  obtain rfl := (Except.ok.inj b7).symm
  have hall := hw0.append hw
  refine ⟨⟨by rw [hsetup.1]; exact a5, ⟨reg, by rw [hsetup.2]; exact a6, hpen⟩, ⟨_, a9, initGram_apply hf _ hall⟩,
    ⟨_, a10, initYGram_apply hf _ hall⟩⟩, fun b1' e => ?_⟩
  subst e
  change (packageMethods perm other).updateBeta _ _ _ _ _ = _ at b8
  rw [updateBeta_ridge _ rfl] at b8
  obtain ⟨r, hr, e⟩ := map_ok_iff.1 b8
  simp only [Prod.mk.injEq, and_true] at e
  subst e
  refine ⟨r, a11, fun lower upper hlo hup hbd hfeas hlam0 => ?_⟩
  unfold RidgeArgs.updateBeta at hr
  simp only [bind_ok] at hr
  obtain ⟨lo, g1, up, g2, q, g3, g4⟩ := hr
  obtain rfl : lo = lower := Except.ok.inj (g1.symm.trans hlo)
  obtain rfl : up = upper := Except.ok.inj (g2.symm.trans hup)
  obtain rfl := (Except.ok.inj g4).symm
  exact onlineCD_penalisedError hf _ hall _ 0 hlam0 le_rfl zero_le_one _ hpen _ _ hbd _ _ _ _ _ hfeas q g3

/-! ### Coefficient paths -/

/-- Along the path the penalised squared error of every row, for its own strength, is at most that of the row before it, and for
the first row at most that of zero. -/
def PathDescends (forget alpha : ℝ) (pen : ℕ → Prop) (d : List (Obs J)) (lams : List ℝ) (path : List (Row J)) : Prop :=
  ∀ (i : ℕ) (lam : ℝ) (b b' : Row J), lams[i]? = some lam → 0 ≤ lam → (0 :: path)[i]? = some b → path[i]? = some b' →
    penalisedError forget lam alpha pen d b' ≤ penalisedError forget lam alpha pen d b

/-- For every strength the penalised squared error of the row is at most that of the row of the path before. -/
def PathImproves (forget alpha : ℝ) (pen : ℕ → Prop) (d : List (Obs J)) (lams : List ℝ) (old path : List (Row J)) : Prop :=
  ∀ (i : ℕ) (lam : ℝ) (b b' : Row J), lams[i]? = some lam → 0 ≤ lam → old[i]? = some b → path[i]? = some b' →
    penalisedError forget lam alpha pen d b' ≤ penalisedError forget lam alpha pen d b

/-- The estimator stores `path`, one of its rows as coefficients, and the strengths were computed from the rows `d`. -/
def StoresPath (t : GState MethodState p) (k : ℕ) (a : EnetArgs) (forget : ℝ) (reg : List Bool) (d : List (Obs J)) (lams : List ℝ)
    (path : List (Row J)) : Prop :=
  t.coefPath k = some (path.map ofVec) ∧ (∃ b ∈ path, t.coef k = some (ofVec b)) ∧
    a.lambdaPath (initGram (xs d) (ws d) forget) (initYGram (xs d) (ys d) (ws d) forget) (flags J reg) = .ok lams

/-- Options of the path method: no early stopping, `alpha` in its range, bounds that can be met. -/
structure PathOptions (a : EnetArgs) (lower upper : Fin J → Option ℝ) : Prop where
  noStop : a.earlyStop = 0
  alpha0 : 0 ≤ a.alpha
  alpha1 : a.alpha ≤ 1
  hlower : setBound J a.lower = .ok lower
  hupper : setBound J a.upper = .ok upper
  bounds : BoundsOk lower upper

/-- Every row is computed from the row before it, `start_value_initial = start_value_update = "previous_lambda"`, and the bounds allow
zero. -/
structure RowAfterRow (a : EnetArgs) (lower upper : Fin J → Option ℝ) : Prop extends PathOptions a lower upper where
  initial : a.startInitial = .previousLambda
  update : a.startUpdate = .previousLambda
  zero : Feasible lower upper 0

theorem onlineCDPath_descends {a : EnetArgs} {lower upper : Fin J → Option ℝ} (ha : PathOptions a lower upper)
    (hzero : Feasible lower upper 0) {forget : ℝ} (hf : forget ≤ 1)
    {d : List (Obs J)} (hw : NonnegWeights d) {reg : Fin J → Bool} {pen : ℕ → Prop} (hp : ∀ j : Fin J, reg j = true ↔ pen j)
    {prm : ℕ → ℕ → List (Fin J)} {lams : List ℝ} {olds : List (Row J)} {rows : List (Row J × ℕ)}
    (h : onlineCDPath (a.pathConfig .previousLambda reg lower upper prm) (initGram (xs d) (ws d) forget)
      (initYGram (xs d) (ys d) (ws d) forget) lams olds = .ok rows) :
    PathDescends forget a.alpha pen d lams (rows.map Prod.fst) := by
  intro i lam b b' hl hlam hb hb'
  rw [List.getElem?_map] at hb'
  cases hr : rows[i]? with
  | none => rw [hr] at hb'; cases hb'
  | some r =>
    rw [hr] at hb'
    cases hb'
    have hfeas : ∀ (i : ℕ) (b : Row J), (0 :: rows.map Prod.fst)[i]? = some b → Feasible lower upper b := by
      intro i b hb
      cases i with
      | zero => cases hb; exact hzero
      | succ i =>
        rw [List.getElem?_cons_succ, List.getElem?_map] at hb
        cases hr : rows[i]? with
        | none => rw [hr] at hb; cases hb
        | some r =>
          rw [hr] at hb
          cases hb
          obtain ⟨lam', old, prev, g1, g2, g3, g4⟩ := cdPathLoop_row h i r hr
          unfold cdPathRow startValue at g4
          simp only [EnetArgs.pathConfig, ha.noStop, if_true] at g4
          rw [if_neg (by omega)] at g4
          exact C22_bounds ⟨_, _, _, _, _, lower, upper⟩ ha.bounds _ _ _ _ _ r.1 r.2 g4
    obtain ⟨lam', old, prev, g1, g2, g3, g4⟩ := cdPathLoop_row h i r hr
    rw [hl] at g1; cases g1
    rw [hb] at g3; cases g3
    unfold cdPathRow startValue at g4
    simp only [EnetArgs.pathConfig, ha.noStop, if_true] at g4
    rw [if_neg (by omega)] at g4
    exact onlineCD_penalisedError hf d hw _ _ hlam ha.alpha0 ha.alpha1 _ hp _ _ ha.bounds _ _ _ _ _ (hfeas i b hb) r g4

theorem onlineCDPath_improves {a : EnetArgs} {lower upper : Fin J → Option ℝ} (ha : PathOptions a lower upper) {which : StartValue}
    (hwh : which ≠ .previousLambda) {forget : ℝ} (hf : forget ≤ 1)
    {d : List (Obs J)} (hw : NonnegWeights d) {reg : Fin J → Bool} {pen : ℕ → Prop} (hp : ∀ j : Fin J, reg j = true ↔ pen j)
    {prm : ℕ → ℕ → List (Fin J)} {lams : List ℝ} {olds : List (Row J)} {rows : List (Row J × ℕ)} (hold : ∀ b ∈ olds, Feasible lower upper b)
    (h : onlineCDPath (a.pathConfig which reg lower upper prm) (initGram (xs d) (ws d) forget)
      (initYGram (xs d) (ys d) (ws d) forget) lams olds = .ok rows) :
    PathImproves forget a.alpha pen d lams olds (rows.map Prod.fst) := by
  intro i lam b b' hl hlam hb hb'
  rw [List.getElem?_map] at hb'
  cases hr : rows[i]? with
  | none => rw [hr] at hb'; cases hb'
  | some r =>
    rw [hr] at hb'
    cases hb'
    obtain ⟨lam', old, prev, g1, g2, g3, g4⟩ := cdPathLoop_row h i r hr
    rw [hl] at g1; cases g1
    rw [hb] at g2; cases g2
    unfold cdPathRow startValue at g4
    simp only [EnetArgs.pathConfig, ha.noStop, if_neg hwh] at g4
    rw [if_neg (by omega)] at g4
    exact onlineCD_penalisedError hf d hw _ _ hlam ha.alpha0 ha.alpha1 _ hp _ _ ha.bounds _ _ _ _ _ (hold b (List.mem_of_getElem? hb)) r g4

/-- **C102, paths, `fit`.**  After a fit the estimator keeps the cross products of the working rows of the last accepted pass, and,
if the rows are computed one after the other, the rows of the stored path descend along the grid of strengths of these cross
products; the coefficients are one of the rows.  Missing: the default `start_value_update="previous_fit"`, with which every pass but
the first starts from the path of the pass before. -/
theorem C102_fit_path_partial {frames : Bool} {D : DistOps} (ho : KeepsObjects other) {c : GConfig MethodState p} {data : List (Obs p)}
    {s t : GState MethodState p} {u : Unit} (h : GState.fit frames D (packageMethods perm other) c data s = (.ok u, t)) (it : ℕ)
    (hit : t.itOuter = some it) (h1 : 1 ≤ it) {k : ℕ} (hk : k ∈ t.paramOrder) {ms : PyDict (Option MethodState)} {a : EnetArgs}
    (hms : (c.method.process D.nParams (.value (some .ols))).result = .ok ms) (hm : ms.get? k = some (some (.path a))) :
    ∃ X fv sc forget K fi ri eq, t.scaler = some sc ∧ designFor t sc (xs data) k = .ok X ∧ getJ p fi eq = .ok K ∧
      t.fitIntercept.get? k = some fi ∧ t.regularizeIntercept.get? k = some ri ∧ t.equation.get? k = some eq ∧
      t.method k = some (.path a) ∧ t.forget.get? k = some forget ∧ (∃ wk, working D fitClip (ys data) fv k = .ok wk) ∧
      ∀ d : List (Obs K), WorkingRows D fitClip data X fv k d → forget ≤ 1 → NonnegWeights d →
        KeepsRows t k forget (Penalised fi ri eq) d ∧ ∀ lower upper, RowAfterRow (J := K) a lower upper →
          ∃ lams path, StoresPath t k a forget (regularizedFlags K fi ri eq) d lams path ∧
            PathDescends forget a.alpha (Penalised fi ri eq) d lams path := by
  obtain ⟨Xs, sc, ms', m0, mt, K, fi, ri, eq, forget, xg, yg, b, a1, a2, a3, a4, a5, a6, a7, a8, a9, a10, a11, a12, a13, a14,
    fv, wk, X, m, m', b1, b2, b3, b4, b5, b6, b7, b8⟩ := fit_source h it hit h1 hk
  obtain rfl : ms = ms' := Except.ok.inj (hms.symm.trans a3)
  obtain rfl : m0 = .path a := (Option.some.inj (Option.some.inj (hm.symm.trans a4))).symm
  obtain rfl := later_path ho b3
  obtain rfl : m' = .path a := methodStep_mayBecome ho b4
  obtain rfl := later_path ho b5
  have hd := a2 k X b2
  have hne : data ≠ [] := by
    obtain ⟨r⟩ := fit_ok h
    exact fun e => r.nonempty (.inl e)
  have common : ∀ d : List (Obs K), WorkingRows D fitClip data X fv k d → forget ≤ 1 → NonnegWeights d →
      xg = ofMat (initGram (xs d) (ws d) forget) ∧ yg = ofVec (initYGram (xs d) (ys d) (ws d) forget) := by
    intro d hwr hf hw
    have hX := hwr.nonempty (by rw [designFor_length hd]; simp [xs]) hne
    obtain ⟨wk', w1, w2, w3⟩ := hwr.working
    obtain rfl : wk = wk' := Except.ok.inj (b1.symm.trans w1)
    change (packageMethods perm other).initX _ X (wmul (ws data) wk.wt) forget = .ok xg at b6
    change (packageMethods perm other).initY _ X wk.wv (wmul (ws data) wk.wt) forget = .ok yg at b7
    rw [hwr.X, w3, initX_gram hX _ _ (by simp)] at b6
    rw [hwr.X, w2, w3, initY_ols hX] at b7
    exact ⟨(Except.ok.inj b6).symm, (Except.ok.inj b7).symm⟩
  rcases b8 with ⟨b8, _⟩ | ⟨_, rows, hrows, hb, b8⟩
  · cases b8
  refine ⟨X, fv, sc, forget, K, fi, ri, eq, a1, hd, a6, a7, a8, a9, a5, a11, ⟨wk, b1⟩, fun d hwr hf hw => ?_⟩
  obtain ⟨rfl, rfl⟩ := common d hwr hf hw
  refine ⟨⟨a11, ⟨_, a10, regularizedFlags_iff K fi ri eq⟩, ⟨_, a12, initGram_apply hf d hw⟩, ⟨_, a13, initYGram_apply hf d hw⟩⟩, ?_⟩
  intro lower upper hrow
  rcases b8 with b8 | ⟨v, b8⟩
  · change (packageMethods perm other).fitPath _ _ _ _ = _ at b8
    rw [fitPath_real] at b8
    obtain ⟨r, hr, e⟩ := map_ok_iff.1 b8
    simp only [Prod.mk.injEq, and_true] at e
    subst e
    obtain ⟨br, hbr, rfl⟩ := List.mem_map.1 hb
    obtain ⟨lo, g1, up, g2, lams, g3, q, g4, rfl⟩ := fitBetaPath_ok.1 hr
    refine ⟨lams, _, ⟨hrows, ⟨br, hbr, a14⟩, g3⟩, ?_⟩
    obtain rfl : lo = lower := Except.ok.inj (g1.symm.trans hrow.hlower)
    obtain rfl : up = upper := Except.ok.inj (g2.symm.trans hrow.hupper)
    rw [hrow.initial] at g4
    exact onlineCDPath_descends hrow.toPathOptions hrow.zero hf hw (regularizedFlags_iff K fi ri eq) g4
  · change (packageMethods perm other).updatePath _ _ _ _ _ = _ at b8
    rw [updatePath_rows (old := v.map fun _ => 0) _ _ _ _ (by unfold EnetArgs.oldRows; rw [if_pos hrow.update])] at b8
    obtain ⟨r, hr, e⟩ := map_ok_iff.1 b8
    simp only [Prod.mk.injEq, and_true] at e
    subst e
    obtain ⟨br, hbr, rfl⟩ := List.mem_map.1 hb
    obtain ⟨lo, g1, up, g2, lams, g3, q, g4, rfl⟩ := updateBetaPath_ok.1 hr
    refine ⟨lams, _, ⟨hrows, ⟨br, hbr, a14⟩, g3⟩, ?_⟩
    obtain rfl : lo = lower := Except.ok.inj (g1.symm.trans hrow.hlower)
    obtain rfl : up = upper := Except.ok.inj (g2.symm.trans hrow.hupper)
    rw [hrow.update] at g4
    exact onlineCDPath_descends hrow.toPathOptions hrow.zero hf hw (regularizedFlags_iff K fi ri eq) g4

/-- **C102, paths, `update`.**  An update adds the working rows of the new batch to the rows `d0` of the past.  The coefficients are
one of the rows of the new path.  With `start_value_update = "previous_lambda"` the rows of the new path descend along the grid of
strengths of all rows; otherwise each row improves on the row of the path `v` before, which with one outer iteration is the path
before the update. -/
theorem C102_update_path {D : DistOps} (ho : KeepsObjects other) {c : GConfig MethodState p} {data : List (Obs p)}
    {s t : GState MethodState p} {u : Unit} (h : GState.update D (packageMethods perm other) c data s = (.ok u, t)) (it : ℕ)
    (hit : t.itOuter = some it) (h1 : 1 ≤ it) {k : ℕ} (hk : k ∈ s.paramOrder) {forget : ℝ} (hf : forget ≤ 1) {a : EnetArgs}
    (hm : s.method k = some (.path a)) {pen : ℕ → Prop} {d0 : List (Obs J)} (hw0 : NonnegWeights d0)
    (hs : KeepsRows s k forget pen d0) :
    ∃ X fv sc v reg, t.scaler = some sc ∧ designFor s sc (xs data) k = .ok X ∧ t.method k = some (.path a) ∧
      s.isRegularized.get? k = some reg ∧ (it = 1 → s.paramOrder.Nodup → s.coefPath k = some v) ∧
      (∃ wk, working D updateClip (ys data) fv k = .ok wk) ∧
      ∀ d : List (Obs J), WorkingRows D updateClip data X fv k d → NonnegWeights d →
        KeepsRows t k forget pen (d0 ++ d) ∧ ∀ lower upper, PathOptions (J := J) a lower upper →
          (a.startUpdate = .previousLambda → Feasible lower upper 0 →
            ∃ lams path, StoresPath t k a forget reg (d0 ++ d) lams path ∧ PathDescends forget a.alpha pen (d0 ++ d) lams path) ∧
          (a.startUpdate ≠ .previousLambda → ∀ old : List (Row J), v = old.map ofVec → (∀ b ∈ old, Feasible lower upper b) →
            ∃ lams path, StoresPath t k a forget reg (d0 ++ d) lams path ∧
              PathImproves forget a.alpha pen (d0 ++ d) lams old path) := by
  have hsetup : t.forget = s.forget ∧ t.isRegularized = s.isRegularized := by
    obtain ⟨r⟩ := update_ok h
    have hset := (outerUpdate_committed _ _ _).ok (SameCommitted.refl _) r.hloop
    have e1 : r.s1.forget = s.forget := r.proj GState.forget (fun _ => rfl) fun _ _ => rfl
    have e2 : r.s1.isRegularized = s.isRegularized := r.proj GState.isRegularized (fun _ => rfl) fun _ _ => rfl
    exact ⟨((congrArg GState.forget r.ht).trans rfl).trans (hset.setup.forget.trans e1),
      ((congrArg GState.isRegularized r.ht).trans rfl).trans (hset.setup.isRegularized.trans e2)⟩
  obtain ⟨Xs, sc, m0, mt, forget', reg, x0, y0, b0, start, xg, yg, b, a1, a2, a3, a4, a5, a6, a7, a8, a9, a10, a11,
    ⟨fv, wk, X, m, m', b1, b2, b3, b4, b5, b6, b7, b8⟩, hone⟩ := update_source h it hit h1 hk
  obtain rfl : m0 = .path a := Option.some.inj (a3.symm.trans hm)
  obtain rfl := later_path ho b3
  obtain rfl : m' = .path a := methodStep_mayBecome ho b4
  obtain rfl := later_path ho b5
  obtain rfl : forget' = forget := Option.some.inj (a5.symm.trans hs.stored)
  obtain ⟨reg', hreg', hpen⟩ := hs.penalised
  obtain rfl : reg = reg' := Option.some.inj (a6.symm.trans hreg')
  have hd := a2 k X b2
  rcases b8 with ⟨b8, _⟩ | ⟨_, rows, v, hrows, hb, hv, b8⟩
  · cases b8
  refine ⟨X, fv, sc, v, reg, a1, hd, a4, a6, fun q1 q2 => (hone q1 q2).2 ▸ hv, ⟨wk, b1⟩, fun d hwr hw => ?_⟩
  have hne : data ≠ [] := by
    obtain ⟨r⟩ := update_ok h
    exact fun e => r.nonempty (.inl e)
  have hX := hwr.nonempty (by rw [designFor_length hd]; simp [xs]) hne
  obtain ⟨wk', w1, w2, w3⟩ := hwr.working
  obtain rfl : wk = wk' := Except.ok.inj (b1.symm.trans w1)
  obtain ⟨G, hx, hG⟩ := hs.xGram
  obtain ⟨g, hy, hg⟩ := hs.yGram
  obtain rfl := gram_of_entries hf hw0 hG
  obtain rfl := yGram_of_entries hf hw0 hg
  obtain rfl : x0 = _ := Option.some.inj (a7.symm.trans hx)
  obtain rfl : y0 = _ := Option.some.inj (a8.symm.trans hy)
  change (packageMethods perm other).updateX _ _ X (wmul (ws data) wk.wt) forget' = .ok xg at b6
  change (packageMethods perm other).updateY _ _ X wk.wv (wmul (ws data) wk.wt) forget' = .ok yg at b7
  rw [hwr.X, w3, updateX_real hX] at b6
  change Except.ok (ofMat (updateGram _ (xs d) forget' (.array (ws d)))) = _ at b6
  rw [updateGram_initGram hf d0 d hw0 hw] at b6
  obtain rfl := (Except.ok.inj b6).symm
  rw [hwr.X, w2, w3, updateY_real hX, updateYGram_initYGram hf d0 d hw0 hw] at b7
  obtain rfl := (Except.ok.inj b7).symm
  have hall := hw0.append hw
  refine ⟨⟨by rw [hsetup.1]; exact a5, ⟨reg, by rw [hsetup.2]; exact a6, hpen⟩, ⟨_, a9, initGram_apply hf _ hall⟩,
    ⟨_, a10, initYGram_apply hf _ hall⟩⟩, fun lower upper hrow => ⟨fun ha hzero => ?_, fun ha old e hold => ?_⟩⟩
  · change (packageMethods perm other).updatePath _ _ _ _ _ = _ at b8
    rw [updatePath_rows (old := v.map fun _ => 0) _ _ _ _ (by unfold EnetArgs.oldRows; rw [if_pos ha])] at b8
    obtain ⟨r, hr, e⟩ := map_ok_iff.1 b8
    simp only [Prod.mk.injEq, and_true] at e
    subst e
    obtain ⟨br, hbr, rfl⟩ := List.mem_map.1 hb
    obtain ⟨lo, g1, up, g2, lams, g3, q, g4, rfl⟩ := updateBetaPath_ok.1 hr
    refine ⟨lams, _, ⟨hrows, ⟨br, hbr, a11⟩, g3⟩, ?_⟩
    obtain rfl : lo = lower := Except.ok.inj (g1.symm.trans hrow.hlower)
    obtain rfl : up = upper := Except.ok.inj (g2.symm.trans hrow.hupper)
    rw [ha] at g4
    exact onlineCDPath_descends hrow hzero hf hall hpen g4
  · subst e
    change (packageMethods perm other).updatePath _ _ _ _ _ = _ at b8
    rw [updatePath_real] at b8
    obtain ⟨r, hr, e⟩ := map_ok_iff.1 b8
    simp only [Prod.mk.injEq, and_true] at e
    subst e
    obtain ⟨br, hbr, rfl⟩ := List.mem_map.1 hb
    obtain ⟨lo, g1, up, g2, lams, g3, q, g4, rfl⟩ := updateBetaPath_ok.1 hr
    refine ⟨lams, _, ⟨hrows, ⟨br, hbr, a11⟩, g3⟩, ?_⟩
    obtain rfl : lo = lower := Except.ok.inj (g1.symm.trans hrow.hlower)
    obtain rfl : up = upper := Except.ok.inj (g2.symm.trans hrow.hupper)
    exact onlineCDPath_improves hrow ha hf hall hpen hold g4

/-! ### The flags -/

/-- **C102, the intercept.**  After a fit, of the coefficients of a parameter the first one is left out of the penalty exactly if
there is an intercept, `regularize_intercept` is not set for the parameter and its equation is not the intercept alone; all
others are penalised.  Updates do not change this (`C102_update_ridge`, `C102_update_path`). -/
theorem C102_flags {μ : Type} {frames : Bool} {D : DistOps} {M : MethodOps μ} {c : GConfig μ p} {data : List (Obs p)} {s t : GState μ p}
    {u : Unit} (h : GState.fit frames D M c data s = (.ok u, t)) (it : ℕ) (hit : t.itOuter = some it) (h1 : 1 ≤ it) {k : ℕ}
    (hk : k ∈ t.paramOrder) :
    ∃ fi ri eq K reg, t.fitIntercept.get? k = some fi ∧ t.regularizeIntercept.get? k = some ri ∧ t.equation.get? k = some eq ∧
      getJ p fi eq = .ok K ∧ t.isRegularized.get? k = some reg ∧ reg.length = K ∧
      ∀ j < K, (reg[j]? = some false ↔ j = 0 ∧ fi = true ∧ ri = false ∧ eq ≠ .str "intercept") := by
  obtain ⟨Xs, sc, ms', m0, mt, K, fi, ri, eq, forget, xg, yg, b, a1, a2, a3, a4, a5, a6, a7, a8, a9, a10, _⟩ := fit_source h it hit h1 hk
  refine ⟨fi, ri, eq, K, _, a7, a8, a9, a6, a10, ?_, fun j hj => ?_⟩
  · unfold regularizedFlags; split <;> simp
  · have hf := regularizedFlags_iff K fi ri eq ⟨j, hj⟩
    have hlen : (regularizedFlags K fi ri eq).length = K := by unfold regularizedFlags; split <;> simp
    unfold flags Penalised at hf
    rw [List.getD_eq_getElem?_getD, List.getElem?_eq_getElem (by omega)] at hf
    rw [List.getElem?_eq_getElem (by omega)]
    simp only [Option.getD_some] at hf
    rw [Option.some.injEq, ← Bool.not_eq_true, hf, not_not]

end Ondil
