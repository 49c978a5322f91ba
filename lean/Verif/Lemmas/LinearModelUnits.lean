import Verif.Lemmas.ResponseUnits
import Verif.Lemmas.LinearModelTwins
import Verif.Props.LinearModel
import Verif.Spec.Units

/-!
# The linear model when the response is measured in other units
-/

open scoped BigOperators

namespace Ondil

variable {p : ℕ} {fi : Bool} {k : ℝ}

/-! ### Sufficient statistics -/

theorem tDotVec_scale (k : ℝ) (X : List (Row p)) (y : List ℝ) : tDotVec X (y.map (k * ·)) = k • tDotVec X y := by
  funext j
  simp only [tDotVec, Pi.smul_apply, smul_eq_mul]
  induction X generalizing y with
  | nil => simp
  | cons x X ih =>
    cases y with
    | nil => simp
    | cons a y =>
      simp only [List.map_cons, List.zipWith_cons_cons, List.sum_cons]
      rw [ih]
      ring

theorem zipWith_mul_scale (k : ℝ) (y s : List ℝ) :
    List.zipWith (fun a b => a * b) (y.map (k * ·)) s = (List.zipWith (fun a b => a * b) y s).map (k * ·) := by
  induction y generalizing s with
  | nil => rfl
  | cons a y ih =>
    cases s with
    | nil => rfl
    | cons b s =>
      simp only [List.map_cons, List.zipWith_cons_cons, ih]
      rw [mul_assoc]

theorem initYGram_scale (k : ℝ) (X : List (Row p)) (y w : List ℝ) (f : ℝ) :
    initYGram X (y.map (k * ·)) w f = k • initYGram X y w f := by
  unfold initYGram
  simp only
  rw [zipWith_mul_scale, tDotVec_scale]

theorem updateYGram_scale (k : ℝ) (h : Row p) (X : List (Row p)) (y : List ℝ) (f : ℝ) (w : WeightArg) :
    updateYGram (k • h) X (y.map (k * ·)) f w = k • updateYGram h X y f w := by
  unfold updateYGram
  split
  · rename_i x
    funext j
    have : (y.map (k * ·)).headD 0 = k * y.headD 0 := by cases y <;> simp
    rw [this]
    simp only [Pi.add_apply, Pi.smul_apply, smul_eq_mul]
    ring
  · simp only
    rw [zipWith_mul_scale, tDotVec_scale, smul_add, smul_comm]

/-! ### Selection -/

theorem rowDot_scale (k : ℝ) (x b : Row p) : rowDot x (k • b) = k * rowDot x b := by
  unfold rowDot
  rw [Finset.mul_sum]
  exact Finset.sum_congr rfl fun j _ => by simp only [Pi.smul_apply, smul_eq_mul]; ring

theorem rssFit_scale (k : ℝ) (X : List (Row p)) (y w : List ℝ) (b : Row p) :
    rssFit X (y.map (k * ·)) w (k • b) = k ^ 2 * rssFit X y w b := by
  unfold rssFit
  generalize List.zip X w = l
  induction l generalizing y with
  | nil => simp
  | cons x l ih =>
    cases y with
    | nil => simp
    | cons a y =>
      simp only [List.map_cons, List.zipWith_cons_cons, List.sum_cons]
      rw [ih, rowDot_scale]
      ring

theorem rssBatch_scale (k : ℝ) (X : List (Row p)) (y : List ℝ) (b : Row p) :
    rssBatch X (y.map (k * ·)) (k • b) = k ^ 2 * rssBatch X y b := by
  unfold rssBatch
  induction X generalizing y with
  | nil => simp
  | cons x l ih =>
    cases y with
    | nil => simp
    | cons a y =>
      simp only [List.map_cons, List.zipWith_cons_cons, List.sum_cons]
      rw [ih, rowDot_scale]
      ring

theorem rssUpdate_scale (k f : ℝ) (rss : List ℝ) (path : List (Row p)) (X : List (Row p)) (y : List ℝ) :
    rssUpdate f (rss.map (k ^ 2 * ·)) (path.map (k • ·)) X (y.map (k * ·)) = (rssUpdate f rss path X y).map (k ^ 2 * ·) := by
  unfold rssUpdate
  induction rss generalizing path with
  | nil => rfl
  | cons r rss ih =>
    cases path with
    | nil => rfl
    | cons b path =>
      simp only [List.map_cons, List.zipWith_cons_cons]
      rw [ih, rssBatch_scale]
      congr 1
      ring

/-- Adding a real number to a number that may be infinite or NaN. -/
noncomputable def Flt.shift (d : ℝ) (a : Flt) : Flt := Flt.add a (.fin d)

theorem llFromRss_scale (hk : 0 < k) (n : ℝ) {r : ℝ} (hr : 0 < r) :
    llFromRss n (k ^ 2 * r) = (llFromRss n r).shift (-n / 2 * Real.log (k ^ 2)) := by
  have hk2 : 0 < k ^ 2 := by positivity
  unfold llFromRss Flt.shift
  rcases lt_trichotomy n 0 with hn | rfl | hn
  · have h1 : ¬ 0 < r / n := not_lt.2 (div_neg_of_pos_of_neg hr hn).le
    have h2 : ¬ 0 < k ^ 2 * r / n := not_lt.2 (div_neg_of_pos_of_neg (by positivity) hn).le
    simp [Flt.div, hn.ne, Flt.log, h1, h2, hr.ne', hk.ne', Flt.mul, Flt.add]
  · have h1 : 0 < k ^ 2 * r := by positivity
    simp [Flt.div, Flt.infSigned, hr, h1, Flt.log, Flt.mul, Flt.add]
  · have h1 : 0 < r / n := div_pos hr hn
    have h2 : 0 < k ^ 2 * r / n := by positivity
    simp only [Flt.div, if_neg hn.ne', Flt.log, if_pos h1, if_pos h2, Flt.mul, Flt.add]
    rw [mul_div_assoc, Real.log_mul hk2.ne' h1.ne']
    congr 1
    ring

/-- How a shift of the log-likelihood shifts the criterion. -/
def Criterion.slope : Criterion → ℝ
  | .max => 1
  | _ => 2

theorem Flt.mul_shift (ll : Flt) (d : ℝ) : Flt.mul (.fin (-2)) (ll.shift d) = (Flt.mul (.fin (-2)) ll).shift (-(2 * d)) := by
  cases ll <;> norm_num [Flt.shift, Flt.mul, Flt.add, Flt.infSigned, Flt.neg]
  ring

theorem Flt.shift_add (a b : Flt) (d : ℝ) : Flt.add (a.shift d) b = (Flt.add a b).shift d := by
  cases a <;> cases b <;> simp [Flt.shift, Flt.add]
  ring

theorem fromLL_shift (c : Criterion) (n q : ℝ) (ll : Flt) (d : ℝ) :
    fromLL c n q (ll.shift d) = (fromLL c n q ll).map (Flt.shift (-(c.slope * d))) := by
  cases c <;> simp only [fromLL, Criterion.slope]
  case aicc =>
    split_ifs
    · rfl
    · simp only [Except.map, Except.ok.injEq, Flt.mul_shift, Flt.shift_add]
  case max =>
    simp only [Except.map, Except.ok.injEq, one_mul]
    cases ll <;> simp [Flt.shift, Flt.add, Flt.neg]
    ring
  all_goals simp only [Except.map, Except.ok.injEq, Flt.mul_shift, Flt.shift_add]

theorem fromLLArray_shift (c : Criterion) (n : ℝ) (q : List ℝ) (ll : List Flt) (d : ℝ) :
    fromLLArray c n q (ll.map (Flt.shift d)) = (fromLLArray c n q ll).map (List.map (Flt.shift (-(c.slope * d)))) := by
  have key : ∀ l : List (ℝ × Flt), (l.map fun x => (x.1, x.2.shift d)).mapM (fun pl => fromLL c n pl.1 pl.2) =
      (l.mapM fun pl => fromLL c n pl.1 pl.2).map (List.map (Flt.shift (-(c.slope * d)))) := by
    intro l
    induction l with
    | nil => rfl
    | cons a l ih =>
      rw [List.map_cons, List.mapM_cons, List.mapM_cons, ih, fromLL_shift]
      cases fromLL c n a.1 a.2 with
      | error e => rfl
      | ok v => cases l.mapM fun pl => fromLL c n pl.1 pl.2 <;> rfl
  unfold fromLLArray
  split_ifs
  · rfl
  · rw [List.zip_map_right]
    exact key _

theorem Flt.shift_le (d : ℝ) (a b : Flt) : Flt.le (a.shift d) (b.shift d) ↔ Flt.le a b := by
  cases a <;> cases b <;> simp [Flt.shift, Flt.add, Flt.le]

theorem Flt.shift_nan (d : ℝ) (a : Flt) : a.shift d = .nan ↔ a = .nan := by
  cases a <;> simp [Flt.shift, Flt.add]

theorem argminFlt_shift (d : ℝ) (l : List Flt) : argminFlt (l.map (Flt.shift d)) = argminFlt l := by
  classical
  cases l with
  | nil => rfl
  | cons v l =>
    have e1 : (fun x : Flt => decide (Flt.shift d x = .nan)) = fun x => decide (x = .nan) := by
      funext x; simp only [Flt.shift_nan]
    have e2 : (fun x : Flt => decide (∀ u ∈ (v :: l).map (Flt.shift d), Flt.le (Flt.shift d x) u)) =
        fun x => decide (∀ u ∈ v :: l, Flt.le x u) := by
      funext x
      congr 1
      simp only [List.forall_mem_map, Flt.shift_le]
    have f1 : ((v :: l).map (Flt.shift d)).findIdx? (fun x => decide (x = .nan)) = (v :: l).findIdx? fun x => decide (x = .nan) := by
      rw [List.findIdx?_map]
      exact congrArg (fun p => (v :: l).findIdx? p) e1
    have f2 : ((v :: l).map (Flt.shift d)).findIdx? (fun x => decide (∀ u ∈ (v :: l).map (Flt.shift d), Flt.le x u)) =
        (v :: l).findIdx? fun x => decide (∀ u ∈ v :: l, Flt.le x u) := by
      rw [List.findIdx?_map]
      exact congrArg (fun p => (v :: l).findIdx? p) e2
    unfold argminFlt
    simp only [List.map_cons] at f1 f2 ⊢
    rw [f1, f2]

theorem selectByRss_scale (hk : 0 < k) (c : Criterion) (n : ℝ) (q rss : List ℝ) (hr : ∀ r ∈ rss, 0 < r) :
    selectByRss c n q (rss.map (k ^ 2 * ·)) = selectByRss c n q rss := by
  unfold selectByRss fromRssArray
  have : (rss.map (k ^ 2 * ·)).map (llFromRss n) = (rss.map (llFromRss n)).map (Flt.shift (-n / 2 * Real.log (k ^ 2))) := by
    rw [List.map_map, List.map_map]
    exact List.map_congr_left fun r h => llFromRss_scale hk n (hr r h)
  rw [this, fromLLArray_shift]
  cases fromLLArray c n q (rss.map (llFromRss n)) with
  | error e => rfl
  | ok l => exact argminFlt_shift _ l

theorem selectCoef_succeeds {ic : Criterion} (hic : ic ≠ .aicc) (n : ℝ) {path : List (Row p)} {rss : List ℝ}
    (hlen : path.length = rss.length) (hne : path ≠ []) : ∃ i b, selectByRss ic n (path.map fun b => (nParams b : ℝ)) rss = .ok i ∧
      path[i]? = some b ∧ selectCoef ic n path rss = .ok b := by
  obtain ⟨i, hi⟩ := C31_select_succeeds ic hic n (path.map fun b => (nParams b : ℝ)) rss (by simpa using hlen) (by simpa using hne)
  obtain ⟨pi, ri, v, g1, _⟩ := C31_selected_is_best (by simpa using hlen) hi
  rw [List.getElem?_map] at g1
  cases hg : path[i]? with
  | none => rw [hg] at g1; cases g1
  | some b =>
    refine ⟨i, b, hi, hg, ?_⟩
    unfold selectCoef
    rw [bind_ok]
    exact ⟨i, hi, by rw [hg]; rfl⟩

theorem selectCoef_scale (hk : 0 < k) {ic : Criterion} (hic : ic ≠ .aicc) (n : ℝ) {path : List (Row p)} {rss : List ℝ}
    (hlen : path.length = rss.length) :
    (∃ e, selectCoef ic n path rss = .error e ∧ selectCoef ic n (path.map (k • ·)) (rss.map (k ^ 2 * ·)) = .error e) ∨
    ∃ b b', selectCoef ic n path rss = .ok b ∧ selectCoef ic n (path.map (k • ·)) (rss.map (k ^ 2 * ·)) = .ok b' ∧
      ((∀ b ∈ path, nParams (k • b) = nParams b) → (∀ r ∈ rss, 0 < r) → b' = k • b) := by
  by_cases hne : path = []
  · subst hne
    have : rss = [] := List.length_eq_zero_iff.1 hlen.symm
    subst this
    cases h : selectCoef ic n ([] : List (Row p)) [] with
    | error e => exact .inl ⟨e, rfl, h⟩
    | ok b => exact .inr ⟨b, b, rfl, h, fun _ _ => by
        obtain ⟨i, hi, _⟩ := selectCoef_best (by simp) h
        simp at hi⟩
  · obtain ⟨i, b, h1, h2, h3⟩ := selectCoef_succeeds hic n hlen hne
    obtain ⟨i', b', h1', h2', h3'⟩ := selectCoef_succeeds hic n (path := path.map (k • ·)) (rss := rss.map (k ^ 2 * ·))
      (by simpa using hlen) (by simpa using hne)
    refine .inr ⟨b, b', h3, h3', fun hv hr => ?_⟩
    have e : ((path.map (k • ·)).map fun b => (nParams b : ℝ)) = path.map fun b => (nParams b : ℝ) := by
      rw [List.map_map]
      exact List.map_congr_left fun b hb => by simp only [Function.comp, hv b hb]
    rw [e, selectByRss_scale hk ic n _ rss hr, h1] at h1'
    cases h1'
    rw [List.getElem?_map, h2] at h2'
    cases h2'
    rfl

/-! ### The estimator -/

theorem ys_scale (k : ℝ) (data : List (Obs p)) : ys (data.map (Obs.scaleY k)) = (ys data).map (k * ·) := by
  simp [ys, Obs.scaleY]

theorem ws_scale (k : ℝ) (data : List (Obs p)) : ws (data.map (Obs.scaleY k)) = ws data := by
  simp [ws, Obs.scaleY]

theorem xs_scale (k : ℝ) (data : List (Obs p)) : xs (data.map (Obs.scaleY k)) = xs data := by
  simp [xs, Obs.scaleY]

/-- The models after runs with the response in two units. -/
structure ScaledLM (k : ℝ) (s t : LM p fi) : Prop where
  method : t.method = s.method
  unitFree : ∀ m, s.method = some m → m.UnitFree
  nObs : t.nObs = s.nObs
  scaler : t.scaler = s.scaler
  xGram : t.xGram = s.xGram
  yGram : t.yGram = s.yGram.map (k • ·)
  coef : (∀ a, s.method ≠ some (.path a)) → t.coef = s.coef.map (k • ·)
  path : ∀ a, s.method = some (.path a) → ∃ path rss b b', s.coefPath = some path ∧ s.rss = some rss ∧ path.length = rss.length ∧
    t.coefPath = some (path.map (k • ·)) ∧ t.rss = some (rss.map (k ^ 2 * ·)) ∧ s.coef = some b ∧ t.coef = some b' ∧
    ((∀ b ∈ path, nParams (k • b) = nParams b) → (∀ r ∈ rss, 0 < r) → b' = k • b)

theorem Py.RelTo.bind_call_map {σ τ α α' β : Type} {R R' : σ → τ → Prop} {x : Except PyErr α} {x' : Except PyErr α'} {g : α → α'}
    {f : α → Py σ β} {f' : α' → Py τ β} (hx : x' = x.map g) (h : ∀ a, x = .ok a → Py.RelTo R R' (f a) (f' (g a))) :
    Py.RelTo R R' (Py.call x >>= f) (Py.call x' >>= f') := by
  subst hx
  refine Py.RelTo.bind_call ?_
  cases x with
  | error e => exact .inl ⟨e, rfl, rfl⟩
  | ok a => exact .inr ⟨a, g a, rfl, rfl, h a rfl⟩

theorem LM.fit_scaled (hk : 0 < k) (c : LMConfig p fi) (hv : c.Valid) (hm : ∀ m, getEstimationMethod c.method = .ok m → m.UnitFree)
    (perm : ℕ → ℕ → List (Fin (designDim p fi))) (data : List (Obs p)) :
    Py.RelTo (fun _ _ => True) (ScaledLM k) (LM.fit c perm data) (LM.fit c perm (data.map (Obs.scaleY k))) := by
  unfold LM.fit
  rw [ys_scale, ws_scale, xs_scale]
  refine Py.RelTo.bind (Py.Rel.to (Py.rel_raiseIf Iff.rfl _)) fun _ => ?_
  refine Py.RelTo.bind_call_map (g := id) (by cases getEstimationMethod c.method <;> rfl) fun m he => ?_
  have hu := hm m he
  refine Py.RelTo.bind (Py.relTo_set _ _) fun _ => ?_
  refine Py.RelTo.bind (Py.Rel.to (Py.rel_raiseIf Iff.rfl _)) fun _ => ?_
  refine Py.RelTo.bind (Py.Rel.to (Py.rel_raiseIf (or_congr (by simp) Iff.rfl) _)) fun _ => ?_
  refine Py.RelTo.bind (Py.relTo_set _ _) fun _ => ?_
  refine Py.RelTo.bind (Py.Rel.to (Py.rel_raiseIf Iff.rfl _)) fun _ => ?_
  refine Py.RelTo.bind (Py.Rel.to (Py.rel_raiseIf Iff.rfl _)) fun _ => ?_
  refine Py.RelTo.bind (Py.relTo_set _ _) fun _ => ?_
  refine Py.RelTo.bind (Py.Rel.to (Py.rel_call rfl)) fun sc => ?_
  refine Py.RelTo.bind (Py.relTo_set _ _) fun _ => ?_
  refine Py.RelTo.bind (Py.Rel.to (Py.rel_call rfl)) fun G => ?_
  refine Py.RelTo.bind (Py.relTo_set _ _) fun _ => ?_
  refine Py.RelTo.bind (Py.relTo_set _ _) fun _ => ?_
  simp only [id]
  rw [initYGram_scale]
  cases m with
  | ols =>
    refine Py.RelTo.mono (Py.relTo_set _ _) (fun _ _ h => h) ?_
    rintro _ _ ⟨_, _, ⟨_, _, ⟨_, _, ⟨_, _, ⟨_, _, ⟨_, _, ⟨s, t, _, rfl, rfl⟩, rfl, rfl⟩, rfl, rfl⟩, rfl, rfl⟩, rfl, rfl⟩,
      rfl, rfl⟩, rfl, rfl⟩
    exact ⟨rfl, fun m hm => by cases hm; exact hu, rfl, rfl, rfl, rfl,
      fun _ => congrArg some (Matrix.mulVec_smul _ _ _), fun a ha => by cases ha⟩
  | path a =>
    refine Py.RelTo.bind_call_map (a.fitBetaPath_scale ⟨hu.1, hu.2.1, hu.2.2⟩ hk G _ _ perm) fun path _ => ?_
    refine Py.RelTo.bind (Py.relTo_set _ _) fun _ => ?_
    refine Py.RelTo.bind (Py.relTo_set _ _) fun _ => ?_
    have hr : (path.map (k • ·)).map (rssFit (scaledDesign fi sc (xs data)) ((ys data).map (k * ·)) (ws data)) =
        (path.map (rssFit (scaledDesign fi sc (xs data)) (ys data) (ws data))).map (k ^ 2 * ·) := by
      rw [List.map_map, List.map_map]
      exact List.map_congr_left fun b _ => rssFit_scale ..
    rw [hr]
    refine Py.RelTo.bind_call ?_
    rcases selectCoef_scale hk hv.2.2.1 (effectiveTrainingLength c.forget (ws data).sum) (path := path)
      (rss := path.map (rssFit (scaledDesign fi sc (xs data)) (ys data) (ws data))) (by simp) with
      ⟨e, h1, h2⟩ | ⟨b, b', h1, h2, h3⟩
    · exact .inl ⟨e, h1, h2⟩
    refine .inr ⟨b, b', h1, h2, ?_⟩
    refine Py.RelTo.mono (Py.relTo_set _ _) (fun _ _ h => h) ?_
    rintro _ _ ⟨_, _, ⟨_, _, ⟨_, _, ⟨_, _, ⟨_, _, ⟨_, _, ⟨_, _, ⟨_, _, ⟨s, t, _, rfl, rfl⟩, rfl, rfl⟩, rfl, rfl⟩, rfl, rfl⟩,
      rfl, rfl⟩, rfl, rfl⟩, rfl, rfl⟩, rfl, rfl⟩, rfl, rfl⟩
    exact ⟨rfl, fun m hm => by cases hm; exact hu, rfl, rfl, rfl, rfl, fun h => absurd rfl (h a),
      fun a' _ => ⟨path, _, b, b', rfl, rfl, by simp, rfl, rfl, rfl, rfl, h3⟩⟩
  | ridge a =>
    refine Py.RelTo.bind_call_map (a.fitBeta_scale ⟨hu.1, hu.2.1, hu.2.2⟩ hk G _ _ (perm 0)) fun r _ => ?_
    refine Py.RelTo.mono (Py.relTo_set _ _) (fun _ _ h => h) ?_
    rintro _ _ ⟨_, _, ⟨_, _, ⟨_, _, ⟨_, _, ⟨_, _, ⟨_, _, ⟨s, t, _, rfl, rfl⟩, rfl, rfl⟩, rfl, rfl⟩, rfl, rfl⟩, rfl, rfl⟩,
      rfl, rfl⟩, rfl, rfl⟩
    exact ⟨rfl, fun m hm => by cases hm; exact hu, rfl, rfl, rfl, rfl, fun _ => rfl, fun a ha => by cases ha⟩

theorem LM.update_scaled (hk : 0 < k) (c : LMConfig p fi) (hv : c.Valid) (perm : ℕ → ℕ → List (Fin (designDim p fi)))
    (data : List (Obs p)) :
    Py.RelTo (ScaledLM k) (ScaledLM k) (LM.update c perm data) (LM.update c perm (data.map (Obs.scaleY k))) := by
  unfold LM.update
  rw [ys_scale, ws_scale, xs_scale]
  refine Py.RelTo.bind (Py.Rel.to (Py.rel_raiseIf Iff.rfl _)) fun _ => ?_
  refine Py.RelTo.bind (Py.Rel.to (Py.rel_raiseIf (or_congr (by simp) Iff.rfl) _)) fun _ => ?_
  refine Py.RelTo.bind_self ?_
  intro s t hst
  obtain ⟨e1, e0, e2, e3, e4, e5, e6, e7⟩ := hst
  rw [e1, e2, e3, e4, e5]
  refine Py.RelTo.bind (Py.Rel.to (Py.rel_attr rfl _)) fun n0 => ?_
  refine Py.RelTo.bind (Py.relTo_set _ _) fun _ => ?_
  refine Py.RelTo.bind (Py.relTo_set _ _) fun _ => ?_
  refine Py.RelTo.bind (Py.Rel.to (Py.rel_attr rfl _)) fun sc0 => ?_
  refine Py.RelTo.bind (Py.Rel.to (Py.rel_call rfl)) fun sc => ?_
  refine Py.RelTo.bind (Py.relTo_set _ _) fun _ => ?_
  rcases hm : s.method with _ | m
  · intro s t _
    exact ⟨rfl, fun _ h => by cases h⟩
  have hu := e0 m hm
  change Py.RelTo _ _ (Py.call (.ok m) >>= _) (Py.call (.ok m) >>= _)
  refine Py.RelTo.bind_call (.inr ⟨m, m, rfl, rfl, ?_⟩)
  refine Py.RelTo.bind (Py.Rel.to (Py.rel_attr rfl _)) fun G0 => ?_
  refine Py.RelTo.bind (Py.Rel.to (Py.rel_call rfl)) fun G => ?_
  refine Py.RelTo.bind (Py.relTo_set _ _) fun _ => ?_
  rcases hy : s.yGram with _ | h0
  · intro s t _
    exact ⟨rfl, fun _ h => by cases h⟩
  change Py.RelTo _ _ (Py.call (.ok h0) >>= _) (Py.call (.ok (k • h0)) >>= _)
  refine Py.RelTo.bind_call (.inr ⟨h0, k • h0, rfl, rfl, ?_⟩)
  simp only
  rw [updateYGram_scale]
  refine Py.RelTo.bind (Py.relTo_set _ _) fun _ => ?_
  cases m with
  | ols =>
    rw [e6 (fun a ha => by cases hm.symm.trans ha)]
    rcases hc : s.coef with _ | b0
    · intro s t _
      exact ⟨rfl, fun _ h => by cases h⟩
    change Py.RelTo _ _ (Py.call (.ok b0) >>= _) (Py.call (.ok (k • b0)) >>= _)
    refine Py.RelTo.bind_call (.inr ⟨b0, k • b0, rfl, rfl, ?_⟩)
    refine Py.RelTo.mono (Py.relTo_set _ _) (fun _ _ h => h) ?_
    rintro _ _ ⟨_, _, ⟨_, _, ⟨_, _, ⟨_, _, ⟨_, _, ⟨s, t, ⟨rfl, rfl⟩, rfl, rfl⟩, rfl, rfl⟩, rfl, rfl⟩, rfl, rfl⟩, rfl, rfl⟩,
      rfl, rfl⟩
    exact ⟨e1, e0, rfl, rfl, rfl, rfl, fun _ => congrArg some (Matrix.mulVec_smul _ _ _), fun a ha => by cases hm.symm.trans ha⟩
  | path a =>
    obtain ⟨path0, rss0, b0, b0', f1, f2, f3, f4, f5, f6, f7, f8⟩ := e7 a hm
    rw [f1, f2, f4, f5]
    change Py.RelTo _ _ (Py.call (.ok path0) >>= _) (Py.call (.ok (path0.map (k • ·))) >>= _)
    refine Py.RelTo.bind_call (.inr ⟨path0, path0.map (k • ·), rfl, rfl, ?_⟩)
    refine Py.RelTo.bind_call_map (a.updateBetaPath_scale ⟨hu.1, hu.2.1, hu.2.2⟩ hk G _ path0 _ perm) fun path hp => ?_
    have hl : path.length ≤ path0.length := by
      unfold EnetArgs.updateBetaPath at hp
      simp only [bind_ok] at hp
      obtain ⟨lo, _, up, _, lams, _, rows, hrows, hp⟩ := hp
      cases hp
      rw [List.length_map, cdPathLoop_length hrows]
      exact min_le_right _ _
    refine Py.RelTo.bind (Py.relTo_set _ _) fun _ => ?_
    change Py.RelTo _ _ (Py.call (.ok rss0) >>= _) (Py.call (.ok (rss0.map (k ^ 2 * ·))) >>= _)
    refine Py.RelTo.bind_call (.inr ⟨rss0, rss0.map (k ^ 2 * ·), rfl, rfl, ?_⟩)
    rw [rssUpdate_scale]
    have hl' : path.length = (rssUpdate c.forget rss0 path (scaledDesign fi sc (xs data)) (ys data)).length := by
      unfold rssUpdate
      rw [List.length_zipWith, ← f3, min_eq_right hl]
    refine Py.RelTo.bind (Py.relTo_set _ _) fun _ => ?_
    refine Py.RelTo.bind_call ?_
    rcases selectCoef_scale hk hv.2.2.1 (effectiveTrainingLength c.forget (n0 + (ws data).sum)) hl' with
      ⟨e, h1, h2⟩ | ⟨b, b', h1, h2, h3⟩
    · exact .inl ⟨e, h1, h2⟩
    refine .inr ⟨b, b', h1, h2, ?_⟩
    refine Py.RelTo.mono (Py.relTo_set _ _) (fun _ _ h => h) ?_
    rintro _ _ ⟨_, _, ⟨_, _, ⟨_, _, ⟨_, _, ⟨_, _, ⟨_, _, ⟨_, _, ⟨s, t, ⟨rfl, rfl⟩, rfl, rfl⟩, rfl, rfl⟩, rfl, rfl⟩, rfl, rfl⟩,
      rfl, rfl⟩, rfl, rfl⟩, rfl, rfl⟩, rfl, rfl⟩
    exact ⟨e1, e0, rfl, rfl, rfl, rfl, fun h => absurd hm (h a),
      fun a' _ => ⟨path, _, b, b', rfl, rfl, hl', rfl, rfl, rfl, rfl, h3⟩⟩
  | ridge a =>
    rw [e6 (fun a ha => by cases hm.symm.trans ha)]
    rcases hc : s.coef with _ | b0
    · intro s t _
      exact ⟨rfl, fun _ h => by cases h⟩
    change Py.RelTo _ _ (Py.call (.ok b0) >>= _) (Py.call (.ok (k • b0)) >>= _)
    refine Py.RelTo.bind_call (.inr ⟨b0, k • b0, rfl, rfl, ?_⟩)
    refine Py.RelTo.bind (Py.Rel.to (Py.rel_attr rfl _)) fun lam => ?_
    refine Py.RelTo.bind_call_map (a.updateBeta_scale ⟨hu.1, hu.2.1, hu.2.2⟩ hk lam G _ b0 _ (perm 0)) fun b _ => ?_
    refine Py.RelTo.mono (Py.relTo_set _ _) (fun _ _ h => h) ?_
    rintro _ _ ⟨_, _, ⟨_, _, ⟨_, _, ⟨_, _, ⟨_, _, ⟨s, t, ⟨rfl, rfl⟩, rfl, rfl⟩, rfl, rfl⟩, rfl, rfl⟩, rfl, rfl⟩, rfl, rfl⟩,
      rfl, rfl⟩
    exact ⟨e1, e0, rfl, rfl, rfl, rfl, fun _ => rfl, fun a ha => by cases hm.symm.trans ha⟩

theorem LM.updates_scaled (hk : 0 < k) (c : LMConfig p fi) (hv : c.Valid) (rng : ℕ → ℕ → ℕ → List (Fin (designDim p fi)))
    (bs : List (List (Obs p))) (i : ℕ) :
    Py.RelTo (ScaledLM k) (ScaledLM k) (LM.updates c rng i bs) (LM.updates c rng i (bs.map fun d => d.map (Obs.scaleY k))) := by
  induction bs generalizing i with
  | nil => exact Py.Rel.to (Py.rel_pure _)
  | cons b bs ih =>
    rw [List.map_cons]
    unfold LM.updates
    exact Py.RelTo.bind (LM.update_scaled hk c hv (rng i) b) fun _ => ih (i + 1)

end Ondil
