import Verif.Spec.Selection
import Verif.Lemmas.GamlssOls
import Verif.Props.GamlssFitted
import Verif.Lemmas.InformationCriteria

/-!
# Lemmas on the choice of a model on a coefficient path
-/

open scoped BigOperators

namespace Ondil

variable {μ : Type} {p : ℕ}

theorem nonzeroCount_eq (b : Arr1) : nonzeroCount b = activeCoefs b := by
  unfold nonzeroCount activeCoefs
  rw [List.countP_eq_length_filter]

theorem icFromLL_real {c : Criterion} (hc : c ≠ .aicc) {n : ℝ} (hn : 1 < n) (k l : ℝ) :
    icFromLL c n k (.fin l) = .ok (.fin (textbookIc c n k l)) := by
  have h0 : 0 < n := by linarith
  have h1 : 0 < Real.log n := Real.log_pos hn
  cases c with
  | aic => simp only [icFromLL, textbookIc, Flt.mul, Flt.add]; congr 2; ring
  | aicc => exact absurd rfl hc
  | bic => simp only [icFromLL, textbookIc, Flt.mul, Flt.add, Flt.log, if_pos h0]; congr 2; ring
  | hqc => simp only [icFromLL, textbookIc, Flt.mul, Flt.add, Flt.log, if_pos h0, if_pos h1]; congr 2; ring
  | max => rfl

theorem icFromRss_real {c : Criterion} (hc : c ≠ .aicc) {n : ℝ} (hn : 1 < n) (k : ℝ) {r : ℝ} (hr : 0 < r) :
    icFromRss c n k (.fin r) = .ok (.fin (textbookIc c n k (statisticLL .localRss n r))) := by
  have h0 : 0 < n := by linarith
  have hd : 0 < r / n := div_pos hr h0
  have e : Flt.add (Flt.mul (.fin (-n / 2)) (Flt.log (Flt.div (.fin r) (.fin n))))
      (.fin (-n / 2 * (1 + Real.log (2 * Real.pi)))) = .fin (statisticLL .localRss n r) := by
    simp only [Flt.div, if_neg h0.ne', Flt.log, if_pos hd, Flt.mul, Flt.add, statisticLL]
    rw [Real.log_mul (by positivity) hd.ne']
    congr 1
    ring
  unfold icFromRss
  rw [e]
  exact icFromLL_real hc hn k _

theorem textbookIc_shift {c : Criterion} (hc : c ≠ .aicc) (n a b l m q : ℝ) :
    (textbookIc c n (a + q) l ≤ textbookIc c n (b + q) m ↔ textbookIc c n a l ≤ textbookIc c n b m) ∧
    (textbookIc c n (a + q) l < textbookIc c n (b + q) m ↔ textbookIc c n a l < textbookIc c n b m) := by
  cases c with
  | aicc => exact absurd rfl hc
  | max => exact ⟨Iff.rfl, Iff.rfl⟩
  | aic => simp only [textbookIc]; constructor <;> constructor <;> intro h <;> linarith
  | bic => simp only [textbookIc]; constructor <;> constructor <;> intro h <;> linarith
  | hqc => simp only [textbookIc]; constructor <;> constructor <;> intro h <;> linarith

/-- The position of the minimum of finite numbers. -/
theorem argminFlt_real {l : Arr1} (hl : ∀ v ∈ l, ∃ r, v = Flt.fin r) {i : ℕ} (h : argminFlt l = .ok i) :
    ∃ r, l[i]? = some (.fin r) ∧ ∀ j r', l[j]? = some (.fin r') → r ≤ r' ∧ (j < i → r < r') := by
  classical
  have hnn : Flt.nan ∉ l := fun hm => by
    obtain ⟨r, e⟩ := hl _ hm
    cases e
  cases l with
  | nil => cases h
  | cons a l =>
    unfold argminFlt at h
    simp only at h
    have h1 : (a :: l).findIdx? (fun v => decide (v = Flt.nan)) = none := by
      rw [List.findIdx?_eq_none_iff]
      intro v hv
      simp only [decide_eq_false_iff_not]
      rintro rfl
      exact hnn hv
    rw [h1] at h
    simp only at h
    split at h
    · rename_i i' hi
      obtain rfl := Except.ok.inj h
      rw [List.findIdx?_eq_some_iff_getElem] at hi
      obtain ⟨hlt, hmin, hbefore⟩ := hi
      simp only [decide_eq_true_eq] at hmin hbefore
      obtain ⟨r, hr⟩ := hl _ (List.getElem_mem hlt)
      refine ⟨r, by rw [List.getElem?_eq_getElem hlt, hr], fun j r' hj => ?_⟩
      have hjm : Flt.fin r' ∈ a :: l := List.mem_of_getElem? hj
      have h2 := hmin _ hjm
      rw [hr] at h2
      have h2' : r ≤ r' := h2
      refine ⟨h2', fun hji => ?_⟩
      have h3 := hbefore j hji
      by_contra hle
      have hle' : r' ≤ r := not_lt.1 hle
      apply h3
      intro u hu
      have hju : (a :: l)[j]'(by omega) = Flt.fin r' := by
        have := (List.getElem?_eq_some_iff.1 hj).2
        exact this
      rw [hju]
      obtain ⟨q, rfl⟩ := hl u hu
      have h4 := hmin _ hu
      rw [hr] at h4
      have h4' : r ≤ q := h4
      exact le_trans hle' h4'
    · cases h

/-- What `selectModel` returns when the criteria were computed from statistics. -/
theorem selectModel_best {m : Selecting} {c : Criterion} {n : ℝ} {q : ℕ} {path : Arr2} {stats ics : Arr1} {F : ℕ → Flt → Except PyErr Flt}
    (hF : ∀ k d, F k d = match m with | .localRss => icFromRss c n k d | .globalLL => icFromLL c n k d)
    (hics : (List.zip (path.map fun b => (nonzeroCount b + q : ℕ)) stats).mapM (fun nr => F nr.1 nr.2) = .ok ics) {bi : Arr1 × ℕ}
    (h : selectModel ics path = .ok bi) :
    path[bi.2]? = some bi.1 ∧ bi.2 < stats.length ∧ (1 < n → Scorable m stats → BestRow m c n path stats bi.2) := by
  obtain ⟨hlen, hget⟩ := mapM_ok _ _ _ hics
  unfold selectModel at h
  obtain ⟨i, hi, h⟩ := bind_ok.1 h
  have hb : ∃ b, path[i]? = some b ∧ bi = (b, i) := by
    cases e : path[i]? with
    | none => rw [e] at h; cases h
    | some b => rw [e] at h; exact ⟨b, rfl, (Except.ok.inj h).symm⟩
  obtain ⟨b, hb, rfl⟩ := hb
  -- the position is one of a criterion
  have hic : i < ics.length := by
    cases ics with
    | nil => cases hi
    | cons a l =>
      unfold argminFlt at hi
      simp only at hi
      split at hi
      · rename_i hh
        obtain rfl := Except.ok.inj hi
        exact (List.findIdx?_eq_some_iff_getElem.1 hh).1
      · split at hi
        · rename_i hh
          obtain rfl := Except.ok.inj hi
          exact (List.findIdx?_eq_some_iff_getElem.1 hh).1
        · cases hi
  have hz : i < path.length ∧ i < stats.length := by
    rw [hlen] at hic
    simpa using hic
  refine ⟨hb, hz.2, fun hn hs => ?_⟩
  have hc : c ≠ .aicc := by
    rintro rfl
    obtain ⟨v, _, hv⟩ := hget i _ (List.getElem?_eq_getElem (by simpa using hz))
    rw [hF] at hv
    cases m <;> simp only [icFromRss, icFromLL] at hv <;> cases hv
  -- the criterion of row `j`
  have hval : ∀ (j : ℕ) (b' : Arr1) (r' : ℝ), path[j]? = some b' → stats[j]? = some (Flt.fin r') →
      ics[j]? = some (Flt.fin (textbookIc c n (activeCoefs b' + q) (statisticLL m n r'))) := by
    intro j b' r' hp hd
    have hz' : (List.zip (path.map fun b => (nonzeroCount b + q : ℕ)) stats)[j]? = some (nonzeroCount b' + q, Flt.fin r') := by
      rw [List.getElem?_zip_eq_some]
      exact ⟨by rw [List.getElem?_map, hp]; rfl, hd⟩
    obtain ⟨v, hv, hv'⟩ := hget j _ hz'
    rw [hv]
    rw [hF] at hv'
    have : (((nonzeroCount b' + q : ℕ) : ℝ)) = activeCoefs b' + q := by rw [nonzeroCount_eq]; push_cast; rfl
    obtain ⟨r'', e, hpos⟩ := hs _ (List.mem_of_getElem? hd)
    obtain rfl := Flt.fin.inj e
    cases m with
    | localRss =>
      simp only at hv'
      rw [this, icFromRss_real hc hn _ (hpos rfl)] at hv'
      rw [Except.ok.inj hv']
    | globalLL =>
      simp only at hv'
      rw [this, icFromLL_real hc hn] at hv'
      rw [← Except.ok.inj hv']
      rfl
  have hfin : ∀ v ∈ ics, ∃ r, v = Flt.fin r := by
    intro v hv
    obtain ⟨j, hj, rfl⟩ := List.getElem_of_mem hv
    have hj' : j < path.length ∧ j < stats.length := by
      rw [hlen] at hj
      simpa using hj
    obtain ⟨r, hr, _⟩ := hs _ (List.getElem_mem hj'.2)
    have := hval j _ r (List.getElem?_eq_getElem hj'.1) (by rw [List.getElem?_eq_getElem hj'.2, hr])
    rw [List.getElem?_eq_getElem hj] at this
    exact ⟨_, Option.some.inj this⟩
  obtain ⟨v, hv, hmin⟩ := argminFlt_real hfin hi
  obtain ⟨r, hr, _⟩ := hs _ (List.getElem_mem hz.2)
  have hri : stats[i]? = some (Flt.fin r) := by rw [List.getElem?_eq_getElem hz.2, hr]
  have hvi := hval i b r hb hri
  rw [hv] at hvi
  obtain rfl := Flt.fin.inj (Option.some.inj hvi)
  refine ⟨b, r, hb, hri, fun j b' r' hp hd => ?_⟩
  obtain ⟨h1, h2⟩ := hmin j _ (hval j b' r' hp hd)
  have hsh := textbookIc_shift hc n (activeCoefs b) (activeCoefs b') (statisticLL m n r) (statisticLL m n r') q
  exact ⟨hsh.1.1 h1, fun hji => hsh.2.1 (h2 hji)⟩

/-! ### The statistics -/

/-- The weighted residual sum of squares of real arrays. -/
theorem weightedRss_real {J : ℕ} (forget : ℝ) (b : Row J) (d : List (Obs J)) (w W : List ℝ) (hw : w.length = d.length)
    (hW : W.length = d.length) (hd : ws d = List.zipWith (fun a b => a * b) w W) :
    weightedRss w (initForgetVector forget d.length) (W.map Flt.fin) (d.map fun o => .fin o.y)
      (d.map fun o => .fin (linPred o.x b)) = .fin (discSSE forget d b) := by
  induction d generalizing w W with
  | nil =>
    obtain rfl := List.length_eq_zero_iff.1 hw
    simp [weightedRss, wmul, asum, Dist.npSum, discSSE]
  | cons o d ih =>
    obtain ⟨u, w, rfl⟩ : ∃ u w', w = u :: w' := by
      cases w with
      | nil => cases hw
      | cons u w => exact ⟨u, w, rfl⟩
    obtain ⟨v, W, rfl⟩ : ∃ u w', W = u :: w' := by
      cases W with
      | nil => cases hW
      | cons u w => exact ⟨u, w, rfl⟩
    simp only [ws, List.map_cons, List.zipWith_cons_cons, List.cons.injEq] at hd
    have := ih w W (by simpa using hw) (by simpa using hW) hd.2
    unfold weightedRss asum Dist.npSum wmul at this ⊢
    rw [List.length_cons, initForgetVector_succ]
    simp only [List.map_cons, List.zipWith_cons_cons, List.foldr_cons]
    rw [this]
    unfold discSSE
    rw [discSum_cons]
    simp only [Flt.sub, Flt.mul, Flt.add, Flt.neg]
    rw [hd.1]
    congr 1
    ring

/-- The mean of discounted weights of real arrays. -/
theorem amean_weights_real {J : ℕ} (forget : ℝ) (d : List (Obs J)) (hne : d ≠ []) (w W : List ℝ) (hw : w.length = d.length)
    (hW : W.length = d.length) (hd : ws d = List.zipWith (fun a b => a * b) w W) :
    amean (wmul (initForgetVector forget d.length) (wmul w (W.map Flt.fin))) = .fin (discSum forget d Obs.w / d.length) := by
  have hs : ∀ (d : List (Obs J)) (w W : List ℝ), w.length = d.length → W.length = d.length →
      ws d = List.zipWith (fun a b => a * b) w W →
      Dist.npSum (wmul (initForgetVector forget d.length) (wmul w (W.map Flt.fin))) = .fin (discSum forget d Obs.w) := by
    intro d
    induction d with
    | nil =>
      intro w W hw hW _
      obtain rfl := List.length_eq_zero_iff.1 hw
      simp [wmul, Dist.npSum]
    | cons o d ih =>
      intro w W hw hW hd
      obtain ⟨u, w, rfl⟩ : ∃ u w', w = u :: w' := by
        cases w with
        | nil => cases hw
        | cons u w => exact ⟨u, w, rfl⟩
      obtain ⟨v, W, rfl⟩ : ∃ u w', W = u :: w' := by
        cases W with
        | nil => cases hW
        | cons u w => exact ⟨u, w, rfl⟩
      simp only [ws, List.map_cons, List.zipWith_cons_cons, List.cons.injEq] at hd
      have := ih w W (by simpa using hw) (by simpa using hW) hd.2
      unfold Dist.npSum wmul at this ⊢
      rw [List.length_cons, initForgetVector_succ]
      simp only [List.map_cons, List.zipWith_cons_cons, List.foldr_cons]
      rw [this, discSum_cons]
      simp only [Flt.mul, Flt.add]
      rw [hd.1]
  have hl : (wmul (initForgetVector forget d.length) (wmul w (W.map Flt.fin))).length = d.length := by
    simp [wmul, length_initForgetVector, hw, hW]
  have h0 : (d.length : ℝ) ≠ 0 := by
    have := List.length_pos_iff_ne_nil.2 hne
    positivity
  unfold amean Dist.npMean
  rw [hs d w W hw hW hd, hl]
  simp only [Flt.div, if_neg h0]

/-- A discounted weighted sum of real arrays. -/
theorem asum_ll_real (forget : ℝ) (w l : List ℝ) (h : w.length = l.length) :
    asum (wmul w (wmul (initForgetVector forget l.length) (l.map Flt.fin))) = .fin (discSum forget (w.zip l) fun q => q.1 * q.2) := by
  induction l generalizing w with
  | nil =>
    obtain rfl := List.length_eq_zero_iff.1 h
    simp [wmul, asum, Dist.npSum]
  | cons a l ih =>
    obtain ⟨u, w, rfl⟩ : ∃ u w', w = u :: w' := by
      cases w with
      | nil => cases h
      | cons u w => exact ⟨u, w, rfl⟩
    have hl : w.length = l.length := by simpa using h
    have := ih w hl
    unfold asum Dist.npSum wmul at this ⊢
    rw [List.length_cons, initForgetVector_succ]
    simp only [List.map_cons, List.zipWith_cons_cons, List.foldr_cons]
    rw [this, List.zip_cons_cons, discSum_cons]
    simp only [Flt.mul, Flt.add]
    rw [List.length_zip, hl, min_self]
    congr 1
    ring

theorem pathLL_stats {c : Call μ p} {s : GState μ p} {k : ℕ} {forget : ℝ} {w : List ℝ} {X : Arr2} {path preds : Arr2} {ll : Arr1}
    (hp : path.mapM (matVec X) = .ok preds) (h : pathLL c s k (initForgetVector forget c.y.length) w preds = .ok ll) :
    ll.length = path.length ∧ LLStatistics c.D k c.y forget w X s.fv path ll := by
  obtain ⟨h1, h2⟩ := mapM_ok _ _ _ hp
  obtain ⟨h3, h4⟩ := mapM_ok _ _ _ h
  refine ⟨h3.trans h1, fun j b hb => ?_⟩
  obtain ⟨eta, he, hm⟩ := h2 j b hb
  obtain ⟨q, hq, hl⟩ := h4 j eta he
  obtain ⟨v, hv, hl⟩ := bind_ok.1 hl
  refine ⟨eta, v, hm, hv, fun l hll hlen hw => ?_⟩
  rw [hq, ← Except.ok.inj hl, hll, ← hlen, asum_ll_real forget w l (hw.trans hlen.symm)]

theorem rssStatistics_fit {forget : ℝ} {n : ℕ} {w : List ℝ} {X : Arr2} {wt wv : Arr1} {path preds : Arr2} (hX : X.length = n)
    (hp : path.mapM (matVec X) = .ok preds) : RssStatistics forget w X wt wv path
      (preds.map fun pr => Flt.div (weightedRss w (initForgetVector forget n) wt wv pr)
        (amean (wmul (initForgetVector forget n) (wmul w wt)))) := by
  rintro J d W hne rfl rfl rfl hW hw hd h0 j b hb
  obtain ⟨h1, h2⟩ := mapM_ok _ _ _ hp
  obtain ⟨pr, hpr, hm⟩ := h2 j _ hb
  have hn : n = d.length := by rw [← hX]; simp
  have e : pr = d.map fun o => .fin (linPred o.x b) := by
    have := matVec_ofVec (d.map Obs.x) b
    simp only [List.map_map, Function.comp_def] at this
    rw [this] at hm
    exact (Except.ok.inj hm).symm
  have h0' : discSum forget d Obs.w / d.length ≠ 0 := div_ne_zero h0 (by
    have := List.length_pos_iff_ne_nil.2 hne
    positivity)
  rw [List.getElem?_map, hpr, e, hn]
  change some (Flt.div _ _) = _
  rw [weightedRss_real forget b d w W hw hW hd, amean_weights_real forget d hne w W hw hW hd]
  simp only [Flt.div, if_neg h0']

/-- What `_fit_select_model` returns. -/
theorem fitSelectModel_stats {c : Call μ p} {s : GState μ p} {k : ℕ} {X : Arr2} {wv wt : Arr1} {path : Arr2} {forget n : ℝ}
    {ic : Criterion} {r : Arr1 × Arr1 × ℕ} (h : fitSelectModel c s k X wv wt path forget n ic = .ok r) :
    path[r.2.2]? = some r.1 ∧ r.2.1.length = path.length ∧
      (1 < n → Scorable c.cfg.modelSelection r.2.1 → BestRow c.cfg.modelSelection ic n path r.2.1 r.2.2) ∧
      (c.cfg.modelSelection = .localRss → X.length = c.y.length → RssStatistics forget c.w X wt wv path r.2.1) ∧
      (c.cfg.modelSelection = .globalLL →
        LLStatistics c.D k c.y forget (List.replicate c.y.length 1) X s.fv path r.2.1) := by
  unfold fitSelectModel at h
  obtain ⟨preds, hp, h⟩ := bind_ok.1 h
  have hpl := (mapM_ok _ _ _ hp).1
  cases hm : c.cfg.modelSelection with
  | localRss =>
    rw [hm] at h
    simp only at h
    obtain ⟨ics, hics, h⟩ := bind_ok.1 h
    obtain ⟨bi, hbi, h⟩ := bind_ok.1 h
    obtain rfl := Except.ok.inj h
    obtain ⟨h1, h2, h3⟩ := selectModel_best (m := .localRss) (c := ic) (n := n) (F := fun k d => icFromRss ic n k d) (fun _ _ => rfl) hics hbi
    exact ⟨h1, by simp [hpl], h3, fun _ hX => rssStatistics_fit hX hp, fun h => by cases h⟩
  | globalLL =>
    rw [hm] at h
    simp only at h
    obtain ⟨ll, hll, h⟩ := bind_ok.1 h
    obtain ⟨ics, hics, h⟩ := bind_ok.1 h
    obtain ⟨bi, hbi, h⟩ := bind_ok.1 h
    obtain rfl := Except.ok.inj h
    obtain ⟨h1, h2, h3⟩ := selectModel_best (m := .globalLL) (c := ic) (n := n) (F := fun k d => icFromLL ic n k d) (fun _ _ => rfl) hics hbi
    obtain ⟨h4, h5⟩ := pathLL_stats hp hll
    exact ⟨h1, h4, h3, (fun h => by cases h), fun _ => h5⟩

theorem rssStatistics_update {forget : ℝ} {n : ℕ} {w : List ℝ} {X : Arr2} {wt wv : Arr1} {path preds : Arr2} {old : Arr1}
    {meanW denom : Flt} (hX : X.length = n) (hp : path.mapM (matVec X) = .ok preds) :
    UpdateRssStatistics forget w X wt wv path old meanW denom
      (List.zipWith (fun pr o => Flt.div (Flt.add (weightedRss w (initForgetVector forget n) wt wv pr)
        (Flt.mul (.fin (batchDiscount forget n)) (Flt.mul o meanW))) denom) preds old) := by
  rintro J d W rfl rfl rfl hW hw hd m q rfl rfl h0 j b o hb ho
  obtain ⟨h1, h2⟩ := mapM_ok _ _ _ hp
  obtain ⟨pr, hpr, hm⟩ := h2 j _ hb
  have hn : n = d.length := by rw [← hX]; simp
  have e : pr = d.map fun o => .fin (linPred o.x b) := by
    have := matVec_ofVec (d.map Obs.x) b
    simp only [List.map_map, Function.comp_def] at this
    rw [this] at hm
    exact (Except.ok.inj hm).symm
  rw [List.getElem?_zipWith, hpr, ho]
  simp only [e, hn]
  rw [weightedRss_real forget b d w W hw hW hd]
  simp [Flt.mul, Flt.add, Flt.div, batchDiscount, h0]

/-- What `_update_select_model` returns. -/
theorem updateSelectModel_stats {c : Call μ p} {s : GState μ p} {k : ℕ} {X : Arr2} {wv wt : Arr1} {path : Arr2} {old : Arr1}
    {meanW : Flt} {forget nObs n : ℝ} {ic : Criterion} {r : Arr1 × Arr1 × ℕ}
    (h : updateSelectModel c s k X wv wt path old meanW forget nObs n ic = .ok r) :
    path[r.2.2]? = some r.1 ∧ r.2.1.length = min path.length old.length ∧
      (1 < n → Scorable c.cfg.modelSelection r.2.1 → BestRow c.cfg.modelSelection ic n path r.2.1 r.2.2) ∧
      (c.cfg.modelSelection = .localRss → X.length = c.y.length →
        UpdateRssStatistics forget c.w X wt wv path old meanW (onlineMeanLoopFlt forget nObs meanW wt) r.2.1) ∧
      (c.cfg.modelSelection = .globalLL → UpdateLLStatistics c.D k c.y forget c.w X s.fv path old r.2.1) := by
  unfold updateSelectModel at h
  obtain ⟨preds, hp, h⟩ := bind_ok.1 h
  have hpl := (mapM_ok _ _ _ hp).1
  cases hm : c.cfg.modelSelection with
  | localRss =>
    rw [hm] at h
    simp only at h
    obtain ⟨ics, hics, h⟩ := bind_ok.1 h
    obtain ⟨bi, hbi, h⟩ := bind_ok.1 h
    obtain rfl := Except.ok.inj h
    obtain ⟨h1, h2, h3⟩ := selectModel_best (m := .localRss) (c := ic) (n := n) (F := fun k d => icFromRss ic n k d) (fun _ _ => rfl) hics hbi
    exact ⟨h1, by simp [hpl], h3, fun _ hX => rssStatistics_update hX hp, fun h => by cases h⟩
  | globalLL =>
    rw [hm] at h
    simp only at h
    obtain ⟨ll, hll, h⟩ := bind_ok.1 h
    obtain ⟨ics, hics, h⟩ := bind_ok.1 h
    obtain ⟨bi, hbi, h⟩ := bind_ok.1 h
    obtain rfl := Except.ok.inj h
    obtain ⟨h1, h2, h3⟩ := selectModel_best (m := .globalLL) (c := ic) (n := n) (q := 0) (F := fun k d => icFromLL ic n k d) (fun _ _ => rfl)
      hics hbi
    refine ⟨h1, by simp [(pathLL_stats hp hll).1], h3, (fun h => by cases h), fun _ => ⟨ll, (pathLL_stats hp hll).2, fun j l o hl ho => ?_⟩⟩
    rw [List.getElem?_zipWith, hl, ho]
    simp [Flt.mul, Flt.add, batchDiscount]

/-! ### The coefficients of one iteration -/

theorem fitCoefs_path {c : Call μ p} {k itO itI : ℕ} {prev : Option Arr2} {X : Arr2} {wk : Working} {xg : Arr2} {yg : Arr1}
    {s t : GState μ p} {co : Coefs} (h : fitCoefs c k itO itI prev X wk xg yg s = (.ok co, t)) :
    (co.path = none ∧ co.selection = none ∧ co.bestIc = none) ∨
    ∃ path stats bi forget n ic, co.path = some path ∧ co.selection = some stats ∧ co.bestIc = some bi ∧
      s.forget.get? k = some forget ∧ s.nTraining.get? k = some n ∧ s.ic.get? k = some ic ∧
      fitSelectModel c s k X wk.wv wk.wt path forget n ic = .ok (co.beta, stats, bi) ∧
      ∃ m reg first start m', s.method k = some m ∧ fitPathFrom c.M m xg yg reg first start = .ok (path, m') := by
  unfold fitCoefs at h
  rw [Py.bind_self] at h
  obtain ⟨m, ss1, hh, h⟩ := Py.bind_ok_iff.1 h
  obtain ⟨hme, e⟩ := Py.attr_ok_iff.1 hh
  rw [e] at h
  clear e
  obtain ⟨reg, ss2, hh, h⟩ := Py.bind_ok_iff.1 h
  obtain ⟨_, e⟩ := Py.attr_ok_iff.1 hh
  rw [e] at h
  clear e
  obtain ⟨forget, ss3, hh, h⟩ := Py.bind_ok_iff.1 h
  obtain ⟨hf, e⟩ := Py.attr_ok_iff.1 hh
  rw [e] at h
  clear e
  split at h
  · obtain ⟨r, ss4, hh, h⟩ := Py.bind_ok_iff.1 h
    obtain ⟨hr, e⟩ := Py.call_ok_iff.1 hh
    rw [e] at h
    clear e
    rw [Py.bind_set] at h
    obtain ⟨n, ss5, hh, h⟩ := Py.bind_ok_iff.1 h
    obtain ⟨hn, e⟩ := Py.attr_ok_iff.1 hh
    rw [e] at h
    clear e
    obtain ⟨ic, ss6, hh, h⟩ := Py.bind_ok_iff.1 h
    obtain ⟨hic, e⟩ := Py.attr_ok_iff.1 hh
    rw [e] at h
    clear e
    obtain ⟨sel, ss7, hh, h⟩ := Py.bind_ok_iff.1 h
    obtain ⟨hsel, e⟩ := Py.call_ok_iff.1 hh
    rw [e] at h
    clear e
    obtain ⟨rfl, rfl⟩ := Py.pure_ok_iff.1 h
    exact .inr ⟨r.1, sel.2.1, sel.2.2, forget, n, ic, rfl, rfl, rfl, hf, hn, hic, hsel, m, reg, _, _, r.2, hme, hr⟩
  · obtain ⟨r, ss4, hh, h⟩ := Py.bind_ok_iff.1 h
    obtain ⟨_, e⟩ := Py.call_ok_iff.1 hh
    rw [e] at h
    clear e
    rw [Py.bind_set] at h
    obtain ⟨rfl, rfl⟩ := Py.pure_ok_iff.1 h
    exact .inl ⟨rfl, rfl, rfl⟩

theorem updateCoefs_path {c : Call μ p} {k : ℕ} {X : Arr2} {wk : Working} {xg : Arr2} {yg : Arr1} {s t : GState μ p} {co : Coefs}
    (h : updateCoefs c k X wk xg yg s = (.ok co, t)) :
    co.path = none ∨
    ∃ path stats bi forget n ic old meanW nObs, co.path = some path ∧ co.selection = some stats ∧ t.bestIc k = bi ∧
      s.forget.get? k = some forget ∧ s.nTraining.get? k = some n ∧ s.ic.get? k = some ic ∧ s.selectionOld k = some old ∧
      s.meanW k = some meanW ∧ s.nObs = some nObs ∧
      updateSelectModel c s k X wk.wv wk.wt path old meanW forget nObs n ic = .ok (co.beta, stats, bi) ∧
      ∃ m start reg m', s.method k = some m ∧ c.M.updatePath m xg yg start reg = .ok (path, m') := by
  unfold updateCoefs at h
  rw [Py.bind_self] at h
  obtain ⟨m, ss1, hh, h⟩ := Py.bind_ok_iff.1 h
  obtain ⟨hme, e⟩ := Py.attr_ok_iff.1 hh
  rw [e] at h
  clear e
  obtain ⟨reg, ss2, hh, h⟩ := Py.bind_ok_iff.1 h
  obtain ⟨_, e⟩ := Py.attr_ok_iff.1 hh
  rw [e] at h
  clear e
  obtain ⟨forget, ss3, hh, h⟩ := Py.bind_ok_iff.1 h
  obtain ⟨hf, e⟩ := Py.attr_ok_iff.1 hh
  rw [e] at h
  clear e
  split at h
  · obtain ⟨start, ss4, hh, h⟩ := Py.bind_ok_iff.1 h
    obtain ⟨_, e⟩ := Py.attr_ok_iff.1 hh
    rw [e] at h
    clear e
    obtain ⟨r, ss5, hh, h⟩ := Py.bind_ok_iff.1 h
    obtain ⟨hr, e⟩ := Py.call_ok_iff.1 hh
    rw [e] at h
    clear e
    rw [Py.bind_set] at h
    obtain ⟨old, ss6, hh, h⟩ := Py.bind_ok_iff.1 h
    obtain ⟨hold, e⟩ := Py.attr_ok_iff.1 hh
    rw [e] at h
    clear e
    obtain ⟨meanW, ss7, hh, h⟩ := Py.bind_ok_iff.1 h
    obtain ⟨hmw, e⟩ := Py.attr_ok_iff.1 hh
    rw [e] at h
    clear e
    obtain ⟨nObs, ss8, hh, h⟩ := Py.bind_ok_iff.1 h
    obtain ⟨hno, e⟩ := Py.attr_ok_iff.1 hh
    rw [e] at h
    clear e
    obtain ⟨n, ss9, hh, h⟩ := Py.bind_ok_iff.1 h
    obtain ⟨hn, e⟩ := Py.attr_ok_iff.1 hh
    rw [e] at h
    clear e
    obtain ⟨ic, ss10, hh, h⟩ := Py.bind_ok_iff.1 h
    obtain ⟨hic, e⟩ := Py.attr_ok_iff.1 hh
    rw [e] at h
    clear e
    obtain ⟨sel, ss11, hh, h⟩ := Py.bind_ok_iff.1 h
    obtain ⟨hsel, e⟩ := Py.call_ok_iff.1 hh
    rw [e] at h
    clear e
    rw [Py.bind_set] at h
    obtain ⟨rfl, rfl⟩ := Py.pure_ok_iff.1 h
    exact .inr ⟨r.1, sel.2.1, sel.2.2, forget, n, ic, old, meanW, nObs, rfl, rfl, Function.update_self _ _ _, hf, hn, hic, hold, hmw,
      hno, hsel, m, start, reg, r.2, hme, hr⟩
  · obtain ⟨b, ss4, hh, h⟩ := Py.bind_ok_iff.1 h
    obtain ⟨_, e⟩ := Py.attr_ok_iff.1 hh
    rw [e] at h
    clear e
    obtain ⟨r, ss5, hh, h⟩ := Py.bind_ok_iff.1 h
    obtain ⟨hr, e⟩ := Py.call_ok_iff.1 hh
    rw [e] at h
    clear e
    rw [Py.bind_set] at h
    obtain ⟨rfl, rfl⟩ := Py.pure_ok_iff.1 h
    exact .inl rfl

end Ondil
