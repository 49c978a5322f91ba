import Verif.Lemmas.LinearModelOls
import Verif.Lemmas.LinearModelTwins

/-!
# Sums over rows do not depend on the order of the rows

Without forgetting every statistic of a batch is a sum over its rows.
-/

open scoped BigOperators

namespace Ondil

variable {p : ℕ} {fi : Bool}

/-- Without forgetting the vector of discount factors is constant. -/
theorem forget_ones {α : Type} (l : List α) : initForgetVector 0 l.length = l.map fun _ => (1 : ℝ) := by
  unfold initForgetVector
  rw [if_pos (by norm_num), List.map_const']

section Sums

variable {α : Type} {q : ℕ} {l l' : List α}

theorem sum_perm (h : l.Perm l') (g : α → ℝ) : (l.map g).sum = (l'.map g).sum := (h.map g).sum_eq

theorem zipWith_two {β γ δ : Type} (f : β → γ → δ) (l : List α) (g : α → β) (k : α → γ) :
    List.zipWith f (l.map g) (l.map k) = l.map fun a => f (g a) (k a) := by
  induction l with
  | nil => rfl
  | cons a l ih => simp [ih]

theorem tDot_two (l : List α) (x z : α → Row q) :
    tDot (l.map x) (l.map z) = fun a b => (l.map fun o => x o a * z o b).sum := by
  funext a b
  exact congrArg List.sum (zipWith_two (fun u v : Row q => u a * v b) l x z)

theorem tDotVec_two (l : List α) (x : α → Row q) (v : α → ℝ) :
    tDotVec (l.map x) (l.map v) = fun a => (l.map fun o => x o a * v o).sum := by
  unfold tDotVec
  simp only [zipWith_two]

theorem initGram_perm (h : l.Perm l') (x : α → Row q) (w : α → ℝ) :
    initGram (l.map x) (l.map w) 0 = initGram (l'.map x) (l'.map w) 0 := by
  unfold initGram
  rw [List.length_map, List.length_map, forget_ones, forget_ones]
  simp only [WeightArg.mul, sqrtVec, scaleRows, zipWith_two, List.map_map, tDot_two]
  funext a b
  exact sum_perm h _

theorem initYGram_perm (h : l.Perm l') (x : α → Row q) (y w : α → ℝ) :
    initYGram (l.map x) (l.map y) (l.map w) 0 = initYGram (l'.map x) (l'.map y) (l'.map w) 0 := by
  unfold initYGram
  rw [List.length_map, List.length_map, forget_ones, forget_ones]
  simp only [WeightArg.mul, sqrtVec, scaleRows, zipWith_two, List.map_map, tDotVec_two]
  funext a
  exact sum_perm h _

theorem initInvertedGram_perm (h : l.Perm l') (x : α → Row q) (w : α → ℝ) :
    initInvertedGram (l.map x) (l.map w) 0 = initInvertedGram (l'.map x) (l'.map w) 0 := by
  unfold initInvertedGram
  rw [initGram_perm h]

theorem updateGram_perm (h : l.Perm l') (G : Matrix (Fin q) (Fin q) ℝ) (x : α → Row q) (w : α → ℝ) :
    updateGram G (l.map x) 0 (.array (l.map w)) = updateGram G (l'.map x) 0 (.array (l'.map w)) := by
  rcases l with _ | ⟨a, _ | ⟨b, l⟩⟩
  · rw [List.nil_perm.1 h]
  · rw [List.singleton_perm.1 h]
  · rcases l' with _ | ⟨a', _ | ⟨b', l'⟩⟩
    · exact absurd h.length_eq (by simp)
    · exact absurd h.length_eq (by simp)
    · simp only [updateGram, List.map_cons]
      simp only [← List.map_cons, List.length_map, forget_ones, WeightArg.mul, sqrtVec, scaleRows, zipWith_two, List.map_map]
      rw [h.length_eq]
      congr 1
      funext i j
      rw [tDot_two, tDot_two]
      exact sum_perm h _

theorem updateYGram_perm (h : l.Perm l') (G : Row q) (x : α → Row q) (y w : α → ℝ) :
    updateYGram G (l.map x) (l.map y) 0 (.array (l.map w)) = updateYGram G (l'.map x) (l'.map y) 0 (.array (l'.map w)) := by
  rcases l with _ | ⟨a, _ | ⟨b, l⟩⟩
  · rw [List.nil_perm.1 h]
  · rw [List.singleton_perm.1 h]
  · rcases l' with _ | ⟨a', _ | ⟨b', l'⟩⟩
    · exact absurd h.length_eq (by simp)
    · exact absurd h.length_eq (by simp)
    · simp only [updateYGram, List.map_cons]
      simp only [← List.map_cons, List.length_map, forget_ones, WeightArg.mul, sqrtVec, scaleRows, zipWith_two, List.map_map]
      rw [h.length_eq]
      congr 1
      funext i
      rw [tDotVec_two, tDotVec_two]
      exact sum_perm h _

end Sums

/-! ### The scaler -/

theorem discSum_perm {α : Type} {l l' : List α} (h : l.Perm l') (g : α → ℝ) : discSum 0 l g = discSum 0 l' g := by
  rw [discSum_forget_zero, discSum_forget_zero]
  exact sum_perm h g

theorem canonScaler_perm {k : ℕ} (sel : Fin k → Fin p) {h h' : List (Obs p)} (hp : h.Perm h') :
    canonScaler sel 0 h = canonScaler sel 0 h' := by
  have e1 : totalWeight 0 h = totalWeight 0 h' := discSum_perm hp _
  have e2 : ∀ j, ewMean 0 h j = ewMean 0 h' j := fun j => by
    unfold ewMean
    rw [e1, discSum_perm hp]
  have e3 : ∀ j, ewVar 0 h j = ewVar 0 h' j := fun j => by
    unfold ewVar
    rw [e1, e2, discSum_perm hp]
  unfold canonScaler
  simp only [e1, e2, e3]
  congr 1
  exact sum_perm hp _

theorem canonSc_perm (t : ToScale p) {h h' : List (Obs p)} (hp : h.Perm h') : canonSc t 0 h = canonSc t 0 h' := by
  unfold canonSc
  cases t.selection with
  | none => exact congrArg _ (sum_perm hp _)
  | some l => simp only [canonScaler_perm _ hp]

theorem npAverage_perm {α : Type} {l l' : List α} (h : l.Perm l') (v w : α → ℝ) :
    npAverage (l.map v) (l.map w) = npAverage (l'.map v) (l'.map w) := by
  unfold npAverage
  rw [zipWith_two, zipWith_two, sum_perm h, sum_perm h]

theorem scalerFit_perm {k : ℕ} (sel : Fin k → Fin p) {h h' : List (Obs p)} (hp : h.Perm h') :
    scalerFit sel 0 (xs h) (ws h) = scalerFit sel 0 (xs h') (ws h') := by
  have e : ∀ g : List (Obs p), List.zipWith (fun a b => a * b) (ws g) (initForgetVector 0 (xs g).length) =
      g.map fun o => o.w * 1 := fun g => by
    rw [xs, List.length_map, forget_ones, ws, zipWith_two]
  have e0 : (ws h).sum = (ws h').sum := sum_perm hp _
  have e1 : (xs h).length = (xs h').length := by simp [xs, hp.length_eq]
  unfold scalerFit
  simp only [e]
  rw [e0, e1]
  simp only [xs, List.map_map, sum_perm hp, npAverage_perm hp]

theorem scaler_fit_perm (t : ToScale p) {h h' : List (Obs p)} (hp : h.Perm h') :
    Scaler.fit t 0 (xs h) (ws h) = Scaler.fit t 0 (xs h') (ws h') := by
  unfold Scaler.fit
  have e0 : (ws h).sum = (ws h').sum := sum_perm hp _
  have e1 : (xs h).length = (xs h').length := by simp [xs, hp.length_eq]
  cases t.selection with
  | none => simp only [e0, e1]
  | some l => simp only [scalerFit_perm _ hp]

/-! ### The linear model -/

theorem Scaler.transform_maps (sc : Scaler p) : ∃ f : Row p → Row p, ∀ X, sc.transform X = X.map f := by
  cases sc with
  | off n => exact ⟨id, fun X => by simp [Scaler.transform]⟩
  | on k sel st => exact ⟨_, fun X => rfl⟩

theorem scaledDesign_maps (fi : Bool) (sc : Scaler p) :
    ∃ f : Obs p → Row (designDim p fi), ∀ h : List (Obs p), scaledDesign fi sc (xs h) = h.map f := by
  obtain ⟨f, hf⟩ := sc.transform_maps
  exact ⟨fun o => designRow fi (f o.x), fun h => by simp [scaledDesign, hf, xs]⟩

section Linear

variable {q : ℕ} {b b' : List (Obs p)}

theorem initXGram_perm (m : MethodObj q) (h : b.Perm b') (x : Obs p → Row q) :
    m.initXGram (b.map x) (ws b) 0 = m.initXGram (b'.map x) (ws b') 0 := by
  cases m <;> simp only [MethodObj.initXGram, ws, initGram_perm h, initInvertedGram_perm h]

theorem rssFit_perm (h : b.Perm b') (x : Obs p → Row q) :
    rssFit (b.map x) (ys b) (ws b) = rssFit (b'.map x) (ys b') (ws b') := by
  have e : ∀ (g : List (Obs p)) (v : Row q), rssFit (g.map x) (ys g) (ws g) v =
      (g.map fun o => (o.w * (o.y - rowDot (x o) v)) ^ 2).sum := fun g v => by
    rw [rssFit, ws, ys, List.zip, zipWith_two, zipWith_two]
  funext v
  rw [e, e]
  exact sum_perm h _

theorem rssBatch_perm (h : b.Perm b') (x : Obs p → Row q) :
    rssBatch (b.map x) (ys b) = rssBatch (b'.map x) (ys b') := by
  have e : ∀ (g : List (Obs p)) (v : Row q), rssBatch (g.map x) (ys g) v =
      (g.map fun o => (o.y - rowDot (x o) v) ^ 2).sum := fun g v => by
    rw [rssBatch, ys, zipWith_two]
  funext v
  rw [e, e]
  exact sum_perm h _

theorem rssUpdate_perm (h : b.Perm b') (x : Obs p → Row q) (rss : List ℝ) (path : List (Row q)) :
    rssUpdate 0 rss path (b.map x) (ys b) = rssUpdate 0 rss path (b'.map x) (ys b') := by
  unfold rssUpdate
  rw [rssBatch_perm h]

theorem nil_or_perm (h : b.Perm b') : (b = [] ∨ p = 0) = (b' = [] ∨ p = 0) := by
  have : (b = []) = (b' = []) := propext ⟨fun e => by subst e; exact (List.nil_perm.1 h), fun e => by subst e; exact List.perm_nil.1 h⟩
  rw [this]

theorem LM.fit_perm (c : LMConfig p fi) (hc : c.forget = 0) (perm : ℕ → ℕ → List (Fin (designDim p fi)))
    (h : b.Perm b') : LM.fit c perm b = LM.fit c perm b' := by
  have e0 : (ws b).sum = (ws b').sum := sum_perm h _
  have e1 := nil_or_perm h
  have e2 := scaler_fit_perm c.scaleInputs h
  have e3 : ∀ (m : MethodObj (designDim p fi)) sc, m.initXGram (scaledDesign fi sc (xs b)) (ws b) 0 =
      m.initXGram (scaledDesign fi sc (xs b')) (ws b') 0 := fun m sc => by
    obtain ⟨f, hf⟩ := scaledDesign_maps fi sc
    rw [hf, hf, initXGram_perm m h]
  have e4 : ∀ sc, initYGram (scaledDesign fi sc (xs b)) (ys b) (ws b) 0 =
      initYGram (scaledDesign fi sc (xs b')) (ys b') (ws b') 0 := fun sc => by
    obtain ⟨f, hf⟩ := scaledDesign_maps fi sc
    rw [hf, hf, ys, ys, ws, ws, initYGram_perm h]
  have e5 : ∀ sc, rssFit (scaledDesign fi sc (xs b)) (ys b) (ws b) =
      rssFit (scaledDesign fi sc (xs b')) (ys b') (ws b') := fun sc => by
    obtain ⟨f, hf⟩ := scaledDesign_maps fi sc
    rw [hf, hf, rssFit_perm h]
  unfold LM.fit
  rw [hc]
  simp only [e0, e1, e2, e3, e4, e5]

/-- What the fitted object holds after any number of calls: the scaler is the batch scaler of some data, and the inverse Gramian of
least squares is the inverse of a Gramian. -/
structure OrderInv (c : LMConfig p fi) (s : LM p fi) : Prop where
  scaler : ∃ h : List (Obs p), (c.scaleInputs.selection = none ∨ 0 < totalWeight 0 h) ∧ s.scaler = some (canonSc c.scaleInputs 0 h)
  gram : s.method = some .ols → ∃ d : List (Obs (designDim p fi)), NonnegWeights d ∧ IsUnit (initGram (xs d) (ws d) 0).det ∧
    s.xGram = some (initGram (xs d) (ws d) 0)⁻¹

theorem OrderInv.of_fit {c : LMConfig p fi} (hc : c.forget = 0) {perm : ℕ → ℕ → List (Fin (designDim p fi))} {s s' : LM p fi}
    (hw : NonnegWeights b) (h : LM.fit c perm b s = (.ok (), s')) : OrderInv c s' := by
  obtain ⟨hv, h2, h3, h4, h5, m, sc, G, hm', hsc, hG, e1, e2, e3, e4, e5, e6, e7, e8⟩ := LM.fit_ok h
  obtain ⟨hlen, hW, hsc'⟩ := scaler_fit_ok _ _ _ _ hsc
  constructor
  · refine ⟨b, hW.imp_right fun h => ?_, ?_⟩
    · have := lt_of_le_of_ne (totalWeight_nonneg hv.2.1.le b hw) h.symm
      rwa [hc] at this
    · rw [e1, hsc', hc]
  · intro hm
    cases m with
    | ols =>
      subst hsc'
      rw [scaledDesign_canon, hc] at hG
      refine ⟨designObs c.scaleInputs 0 fi b b, designObs_nonneg _ _ _ _ hw, ?_⟩
      obtain ⟨hu, hG'⟩ := initInvertedGram_ok (show initInvertedGram (xs (designObs c.scaleInputs 0 fi b b)) (ws b) 0 = .ok G from hG)
      rw [ws_designObs]
      exact ⟨hu, by rw [e4, hG']⟩
    | path a =>
      have := (e7 a rfl).1
      rw [hm] at this
      cases this
    | ridge a =>
      obtain ⟨_, _, _, h, _⟩ := e8 a rfl
      rw [hm] at h
      cases h

theorem updateInvertedGram_perm {d : List (Obs q)} (h : b.Perm b') (hd : NonnegWeights d) (hb : NonnegWeights b)
    (hu : IsUnit (initGram (xs d) (ws d) 0).det) (x : Obs p → Row q) :
    updateInvertedGram (initGram (xs d) (ws d) 0)⁻¹ (b.map x) 0 (.array (ws b)) =
      updateInvertedGram (initGram (xs d) (ws d) 0)⁻¹ (b'.map x) 0 (.array (ws b')) := by
  rcases eq_or_ne b [] with rfl | hne
  · rw [List.nil_perm.1 h]
  have hne' : b' ≠ [] := fun h0 => hne (by subst h0; exact List.perm_nil.1 h)
  have key : ∀ g : List (Obs p), NonnegWeights g → g ≠ [] →
      updateInvertedGram (initGram (xs d) (ws d) 0)⁻¹ (g.map x) 0 (.array (ws g)) =
        .ok (initGram ((d ++ g.map fun o => (⟨x o, o.y, o.w⟩ : Obs q)).map Obs.x) ((d ++ g.map fun o => (⟨x o, o.y, o.w⟩ : Obs q)).map Obs.w) 0)⁻¹ := by
    intro g hg hgn
    have := (inverted_batch one_pos (g.map fun o => (⟨x o, o.y, o.w⟩ : Obs q)) d (by simpa using hgn) hd
      (fun o ho => by
        obtain ⟨o', ho', rfl⟩ := List.mem_map.1 ho
        exact hg o' ho') hu).2
    have e1 : xs (g.map fun o => (⟨x o, o.y, o.w⟩ : Obs q)) = g.map x := by simp [xs]
    have e2 : ws (g.map fun o => (⟨x o, o.y, o.w⟩ : Obs q)) = ws g := by simp [ws]
    rw [e1, e2] at this
    exact this
  rw [key b hb hne, key b' (fun o ho => hb o (h.mem_iff.2 ho)) hne', initGram_perm ((h.map _).append_left d)]

theorem LM.update_perm {c : LMConfig p fi} (hc : c.forget = 0) {s : LM p fi} (inv : OrderInv c s)
    (perm : ℕ → ℕ → List (Fin (designDim p fi))) (h : b.Perm b') (hb : NonnegWeights b) :
    LM.update c perm b s = LM.update c perm b' s := by
  rcases eq_or_ne b [] with rfl | hne
  · rw [List.nil_perm.1 h]
  have hne' : b' ≠ [] := fun h0 => hne (by subst h0; exact List.perm_nil.1 h)
  have hb' : NonnegWeights b' := fun o ho => hb o (h.mem_iff.2 ho)
  obtain ⟨⟨g, hW, hsc⟩, hgram⟩ := inv
  have e0 : (ws b).sum = (ws b').sum := sum_perm h _
  have e1 := nil_or_perm h
  have e2 : (canonSc c.scaleInputs 0 g).update 0 (xs b) (ws b) = (canonSc c.scaleInputs 0 g).update 0 (xs b') (ws b') := by
    rw [scaler_update_canon _ one_pos _ _ hne hb hW, scaler_update_canon _ one_pos _ _ hne' hb' hW, canonSc_perm _ (h.append_left g)]
  have e4 : ∀ G sc, updateYGram G (scaledDesign fi sc (xs b)) (ys b) 0 (.array (ws b)) =
      updateYGram G (scaledDesign fi sc (xs b')) (ys b') 0 (.array (ws b')) := fun G sc => by
    obtain ⟨f, hf⟩ := scaledDesign_maps fi sc
    rw [hf, hf, ys, ys, ws, ws, updateYGram_perm h]
  have e5 : ∀ rss path sc, rssUpdate 0 rss path (scaledDesign fi sc (xs b)) (ys b) =
      rssUpdate 0 rss path (scaledDesign fi sc (xs b')) (ys b') := fun rss path sc => by
    obtain ⟨f, hf⟩ := scaledDesign_maps fi sc
    rw [hf, hf, rssUpdate_perm h]
  have e3 : ∀ m G sc, s.method = some m → s.xGram = some G → m.updateXGram G (scaledDesign fi sc (xs b)) (ws b) 0 =
      m.updateXGram G (scaledDesign fi sc (xs b')) (ws b') 0 := fun m G sc hm hG => by
    obtain ⟨f, hf⟩ := scaledDesign_maps fi sc
    rw [hf, hf]
    cases m with
    | ols =>
      obtain ⟨d, hd, hu, hd'⟩ := hgram hm
      rw [hG] at hd'
      cases hd'
      exact updateInvertedGram_perm h hd hb hu f
    | path a => simp only [MethodObj.updateXGram, ws, updateGram_perm h]
    | ridge a => simp only [MethodObj.updateXGram, ws, updateGram_perm h]
  obtain ⟨m0, sc0, n0, nt0, G0, h0, cp0, r0, b0⟩ := s
  simp only at hsc hgram e3
  subst hsc
  unfold LM.update
  rw [hc]
  by_cases hv : c.Valid
  swap
  · rw [Py.bind_raiseIf_pos hv, Py.bind_raiseIf_pos hv]
  rw [Py.bind_raiseIf_neg (not_not.2 hv), Py.bind_raiseIf_neg (not_not.2 hv), e1]
  by_cases h2 : b' = [] ∨ p = 0
  · rw [Py.bind_raiseIf_pos h2, Py.bind_raiseIf_pos h2]
  rw [Py.bind_raiseIf_neg h2, Py.bind_raiseIf_neg h2]
  simp only [e0]
  cases n0 with
  | none => simp only [Py.self, Py.attr, Bind.bind, Py.bind]
  | some n0 =>
    cases m0 with
    | none => simp only [Py.self, Py.attr, Bind.bind, Py.bind, Py.call, e2, Py.set]
    | some m =>
      cases G0 with
      | none => simp only [Py.self, Py.attr, Bind.bind, Py.bind, Py.call, e2, Py.set]
      | some G => simp only [Py.self, Py.attr, Bind.bind, Py.bind, Py.call, e2, Py.set, fun sc => e3 m G sc rfl rfl, e4, e5]

/-- The invariant survives an update. -/
theorem OrderInv.update {c : LMConfig p fi} (hc : c.forget = 0) {s s' : LM p fi} (inv : OrderInv c s)
    {perm : ℕ → ℕ → List (Fin (designDim p fi))} (hb : NonnegWeights b) (h : LM.update c perm b s = (.ok (), s')) :
    OrderInv c s' := by
  obtain ⟨hv, h2, n0, sc0, sc, m, G0, G, h0, q1, q2, q3, q4, q5, q6, q7, r1, r2, r3, r4, r5, _⟩ := LM.update_ok h
  obtain ⟨⟨g, hW, hsc⟩, hgram⟩ := inv
  have hne : b ≠ [] := fun h => h2 (.inl h)
  rw [hsc] at q2
  cases q2
  rw [hc, scaler_update_canon _ one_pos _ _ hne hb hW] at q6
  cases q6
  constructor
  · exact ⟨g ++ b, hW.imp_right fun h => totalWeight_append_pos one_pos g b h hb, r2⟩
  · intro hm
    rw [r1] at hm
    cases hm
    obtain ⟨d, hd, hu, hG⟩ := hgram q3
    rw [hG] at q4
    cases q4
    have hbn : NonnegWeights (designObs c.scaleInputs 0 fi (g ++ b) b) := designObs_nonneg _ _ _ _ hb
    obtain ⟨hu', hG'⟩ := inverted_batch one_pos (designObs c.scaleInputs 0 fi (g ++ b) b) d
      (fun h0 => hne (by simpa [designObs] using h0)) hd hbn hu
    rw [scaledDesign_canon, hc] at q7
    rw [ws_designObs] at hG'
    have := hG'.symm.trans q7
    cases this
    exact ⟨_, hd.append hbn, hu', r5⟩

theorem LM.updates_perm {c : LMConfig p fi} (hc : c.forget = 0) (rng : ℕ → ℕ → ℕ → List (Fin (designDim p fi)))
    {bs bs' : List (List (Obs p))} (h : List.Forall₂ List.Perm bs bs') (hb : ∀ b ∈ bs, NonnegWeights b) (k : ℕ) {s : LM p fi}
    (inv : OrderInv c s) : LM.updates c rng k bs s = LM.updates c rng k bs' s := by
  induction h generalizing k s with
  | nil => rfl
  | cons h1 h2 ih =>
    rename_i b b' bs bs'
    rw [LM.updates, LM.updates, Py.bind_apply, Py.bind_apply, ← LM.update_perm hc inv (rng k) h1 (hb b (by simp))]
    rcases hs : LM.update c (rng k) b s with ⟨r, s'⟩
    cases r with
    | error e => rfl
    | ok u => exact ih (fun g hg => hb g (by simp [hg])) (k + 1) (inv.update hc (hb b (by simp)) hs)

end Linear

end Ondil
