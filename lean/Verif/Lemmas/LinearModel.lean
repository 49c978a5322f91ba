import Verif.Spec.LinearModel
import Verif.Lemmas.LeastSquares
import Verif.Lemmas.Scaler
import Verif.Lemmas.Methods
import Mathlib.Tactic.NormNum

/-! # Helper lemmas on the linear model -/

open scoped BigOperators Matrix

namespace Ondil

variable {p : ℕ} {fi : Bool}

/-- The scaler fitted on a history. -/
noncomputable def canonSc (t : ToScale p) (forget : ℝ) (h : List (Obs p)) : Scaler p :=
  match t.selection with
  | none => .off (ws h).sum
  | some l => .on l.length l.get (canonScaler l.get forget h)

theorem ws_append (h b : List (Obs p)) : ws (h ++ b) = ws h ++ ws b := by simp [ws]

theorem scaler_fit_canon (t : ToScale p) (forget : ℝ) (h : List (Obs p)) (hlen : 2 ≤ h.length)
    (hW : t.selection = none ∨ totalWeight forget h ≠ 0) :
    Scaler.fit t forget (xs h) (ws h) = .ok (canonSc t forget h) := by
  unfold Scaler.fit canonSc
  have hl : ¬ (xs h).length < 2 := by simp only [xs, List.length_map]; omega
  cases hs : t.selection with
  | none => simp only [hl, if_false]
  | some l =>
    rcases hW with h0 | h0
    · rw [h0] at hs; cases hs
    · simp only
      rw [scalerFit_eq _ _ _ hlen h0]; rfl

theorem scaler_fit_ok (t : ToScale p) (forget : ℝ) (h : List (Obs p)) (sc : Scaler p)
    (hf : Scaler.fit t forget (xs h) (ws h) = .ok sc) :
    2 ≤ h.length ∧ (t.selection = none ∨ totalWeight forget h ≠ 0) ∧ sc = canonSc t forget h := by
  have hl : (xs h).length = h.length := by simp [xs]
  have key : 2 ≤ h.length ∧ (t.selection = none ∨ totalWeight forget h ≠ 0) := by
    unfold Scaler.fit at hf
    split at hf
    · rename_i hs
      split_ifs at hf with h2
      exact ⟨by omega, .inl hs⟩
    · rename_i l hs
      rw [bind_ok] at hf
      obtain ⟨a, ha, _⟩ := hf
      have hl2 : 2 ≤ h.length := by
        by_contra hcon
        unfold scalerFit at ha
        rw [if_pos (by omega)] at ha
        cases ha
      refine ⟨hl2, .inr fun h0 => ?_⟩
      unfold scalerFit at ha
      rw [hl, if_neg (by omega)] at ha
      simp only [eff_sum, h0, if_true] at ha
      cases ha
  refine ⟨key.1, key.2, ?_⟩
  rw [scaler_fit_canon t forget h key.1 key.2] at hf
  exact (Except.ok.inj hf).symm

theorem scaler_update_canon (t : ToScale p) {forget : ℝ} (hf : forget < 1) (h b : List (Obs p))
    (hne : b ≠ []) (hb : NonnegWeights b) (hW : t.selection = none ∨ 0 < totalWeight forget h) :
    (canonSc t forget h).update forget (xs b) (ws b) = .ok (canonSc t forget (h ++ b)) := by
  have hl : ¬ (xs b).length < 1 := by
    have := List.length_pos_of_ne_nil hne
    simp only [xs, List.length_map]; omega
  unfold canonSc
  cases hs : t.selection with
  | none =>
    simp only [Scaler.update, hl, if_false]
    rw [ws_append, List.sum_append]
  | some l =>
    rcases hW with h0 | h0
    · rw [h0] at hs; cases hs
    · simp only [Scaler.update]
      rw [scalerUpdate_canon _ hf h b h0 hb hne]
      rfl

theorem selects_iff (t : ToScale p) (j : Fin p) :
    t.Selects j ↔ ∃ l, t.selection = some l ∧ j ∈ l := by
  cases t <;> simp [ToScale.Selects, ToScale.selection]

theorem transform_canon (t : ToScale p) (forget : ℝ) (h : List (Obs p)) (X : List (Row p)) :
    (canonSc t forget h).transform X = X.map (standardise t forget h) := by
  unfold canonSc
  cases hs : t.selection with
  | none =>
    have : ∀ x : Row p, standardise t forget h x = x := by
      intro x
      funext j
      unfold standardise
      rw [if_neg]
      rw [selects_iff, hs]
      rintro ⟨l, hl, _⟩
      cases hl
    simp only [Scaler.transform]
    rw [List.map_congr_left (g := id) (fun x _ => this x), List.map_id]
  | some l =>
    simp only [Scaler.transform]
    refine List.map_congr_left fun x _ => ?_
    funext j
    unfold standardise transformRow
    split_ifs with hj
    · rw [selects_iff, hs] at hj
      obtain ⟨l', hl', hjl⟩ := hj
      cases hl'
      obtain ⟨i, hi⟩ := List.mem_iff_get.1 hjl
      subst hi
      rw [assignCols_of_mem]
      · rfl
      · intro i' hi'
        simp only [canonScaler, hi']
    · rw [assignCols_of_notMem]
      intro i hi
      refine hj ((selects_iff t j).2 ⟨l, hs, ?_⟩)
      rw [← hi]
      exact List.get_mem l i

theorem scaledDesign_canon (t : ToScale p) (forget : ℝ) (h b : List (Obs p)) :
    scaledDesign fi (canonSc t forget h) (xs b) = xs (designObs t forget fi h b) := by
  unfold scaledDesign designObs
  rw [transform_canon]
  simp [xs]

theorem ys_designObs (t : ToScale p) (forget : ℝ) (h b : List (Obs p)) :
    ys (designObs t forget fi h b) = ys b := by simp [ys, designObs]

theorem ws_designObs (t : ToScale p) (forget : ℝ) (h b : List (Obs p)) :
    ws (designObs t forget fi h b) = ws b := by simp [ws, designObs]

theorem designObs_nonneg (t : ToScale p) (forget : ℝ) (h b : List (Obs p)) (hb : NonnegWeights b) :
    NonnegWeights (designObs t forget fi h b) := by
  intro o ho
  simp only [designObs, List.mem_map] at ho
  obtain ⟨o', ho', rfl⟩ := ho
  exact hb o' ho'

/-- What a successful `fit` has done, for every method. -/
theorem LM.fit_ok {c : LMConfig p fi} {perm : ℕ → ℕ → List (Fin (designDim p fi))}
    {data : List (Obs p)} {s s' : LM p fi} (h : LM.fit c perm data s = (.ok (), s')) :
    c.Valid ∧ ¬ (c.regularizeIntercept = true ∧ fi = false) ∧ ¬ (data = [] ∨ p = 0) ∧
    ¬ ((ws data).sum ≤ designDim p fi ∧ c.method = .str "ols") ∧ (ws data).sum ≠ 1 ∧
    ∃ m sc G, getEstimationMethod c.method = .ok m ∧
      Scaler.fit c.scaleInputs c.forget (xs data) (ws data) = .ok sc ∧
      m.initXGram (scaledDesign fi sc (xs data)) (ws data) c.forget = .ok G ∧
      s'.scaler = some sc ∧ s'.nObs = some (ws data).sum ∧
      s'.nTraining = some (effectiveTrainingLength c.forget (ws data).sum) ∧
      s'.xGram = some G ∧
      s'.yGram = some (initYGram (scaledDesign fi sc (xs data)) (ys data) (ws data) c.forget) ∧
      (m = .ols → s'.method = some .ols ∧ s'.coef = some (olsBeta G
        (initYGram (scaledDesign fi sc (xs data)) (ys data) (ws data) c.forget))) ∧
      (∀ a, m = .path a → s'.method = some (.path a) ∧ ∃ path b,
        a.fitBetaPath G (initYGram (scaledDesign fi sc (xs data)) (ys data) (ws data) c.forget)
          (isRegularized p fi c.regularizeIntercept) perm = .ok path ∧
        s'.coefPath = some path ∧
        s'.rss = some (path.map (rssFit (scaledDesign fi sc (xs data)) (ys data) (ws data))) ∧
        selectCoef c.ic (effectiveTrainingLength c.forget (ws data).sum) path
          (path.map (rssFit (scaledDesign fi sc (xs data)) (ys data) (ws data))) = .ok b ∧
        s'.coef = some b) ∧
      (∀ a, m = .ridge a → ∃ b lam, a.fitBeta G
          (initYGram (scaledDesign fi sc (xs data)) (ys data) (ws data) c.forget)
          (isRegularized p fi c.regularizeIntercept) (perm 0) = .ok (b, lam) ∧
        s'.method = some (.ridge { a with lambdaReg := some lam }) ∧ s'.coef = some b) := by
  unfold LM.fit at h
  simp only [Py.bind_ok_iff, Py.raiseIf_ok_iff, Py.call_ok_iff, Py.set_ok_iff] at h
  obtain ⟨_, _, ⟨h1, rfl⟩, m, _, ⟨hm, rfl⟩, _, _, rfl, _, _, ⟨h2, rfl⟩, _, _, ⟨h3, rfl⟩, _, _, rfl, _, _,
    ⟨h4, rfl⟩, _, _, ⟨h5, rfl⟩, _, _, rfl, sc, _, ⟨hsc, rfl⟩, _, _, rfl, G, _, ⟨hG, rfl⟩, _, _, rfl, _, _,
    rfl, h⟩ := h
  rw [not_not] at h1
  refine ⟨h1, h2, h3, h4, h5, m, sc, G, hm, hsc, hG, ?_⟩
  cases m with
  | ols =>
    simp only [Py.set_ok_iff] at h
    subst h
    refine ⟨rfl, rfl, rfl, rfl, rfl, fun _ => ⟨rfl, rfl⟩, ?_, ?_⟩ <;> intro a ha <;> cases ha
  | path a =>
    simp only [Py.bind_ok_iff, Py.call_ok_iff, Py.set_ok_iff] at h
    obtain ⟨path, _, ⟨hp, rfl⟩, _, _, rfl, _, _, rfl, b, _, ⟨hb, rfl⟩, rfl⟩ := h
    refine ⟨rfl, rfl, rfl, rfl, rfl, fun h => (by cases h), ?_, ?_⟩
    · intro a' ha'; cases ha'
      exact ⟨rfl, path, b, hp, rfl, rfl, hb, rfl⟩
    · intro a' ha'; cases ha'
  | ridge a =>
    simp only [Py.bind_ok_iff, Py.call_ok_iff, Py.set_ok_iff] at h
    obtain ⟨r, _, ⟨hr, rfl⟩, rfl⟩ := h
    refine ⟨rfl, rfl, rfl, rfl, rfl, fun h => (by cases h), ?_, ?_⟩
    · intro a' ha'; cases ha'
    · intro a' ha'; cases ha'
      exact ⟨r.1, r.2, hr, rfl, rfl⟩

/-- `fit` with the least squares method succeeds when all its checks pass. -/
theorem LM.fit_ols_succeeds (c : LMConfig p fi) (perm : ℕ → ℕ → List (Fin (designDim p fi)))
    (data : List (Obs p)) (s : LM p fi) (h1 : c.Valid)
    (h2 : ¬ (c.regularizeIntercept = true ∧ fi = false)) (h3 : ¬ (data = [] ∨ p = 0))
    (h4 : ¬ ((ws data).sum ≤ designDim p fi ∧ c.method = .str "ols")) (h5 : (ws data).sum ≠ 1)
    (hm : getEstimationMethod c.method = .ok .ols) (sc : Scaler p)
    (hsc : Scaler.fit c.scaleInputs c.forget (xs data) (ws data) = .ok sc)
    (G : Matrix (Fin (designDim p fi)) (Fin (designDim p fi)) ℝ)
    (hG : initInvertedGram (scaledDesign fi sc (xs data)) (ws data) c.forget = .ok G) :
    ∃ s', LM.fit c perm data s = (.ok (), s') := by
  unfold LM.fit
  simp only [Py.bind_ok_iff, Py.raiseIf_ok_iff, Py.call_ok_iff, Py.set_ok_iff]
  exact ⟨_, (), _, ⟨not_not.2 h1, rfl⟩, .ols, _, ⟨hm, rfl⟩, (), _, rfl, (), _, ⟨h2, rfl⟩, (), _, ⟨h3, rfl⟩, (), _,
    rfl, (), _, ⟨h4, rfl⟩, (), _, ⟨h5, rfl⟩, (), _, rfl, sc, _, ⟨hsc, rfl⟩, (), _, rfl, G, _, ⟨hG, rfl⟩, (), _,
    rfl, (), _, rfl, rfl⟩

/-- What a successful `update` has done, for every method. -/
theorem LM.update_ok {c : LMConfig p fi} {perm : ℕ → ℕ → List (Fin (designDim p fi))}
    {data : List (Obs p)} {s s' : LM p fi} (h : LM.update c perm data s = (.ok (), s')) :
    c.Valid ∧ ¬ (data = [] ∨ p = 0) ∧
    ∃ n0 sc0 sc m G0 G h0, s.nObs = some n0 ∧ s.scaler = some sc0 ∧ s.method = some m ∧
      s.xGram = some G0 ∧ s.yGram = some h0 ∧
      sc0.update c.forget (xs data) (ws data) = .ok sc ∧
      m.updateXGram G0 (scaledDesign fi sc (xs data)) (ws data) c.forget = .ok G ∧
      s'.method = some m ∧ s'.scaler = some sc ∧ s'.nObs = some (n0 + (ws data).sum) ∧
      s'.nTraining = some (effectiveTrainingLength c.forget (n0 + (ws data).sum)) ∧
      s'.xGram = some G ∧
      s'.yGram = some (updateYGram h0 (scaledDesign fi sc (xs data)) (ys data) c.forget
        (.array (ws data))) ∧
      (m = .ols → s'.coef = some (olsBeta G
        (updateYGram h0 (scaledDesign fi sc (xs data)) (ys data) c.forget (.array (ws data))))) ∧
      (∀ a, m = .path a → ∃ path0 path rss0 b, s.coefPath = some path0 ∧ s.rss = some rss0 ∧
        a.updateBetaPath G (updateYGram h0 (scaledDesign fi sc (xs data)) (ys data) c.forget
          (.array (ws data))) path0 (isRegularized p fi c.regularizeIntercept) perm = .ok path ∧
        s'.coefPath = some path ∧
        s'.rss = some (rssUpdate c.forget rss0 path (scaledDesign fi sc (xs data)) (ys data)) ∧
        selectCoef c.ic (effectiveTrainingLength c.forget (n0 + (ws data).sum)) path
          (rssUpdate c.forget rss0 path (scaledDesign fi sc (xs data)) (ys data)) = .ok b ∧
        s'.coef = some b) ∧
      (∀ a, m = .ridge a → ∃ b0 lam b, s.coef = some b0 ∧ a.lambdaReg = some lam ∧
        a.updateBeta lam G (updateYGram h0 (scaledDesign fi sc (xs data)) (ys data) c.forget
          (.array (ws data))) b0 (isRegularized p fi c.regularizeIntercept) (perm 0) = .ok b ∧
        s'.coef = some b) := by
  unfold LM.update at h
  simp only [Py.bind_ok_iff, Py.raiseIf_ok_iff, Py.call_ok_iff, Py.set_ok_iff, Py.self_ok_iff,
    Py.attr_ok_iff] at h
  obtain ⟨_, _, ⟨h1, rfl⟩, _, _, ⟨h2, rfl⟩, _, _, ⟨rfl, rfl⟩, n0, _, ⟨hn, rfl⟩, _, _, rfl, _, _, rfl, sc0, _,
    ⟨hsc0, rfl⟩, sc, _, ⟨hsc, rfl⟩, _, _, rfl, m, _, ⟨hm, rfl⟩, G0, _, ⟨hG0, rfl⟩, G, _, ⟨hG, rfl⟩, _, _, rfl,
    h0, _, ⟨hh, rfl⟩, _, _, rfl, h⟩ := h
  rw [not_not] at h1
  refine ⟨h1, h2, n0, sc0, sc, m, G0, G, h0, hn, hsc0, hm, hG0, hh, hsc, hG, ?_⟩
  cases m with
  | ols =>
    simp only [Py.bind_ok_iff, Py.attr_ok_iff, Py.set_ok_iff] at h
    obtain ⟨b, _, ⟨hb, rfl⟩, rfl⟩ := h
    refine ⟨hm, rfl, rfl, rfl, rfl, rfl, fun _ => rfl, ?_, ?_⟩ <;> intro a ha <;> cases ha
  | path a =>
    simp only [Py.bind_ok_iff, Py.call_ok_iff, Py.attr_ok_iff, Py.set_ok_iff] at h
    obtain ⟨path0, _, ⟨hp0, rfl⟩, path, _, ⟨hp, rfl⟩, _, _, rfl, rss0, _, ⟨hr, rfl⟩, _, _, rfl, b, _,
      ⟨hb, rfl⟩, rfl⟩ := h
    refine ⟨hm, rfl, rfl, rfl, rfl, rfl, fun h => (by cases h), ?_, ?_⟩
    · intro a' ha'; cases ha'
      exact ⟨path0, path, rss0, b, hp0, hr, hp, rfl, rfl, hb, rfl⟩
    · intro a' ha'; cases ha'
  | ridge a =>
    simp only [Py.bind_ok_iff, Py.call_ok_iff, Py.attr_ok_iff, Py.set_ok_iff] at h
    obtain ⟨b0, _, ⟨hb0, rfl⟩, lam, _, ⟨hl, rfl⟩, b, _, ⟨hb, rfl⟩, rfl⟩ := h
    refine ⟨hm, rfl, rfl, rfl, rfl, rfl, fun h => (by cases h), ?_, ?_⟩
    · intro a' ha'; cases ha'
    · intro a' ha'; cases ha'
      exact ⟨b0, lam, b, hb0, hl, hb, rfl⟩

/-- `update` with the least squares method succeeds when the Gramian update does. -/
theorem LM.update_ols_succeeds (c : LMConfig p fi) (perm : ℕ → ℕ → List (Fin (designDim p fi)))
    (data : List (Obs p)) (s : LM p fi) (h1 : c.Valid) (h2 : ¬ (data = [] ∨ p = 0)) {n0 : ℝ}
    {sc0 sc : Scaler p} {G0 G : Matrix (Fin (designDim p fi)) (Fin (designDim p fi)) ℝ}
    {h0 b0 : Row (designDim p fi)} (hn : s.nObs = some n0) (hsc0 : s.scaler = some sc0)
    (hm : s.method = some .ols) (hG0 : s.xGram = some G0) (hh : s.yGram = some h0)
    (hb : s.coef = some b0) (hsc : sc0.update c.forget (xs data) (ws data) = .ok sc)
    (hG : updateInvertedGram G0 (scaledDesign fi sc (xs data)) c.forget (.array (ws data)) = .ok G) :
    ∃ s', LM.update c perm data s = (.ok (), s') := by
  unfold LM.update
  simp only [Py.bind_ok_iff, Py.raiseIf_ok_iff, Py.call_ok_iff, Py.set_ok_iff, Py.self_ok_iff,
    Py.attr_ok_iff]
  exact ⟨_, (), _, ⟨not_not.2 h1, rfl⟩, (), _, ⟨h2, rfl⟩, s, _, ⟨rfl, rfl⟩, n0, _, ⟨hn, rfl⟩, (), _, rfl, (), _, rfl,
    sc0, _, ⟨hsc0, rfl⟩, sc, _, ⟨hsc, rfl⟩, (), _, rfl, .ols, _, ⟨hm, rfl⟩, G0, _, ⟨hG0, rfl⟩, G, _, ⟨hG, rfl⟩,
    (), _, rfl, h0, _, ⟨hh, rfl⟩, (), _, rfl,
    Py.bind_ok_iff.2 ⟨b0, _, Py.attr_ok_iff.2 ⟨hb, rfl⟩, rfl⟩⟩

end Ondil
