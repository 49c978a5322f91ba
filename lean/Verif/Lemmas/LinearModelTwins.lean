import Verif.Lemmas.GamlssTwins
import Verif.Lemmas.LinearModelOls

/-!
# Twin runs of the linear model
-/

namespace Ondil

variable {p : ℕ} {fi : Bool} {Q : Scaler p → Scaler p → Prop} {F : ℝ → Prop}

/-- The relation between two linear models after a call that returned.  Coefficient path and residual sums are equal for the
methods that use them. -/
structure TwinLM (Q : Scaler p → Scaler p → Prop) (s t : LM p fi) : Prop where
  method : t.method = s.method
  nObs : t.nObs = s.nObs
  nTraining : t.nTraining = s.nTraining
  xGram : t.xGram = s.xGram
  yGram : t.yGram = s.yGram
  coef : t.coef = s.coef
  scaler : ∃ sc sc', s.scaler = some sc ∧ t.scaler = some sc' ∧ Q sc sc'
  path : ∀ a, s.method = some (.path a) → t.coefPath = s.coefPath ∧ t.rss = s.rss

theorem scaledDesign_twin {sc sc' : Scaler p} (hQ : Q sc sc') {X X' : List (Row p)} (h : SameDesign (fun _ => True) Q X X') :
    scaledDesign fi sc' X' = scaledDesign fi sc X := by
  unfold scaledDesign
  rw [h.transformReal (fun _ => trivial) sc sc' hQ]

/-- A fit on twin data, from any two states. -/
theorem LM.fit_twin (c : LMConfig p fi) (perm : ℕ → ℕ → List (Fin (designDim p fi))) {data data' : List (Obs p)}
    (h : Twins F (fun _ => True) Q data data')
    (hF : F c.forget)
    (hfit : ∀ f, F f → BothOr Q (Scaler.fit c.scaleInputs f (xs data) (ws data)) (Scaler.fit c.scaleInputs f (xs data') (ws data))) :
    Py.RelTo (fun _ _ => True) (TwinLM Q) (LM.fit c perm data) (LM.fit c perm data') := by
  unfold LM.fit
  rw [h.ys, h.ws]
  refine Py.RelTo.bind (Py.Rel.to (Py.rel_raiseIf Iff.rfl _)) fun _ => ?_
  refine Py.RelTo.bind (Py.Rel.to (Py.rel_call rfl)) fun m => ?_
  refine Py.RelTo.bind (Py.relTo_set _ _) fun _ => ?_
  refine Py.RelTo.bind (Py.Rel.to (Py.rel_raiseIf Iff.rfl _)) fun _ => ?_
  refine Py.RelTo.bind (Py.Rel.to (Py.rel_raiseIf (or_congr (twin_nil h) Iff.rfl) _)) fun _ => ?_
  refine Py.RelTo.bind (Py.relTo_set _ _) fun _ => ?_
  refine Py.RelTo.bind (Py.Rel.to (Py.rel_raiseIf Iff.rfl _)) fun _ => ?_
  refine Py.RelTo.bind (Py.Rel.to (Py.rel_raiseIf Iff.rfl _)) fun _ => ?_
  refine Py.RelTo.bind (Py.relTo_set _ _) fun _ => ?_
  refine Py.RelTo.bind_call ?_
  rcases hfit c.forget hF with ⟨e, he, he'⟩ | ⟨sc, sc', he, he', hQ⟩
  · exact .inl ⟨e, he, he'⟩
  refine .inr ⟨sc, sc', he, he', ?_⟩
  rw [scaledDesign_twin hQ h.design]
  refine Py.RelTo.bind (Py.relTo_set _ _) fun _ => ?_
  refine Py.RelTo.bind (Py.Rel.to (Py.rel_call rfl)) fun G => ?_
  refine Py.RelTo.bind (Py.relTo_set _ _) fun _ => ?_
  refine Py.RelTo.bind (Py.relTo_set _ _) fun _ => ?_
  cases m with
  | ols =>
    refine Py.RelTo.mono (Py.relTo_set _ _) (fun _ _ h => h) ?_
    rintro _ _ ⟨_, _, ⟨_, _, ⟨_, _, ⟨_, _, ⟨_, _, ⟨_, _, ⟨s, t, _, rfl, rfl⟩, rfl, rfl⟩, rfl, rfl⟩, rfl, rfl⟩, rfl, rfl⟩,
      rfl, rfl⟩, rfl, rfl⟩
    exact ⟨rfl, rfl, rfl, rfl, rfl, rfl, ⟨sc, sc', rfl, rfl, hQ⟩, fun a ha => by cases ha⟩
  | path a =>
    refine Py.RelTo.bind (Py.Rel.to (Py.rel_call rfl)) fun path => ?_
    refine Py.RelTo.bind (Py.relTo_set _ _) fun _ => ?_
    refine Py.RelTo.bind (Py.relTo_set _ _) fun _ => ?_
    refine Py.RelTo.bind (Py.Rel.to (Py.rel_call rfl)) fun b => ?_
    refine Py.RelTo.mono (Py.relTo_set _ _) (fun _ _ h => h) ?_
    rintro _ _ ⟨_, _, ⟨_, _, ⟨_, _, ⟨_, _, ⟨_, _, ⟨_, _, ⟨_, _, ⟨_, _, ⟨s, t, _, rfl, rfl⟩, rfl, rfl⟩, rfl, rfl⟩, rfl, rfl⟩,
      rfl, rfl⟩, rfl, rfl⟩, rfl, rfl⟩, rfl, rfl⟩, rfl, rfl⟩
    exact ⟨rfl, rfl, rfl, rfl, rfl, rfl, ⟨sc, sc', rfl, rfl, hQ⟩, fun a ha => ⟨rfl, rfl⟩⟩
  | ridge a =>
    refine Py.RelTo.bind (Py.Rel.to (Py.rel_call rfl)) fun r => ?_
    refine Py.RelTo.mono (Py.relTo_set _ _) (fun _ _ h => h) ?_
    rintro _ _ ⟨_, _, ⟨_, _, ⟨_, _, ⟨_, _, ⟨_, _, ⟨_, _, ⟨s, t, _, rfl, rfl⟩, rfl, rfl⟩, rfl, rfl⟩, rfl, rfl⟩, rfl, rfl⟩,
      rfl, rfl⟩, rfl, rfl⟩
    exact ⟨rfl, rfl, rfl, rfl, rfl, rfl, ⟨sc, sc', rfl, rfl, hQ⟩, fun a ha => by cases ha⟩

/-- An update with twin data. -/
theorem LM.update_twin (c : LMConfig p fi) (perm : ℕ → ℕ → List (Fin (designDim p fi))) {data data' : List (Obs p)}
    (h : Twins F (fun _ => True) Q data data') (hF : F c.forget) : Py.RelTo (TwinLM Q) (TwinLM Q) (LM.update c perm data) (LM.update c perm data') := by
  unfold LM.update
  rw [h.ys, h.ws]
  refine Py.RelTo.bind (Py.Rel.to (Py.rel_raiseIf Iff.rfl _)) fun _ => ?_
  refine Py.RelTo.bind (Py.Rel.to (Py.rel_raiseIf (or_congr (twin_nil h) Iff.rfl) _)) fun _ => ?_
  refine Py.RelTo.bind_self ?_
  intro s t hst
  obtain ⟨e1, e2, e3, e4, e5, e6, ⟨sc0, sc0', hs, ht, hQ⟩, e7⟩ := hst
  rw [e1, e2, e4, e5, e6, hs, ht]
  refine Py.RelTo.bind (Py.Rel.to (Py.rel_attr rfl _)) fun n0 => ?_
  refine Py.RelTo.bind (Py.relTo_set _ _) fun _ => ?_
  refine Py.RelTo.bind (Py.relTo_set _ _) fun _ => ?_
  change Py.RelTo _ _ (Py.call (.ok sc0) >>= _) (Py.call (.ok sc0') >>= _)
  refine Py.RelTo.bind_call (.inr ⟨sc0, sc0', rfl, rfl, ?_⟩)
  refine Py.RelTo.bind_call ?_
  rcases h.update c.forget hF sc0 sc0' hQ with ⟨e, he, he'⟩ | ⟨sc, sc', he, he', hQ'⟩
  · exact .inl ⟨e, he, he'⟩
  refine .inr ⟨sc, sc', he, he', ?_⟩
  rw [scaledDesign_twin hQ' h.design]
  refine Py.RelTo.bind (Py.relTo_set _ _) fun _ => ?_
  rcases hm : s.method with _ | m
  · intro s t _
    exact ⟨rfl, fun _ h => by cases h⟩
  change Py.RelTo _ _ (Py.call (.ok m) >>= _) (Py.call (.ok m) >>= _)
  refine Py.RelTo.bind_call (.inr ⟨m, m, rfl, rfl, ?_⟩)
  refine Py.RelTo.bind (Py.Rel.to (Py.rel_attr rfl _)) fun G0 => ?_
  refine Py.RelTo.bind (Py.Rel.to (Py.rel_call rfl)) fun G => ?_
  refine Py.RelTo.bind (Py.relTo_set _ _) fun _ => ?_
  refine Py.RelTo.bind (Py.Rel.to (Py.rel_attr rfl _)) fun h0 => ?_
  refine Py.RelTo.bind (Py.relTo_set _ _) fun _ => ?_
  cases m with
  | ols =>
    refine Py.RelTo.bind (Py.Rel.to (Py.rel_attr rfl _)) fun b0 => ?_
    refine Py.RelTo.mono (Py.relTo_set _ _) (fun _ _ h => h) ?_
    rintro _ _ ⟨_, _, ⟨_, _, ⟨_, _, ⟨_, _, ⟨_, _, ⟨s, t, ⟨rfl, rfl⟩, rfl, rfl⟩, rfl, rfl⟩, rfl, rfl⟩, rfl, rfl⟩, rfl, rfl⟩,
      rfl, rfl⟩
    exact ⟨e1, rfl, rfl, rfl, rfl, rfl, ⟨sc, sc', rfl, rfl, hQ'⟩, fun a ha => by cases hm.symm.trans ha⟩
  | path a =>
    rw [(e7 a hm).1, (e7 a hm).2]
    refine Py.RelTo.bind (Py.Rel.to (Py.rel_attr rfl _)) fun path0 => ?_
    refine Py.RelTo.bind (Py.Rel.to (Py.rel_call rfl)) fun path => ?_
    refine Py.RelTo.bind (Py.relTo_set _ _) fun _ => ?_
    refine Py.RelTo.bind (Py.Rel.to (Py.rel_attr rfl _)) fun rss0 => ?_
    refine Py.RelTo.bind (Py.relTo_set _ _) fun _ => ?_
    refine Py.RelTo.bind (Py.Rel.to (Py.rel_call rfl)) fun b => ?_
    refine Py.RelTo.mono (Py.relTo_set _ _) (fun _ _ h => h) ?_
    rintro _ _ ⟨_, _, ⟨_, _, ⟨_, _, ⟨_, _, ⟨_, _, ⟨_, _, ⟨_, _, ⟨s, t, ⟨rfl, rfl⟩, rfl, rfl⟩, rfl, rfl⟩, rfl, rfl⟩, rfl, rfl⟩,
      rfl, rfl⟩, rfl, rfl⟩, rfl, rfl⟩, rfl, rfl⟩
    exact ⟨e1, rfl, rfl, rfl, rfl, rfl, ⟨sc, sc', rfl, rfl, hQ'⟩, fun a ha => ⟨rfl, rfl⟩⟩
  | ridge a =>
    refine Py.RelTo.bind (Py.Rel.to (Py.rel_attr rfl _)) fun b0 => ?_
    refine Py.RelTo.bind (Py.Rel.to (Py.rel_attr rfl _)) fun lam => ?_
    refine Py.RelTo.bind (Py.Rel.to (Py.rel_call rfl)) fun b => ?_
    refine Py.RelTo.mono (Py.relTo_set _ _) (fun _ _ h => h) ?_
    rintro _ _ ⟨_, _, ⟨_, _, ⟨_, _, ⟨_, _, ⟨_, _, ⟨s, t, ⟨rfl, rfl⟩, rfl, rfl⟩, rfl, rfl⟩, rfl, rfl⟩, rfl, rfl⟩, rfl, rfl⟩,
      rfl, rfl⟩
    exact ⟨e1, rfl, rfl, rfl, rfl, rfl, ⟨sc, sc', rfl, rfl, hQ'⟩, fun a ha => by cases hm.symm.trans ha⟩

/-- Updates with twin batches. -/
theorem LM.updates_twin (c : LMConfig p fi) (rng : ℕ → ℕ → ℕ → List (Fin (designDim p fi))) {bs bs' : List (List (Obs p))}
    (h : List.Forall₂ (Twins F (fun _ => True) Q) bs bs') (hF : F c.forget) (k : ℕ) :
    Py.RelTo (TwinLM Q) (TwinLM Q) (LM.updates c rng k bs) (LM.updates c rng k bs') := by
  induction h generalizing k with
  | nil => exact Py.Rel.to (Py.rel_pure _)
  | cons h _ ih =>
    unfold LM.updates
    exact Py.RelTo.bind (LM.update_twin c (rng k) h hF) fun _ => ih (k + 1)

theorem TwinLM.predict {s t : LM p fi} (h : TwinLM Q s t) {X X' : List (Row p)} (hX : SameDesign (fun _ => True) Q X X') :
    t.predict X' = s.predict X := by
  obtain ⟨sc, sc', h1, h2, hQ⟩ := h.scaler
  unfold LM.predict
  rw [h1, h2, h.coef]
  cases s.coef with
  | none => rfl
  | some b => simp only [scaledDesign_twin hQ hX]

theorem TwinLM.score {s t : LM p fi} (h : TwinLM Q s t) {X X' : List (Row p)} (hX : SameDesign (fun _ => True) Q X X') (y : List ℝ) :
    t.score X' y = s.score X y := by
  unfold LM.score
  rw [h.predict hX]

theorem TwinLM.predictPath {s t : LM p fi} (h : TwinLM Q s t) {a : EnetArgs} (ha : s.method = some (.path a))
    {X X' : List (Row p)} (hX : SameDesign (fun _ => True) Q X X') : t.predictPath X' = s.predictPath X := by
  obtain ⟨sc, sc', h1, h2, hQ⟩ := h.scaler
  unfold LM.predictPath
  rw [h1, h2, (h.path a ha).1]
  cases s.coefPath with
  | none => rfl
  | some b => simp only [scaledDesign_twin hQ hX]

end Ondil
