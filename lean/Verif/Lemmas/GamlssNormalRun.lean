import Verif.Lemmas.GamlssSuccess

/-!
# One inner iteration with a method that is not path based

What one pass of the loop of `_inner_fit` returns and leaves, given the values of the calls it makes.
-/

namespace Ondil

variable {μ : Type} {p : ℕ}

/-- The attributes an inner iteration of the fit leaves alone. -/
structure IterKeeps (s t : GState μ p) : Prop where
  fv : t.fv = s.fv
  coef : t.coef = s.coef
  forget : t.forget = s.forget
  reg : t.isRegularized = s.isRegularized
  stepSize : t.stepSize = s.stepSize
  schedule : t.scheduleIteration = s.scheduleIteration
  order : t.paramOrder = s.paramOrder

/-- What one inner iteration returns: the new values `v` of the column, the coefficients `b`, and whether the values were
accepted. -/
structure IterResult (c : Call μ p) (k : ℕ) (a : Inner) (b v : Arr1) (r : Inner × Bool) : Prop where
  fvNew : r.1.fvNew = a.fvNew.setCol k v
  out : ∃ o, r.1.out = some o ∧ o.beta = b
  dvStart : r.1.dvStart = a.dvStart
  fvIt : r.1.fvIt = a.fvIt.setCol k ((a.fvNew.setCol k v).col k) ∨
    r.1.fvIt = a.fvIt ∧ (r.2 = true ∨ Flt.lt a.dvOld (deviance c.D c.y c.w (a.fvNew.setCol k v)))

/-- The step sizes an inner iteration leaves: at most the one of the next iteration is halved. -/
def StepKeeps (itO itI k : ℕ) (step : ℝ) (s t : GState μ p) : Prop :=
  t.scheduleStep = s.scheduleStep ∨ t.scheduleStep = fun o i j =>
    if o = itO - 1 ∧ i = itI + 1 ∧ j = k then some (step / 2) else s.scheduleStep o i j

theorem accept_cases {P : Prop} {_ : Decidable P} (leave : Bool) (x y : Fv) :
    (if (!leave && !decide P) = true then x else y) = x ∨
      (if (!leave && !decide P) = true then x else y) = y ∧ (leave = true ∨ P) := by
  cases leave
  · by_cases hP : P
    · simp [hP]
    · simp [hP]
  · simp

theorem fitIteration_run {c : Call μ p} {k itO itI scheduled : ℕ} {a : Inner} {s : GState μ p} {step f : ℝ} {wk : Working}
    {X xg : Arr2} {yg b xb v : Arr1} {m m' : μ} {reg : List Bool}
    (hstep : stepAt c.cfg s itO itI k = .ok step) (hcond : c.cfg.condStartVal = false)
    (hwk : working c.D fitClip c.y a.fvIt k = .ok wk) (hX : c.X k = some X) (hm : s.method k = some m)
    (hpath : c.M.pathBased m = false) (hf : s.forget.get? k = some f) (hreg : s.isRegularized.get? k = some reg)
    (hxg : c.M.initX m X (wmul c.w wk.wt) f = .ok xg) (hyg : c.M.initY m X wk.wv (wmul c.w wk.wt) f = .ok yg)
    (hb : c.M.fitBeta m xg yg reg = .ok (b, m')) (hxb : matVec X b = .ok xb)
    (hv : c.D.linkInverse k (List.zipWith (fun u e => Flt.add (Flt.mul (.fin step) u) (Flt.mul (.fin (1 - step)) e))
      xb wk.eta) = .ok v) :
    Py.Total (fun t => t = s) (fitIteration c k itO itI scheduled a) (fun r t => IterResult c k a b v r ∧ IterKeeps s t ∧
      t.method = upd s.method k (some m') ∧ StepKeeps itO itI k step s t) := by
  unfold fitIteration
  refine Py.Total.bind_self fun s' hs' => ?_
  subst hs'
  have hst : startValues c k itO itI a.fvIt = .ok a.fvIt := by
    unfold startValues
    rw [if_neg]
    rintro ⟨-, -, -, h⟩
    rw [hcond] at h
    cases h
  refine Py.Total.bind_call hstep (Py.Total.bind_call hst (Py.Total.bind_call hwk ?_))
  let Q : GState μ p → Prop := fun t => IterKeeps s' t ∧ t.method = s'.method ∧ t.scheduleStep = s'.scheduleStep
  let Q' : GState μ p → Prop := fun t => IterKeeps s' t ∧ t.method = upd s'.method k (some m') ∧
    t.scheduleStep = s'.scheduleStep
  refine Py.Total.bind_set (P' := Q) ?_ ?_
  · rintro _ rfl
    refine ⟨⟨?_, ?_, ?_, ?_, ?_, ?_, ?_⟩, ?_, ?_⟩ <;> (unfold debugWork; split <;> rfl)
  refine Py.Total.bind_attr hX (Py.Total.bind_attr hm (Py.Total.bind_attr hf (Py.Total.bind_call hxg
    (Py.Total.bind_call hyg ?_))))
  refine Py.Total.bind (R := fun co t => co = ⟨b, none, none, none⟩ ∧ Q' t) ?_ fun co => ?_
  · unfold fitCoefs
    refine Py.Total.bind_self fun t ht => ?_
    obtain ⟨hk, hmm, hss⟩ := ht
    refine Py.Total.bind_attr (by rw [hmm]; exact hm) (Py.Total.bind_attr (by rw [hk.reg]; exact hreg)
      (Py.Total.bind_attr (by rw [hk.forget]; exact hf) ?_))
    rw [if_neg (by rw [hpath]; simp)]
    refine Py.Total.bind_call hb (Py.Total.bind_set (P' := Q') ?_ (Py.Total.pure fun t ht => ⟨rfl, ht⟩))
    rintro _ rfl
    exact ⟨⟨hk.fv, hk.coef, hk.forget, hk.reg, hk.stepSize, hk.schedule, hk.order⟩, by
      change upd _ _ _ = _
      rw [hmm], hss⟩
  refine Py.Total.of_state fun t ht => ?_
  obtain ⟨hco, hQ⟩ := ht
  subst hco
  refine Py.Total.bind_set (P' := Q') ?_ ?_
  · rintro _ rfl
    obtain ⟨hk, hmm, hss⟩ := hQ
    refine ⟨⟨?_, ?_, ?_, ?_, ?_, ?_, ?_⟩, ?_, ?_⟩
    all_goals unfold debugBeta; split
    all_goals first | exact hk.fv | exact hk.coef | exact hk.forget | exact hk.reg | exact hk.stepSize | exact hk.schedule | exact hk.order | exact hmm | exact hss
  refine Py.Total.bind_call hxb (Py.Total.bind_call hv ?_)
  refine Py.Total.bind_set (P' := fun t => IterKeeps s' t ∧ t.method = upd s'.method k (some m') ∧
    StepKeeps itO itI k step s' t) ?_ (Py.Total.pure ?_)
  · rintro u ⟨hk, hmm, hss⟩
    split
    · exact ⟨⟨hk.fv, hk.coef, hk.forget, hk.reg, hk.stepSize, hk.schedule, hk.order⟩, hmm, .inr (by rw [← hss]; rfl)⟩
    · exact ⟨hk, hmm, .inl hss⟩
  · rintro u hu
    refine ⟨⟨rfl, ⟨_, rfl, rfl⟩, rfl, ?_⟩, hu⟩
    exact accept_cases _ _ _

end Ondil
