import Verif.Lemmas.RowOrder
import Verif.Spec.Frequencies

/-! # Lemmas: without forgetting all statistics but the selection criteria only depend on the frequencies -/

open scoped BigOperators

namespace Ondil

variable {p : ℕ} {fi : Bool}

open Classical in
theorem weightAt_cons (o : Obs p) (h : List (Obs p)) (x : Row p) (y : ℝ) :
    weightAt (o :: h) x y = (if o.x = x ∧ o.y = y then o.w else 0) + weightAt h x y := by
  unfold weightAt
  rw [List.filter_cons]
  by_cases hc : o.x = x ∧ o.y = y
  · simp [hc]
  · simp [hc]

theorem sum_weightAt (S : Finset (Row p × ℝ)) (g : Row p → ℝ → ℝ) (h : List (Obs p))
    (hS : ∀ o ∈ h, (o.x, o.y) ∈ S) :
    (h.map fun o => o.w * g o.x o.y).sum = ∑ v ∈ S, weightAt h v.1 v.2 * g v.1 v.2 := by
  classical
  induction h with
  | nil => simp [weightAt]
  | cons o h ih =>
    rw [List.map_cons, List.sum_cons, ih fun o' ho' => hS o' (List.mem_cons_of_mem _ ho')]
    have e : ∑ v ∈ S, weightAt (o :: h) v.1 v.2 * g v.1 v.2
        = (∑ v ∈ S, if v = (o.x, o.y) then o.w * g v.1 v.2 else 0) + ∑ v ∈ S, weightAt h v.1 v.2 * g v.1 v.2 := by
      rw [← Finset.sum_add_distrib]
      refine Finset.sum_congr rfl fun v _ => ?_
      rw [weightAt_cons, add_mul]
      congr 1
      by_cases hv : v = (o.x, o.y)
      · subst hv; simp
      · rw [if_neg hv, if_neg, zero_mul]
        rintro ⟨h1, h2⟩
        exact hv (Prod.ext h1.symm h2.symm)
    rw [e, Finset.sum_ite_eq' S (o.x, o.y), if_pos (hS o (List.mem_cons_self ..))]

/-- All weighted sums agree. -/
def SameMass (h h' : List (Obs p)) : Prop :=
  ∀ g : Row p → ℝ → ℝ, (h.map fun o => o.w * g o.x o.y).sum = (h'.map fun o => o.w * g o.x o.y).sum

theorem SameFrequencies.mass {h h' : List (Obs p)} (hf : SameFrequencies h h') : SameMass h h' := by
  classical
  intro g
  set S : Finset (Row p × ℝ) := ((h ++ h').map fun o => (o.x, o.y)).toFinset
  have hmem : ∀ o ∈ h ++ h', (o.x, o.y) ∈ S := fun o ho =>
    List.mem_toFinset.mpr (List.mem_map.mpr ⟨o, ho, rfl⟩)
  rw [sum_weightAt S g h fun o ho => hmem o (List.mem_append_left _ ho),
    sum_weightAt S g h' fun o ho => hmem o (List.mem_append_right _ ho)]
  exact Finset.sum_congr rfl fun v _ => by rw [hf]

namespace SameMass

variable {b b' : List (Obs p)}

theorem disc (h : SameMass b b') (g : Row p → ℝ → ℝ) :
    discSum 0 b (fun o => o.w * g o.x o.y) = discSum 0 b' fun o => o.w * g o.x o.y := by
  rw [discSum_forget_zero, discSum_forget_zero]; exact h g

theorem ws_sum (h : SameMass b b') : (ws b).sum = (ws b').sum := by
  have := h fun _ _ => 1
  simpa [ws] using this

theorem totalWeight (h : SameMass b b') : totalWeight 0 b = Ondil.totalWeight 0 b' := by
  have := h.disc fun _ _ => 1
  simpa [Ondil.totalWeight] using this

theorem append (h : SameMass b b') (g : List (Obs p)) : SameMass (g ++ b) (g ++ b') := fun f => by
  rw [List.map_append, List.map_append, List.sum_append, List.sum_append, h f]

/-- The observations with transformed regressors. -/
theorem map {q : ℕ} (h : SameMass b b') (f : Row p → Row q) :
    SameMass (b.map fun o => (⟨f o.x, o.y, o.w⟩ : Obs q)) (b'.map fun o => ⟨f o.x, o.y, o.w⟩) := fun g => by
  rw [List.map_map, List.map_map]
  exact h fun x y => g (f x) y

theorem gram (h : SameMass b b') (hb : NonnegWeights b) (hb' : NonnegWeights b') :
    initGram (xs b) (ws b) 0 = initGram (xs b') (ws b') 0 := by
  ext i j
  rw [initGram_apply zero_le_one _ hb, initGram_apply zero_le_one _ hb']
  have := h.disc fun x _ => x i * x j
  simpa only [mul_assoc] using this

theorem yGram (h : SameMass b b') (hb : NonnegWeights b) (hb' : NonnegWeights b') :
    initYGram (xs b) (ys b) (ws b) 0 = initYGram (xs b') (ys b') (ws b') 0 := by
  funext i
  rw [initYGram_apply zero_le_one _ hb, initYGram_apply zero_le_one _ hb']
  have := h.disc fun x y => y * x i
  simpa only [mul_assoc] using this

theorem updateGram (h : SameMass b b') (hb : NonnegWeights b) (hb' : NonnegWeights b')
    (G : Matrix (Fin p) (Fin p) ℝ) :
    Ondil.updateGram G (xs b) 0 (.array (ws b)) = Ondil.updateGram G (xs b') 0 (.array (ws b')) := by
  ext i j
  rw [updateGram_apply zero_le_one _ _ hb, updateGram_apply zero_le_one _ _ hb']
  have := h.disc fun x _ => x i * x j
  simp only [← mul_assoc] at this
  rw [this, sub_zero, one_pow, one_pow]

theorem updateYGram (h : SameMass b b') (hb : NonnegWeights b) (hb' : NonnegWeights b') (G : Row p) :
    Ondil.updateYGram G (xs b) (ys b) 0 (.array (ws b)) = Ondil.updateYGram G (xs b') (ys b') 0 (.array (ws b')) := by
  funext i
  rw [updateYGram_apply zero_le_one _ _ hb, updateYGram_apply zero_le_one _ _ hb']
  have := h.disc fun x y => y * x i
  simp only [← mul_assoc] at this
  rw [this, sub_zero, one_pow, one_pow]

theorem updateInvertedGram (h : SameMass b b') (hb : NonnegWeights b) (hb' : NonnegWeights b') (hne : b ≠ [])
    (hne' : b' ≠ []) {d : List (Obs p)} (hd : NonnegWeights d) (hu : IsUnit (initGram (xs d) (ws d) 0).det) :
    Ondil.updateInvertedGram (initGram (xs d) (ws d) 0)⁻¹ (xs b) 0 (.array (ws b)) =
      Ondil.updateInvertedGram (initGram (xs d) (ws d) 0)⁻¹ (xs b') 0 (.array (ws b')) := by
  rw [(inverted_batch one_pos b d hne hd hb hu).2, (inverted_batch one_pos b' d hne' hd hb' hu).2,
    (h.append d).gram (hd.append hb) (hd.append hb')]

theorem canonScaler {k : ℕ} (sel : Fin k → Fin p) (h : SameMass b b') :
    Ondil.canonScaler sel 0 b = Ondil.canonScaler sel 0 b' := by
  have e1 := h.totalWeight
  have e2 : ∀ j, ewMean 0 b j = ewMean 0 b' j := fun j => by
    unfold ewMean
    rw [e1, h.disc fun x _ => x j]
  have e3 : ∀ j, ewVar 0 b j = ewVar 0 b' j := fun j => by
    unfold ewVar
    rw [e1, e2, h.disc fun x _ => (x j - ewMean 0 b' j) ^ 2]
  unfold Ondil.canonScaler
  simp only [e1, e2, e3, h.ws_sum]

theorem canonSc (t : ToScale p) (h : SameMass b b') : Ondil.canonSc t 0 b = Ondil.canonSc t 0 b' := by
  unfold Ondil.canonSc
  cases t.selection with
  | none => simp only [h.ws_sum]
  | some l => simp only [canonScaler _ h]

theorem scaler_fit (t : ToScale p) (h : SameMass b b') (hl : 2 ≤ b.length) (hl' : 2 ≤ b'.length) :
    Scaler.fit t 0 (xs b) (ws b) = Scaler.fit t 0 (xs b') (ws b') := by
  by_cases hW : t.selection = none ∨ Ondil.totalWeight 0 b ≠ 0
  · rw [scaler_fit_canon t 0 b hl hW, scaler_fit_canon t 0 b' hl' (by rwa [← h.totalWeight]), h.canonSc t]
  · push Not at hW
    obtain ⟨h1, h2⟩ := hW
    have key : ∀ d : List (Obs p), 2 ≤ d.length → Ondil.totalWeight 0 d = 0 → ∀ {k : ℕ} (sel : Fin k → Fin p),
        scalerFit sel 0 (xs d) (ws d) = .error .zeroDivision := by
      intro d hd h0 k sel
      have hl : (xs d).length = d.length := by simp [xs]
      unfold scalerFit
      rw [hl, if_neg (by omega)]
      simp only [eff_sum, h0, if_true]
    unfold Scaler.fit
    cases hs : t.selection with
    | none => exact absurd hs h1
    | some l => simp only [key b hl h2, key b' hl' (h.totalWeight ▸ h2)]

end SameMass

/-! ### The linear model -/

/-- The observations as the linear model uses them: with scaled regressors and intercept. -/
noncomputable def scaledObs (fi : Bool) (sc : Scaler p) (b : List (Obs p)) : List (Obs (designDim p fi)) :=
  List.zipWith (fun x o => ⟨x, o.y, o.w⟩) (scaledDesign fi sc (xs b)) b

theorem scaledObs_map (fi : Bool) (sc : Scaler p) : ∃ f : Row p → Row (designDim p fi), ∀ b : List (Obs p),
    scaledObs fi sc b = (b.map fun o => ⟨f o.x, o.y, o.w⟩) ∧ scaledDesign fi sc (xs b) = xs (scaledObs fi sc b) ∧
      ys b = ys (scaledObs fi sc b) ∧ ws b = ws (scaledObs fi sc b) := by
  obtain ⟨f, hf⟩ := sc.transform_maps
  refine ⟨fun x => designRow fi (f x), fun b => ?_⟩
  have e : scaledObs fi sc b = (b.map fun o => ⟨designRow fi (f o.x), o.y, o.w⟩) := by
    unfold scaledObs scaledDesign
    rw [hf]
    simp only [xs, List.map_map]
    induction b with
    | nil => rfl
    | cons o b ih => simp only [List.map_cons, List.zipWith_cons_cons, ih, Function.comp]
  refine ⟨e, ?_, ?_, ?_⟩
  · rw [e]; simp [scaledDesign, hf, xs]
  · rw [e]; simp [ys]
  · rw [e]; simp [ws]

section

variable {b b' : List (Obs p)} (h : SameMass b b') (hb : NonnegWeights b) (hb' : NonnegWeights b')

include h hb hb'

theorem SameMass.scaled (sc : Scaler p) : SameMass (scaledObs fi sc b) (scaledObs fi sc b') ∧
    NonnegWeights (scaledObs fi sc b) ∧ NonnegWeights (scaledObs fi sc b') := by
  obtain ⟨f, hf⟩ := scaledObs_map fi sc
  have key : ∀ d : List (Obs p), NonnegWeights d → NonnegWeights (scaledObs fi sc d) := by
    intro d hd o ho
    rw [(hf d).1] at ho
    obtain ⟨o', ho', rfl⟩ := List.mem_map.mp ho
    exact hd o' ho'
  refine ⟨?_, key b hb, key b' hb'⟩
  rw [(hf b).1, (hf b').1]
  exact h.map f

theorem SameMass.designGram (sc : Scaler p) :
    initGram (scaledDesign fi sc (xs b)) (ws b) 0 = initGram (scaledDesign fi sc (xs b')) (ws b') 0 := by
  obtain ⟨f, hf⟩ := scaledObs_map fi sc
  obtain ⟨h1, h2, h3⟩ := h.scaled (fi := fi) hb hb' sc
  rw [(hf b).2.1, (hf b').2.1, (hf b).2.2.2, (hf b').2.2.2]
  exact h1.gram h2 h3

theorem SameMass.designYGram (sc : Scaler p) :
    initYGram (scaledDesign fi sc (xs b)) (ys b) (ws b) 0 = initYGram (scaledDesign fi sc (xs b')) (ys b') (ws b') 0 := by
  obtain ⟨f, hf⟩ := scaledObs_map fi sc
  obtain ⟨h1, h2, h3⟩ := h.scaled (fi := fi) hb hb' sc
  rw [(hf b).2.1, (hf b').2.1, (hf b).2.2.2, (hf b').2.2.2, (hf b).2.2.1, (hf b').2.2.1]
  exact h1.yGram h2 h3

theorem SameMass.methodGram (m : MethodObj (designDim p fi)) (sc : Scaler p) :
    m.initXGram (scaledDesign fi sc (xs b)) (ws b) 0 = m.initXGram (scaledDesign fi sc (xs b')) (ws b') 0 := by
  have e := h.designGram (fi := fi) hb hb' sc
  cases m <;> simp only [MethodObj.initXGram, initInvertedGram, e]

theorem SameMass.designUpdateY (sc : Scaler p) (G : Row (designDim p fi)) :
    Ondil.updateYGram G (scaledDesign fi sc (xs b)) (ys b) 0 (.array (ws b)) =
      Ondil.updateYGram G (scaledDesign fi sc (xs b')) (ys b') 0 (.array (ws b')) := by
  obtain ⟨f, hf⟩ := scaledObs_map fi sc
  obtain ⟨h1, h2, h3⟩ := h.scaled (fi := fi) hb hb' sc
  rw [(hf b).2.1, (hf b').2.1, (hf b).2.2.2, (hf b').2.2.2, (hf b).2.2.1, (hf b').2.2.1]
  exact h1.updateYGram h2 h3 G

theorem SameMass.methodUpdate (hne : b ≠ []) (hne' : b' ≠ []) (m : MethodObj (designDim p fi)) (sc : Scaler p)
    (G : Matrix (Fin (designDim p fi)) (Fin (designDim p fi)) ℝ)
    (hG : m = .ols → ∃ d : List (Obs (designDim p fi)), NonnegWeights d ∧ IsUnit (initGram (xs d) (ws d) 0).det ∧
      G = (initGram (xs d) (ws d) 0)⁻¹) :
    m.updateXGram G (scaledDesign fi sc (xs b)) (ws b) 0 = m.updateXGram G (scaledDesign fi sc (xs b')) (ws b') 0 := by
  obtain ⟨f, hf⟩ := scaledObs_map fi sc
  obtain ⟨h1, h2, h3⟩ := h.scaled (fi := fi) hb hb' sc
  have hn : ∀ d : List (Obs p), d ≠ [] → scaledObs fi sc d ≠ [] := fun d hd h0 => hd (by
    rw [(hf d).1] at h0; simpa using h0)
  rw [(hf b).2.1, (hf b').2.1, (hf b).2.2.2, (hf b').2.2.2]
  cases m with
  | ols =>
    obtain ⟨d, hd, hu, rfl⟩ := hG rfl
    exact h1.updateInvertedGram h2 h3 (hn b hne) (hn b' hne') hd hu
  | path a => simp only [MethodObj.updateXGram, h1.updateGram h2 h3]
  | ridge a => simp only [MethodObj.updateXGram, h1.updateGram h2 h3]

end

theorem Py.bind_congr_right {σ α β : Type} {x : Py σ α} {k k' : α → Py σ β} (h : ∀ a, k a = k' a) :
    x >>= k = x >>= k' := by rw [show k = k' from funext h]

theorem Py.bind_call_congr {σ α β : Type} {e : Except PyErr α} {k k' : α → Py σ β} (h : ∀ a, e = .ok a → k a = k' a) :
    Py.call e >>= k = Py.call e >>= k' := by
  cases e with
  | error e => rfl
  | ok a => exact funext fun s => by rw [Py.bind_call_ok, Py.bind_call_ok, h a rfl]

/-- The estimators agree in everything but the selection on a path. -/
structure SameButSelection (s t : LM p fi) : Prop where
  method : t.method = s.method
  scaler : t.scaler = s.scaler
  nObs : t.nObs = s.nObs
  nTraining : t.nTraining = s.nTraining
  xGram : t.xGram = s.xGram
  yGram : t.yGram = s.yGram
  path : ∀ a, s.method = some (.path a) → t.coefPath = s.coefPath

section Calls

variable {b b' : List (Obs p)} (h : SameMass b b') (hb : NonnegWeights b) (hb' : NonnegWeights b')

include h hb hb'

/-- A fit without a path. -/
theorem LM.fit_mass (c : LMConfig p fi) (hc : c.forget = 0)
    (hm : ∀ m, getEstimationMethod c.method = .ok m → ∀ a, m ≠ .path a) (perm : ℕ → ℕ → List (Fin (designDim p fi)))
    (hl : 2 ≤ b.length) (hl' : 2 ≤ b'.length) : LM.fit c perm b = LM.fit c perm b' := by
  have e0 := h.ws_sum
  have e1 : (b = [] ∨ p = 0) = (b' = [] ∨ p = 0) := by
    have h1 : b ≠ [] := by rintro rfl; simp at hl
    have h2 : b' ≠ [] := by rintro rfl; simp at hl'
    simp [h1, h2]
  have e2 := h.scaler_fit c.scaleInputs hl hl'
  have e3 := h.methodGram (fi := fi) hb hb'
  have e4 := h.designYGram (fi := fi) hb hb'
  unfold LM.fit
  rw [hc]
  simp only [e0, e1, e2, e3, e4]
  refine Py.bind_congr_right fun _ => Py.bind_call_congr fun m hg => ?_
  cases m with
  | path a => exact absurd rfl (hm _ hg a)
  | ols => dsimp only
  | ridge a => dsimp only

/-- A fit on a path, as far as both succeed. -/
theorem LM.fit_mass_path (c : LMConfig p fi) (hc : c.forget = 0) (perm : ℕ → ℕ → List (Fin (designDim p fi)))
    {s s' t t' : LM p fi} (h1 : LM.fit c perm b s = (.ok (), s')) (h2 : LM.fit c perm b' t = (.ok (), t'))
    (hm : ∀ m, getEstimationMethod c.method = .ok m → ∃ a, m = .path a) : SameButSelection s' t' := by
  obtain ⟨_, _, _, _, _, m, sc, G, hm1, hsc, hG, e1, e2, e3, e4, e5, e6, e7, e8⟩ := LM.fit_ok h1
  obtain ⟨_, _, _, _, _, m', sc', G', hm2, hsc', hG', f1, f2, f3, f4, f5, f6, f7, f8⟩ := LM.fit_ok h2
  obtain rfl := Except.ok.inj (hm1.symm.trans hm2)
  rw [hc] at *
  have hl := (scaler_fit_ok _ _ _ _ hsc).1
  have hl' := (scaler_fit_ok _ _ _ _ hsc').1
  rw [h.scaler_fit _ hl hl', hsc'] at hsc
  obtain rfl := Except.ok.inj hsc
  rw [h.methodGram hb hb', hG'] at hG
  obtain rfl := Except.ok.inj hG
  obtain ⟨a, rfl⟩ := hm m hm1
  obtain ⟨g1, path, x, g2, g3, _⟩ := e7 a rfl
  obtain ⟨k1, path', x', k2, k3, _⟩ := f7 a rfl
  rw [h.designYGram hb hb', k2] at g2
  obtain rfl := Except.ok.inj g2
  refine ⟨by rw [k1, g1], by rw [f1, e1], by rw [f2, e2, h.ws_sum], by rw [f3, e3, h.ws_sum], by rw [f4, e4], ?_,
    fun _ _ => by rw [k3, g3]⟩
  rw [f5, e5, h.designYGram hb hb']

/-- An update without a path. -/
theorem LM.update_mass {c : LMConfig p fi} (hc : c.forget = 0) {s : LM p fi} (inv : OrderInv c s)
    (hm : ∀ a, s.method ≠ some (.path a)) (perm : ℕ → ℕ → List (Fin (designDim p fi))) (hne : b ≠ []) (hne' : b' ≠ []) :
    LM.update c perm b s = LM.update c perm b' s := by
  obtain ⟨⟨g, hW, hsc⟩, hgram⟩ := inv
  have e0 := h.ws_sum
  have e1 : (b = [] ∨ p = 0) = (b' = [] ∨ p = 0) := by simp [hne, hne']
  have e2 : (Ondil.canonSc c.scaleInputs 0 g).update 0 (xs b) (ws b)
      = (Ondil.canonSc c.scaleInputs 0 g).update 0 (xs b') (ws b') := by
    rw [scaler_update_canon _ one_pos _ _ hne hb hW, scaler_update_canon _ one_pos _ _ hne' hb' hW,
      (h.append g).canonSc]
  have e4 := h.designUpdateY (fi := fi) hb hb'
  have e3 : ∀ m G sc, s.method = some m → s.xGram = some G → m.updateXGram G (scaledDesign fi sc (xs b)) (ws b) 0 =
      m.updateXGram G (scaledDesign fi sc (xs b')) (ws b') 0 := fun m G sc hm hG =>
    h.methodUpdate hb hb' hne hne' m sc G fun hmo => by
      obtain ⟨d, hd, hu, hd'⟩ := hgram (hmo ▸ hm)
      exact ⟨d, hd, hu, Option.some.inj (hG.symm.trans hd')⟩
  obtain ⟨m0, sc0, n0, nt0, G0, h0, cp0, r0, b0⟩ := s
  simp only at hsc hgram e3 hm
  subst hsc
  unfold LM.update
  rw [hc]
  by_cases hv : c.Valid
  swap
  · rw [Py.bind_raiseIf_pos hv, Py.bind_raiseIf_pos hv]
  rw [Py.bind_raiseIf_neg (not_not.2 hv), Py.bind_raiseIf_neg (not_not.2 hv), e1]
  by_cases h2 : b' = [] ∨ p = 0
  · rw [Py.bind_raiseIf_pos h2, Py.bind_raiseIf_pos h2]
  rw [Py.bind_raiseIf_neg h2, Py.bind_raiseIf_neg h2]
  simp only [e0]
  cases n0 with
  | none => simp only [Py.self, Py.attr, Bind.bind, Py.bind]
  | some n0 =>
    cases m0 with
    | none => simp only [Py.self, Py.attr, Bind.bind, Py.bind, Py.call, e2, Py.set]
    | some m =>
      cases G0 with
      | none => simp only [Py.self, Py.attr, Bind.bind, Py.bind, Py.call, e2, Py.set]
      | some G =>
        cases m with
        | path a => exact absurd rfl (hm a)
        | ols => simp only [Py.self, Py.attr, Bind.bind, Py.bind, Py.call, e2, Py.set, fun sc => e3 _ G sc rfl rfl, e4]
        | ridge a => simp only [Py.self, Py.attr, Bind.bind, Py.bind, Py.call, e2, Py.set, fun sc => e3 _ G sc rfl rfl, e4]

/-- An update on a path, as far as both succeed. -/
theorem LM.update_mass_path {c : LMConfig p fi} (hc : c.forget = 0) {s t s' t' : LM p fi} (inv : OrderInv c s)
    (hst : SameButSelection s t) {a : EnetArgs} (hm : s.method = some (.path a))
    (perm : ℕ → ℕ → List (Fin (designDim p fi))) (h1 : LM.update c perm b s = (.ok (), s'))
    (h2 : LM.update c perm b' t = (.ok (), t')) :
    SameButSelection s' t' ∧ s'.method = some (.path a) := by
  obtain ⟨_, hn1, n0, sc0, sc, m, G0, G, y0, q1, q2, q3, q4, q5, q6, q7, r1, r2, r3, r4, r5, r6, r7, r8, r9⟩ := LM.update_ok h1
  obtain ⟨_, hn2, n0', sc0', sc', m', G0', G', y0', q1', q2', q3', q4', q5', q6', q7', r1', r2', r3', r4', r5', r6', r7', r8', r9'⟩ :=
    LM.update_ok h2
  obtain ⟨⟨g, hW, hsc⟩, hgram⟩ := inv
  have hne : b ≠ [] := fun h => hn1 (.inl h)
  have hne' : b' ≠ [] := fun h => hn2 (.inl h)
  rw [hst.method, q3] at q3'
  rw [hst.scaler, q2] at q2'
  rw [hst.nObs, q1] at q1'
  rw [hst.xGram, q4] at q4'
  rw [hst.yGram, q5] at q5'
  cases q3'; cases q2'; cases q1'; cases q4'; cases q5'
  rw [q3] at hm
  cases hm
  rw [hsc] at q2
  cases q2
  rw [hc] at *
  rw [scaler_update_canon _ one_pos _ _ hne hb hW] at q6
  rw [scaler_update_canon _ one_pos _ _ hne' hb' hW, ← (h.append g).canonSc] at q6'
  cases q6; cases q6'
  rw [h.methodUpdate hb hb' hne hne' _ _ _ (fun h => by cases h), q7'] at q7
  cases q7
  obtain ⟨p0, path, rss0, x, k1, _, k2, k3, _⟩ := r8 a rfl
  obtain ⟨p0', path', rss0', x', l1, _, l2, l3, _⟩ := r8' a rfl
  rw [hst.path a q3, k1] at l1
  cases l1
  rw [h.designUpdateY hb hb', l2] at k2
  cases k2
  refine ⟨⟨by rw [r1, r1'], by rw [r2, r2'], by rw [r3, r3', h.ws_sum], by rw [r4, r4', h.ws_sum], by rw [r5, r5'], ?_,
    fun _ _ => by rw [k3, l3]⟩, r1⟩
  rw [r6, r6', h.designUpdateY hb hb']

end Calls

end Ondil
