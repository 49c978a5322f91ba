import Verif.Lemmas.Units
import Verif.Lemmas.GamlssOptions
import Verif.Spec.Columns

/-! # Lemmas: columns that no equation uses -/

namespace Ondil

variable {p : ℕ} {μ : Type} {α : Type}

/-! ### The selection of columns -/

theorem npIndex_agree {x x' : Fin p → α} {i : ℤ}
    (h : ∀ j : Fin p, (j.val : ℤ) = i ∨ (j.val : ℤ) - p = i → x' j = x j) : npIndex x' i = npIndex x i := by
  unfold npIndex
  simp only
  split_ifs with h1 h2 h2
  · rw [h _ (.inr (by simp only; omega))]
  · rfl
  · rw [h _ (.inl (by simp only; omega))]
  · rfl

theorem npMask_agree {x x' : Fin p → α} {m : List Bool} (h : ∀ j : Fin p, m[j.val]? = some true → x' j = x j) :
    npMask x' m = npMask x m := by
  unfold npMask
  split_ifs with hl
  · congr 1
    subst hl
    have e : ∀ x : Fin m.length → α, (List.ofFn x).zip m = (List.finRange m.length).map fun j => (x j, m[j]) := by
      intro x
      refine List.ext_getElem (by simp) fun i h1 h2 => ?_
      simp
    rw [e, e, List.filterMap_map, List.filterMap_map]
    refine List.filterMap_congr fun j _ => ?_
    simp only [Function.comp_apply]
    by_cases hj : m[j] = true
    · simp only [hj, if_true]
      rw [h j (by simpa using hj)]
    · simp [hj]
  · rfl

theorem mapM_agree {β : Type} {f g : β → Except PyErr α} {l : List β} (h : ∀ b ∈ l, f b = g b) : l.mapM f = l.mapM g := by
  induction l with
  | nil => rfl
  | cons b l ih =>
    rw [List.mapM_cons, List.mapM_cons, h b (by simp), ih fun b' hb' => h b' (by simp [hb'])]

theorem selectColumns_agree {x x' : Fin p → α} {eq : Equation} (h : ∀ j, eq.Reads j → x' j = x j) :
    selectColumns x' eq = selectColumns x eq := by
  cases eq with
  | str s =>
    simp only [selectColumns]
    split_ifs with hs
    · rw [show x' = x from funext fun j => h j hs]
    · rfl
  | mask m => exact npMask_agree h
  | boolList m => exact npMask_agree h
  | index l =>
    exact mapM_agree fun i hi => npIndex_agree fun j hj => h j (by rcases hj with rfl | rfl; exacts [.inl hi, .inr hi])
  | intList l =>
    exact mapM_agree fun i hi => npIndex_agree fun j hj => h j (by rcases hj with rfl | rfl; exacts [.inl hi, .inr hi])
  | names l => rfl
  | floatArray => rfl
  | other => rfl

theorem modelArray_agree {one : α} {fi : Bool} {eq : Equation} {X X' : List (Fin p → α)}
    (h : List.Forall₂ (fun x x' => ∀ j, eq.Reads j → x' j = x j) X X') : modelArray one fi eq X' = modelArray one fi eq X := by
  unfold modelArray
  induction h with
  | nil => rfl
  | cons h1 _ ih =>
    rw [List.mapM_cons, List.mapM_cons, ih]
    unfold modelRow
    rw [selectColumns_agree h1]

/-! ### The scaler -/

theorem assignCols_agree {k : ℕ} {sel : Fin k → Fin p} {x x' : Fin p → α} {vals vals' : Fin k → α} {j : Fin p}
    (h : x' j = x j) (hv : ∀ i, sel i = j → vals' i = vals i) : assignCols sel x' vals' j = assignCols sel x vals j := by
  unfold assignCols
  generalize List.finRange k = l
  induction l generalizing x x' with
  | nil => exact h
  | cons i l ih =>
    refine ih ?_
    beta_reduce
    by_cases e : j = sel i
    · subst e
      rw [Function.update_self, Function.update_self, hv i rfl]
    · rw [Function.update_of_ne e, Function.update_of_ne e, h]

/-- Two scalers that have seen the same values in the columns satisfying `U`. -/
inductive ScalerColumns (U : Fin p → Prop) : Scaler p → Scaler p → Prop
  | off (n : ℝ) : ScalerColumns U (.off n) (.off n)
  | on (k : ℕ) (sel : Fin k → Fin p) (s s' : ScalerState k) (hn : s'.nObs = s.nObs) (hcum : s'.cumW = s.cumW)
      (hcol : ∀ i, U (sel i) → s'.mean i = s.mean i ∧ s'.var i = s.var i ∧ s'.M i = s.M i) :
      ScalerColumns U (.on k sel s) (.on k sel s')

theorem transform_columns {U : Fin p → Prop} {X X' : List (Row p)} (h : List.Forall₂ (fun x x' => ∀ j, U j → x' j = x j) X X')
    {sc sc' : Scaler p} (hsc : ScalerColumns U sc sc') :
    List.Forall₂ (fun x x' => ∀ j, U j → x' j = x j) (sc.transformFlt X) (sc'.transformFlt X') := by
  cases hsc with
  | off n =>
    refine List.forall₂_map_left_iff.2 (List.forall₂_map_right_iff.2 (h.imp fun x x' hx j hj => ?_))
    beta_reduce
    rw [hx j hj]
  | on k sel s s' hn hcum hcol =>
    refine List.forall₂_map_left_iff.2 (List.forall₂_map_right_iff.2 (h.imp fun x x' hx j hj => ?_))
    refine assignCols_agree (by rw [hx j hj]) fun i hi => ?_
    subst hi
    obtain ⟨h1, h2, _⟩ := hcol i hj
    rw [hx _ hj, h1, h2]

theorem SameColumns.xs {U : Fin p → Prop} {data data' : List (Obs p)} (h : SameColumns U data data') :
    List.Forall₂ (fun x x' => ∀ j, U j → x' j = x j) (xs data) (xs data') :=
  List.forall₂_map_left_iff.2 (List.forall₂_map_right_iff.2 (h.imp fun _ _ h => h.2.2))

theorem forall₂_map_eq {β γ : Type} {R : α → β → Prop} {f : α → γ} {g : β → γ} (hR : ∀ a b, R a b → g b = f a) {l : List α}
    {l' : List β} (h : List.Forall₂ R l l') : l'.map g = l.map f := by
  induction h with
  | nil => rfl
  | cons h1 _ ih => rw [List.map_cons, List.map_cons, ih, hR _ _ h1]

theorem SameColumns.ys {U : Fin p → Prop} {data data' : List (Obs p)} (h : SameColumns U data data') : ys data' = ys data :=
  forall₂_map_eq (fun _ _ h => h.1) h

theorem SameColumns.ws {U : Fin p → Prop} {data data' : List (Obs p)} (h : SameColumns U data data') : ws data' = ws data :=
  forall₂_map_eq (fun _ _ h => h.2.1) h

theorem sameDesign_columns {U : Fin p → Prop} {X X' : List (Row p)} (h : List.Forall₂ (fun x x' => ∀ j, U j → x' j = x j) X X')
    (hU : ∃ j, ¬ U j) : SameDesign (fun eq => ∀ j : Fin p, eq.Reads j → U j) (ScalerColumns U) X X' :=
  ⟨h.length_eq.symm, fun _ _ hsc _ hA _ =>
    modelArray_agree ((transform_columns h hsc).imp fun _ _ hx j hj => hx j (hA j hj)),
    fun hA => absurd (fun j => hA (.str "all") j rfl) (not_forall.2 hU)⟩

theorem scaler_fit_columns {U : Fin p → Prop} (t : ToScale p) (f : ℝ) {X X' : List (Row p)} (w : List ℝ)
    (h : List.Forall₂ (fun x x' => ∀ j, U j → x' j = x j) X X') :
    BothOr (ScalerColumns U) (Scaler.fit t f X w) (Scaler.fit t f X' w) := by
  have hlen : X'.length = X.length := h.length_eq.symm
  unfold Scaler.fit
  cases t.selection with
  | none =>
    simp only [hlen]
    by_cases h2 : X.length < 2
    · simp only [h2, if_true]
      exact .inl ⟨_, rfl, rfl⟩
    · simp only [h2, if_false]
      exact .inr ⟨_, _, rfl, rfl, .off _⟩
  | some l =>
    simp only [scalerFit, hlen]
    by_cases h2 : X.length < 2
    · simp only [h2, if_true]
      exact .inl ⟨_, rfl, rfl⟩
    simp only [h2, if_false]
    by_cases h0 : (List.zipWith (fun a b => a * b) w (initForgetVector f X.length)).sum = 0
    · simp only [h0, if_true]
      exact .inl ⟨_, rfl, rfl⟩
    simp only [h0, if_false]
    refine .inr ⟨_, _, rfl, rfl, .on _ _ _ _ rfl rfl fun i hi => ?_⟩
    have e1 : X'.map (fun x => x (l.get i)) = X.map fun x => x (l.get i) := forall₂_map_eq (fun _ _ h => h _ hi) h
    have e2 : ∀ m : ℝ, X'.map (fun x => (x (l.get i) - m) ^ 2) = X.map fun x => (x (l.get i) - m) ^ 2 :=
      fun m => forall₂_map_eq (fun _ _ h => by rw [h _ hi]) h
    simp only [e1, e2, and_self]

theorem scalerLoop_columns {U : Fin p → Prop} {k : ℕ} {sel : Fin k → Fin p} (f : ℝ) {X X' : List (Row p)}
    (h : List.Forall₂ (fun x x' => ∀ j, U j → x' j = x j) X X') (w : List ℝ) {s s' : ScalerState k}
    (hs : ScalerColumns U (.on k sel s) (.on k sel s')) :
    ScalerColumns U (.on k sel (scalerLoop sel f s X w)) (.on k sel (scalerLoop sel f s' X' w)) := by
  induction h generalizing s s' w with
  | nil => exact hs
  | cons h1 _ ih =>
    cases w with
    | nil => exact hs
    | cons w0 w =>
      refine ih w ?_
      cases hs with
      | on _ _ _ _ hn hcum hcol =>
        refine .on _ _ _ _ hn (by simp only [scalerStep, hcum]) fun i hi => ?_
        obtain ⟨c1, c2, c3⟩ := hcol i hi
        simp only [scalerStep, hcum, c1, c3, h1 _ hi, and_self]

theorem scaler_update_columns {U : Fin p → Prop} (f : ℝ) {X X' : List (Row p)} (w : List ℝ)
    (h : List.Forall₂ (fun x x' => ∀ j, U j → x' j = x j) X X') {sc sc' : Scaler p} (hsc : ScalerColumns U sc sc') :
    BothOr (ScalerColumns U) (sc.update f X w) (sc'.update f X' w) := by
  have hlen : X'.length = X.length := h.length_eq.symm
  cases hsc with
  | off n =>
    simp only [Scaler.update, hlen]
    by_cases h1 : X.length < 1
    · simp only [h1, if_true]
      exact .inl ⟨_, rfl, rfl⟩
    · simp only [h1, if_false]
      exact .inr ⟨_, _, rfl, rfl, .off _⟩
  | on k sel s s' hn hcum hcol =>
    simp only [Scaler.update, scalerUpdate, hlen]
    by_cases h1 : X.length < 1
    · simp only [h1, if_true]
      exact .inl ⟨_, rfl, rfl⟩
    · simp only [h1, if_false]
      exact .inr ⟨_, _, rfl, rfl, scalerLoop_columns f h w (.on _ _ _ _ (by simp only [hn]) hcum hcol)⟩

theorem twins_columns {U : Fin p → Prop} (hU : ∃ j, ¬ U j) {data data' : List (Obs p)} (h : SameColumns U data data') :
    Twins (fun _ => True) (fun eq => ∀ j : Fin p, eq.Reads j → U j) (ScalerColumns U) data data' :=
  ⟨(List.Forall₂.length_eq h).symm, h.ys, h.ws, sameDesign_columns h.xs hU,
    fun f _ _ _ hsc => scaler_update_columns f _ h.xs hsc⟩

/-! ### The equations of the user -/

theorem equationLoop_reads (frames : Bool) (ks : List ℕ) (d d' : PyDict Equation) (h : equationLoop frames ks d = (.ok (), d'))
    (k : ℕ) (e : Equation) (he : d'.get? k = some e) : d.get? k = some e ∨ e = .str "intercept" := by
  induction ks generalizing d with
  | nil => cases h; exact .inl he
  | cons k0 ks ih =>
    rw [equationLoop] at h
    cases hd : d.get? k0 with
    | some e0 =>
      simp only [hd] at h
      split_ifs at h with ha
      · exact ih d h
      · cases h
    | none =>
      simp only [hd] at h
      rw [PyDict.get?_set, if_pos rfl] at h
      simp only at h
      split_ifs at h with ha
      · rcases ih _ h with h1 | h1
        · rw [PyDict.get?_set] at h1
          split_ifs at h1 with hk
          · cases h1; exact .inr rfl
          · exact .inl h1
        · exact .inr h1
      · cases h

theorem equationsOk_used (frames : Bool) (D : DistOps) (c : GConfig μ p) :
    EquationsOk (fun eq => ∀ j : Fin p, eq.Reads j → c.UsesColumn j) frames D c := by
  intro d hd k e he j hj
  unfold GConfig.UsesColumn
  cases hc : c.equation with
  | none => trivial
  | some d0 =>
    rw [hc] at hd
    unfold processEquation at hd
    rcases hl : equationLoop frames (List.range D.nParams) d0 with ⟨r, d'⟩
    simp only [hl] at hd
    cases r with
    | error e => cases hd
    | ok u =>
      cases hd
      rcases equationLoop_reads frames _ d0 _ hl k e he with h | rfl
      · exact ⟨k, e, h, hj⟩
      · simp [Equation.Reads] at hj

end Ondil
