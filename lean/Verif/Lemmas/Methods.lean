import Verif.Lemmas.CoordinateDescent
import Verif.Model.Methods
import Mathlib.LinearAlgebra.Matrix.NonsingularInverse

/-! # Helper lemmas on the estimation methods -/

open scoped BigOperators

namespace Ondil

variable {p : ℕ}

theorem bind_ok {ε α β : Type} {x : Except ε α} {f : α → Except ε β} {b : β} :
    (x >>= f) = .ok b ↔ ∃ a, x = .ok a ∧ f a = .ok b := by
  cases x with
  | error e => simp [bind, Except.bind]
  | ok a => simp [bind, Except.bind]

theorem fitBetaPath_ok {a : EnetArgs} {G : Matrix (Fin p) (Fin p) ℝ} {h : Row p} {reg : Fin p → Bool}
    {perm : ℕ → ℕ → List (Fin p)} {path : List (Row p)} :
    a.fitBetaPath G h reg perm = .ok path ↔ ∃ lo, setBound p a.lower = .ok lo ∧
      ∃ up, setBound p a.upper = .ok up ∧ ∃ lams, a.lambdaPath G h reg = .ok lams ∧
      ∃ rows, onlineCDPath (a.pathConfig a.startInitial reg lo up perm) G h lams
        (List.replicate a.lambdaN 0) = .ok rows ∧ rows.map Prod.fst = path := by
  unfold EnetArgs.fitBetaPath
  simp only [bind_ok]
  constructor
  · rintro ⟨lo, h1, up, h2, l, h3, r, h4, h5⟩
    exact ⟨lo, h1, up, h2, l, h3, r, h4, Except.ok.inj h5⟩
  · rintro ⟨lo, h1, up, h2, l, h3, r, h4, h5⟩
    exact ⟨lo, h1, up, h2, l, h3, r, h4, by rw [h5]; rfl⟩

theorem updateBetaPath_ok {a : EnetArgs} {G : Matrix (Fin p) (Fin p) ℝ} {h : Row p} {old : List (Row p)}
    {reg : Fin p → Bool} {perm : ℕ → ℕ → List (Fin p)} {path : List (Row p)} :
    a.updateBetaPath G h old reg perm = .ok path ↔ ∃ lo, setBound p a.lower = .ok lo ∧
      ∃ up, setBound p a.upper = .ok up ∧ ∃ lams, a.lambdaPath G h reg = .ok lams ∧
      ∃ rows, onlineCDPath (a.pathConfig a.startUpdate reg lo up perm) G h lams old = .ok rows ∧
        rows.map Prod.fst = path := by
  unfold EnetArgs.updateBetaPath
  simp only [bind_ok]
  constructor
  · rintro ⟨lo, h1, up, h2, l, h3, r, h4, h5⟩
    exact ⟨lo, h1, up, h2, l, h3, r, h4, Except.ok.inj h5⟩
  · rintro ⟨lo, h1, up, h2, l, h3, r, h4, h5⟩
    exact ⟨lo, h1, up, h2, l, h3, r, h4, by rw [h5]; rfl⟩

theorem geomspace_ok {s t : ℝ} {n : ℕ} {l : List ℝ} (h : geomspace s t n = .ok l) :
    s ≠ 0 ∧ t ≠ 0 ∧ l = (List.range n).map fun i : ℕ => s * (t / s) ^ ((i : ℝ) / ((n : ℝ) - 1)) := by
  unfold geomspace at h
  split at h
  · cases h
  · rename_i hc
    push Not at hc
    exact ⟨hc.1, hc.2, (Except.ok.inj h).symm⟩

theorem lambdaPath_ok {a : EnetArgs} {G : Matrix (Fin p) (Fin p) ℝ} {h : Row p} {reg : Fin p → Bool}
    {l : List ℝ} : a.lambdaPath G h reg = .ok l ↔ ∃ m, getLambdaMax G h reg = .ok m ∧
      geomspace m (m * a.lambdaEps) a.lambdaN = .ok l := by
  unfold EnetArgs.lambdaPath
  simp only [bind_ok]

theorem lambdaPath_head {a : EnetArgs} {G : Matrix (Fin p) (Fin p) ℝ} {h : Row p} {reg : Fin p → Bool}
    {l : List ℝ} (hl : a.lambdaPath G h reg = .ok l) {m : ℝ} (hm : getLambdaMax G h reg = .ok m) {x : ℝ}
    (hx : l[0]? = some x) : x = m := by
  obtain ⟨m', hm', hg⟩ := lambdaPath_ok.mp hl
  rw [hm] at hm'
  cases hm'
  obtain ⟨_, _, rfl⟩ := geomspace_ok hg
  rw [List.getElem?_map] at hx
  cases hn : (List.range a.lambdaN)[0]? with
  | none => rw [hn] at hx; cases hx
  | some k =>
    rw [hn] at hx
    have hk : k = 0 := by
      obtain ⟨h1, h2⟩ := List.getElem?_eq_some_iff.mp hn
      rw [← h2]; simp
    subst hk
    have := (Option.some.inj hx).symm
    rw [this]; simp

theorem foldl_max_ge (l : List ℝ) (a : ℝ) : a ≤ l.foldl max a ∧ ∀ x ∈ l, x ≤ l.foldl max a := by
  induction l generalizing a with
  | nil => exact ⟨le_rfl, fun x hx => by cases hx⟩
  | cons y l ih =>
    obtain ⟨h1, h2⟩ := ih (max a y)
    refine ⟨le_trans (le_max_left _ _) h1, fun x hx => ?_⟩
    rcases List.mem_cons.mp hx with rfl | hx
    · exact le_trans (le_max_right _ _) h1
    · exact h2 x hx

theorem foldl_max_mem (l : List ℝ) (a : ℝ) : l.foldl max a = a ∨ l.foldl max a ∈ l := by
  induction l generalizing a with
  | nil => exact Or.inl rfl
  | cons y l ih =>
    rcases ih (max a y) with h | h
    · rcases max_choice a y with h' | h'
      · left; rw [List.foldl_cons, h, h']
      · right; rw [List.foldl_cons, h, h']; exact List.mem_cons_self ..
    · right; exact List.mem_cons_of_mem _ h

theorem npMax_le {l : List ℝ} {m : ℝ} (h : npMax l = .ok m) : ∀ x ∈ l, x ≤ m := by
  cases l with
  | nil => cases h
  | cons a l =>
    have := Except.ok.inj h
    subst this
    intro x hx
    rcases List.mem_cons.mp hx with rfl | hx
    · exact (foldl_max_ge l _).1
    · exact (foldl_max_ge l a).2 x hx

theorem npMax_mem {l : List ℝ} {m : ℝ} (h : npMax l = .ok m) : m ∈ l := by
  cases l with
  | nil => cases h
  | cons a l =>
    have := Except.ok.inj h
    subst this
    rcases foldl_max_mem l a with h | h
    · rw [h]; exact List.mem_cons_self ..
    · exact List.mem_cons_of_mem _ h

theorem npMax_map_mul {c : ℝ} (hc : 0 < c) (l : List ℝ) :
    npMax (l.map (c * ·)) = (npMax l).map (c * ·) := by
  cases l with
  | nil => rfl
  | cons a l =>
    change Except.ok _ = Except.ok _
    congr 1
    induction l generalizing a with
    | nil => rfl
    | cons y l ih =>
      rw [List.map_cons, List.foldl_cons, List.foldl_cons, ← ih]
      simp only [mul_max_of_nonneg _ _ hc.le]

theorem cdPathLoop_total {c : PathConfig p} {G : Matrix (Fin p) (Fin p) ℝ} {h : Row p} {k : ℕ}
    {np : Row p} {lams : List ℝ} {olds : List (Row p)} (hz : ∀ lam ∈ lams, (c.problem G h lam).NoZero) :
    ∃ l, cdPathLoop c G h k np lams olds = .ok l := by
  induction lams generalizing k np olds with
  | nil => exact ⟨[], cdPathLoop_nil_left ..⟩
  | cons lam lams ih =>
    cases olds with
    | nil => exact ⟨[], cdPathLoop_nil_right ..⟩
    | cons old olds =>
      have hrow : ∃ r, cdPathRow c G h k lam np old = .ok r := by
        unfold cdPathRow
        simp only
        split
        · exact ⟨_, rfl⟩
        · exact ⟨_, onlineCD_eq _ (hz lam (List.mem_cons_self ..)) _ _ _ _ _⟩
      obtain ⟨r, hr⟩ := hrow
      obtain ⟨rs, hrs⟩ := ih (k := k + 1) (np := r.1) (olds := olds)
        (fun l hl => hz l (List.mem_cons_of_mem _ hl))
      exact ⟨r :: rs, by rw [cdPathLoop, hr]; simp only; rw [hrs]⟩

theorem geomspace_length {s t : ℝ} {n : ℕ} {l : List ℝ} (h : geomspace s t n = .ok l) : l.length = n := by
  obtain ⟨_, _, rfl⟩ := geomspace_ok h
  simp

/-- A fit succeeds, with one row per lambda, when the bounds and the grid are valid and no curvature
is zero. -/
theorem fitBetaPath_total {a : EnetArgs} {G : Matrix (Fin p) (Fin p) ℝ} {h : Row p} {reg : Fin p → Bool}
    (perm : ℕ → ℕ → List (Fin p)) {lo up : Fin p → Option ℝ} (hlo : setBound p a.lower = .ok lo)
    (hup : setBound p a.upper = .ok up) {lams : List ℝ} (hl : a.lambdaPath G h reg = .ok lams)
    (hz : ∀ lam ∈ lams, ∀ j, (if reg j then G j j + lam * (1 - a.alpha) else G j j) ≠ 0) :
    ∃ path, a.fitBetaPath G h reg perm = .ok path ∧ path.length = a.lambdaN := by
  obtain ⟨l, hl'⟩ := cdPathLoop_total (c := a.pathConfig a.startInitial reg lo up perm) (G := G) (h := h)
    (k := 0) (np := 0) (olds := List.replicate a.lambdaN 0) (lams := lams) hz
  refine ⟨_, fitBetaPath_ok.mpr ⟨lo, hlo, up, hup, lams, hl, l, hl', rfl⟩, ?_⟩
  obtain ⟨m, _, hg⟩ := lambdaPath_ok.mp hl
  rw [List.length_map, cdPathLoop_length hl', geomspace_length hg]; simp

/-- Same for updates. -/
theorem updateBetaPath_total {a : EnetArgs} {G : Matrix (Fin p) (Fin p) ℝ} {h : Row p} {reg : Fin p → Bool}
    (perm : ℕ → ℕ → List (Fin p)) {lo up : Fin p → Option ℝ} (hlo : setBound p a.lower = .ok lo)
    (hup : setBound p a.upper = .ok up) {lams : List ℝ} (hl : a.lambdaPath G h reg = .ok lams)
    (hz : ∀ lam ∈ lams, ∀ j, (if reg j then G j j + lam * (1 - a.alpha) else G j j) ≠ 0)
    (old : List (Row p)) (hold : old.length = a.lambdaN) :
    ∃ path, a.updateBetaPath G h old reg perm = .ok path ∧ path.length = a.lambdaN := by
  obtain ⟨l, hl'⟩ := cdPathLoop_total (c := a.pathConfig a.startUpdate reg lo up perm) (G := G) (h := h)
    (k := 0) (np := 0) (olds := old) (lams := lams) hz
  refine ⟨_, updateBetaPath_ok.mpr ⟨lo, hlo, up, hup, lams, hl, l, hl', rfl⟩, ?_⟩
  obtain ⟨m, _, hg⟩ := lambdaPath_ok.mp hl
  rw [List.length_map, cdPathLoop_length hl', geomspace_length hg, hold]; simp

end Ondil
