import Verif.Model.Factory
import Verif.Lemmas.Methods

/-!
# Method look-up (C40)
-/

namespace Ondil

/-- **C40.** Strings and objects that are not methods: accepted are exactly the three names and references to
existing method objects; everything else is a `ValueError`. -/
theorem C40_errors (H : Heap) (m : HeapArg) :
    (∃ r, H.getEstimationMethod m = .ok r) ↔
      m = .str "ols" ∨ m = .str "lasso" ∨ m = .str "elasticnet" ∨ ∃ a, m = .ref a ∧ a < H.length := by
  cases m with
  | str s =>
    simp only [Heap.getEstimationMethod, Heap.fromString]
    constructor
    · rintro ⟨r, h⟩
      split_ifs at h with h1 h2 h3
      · exact .inr (.inl (by rw [h1]))
      · exact .inl (by rw [h2])
      · exact .inr (.inr (.inl (by rw [h3])))
    · rintro (h | h | h | ⟨a, h, _⟩)
      · cases h; exact ⟨_, rfl⟩
      · cases h; exact ⟨_, rfl⟩
      · cases h; exact ⟨_, rfl⟩
      · cases h
  | ref a =>
    simp only [Heap.getEstimationMethod]
    constructor
    · rintro ⟨r, h⟩
      refine .inr (.inr (.inr ⟨a, rfl, ?_⟩))
      by_contra hcon
      rw [List.getElem?_eq_none (by omega)] at h
      cases h
    · rintro (h | h | h | ⟨b, h, hb⟩)
      · cases h
      · cases h
      · cases h
      · cases h
        rw [List.getElem?_eq_getElem hb]
        exact ⟨_, rfl⟩
  | other =>
    simp [Heap.getEstimationMethod]

/-- **C40.** The only exception of the look-up is `ValueError`. -/
theorem C40_value_error (H : Heap) (m : HeapArg) (e : PyErr) (h : H.getEstimationMethod m = .error e) :
    e = .valueError := by
  cases m with
  | str s =>
    simp only [Heap.getEstimationMethod, Heap.fromString] at h
    split_ifs at h
    cases h; rfl
  | ref a =>
    simp only [Heap.getEstimationMethod] at h
    split at h
    · cases h
    · cases h; rfl
  | other => cases h; rfl

/-- **C40.** The names give the right classes: `ols` least squares, `lasso` an elastic net path with mixing
parameter 1, `elasticnet` one with mixing parameter 1/2. -/
theorem C40_names (H : Heap) :
    (∃ H', H.getEstimationMethod (.str "ols") = .ok (H.length, H') ∧ H'[H.length]? = some .ols) ∧
    (∃ H' a, H.getEstimationMethod (.str "lasso") = .ok (H.length, H') ∧
      H'[H.length]? = some (.path a) ∧ a.alpha = 1) ∧
    (∃ H' a, H.getEstimationMethod (.str "elasticnet") = .ok (H.length, H') ∧
      H'[H.length]? = some (.path a) ∧ a.alpha = 1 / 2) := by
  refine ⟨⟨_, rfl, List.getElem?_concat_length⟩, ⟨_, _, rfl, List.getElem?_concat_length, rfl⟩,
    ⟨_, _, rfl, List.getElem?_concat_length, rfl⟩⟩

theorem getEstimationMethod_alloc {H H' : Heap} {m : HeapArg} {a : ℕ}
    (h : H.getEstimationMethod m = .ok (a, H')) : ∃ o, a = H.length ∧ H' = H ++ [o] := by
  cases m with
  | str s =>
    simp only [Heap.getEstimationMethod, Heap.fromString] at h
    split_ifs at h <;> cases h <;> exact ⟨_, rfl, rfl⟩
  | ref b =>
    simp only [Heap.getEstimationMethod] at h
    split at h
    · cases h; exact ⟨_, rfl, rfl⟩
    · cases h
  | other => cases h

/-- **C40.** The copy starts with the attributes of the object the user passed. -/
theorem C40_copy (H H' : Heap) (u a : ℕ) (h : H.getEstimationMethod (.ref u) = .ok (a, H')) :
    H'[a]? = H[u]? := by
  simp only [Heap.getEstimationMethod] at h
  split at h
  · rename_i o ho
    cases h
    simp [ho]
  · cases h

theorem fits_other (H : Heap) (l : List (ℕ × FitCall)) (u : ℕ) (hu : ∀ c ∈ l, c.1 ≠ u) :
    (H.fits l)[u]? = H[u]? := by
  induction l generalizing H with
  | nil => rfl
  | cons c l ih =>
    obtain ⟨a, c⟩ := c
    simp only [Heap.fits]
    rw [ih _ fun c' hc' => hu c' (List.mem_cons_of_mem _ hc')]
    unfold Heap.fitAt
    rw [List.getElem?_modify]
    have : a ≠ u := hu (a, c) List.mem_cons_self
    cases H[u]? <;> simp [this]

theorem getMethods_spec {H H' : Heap} {ms : List HeapArg} {as : List ℕ}
    (h : H.getMethods ms = .ok (as, H')) :
    H.length ≤ H'.length ∧ (∀ a ∈ as, H.length ≤ a ∧ a < H'.length) ∧ as.Pairwise (· ≠ ·) ∧
      as.length = ms.length ∧ ∀ u, u < H.length → H'[u]? = H[u]? := by
  induction ms generalizing H H' as with
  | nil =>
    simp only [Heap.getMethods] at h
    cases h
    simp
  | cons m ms ih =>
    simp only [Heap.getMethods, bind_ok] at h
    obtain ⟨⟨a, H1⟩, h1, ⟨as', H2⟩, h2, h3⟩ := h
    cases h3
    obtain ⟨o, rfl, rfl⟩ := getEstimationMethod_alloc h1
    obtain ⟨i1, i2, i3, i4, i5⟩ := ih h2
    simp only [List.length_append, List.length_cons, List.length_nil, zero_add] at i1 i2 i5
    refine ⟨show H.length ≤ H2.length by omega, ?_, ?_, by simp [i4], ?_⟩
    · intro b hb
      change H.length ≤ b ∧ b < H2.length
      rcases List.mem_cons.1 hb with rfl | hb
      · omega
      · have := i2 b hb; omega
    · refine List.pairwise_cons.2 ⟨fun b hb => ?_, i3⟩
      have := i2 b hb
      omega
    · intro u hu
      rw [i5 u (by omega), List.getElem?_append_left hu]

/-- **C40.** One or several look-ups, followed by any sequence of fits on the returned objects: every object
that existed before (in particular the one the user passed) has the same attributes as before, the returned
objects are new, and no two parameters share one. -/
theorem C40_isolated (H H' : Heap) (ms : List HeapArg) (as : List ℕ)
    (h : H.getMethods ms = .ok (as, H')) (calls : List (ℕ × FitCall)) (hc : ∀ c ∈ calls, c.1 ∈ as) :
    (∀ u, u < H.length → (H'.fits calls)[u]? = H[u]?) ∧ (∀ a ∈ as, H.length ≤ a) ∧
      as.Pairwise (· ≠ ·) ∧ as.length = ms.length := by
  obtain ⟨_, h2, h3, h4, h5⟩ := getMethods_spec h
  refine ⟨fun u hu => ?_, fun a ha => (h2 a ha).1, h3, h4⟩
  rw [fits_other _ _ _ fun c hcc => ?_, h5 u hu]
  have := (h2 _ (hc c hcc)).1
  omega

/-- **C40.** Fits for one parameter do not change the method object of another parameter. -/
theorem C40_parameters_isolated (H : Heap) (calls : List (ℕ × FitCall)) (a : ℕ)
    (hc : ∀ c ∈ calls, c.1 ≠ a) : (H.fits calls)[a]? = H[a]? :=
  fits_other _ _ _ hc

/-- Every setting that `o` has is the same in `o'`; only settings that `o` lacks (the bounds, and the penalty of `Ridge`) can be new. -/
def HeapObj.KeepsSettings : HeapObj → HeapObj → Prop
  | .ols, o => o = .ols
  | .path a, o => ∃ lo up, o = .path { a with lower := lo, upper := up } ∧
      (∀ l, a.lower = some l → lo = some l) ∧ ∀ l, a.upper = some l → up = some l
  | .ridge lam lo up, o => ∃ lam' lo' up', o = .ridge lam' lo' up' ∧ (∀ v, lam = some v → lam' = some v) ∧
      (∀ l, lo = some l → lo' = some l) ∧ ∀ l, up = some l → up' = some l

theorem fillBound_some {J : ℕ} {b : Option (List (Option ℝ))} {l : List (Option ℝ)} (h : b = some l) : fillBound J b = some l := by
  subst h
  rfl

theorem afterFit_keeps (o o' : HeapObj) (c : FitCall) (h : o.KeepsSettings o') : o.KeepsSettings (o'.afterFit c) := by
  cases o with
  | ols => cases h; rfl
  | path a =>
    obtain ⟨lo, up, rfl, h1, h2⟩ := h
    exact ⟨_, _, rfl, fun l hl => fillBound_some (h1 l hl), fun l hl => fillBound_some (h2 l hl)⟩
  | ridge lam lo up =>
    obtain ⟨lam', lo', up', rfl, h0, h1, h2⟩ := h
    simp only [HeapObj.afterFit]
    split
    · exact ⟨_, _, _, rfl, fun v hv => by rw [h0 v hv]; rfl, fun l hl => fillBound_some (h1 l hl), fun l hl => fillBound_some (h2 l hl)⟩
    · exact ⟨_, _, _, rfl, h0, fun l hl => fillBound_some (h1 l hl), fun l hl => fillBound_some (h2 l hl)⟩

theorem KeepsSettings.refl (o : HeapObj) : o.KeepsSettings o := by
  cases o with
  | ols => rfl
  | path a => exact ⟨_, _, rfl, fun _ h => h, fun _ h => h⟩
  | ridge lam lo up => exact ⟨_, _, _, rfl, fun _ h => h, fun _ h => h, fun _ h => h⟩

/-- **C40.** No sequence of fits changes a setting that the object used has: bounds and penalty given by the user hold for all later
fits with the copy. -/
theorem C40_settings_kept (H : Heap) (calls : List (ℕ × FitCall)) (a : ℕ) (o : HeapObj) (h : H[a]? = some o) :
    ∃ o', (H.fits calls)[a]? = some o' ∧ o.KeepsSettings o' := by
  suffices ∀ (H : Heap) o1, o.KeepsSettings o1 → H[a]? = some o1 → ∃ o', (H.fits calls)[a]? = some o' ∧ o.KeepsSettings o' from
    this H o (KeepsSettings.refl o) h
  induction calls with
  | nil => exact fun H o1 h1 h2 => ⟨o1, h2, h1⟩
  | cons c l ih =>
    intro H o1 h1 h2
    obtain ⟨b, c⟩ := c
    by_cases hb : b = a
    · subst hb
      refine ih _ (o1.afterFit c) (afterFit_keeps _ _ _ h1) ?_
      simp [Heap.fitAt, List.getElem?_modify, h2]
    · refine ih _ o1 h1 ?_
      simp [Heap.fitAt, List.getElem?_modify, h2, hb]

/-- A ridge object with its own penalty and lower bounds, used twice: the second fit has more columns. -/
example : ∃ o', (Heap.fits [.ridge (some 2) (some [some 0]) none] [(0, ⟨1, 3⟩), (0, ⟨2, 5⟩)])[0]? = some o' ∧
    o' = .ridge (some 2) (some [some 0]) (some [none]) := by
  obtain ⟨o', h1, lam', lo', up', rfl, h2, h3, _⟩ := C40_settings_kept [.ridge (some 2) (some [some 0]) none] [(0, ⟨1, 3⟩), (0, ⟨2, 5⟩)] 0 _ rfl
  refine ⟨_, h1, ?_⟩
  rw [h2 2 rfl, h3 _ rfl]
  simp [Heap.fits, Heap.fitAt, HeapObj.afterFit, fillBound, List.modify_cons] at h1
  rw [← h1.2.2]

/-- Non-vacuity of C40: a ridge object without bounds used for two parameters with designs of different
width.  The fits write bounds and penalty to the copies; the object of the user still has none. -/
example : ∃ as H', Heap.getMethods [.ridge none none none] [.ref 0, .ref 0] = .ok (as, H') ∧
    as = [1, 2] ∧
    H'.fits [(1, ⟨2, 3⟩), (2, ⟨1, 5⟩)] = [.ridge none none none,
      .ridge (some 3) (some [none, none]) (some [none, none]), .ridge (some 5) (some [none]) (some [none])] := by
  refine ⟨_, _, rfl, rfl, ?_⟩
  simp [Heap.fits, Heap.fitAt, Heap.alloc, HeapObj.afterFit, fillBound, List.modify_cons]

end Ondil
