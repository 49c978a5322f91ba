import Verif.Lemmas.GamlssCoordinates
import Verif.Lemmas.GamlssPackage
import Mathlib.LinearAlgebra.Matrix.Rank

/-!
# Least squares in other coordinates
-/

open scoped Matrix

namespace Ondil

section Real

variable {J : ℕ} {A : Matrix (Fin J) (Fin J) ℝ}

/-- The rows in other coordinates. -/
def recodeRows (A : Matrix (Fin J) (Fin J) ℝ) (X : List (Row J)) : List (Row J) := X.map fun x => x ᵥ* A

/-- The inverted Gramian in other coordinates. -/
noncomputable def recodeGram (A G : Matrix (Fin J) (Fin J) ℝ) : Matrix (Fin J) (Fin J) ℝ := A⁻¹ * G * A⁻¹ᵀ

theorem scaleRows_recode (X : List (Row J)) (s : List ℝ) : scaleRows (recodeRows A X) s = recodeRows A (scaleRows X s) := by
  unfold scaleRows recodeRows
  rw [List.zipWith_map_left, List.map_zipWith]
  congr 1
  funext x c
  funext j
  have : (fun i => x i * c) = c • x := by
    funext i
    simp [mul_comm]
  rw [this, Matrix.smul_vecMul]
  simp [mul_comm]

theorem tDotVec_cons (x : Row J) (X : List (Row J)) (c : ℝ) (v : List ℝ) : tDotVec (x :: X) (c :: v) = c • x + tDotVec X v := by
  funext a
  simp [tDotVec, mul_comm]

theorem tDot_cons (x z : Row J) (X Z : List (Row J)) : tDot (x :: X) (z :: Z) = Matrix.vecMulVec x z + tDot X Z := by
  funext a b
  simp [tDot, Matrix.vecMulVec_apply]

theorem tDotVec_nil_left (v : List ℝ) : tDotVec ([] : List (Row J)) v = 0 := by
  funext a
  simp [tDotVec]

theorem tDotVec_nil_right (X : List (Row J)) : tDotVec X [] = 0 := by
  funext a
  simp [tDotVec]

theorem tDot_nil_left (Z : List (Row J)) : tDot ([] : List (Row J)) Z = 0 := by
  funext a b
  simp [tDot]

theorem tDot_nil_right (X : List (Row J)) : tDot X [] = 0 := by
  funext a b
  simp [tDot]

theorem tDotVec_recode (X : List (Row J)) (v : List ℝ) : tDotVec (recodeRows A X) v = tDotVec X v ᵥ* A := by
  induction X generalizing v with
  | nil => simp [recodeRows, tDotVec_nil_left]
  | cons x X ih =>
    cases v with
    | nil => simp [tDotVec_nil_right]
    | cons c v =>
      rw [show recodeRows A (x :: X) = (x ᵥ* A) :: recodeRows A X from rfl, tDotVec_cons, tDotVec_cons, ih, Matrix.add_vecMul,
        Matrix.smul_vecMul]

theorem outer_recode (x z : Row J) : Matrix.vecMulVec (x ᵥ* A) (z ᵥ* A) = Aᵀ * Matrix.vecMulVec x z * A := by
  rw [Matrix.mul_vecMulVec, Matrix.vecMulVec_mul, Matrix.mulVec_transpose]

theorem tDot_recode (X Z : List (Row J)) : tDot (recodeRows A X) (recodeRows A Z) = Aᵀ * tDot X Z * A := by
  induction X generalizing Z with
  | nil => simp [recodeRows, tDot_nil_left]
  | cons x X ih =>
    cases Z with
    | nil => simp [recodeRows, tDot_nil_right]
    | cons z Z =>
      rw [show recodeRows A (x :: X) = (x ᵥ* A) :: recodeRows A X from rfl, show recodeRows A (z :: Z) = (z ᵥ* A) :: recodeRows A Z from rfl,
        tDot_cons, tDot_cons, ih, outer_recode, Matrix.mul_add, Matrix.add_mul]

theorem recodeRows_length (X : List (Row J)) : (recodeRows A X).length = X.length := by simp [recodeRows]

theorem initGram_recode (X : List (Row J)) (w : List ℝ) (f : ℝ) : initGram (recodeRows A X) w f = Aᵀ * initGram X w f * A := by
  unfold initGram
  rw [recodeRows_length]
  simp only [scaleRows_recode, tDot_recode]

theorem initYGram_recode (X : List (Row J)) (y w : List ℝ) (f : ℝ) : initYGram (recodeRows A X) y w f = initYGram X y w f ᵥ* A := by
  unfold initYGram
  rw [recodeRows_length]
  simp only [scaleRows_recode, tDotVec_recode]

theorem updateYGram_recode (h : Row J) (X : List (Row J)) (y : List ℝ) (f : ℝ) (w : WeightArg) :
    updateYGram (h ᵥ* A) (recodeRows A X) y f w = updateYGram h X y f w ᵥ* A := by
  have hgen : ∀ X : List (Row J), (1 - f) ^ (recodeRows A X).length • (h ᵥ* A) +
      tDotVec (scaleRows (recodeRows A X) (sqrtVec (w.mul (initForgetVector f (recodeRows A X).length))))
        (List.zipWith (fun a b => a * b) y (sqrtVec (w.mul (initForgetVector f (recodeRows A X).length)))) =
      ((1 - f) ^ X.length • h + tDotVec (scaleRows X (sqrtVec (w.mul (initForgetVector f X.length))))
        (List.zipWith (fun a b => a * b) y (sqrtVec (w.mul (initForgetVector f X.length))))) ᵥ* A := by
    intro X
    rw [recodeRows_length, scaleRows_recode, tDotVec_recode, Matrix.add_vecMul, Matrix.smul_vecMul]
  match X with
  | [] => exact hgen []
  | [x] =>
    change (1 - f) • (h ᵥ* A) + w.one • (fun j => (x ᵥ* A) j * y.headD 0) = ((1 - f) • h + w.one • fun j => x j * y.headD 0) ᵥ* A
    have e : ∀ z : Row J, (fun j => z j * y.headD 0) = y.headD 0 • z := fun z => by
      funext j
      simp [mul_comm]
    rw [e, e, Matrix.add_vecMul, Matrix.smul_vecMul, Matrix.smul_vecMul, Matrix.smul_vecMul]
  | x :: z :: X => exact hgen (x :: z :: X)

theorem inv_recode (hA : IsUnit A.det) (G : Matrix (Fin J) (Fin J) ℝ) : (Aᵀ * G * A)⁻¹ = recodeGram A G⁻¹ := by
  unfold recodeGram
  rw [Matrix.mul_inv_rev, Matrix.mul_inv_rev, Matrix.transpose_nonsing_inv, Matrix.mul_assoc]

theorem rank_recode (hA : IsUnit A.det) (G : Matrix (Fin J) (Fin J) ℝ) : (Aᵀ * G * A).rank = G.rank := by
  rw [Matrix.rank_mul_eq_left_of_isUnit_det A _ hA, Matrix.rank_mul_eq_right_of_isUnit_det Aᵀ _ (by rwa [Matrix.det_transpose])]

theorem initInvertedGram_recode (hA : IsUnit A.det) (X : List (Row J)) (w : List ℝ) (f : ℝ) :
    initInvertedGram (recodeRows A X) w f = (initInvertedGram X w f).map (recodeGram A) := by
  unfold initInvertedGram
  simp only [initGram_recode, rank_recode hA, inv_recode hA]
  split_ifs <;> rfl

theorem step_recode (hA : IsUnit A.det) (G : Matrix (Fin J) (Fin J) ℝ) (x : Row J) (f w : ℝ) :
    updateInvertedGramStep (recodeGram A G) (x ᵥ* A) f w = recodeGram A (updateInvertedGramStep G x f w) := by
  have hx : ∀ z : Row J, (z ᵥ* A) ᵥ* A⁻¹ = z := fun z => by
    rw [Matrix.vecMul_vecMul, Matrix.mul_nonsing_inv _ hA, Matrix.vecMul_one]
  have hAA : A * A⁻¹ = 1 := Matrix.mul_nonsing_inv _ hA
  have hAT : A⁻¹ᵀ * Aᵀ = 1 := by rw [← Matrix.transpose_mul, hAA, Matrix.transpose_one]
  have hden : ((w • (x ᵥ* A)) ᵥ* recodeGram A G) ⬝ᵥ (x ᵥ* A) = ((w • x) ᵥ* G) ⬝ᵥ x := by
    unfold recodeGram
    rw [← Matrix.smul_vecMul, ← Matrix.vecMul_vecMul, ← Matrix.vecMul_vecMul, hx, ← Matrix.mulVec_transpose A x,
      Matrix.dotProduct_mulVec, Matrix.vecMul_vecMul, hAT, Matrix.vecMul_one]
  have hnum : (w • recodeGram A G) * Matrix.vecMulVec (x ᵥ* A) (x ᵥ* A) * recodeGram A G =
      recodeGram A ((w • G) * Matrix.vecMulVec x x * G) := by
    rw [outer_recode]
    unfold recodeGram
    calc (w • (A⁻¹ * G * A⁻¹ᵀ)) * (Aᵀ * Matrix.vecMulVec x x * A) * (A⁻¹ * G * A⁻¹ᵀ)
        = w • (A⁻¹ * G * (A⁻¹ᵀ * Aᵀ) * Matrix.vecMulVec x x * (A * A⁻¹) * G * A⁻¹ᵀ) := by
          simp only [Matrix.smul_mul, Matrix.mul_assoc]
      _ = A⁻¹ * ((w • G) * Matrix.vecMulVec x x * G) * A⁻¹ᵀ := by
          rw [hAT, hAA]
          simp only [Matrix.smul_mul, Matrix.mul_smul, Matrix.mul_assoc, Matrix.mul_one, Matrix.one_mul]
  unfold updateInvertedGramStep
  simp only [hden, hnum]
  unfold recodeGram
  simp only [Matrix.mul_smul, Matrix.smul_mul, Matrix.mul_sub, Matrix.sub_mul]

theorem loop_recode (hA : IsUnit A.det) (f : ℝ) (G : Matrix (Fin J) (Fin J) ℝ) (X : List (Row J)) (w : List ℝ) :
    updateInvertedGramLoop f (recodeGram A G) (recodeRows A X) w = recodeGram A (updateInvertedGramLoop f G X w) := by
  induction X generalizing G w with
  | nil => rfl
  | cons x X ih =>
    cases w with
    | nil => rfl
    | cons c w =>
      rw [show recodeRows A (x :: X) = (x ᵥ* A) :: recodeRows A X from rfl]
      unfold updateInvertedGramLoop
      rw [step_recode hA]
      exact ih _ _

theorem updateInvertedGram_recode (hA : IsUnit A.det) (G : Matrix (Fin J) (Fin J) ℝ) (X : List (Row J)) (f : ℝ) (w : List ℝ) :
    updateInvertedGram (recodeGram A G) (recodeRows A X) f (.array w) = (updateInvertedGram G X f (.array w)).map (recodeGram A) := by
  match X with
  | [] => simp [updateInvertedGram, recodeRows, Except.map]
  | [x] =>
    change Except.ok (updateInvertedGramStep (recodeGram A G) (x ᵥ* A) f _) = Except.ok (recodeGram A _)
    rw [step_recode hA]
  | x :: z :: X =>
    change (if recodeRows A (x :: z :: X) = [] ∨ w.length < (recodeRows A (x :: z :: X)).length then
        (Except.error PyErr.indexError : Except PyErr (Matrix (Fin J) (Fin J) ℝ))
      else .ok (updateInvertedGramLoop f (recodeGram A G) (recodeRows A (x :: z :: X)) w)) =
      (if x :: z :: X = [] ∨ w.length < (x :: z :: X).length then (Except.error PyErr.indexError : Except PyErr (Matrix (Fin J) (Fin J) ℝ))
      else .ok (updateInvertedGramLoop f G (x :: z :: X) w)).map (recodeGram A)
    rw [loop_recode hA, recodeRows_length]
    have e : recodeRows A (x :: z :: X) = [] ↔ x :: z :: X = [] := by simp [recodeRows]
    simp only [e]
    split_ifs <;> rfl

theorem olsBeta_recode (hA : IsUnit A.det) (G : Matrix (Fin J) (Fin J) ℝ) (h : Row J) :
    olsBeta (recodeGram A G) (h ᵥ* A) = A⁻¹ *ᵥ olsBeta G h := by
  unfold olsBeta recodeGram
  have hAT : A⁻¹ᵀ * Aᵀ = 1 := by rw [← Matrix.transpose_mul, Matrix.mul_nonsing_inv _ hA, Matrix.transpose_one]
  rw [← Matrix.mulVec_transpose A h, Matrix.mulVec_mulVec, Matrix.mul_assoc, hAT, Matrix.mul_one, ← Matrix.mulVec_mulVec]

theorem linPred_recodeRow (hA : IsUnit A.det) (x b : Row J) : linPred (x ᵥ* A) (A⁻¹ *ᵥ b) = linPred x b := by
  rw [linPred_eq_dotProduct, linPred_eq_dotProduct, Matrix.dotProduct_mulVec, Matrix.vecMul_vecMul, Matrix.mul_nonsing_inv _ hA,
    Matrix.vecMul_one]

end Real

/-! ### The methods of the package -/

section Arrays

variable {J : ℕ} {A : Matrix (Fin J) (Fin J) ℝ}

theorem nan_vec (h : 0 < J) : vec? J (List.replicate J .nan) = none := by
  obtain ⟨J, rfl⟩ := Nat.exists_eq_succ_of_ne_zero h.ne'
  unfold vec?
  rw [List.replicate_succ, List.mapM_cons]
  simp [Flt.real?]

theorem nan_mat (h : 0 < J) : mat? J (List.replicate J (List.replicate J .nan)) = none := by
  have h1 := nan_vec h
  obtain ⟨J, rfl⟩ := Nat.exists_eq_succ_of_ne_zero h.ne'
  unfold mat?
  rw [List.replicate_succ, List.mapM_cons, ← List.replicate_succ, h1]
  rw [if_pos (by simp)]
  rfl

/-- Design matrices in both coordinates. -/
def RecodeX (A : Matrix (Fin J) (Fin J) ℝ) (X X' : Arr2) : Prop :=
  ∃ rows : List (Row J), rows ≠ [] ∧ X = rows.map ofVec ∧ X' = (recodeRows A rows).map ofVec

/-- Inverted Gramians in both coordinates, or both NaN. -/
def RecodeG (A : Matrix (Fin J) (Fin J) ℝ) (G G' : Arr2) : Prop :=
  (∃ Gr, G = ofMat Gr ∧ G' = ofMat (recodeGram A Gr)) ∨
    (0 < J ∧ G = List.replicate J (List.replicate J .nan) ∧ G' = List.replicate J (List.replicate J .nan))

/-- Cross products in both coordinates, or both NaN. -/
def RecodeH (A : Matrix (Fin J) (Fin J) ℝ) (h h' : Arr1) : Prop :=
  (∃ hr : Row J, h = ofVec hr ∧ h' = ofVec (hr ᵥ* A)) ∨ (0 < J ∧ h = List.replicate J .nan ∧ h' = List.replicate J .nan)

/-- Coefficients in both coordinates, or both NaN, or both the zeros before the first pass. -/
def RecodeB (A : Matrix (Fin J) (Fin J) ℝ) (b b' : Arr1) : Prop :=
  (∃ br : Row J, b = ofVec br ∧ b' = ofVec (A⁻¹ *ᵥ br)) ∨ (b = List.replicate J .nan ∧ b' = List.replicate J .nan) ∨
    ∃ n, b = List.replicate n (.fin 0) ∧ b' = List.replicate n (.fin 0)

theorem RecodeG.of_nan (A : Matrix (Fin J) (Fin J) ℝ) :
    RecodeG A (List.replicate J (List.replicate J .nan)) (List.replicate J (List.replicate J .nan)) := by
  rcases Nat.eq_zero_or_pos J with rfl | h
  · exact .inl ⟨0, rfl, rfl⟩
  · exact .inr ⟨h, rfl, rfl⟩

theorem RecodeH.of_nan (A : Matrix (Fin J) (Fin J) ℝ) : RecodeH A (List.replicate J .nan) (List.replicate J .nan) := by
  rcases Nat.eq_zero_or_pos J with rfl | h
  · exact .inl ⟨0, rfl, rfl⟩
  · exact .inr ⟨h, rfl, rfl⟩

theorem RecodeX.width_eq {X X' : Arr2} (h : RecodeX A X X') : width X = J ∧ width X' = J := by
  obtain ⟨rows, h0, rfl, rfl⟩ := h
  exact ⟨width_map h0, width_map (by simpa [recodeRows] using h0)⟩

theorem RecodeG.length_eq {G G' : Arr2} (h : RecodeG A G G') : G.length = J ∧ G'.length = J := by
  rcases h with ⟨Gr, rfl, rfl⟩ | ⟨_, rfl, rfl⟩
  · exact ⟨ofMat_length _, ofMat_length _⟩
  · exact ⟨List.length_replicate, List.length_replicate⟩

/-- Both raise the same, or both return what belongs together. -/
theorem bothRel_alike {α β : Type} {Q : α → β → Prop} {x : Except PyErr α} {y : Except PyErr β}
    (h : (∃ e, x = .error e ∧ y = .error e) ∨ ∃ a b, x = .ok a ∧ y = .ok b ∧ Q a b) : BothRel Q x y := h

variable {perm : ∀ J : ℕ, ℕ → ℕ → List (Fin J)} {other : MethodOps MethodState}

theorem initX_other {X : Arr2} {w : Arr1} {f : ℝ} (h : w.mapM Flt.real? = none) :
    (packageMethods perm other).initX .ols X w f = other.initX .ols X w f := by
  simp only [packageMethods]
  split
  · simp_all
  · rfl

theorem initY_other {X : Arr2} {y w : Arr1} {f : ℝ} (h : y.mapM Flt.real? = none ∨ w.mapM Flt.real? = none) :
    (packageMethods perm other).initY .ols X y w f = other.initY .ols X y w f := by
  simp only [packageMethods]
  split
  · simp_all
  · rfl

theorem updateX_other {G X : Arr2} {w : Arr1} {f : ℝ} (h : mat? (width X) G = none ∨ w.mapM Flt.real? = none) :
    (packageMethods perm other).updateX .ols G X w f = other.updateX .ols G X w f := by
  simp only [packageMethods]
  split
  · simp_all
  · rfl

theorem updateY_other {g : Arr1} {X : Arr2} {y w : Arr1} {f : ℝ} (h : vec? (width X) g = none ∨ y.mapM Flt.real? = none ∨ w.mapM Flt.real? = none) :
    (packageMethods perm other).updateY .ols g X y w f = other.updateY .ols g X y w f := by
  simp only [packageMethods]
  split
  · simp_all
  · rfl

theorem bothRel_map {r : Except PyErr (Matrix (Fin J) (Fin J) ℝ)} :
    BothRel (RecodeG A) (r.map ofMat) ((r.map (recodeGram A)).map ofMat) := by
  cases r with
  | error e => exact .inl ⟨e, rfl, rfl⟩
  | ok G => exact .inr ⟨_, _, rfl, rfl, .inl ⟨G, rfl, rfl⟩⟩

theorem dot_nan (x : Row J) : dot (ofVec x) (List.replicate J .nan) = asum (List.replicate J .nan) := by
  unfold dot
  congr 1
  have : ∀ (l : List (Fin J)), List.zipWith Flt.mul (l.map fun j => Flt.fin (x j)) (List.replicate l.length .nan) =
      List.replicate l.length .nan := by
    intro l
    induction l with
    | nil => rfl
    | cons a l ih =>
      simp only [List.map_cons, List.length_cons, List.replicate_succ, List.zipWith_cons_cons, ih]
      rfl
  have h := this (List.finRange J)
  rw [List.length_finRange] at h
  exact h

theorem ofVec_zero : ofVec (0 : Row J) = List.replicate J (.fin 0) := by
  unfold ofVec
  rw [show (fun j : Fin J => Flt.fin ((0 : Row J) j)) = Function.const _ (Flt.fin 0) from rfl, List.map_const, List.length_finRange]

theorem predict_recode (hA : IsUnit A.det) {X X' : Arr2} {b b' : Arr1} (hX : RecodeX A X X') (hb : RecodeB A b b') :
    matVec X' b' = matVec X b := by
  obtain ⟨rows, h0, rfl, rfl⟩ := hX
  have hlen : ∀ (r : List (Row J)), ∀ x ∈ r.map ofVec, x.length = J := by
    intro r x hx
    obtain ⟨v, _, rfl⟩ := List.mem_map.1 hx
    exact ofVec_length v
  rcases hb with ⟨br, rfl, rfl⟩ | ⟨rfl, rfl⟩ | ⟨n, rfl, rfl⟩
  · rw [matVec_ofVec, matVec_ofVec, recodeRows, List.map_map]
    congr 1
    exact List.map_congr_left fun x _ => congrArg Flt.fin (linPred_recodeRow hA x br)
  · unfold matVec
    rw [if_pos (fun x hx => by rw [hlen _ x hx, List.length_replicate]), if_pos (fun x hx => by rw [hlen _ x hx, List.length_replicate])]
    simp only [recodeRows, List.map_map]
    congr 1
    exact List.map_congr_left fun x _ => (dot_nan _).trans (dot_nan x).symm
  · by_cases hn : n = J
    · subst hn
      rw [← ofVec_zero, matVec_ofVec, matVec_ofVec, recodeRows, List.map_map]
      congr 1
      exact List.map_congr_left fun x _ => by simp [linPred_eq_dotProduct]
    · obtain ⟨x, rows, rfl⟩ := List.exists_cons_of_ne_nil h0
      have hbad : ∀ (r : List (Row J)) (z : Row J), ¬ ∀ y ∈ (z :: r).map ofVec, y.length = (List.replicate n (Flt.fin 0)).length := by
        intro r z h
        have := h (ofVec z) (by simp)
        rw [ofVec_length, List.length_replicate] at this
        exact hn this.symm
      unfold matVec
      rw [if_neg (hbad _ _), show recodeRows A (x :: rows) = (x ᵥ* A) :: recodeRows A rows from rfl, if_neg (hbad _ _)]

end Arrays

/-- The relations for coordinates given by one matrix per distribution parameter. -/
def recodeView (J : ℕ → ℕ) (A : ∀ k, Matrix (Fin (J k)) (Fin (J k)) ℝ) : DesignView where
  X k := RecodeX (A k)
  G k := RecodeG (A k)
  h k := RecodeH (A k)
  b k := RecodeB (A k)

theorem ols_recode {J : ℕ → ℕ} {A : ∀ k, Matrix (Fin (J k)) (Fin (J k)) ℝ} (hA : ∀ k, IsUnit (A k).det)
    (perm : ∀ J : ℕ, ℕ → ℕ → List (Fin J)) {other : MethodOps MethodState} (ho : NanOrRaise other) :
    (recodeView J A).Respects (· = .ols) (packageMethods perm other) where
  notPath := by rintro _ rfl; rfl
  initX := by
    rintro k _ X X' w f rfl hX
    have hX' : RecodeX (A k) X X' := hX
    have hw := hX'.width_eq
    cases hwr : w.mapM Flt.real? with
    | none =>
      rw [initX_other hwr, initX_other hwr]
      rcases ho.initX (J k) w f with ⟨e, he⟩ | he
      · exact .inl ⟨e, he X hw.1, he X' hw.2⟩
      · exact .inr ⟨_, _, he X hw.1, he X' hw.2, RecodeG.of_nan _⟩
    | some wr =>
      obtain ⟨rows, h0, rfl, rfl⟩ := hX'
      rw [initX_width hw.1 (mapM_vec _) hwr, initX_width hw.2 (mapM_vec _) hwr]
      change BothRel _ ((initInvertedGram rows wr f).map ofMat) ((initInvertedGram (recodeRows (A k) rows) wr f).map ofMat)
      rw [initInvertedGram_recode (hA k)]
      exact bothRel_map
  initY := by
    rintro k _ X X' y w f rfl hX
    have hX' : RecodeX (A k) X X' := hX
    have hw := hX'.width_eq
    have hnone : (y.mapM Flt.real? = none ∨ w.mapM Flt.real? = none) → BothRel (RecodeH (A k)) ((packageMethods perm other).initY .ols X y w f)
        ((packageMethods perm other).initY .ols X' y w f) := by
      intro h
      rw [initY_other h, initY_other h]
      rcases ho.initY (J k) y w f with ⟨e, he⟩ | he
      · exact .inl ⟨e, he X hw.1, he X' hw.2⟩
      · exact .inr ⟨_, _, he X hw.1, he X' hw.2, RecodeH.of_nan _⟩
    cases hyr : y.mapM Flt.real? with
    | none => exact hnone (.inl hyr)
    | some yr =>
      cases hwr : w.mapM Flt.real? with
      | none => exact hnone (.inr hwr)
      | some wr =>
        obtain ⟨rows, h0, rfl, rfl⟩ := hX'
        rw [initY_width hw.1 (mapM_vec _) hyr hwr, initY_width hw.2 (mapM_vec _) hyr hwr, initYGram_recode]
        exact .inr ⟨_, _, rfl, rfl, .inl ⟨_, rfl, rfl⟩⟩
  updateX := by
    rintro k _ G G' X X' w f rfl hG hX
    have hX' : RecodeX (A k) X X' := hX
    have hw := hX'.width_eq
    have hnone : (mat? (J k) G = none ∧ mat? (J k) G' = none ∨ w.mapM Flt.real? = none) →
        BothRel (RecodeG (A k)) ((packageMethods perm other).updateX .ols G X w f) ((packageMethods perm other).updateX .ols G' X' w f) := by
      intro h
      rw [updateX_other (h.imp (fun h => by rw [hw.1]; exact h.1) id), updateX_other (h.imp (fun h => by rw [hw.2]; exact h.2) id)]
      rcases ho.updateX (J k) w f with ⟨e, he⟩ | he
      · exact .inl ⟨e, he G X hw.1, he G' X' hw.2⟩
      · exact .inr ⟨_, _, he G X hw.1, he G' X' hw.2, RecodeG.of_nan _⟩
    rcases hG with ⟨Gr, rfl, rfl⟩ | ⟨hJ, rfl, rfl⟩
    · cases hwr : w.mapM Flt.real? with
      | none => exact hnone (.inr hwr)
      | some wr =>
        obtain ⟨rows, h0, rfl, rfl⟩ := hX'
        rw [updateX_width hw.1 (mat_ofMat _) (mapM_vec _) hwr, updateX_width hw.2 (mat_ofMat _) (mapM_vec _) hwr]
        change BothRel _ ((updateInvertedGram Gr rows f (.array wr)).map ofMat)
          ((updateInvertedGram (recodeGram (A k) Gr) (recodeRows (A k) rows) f (.array wr)).map ofMat)
        rw [updateInvertedGram_recode (hA k)]
        exact bothRel_map
    · exact hnone (.inl ⟨nan_mat hJ, nan_mat hJ⟩)
  updateY := by
    rintro k _ h h' X X' y w f rfl hh hX
    have hX' : RecodeX (A k) X X' := hX
    have hw := hX'.width_eq
    have hnone : (vec? (J k) h = none ∧ vec? (J k) h' = none ∨ y.mapM Flt.real? = none ∨ w.mapM Flt.real? = none) →
        BothRel (RecodeH (A k)) ((packageMethods perm other).updateY .ols h X y w f) ((packageMethods perm other).updateY .ols h' X' y w f) := by
      intro hn
      rw [updateY_other (hn.imp (fun h => by rw [hw.1]; exact h.1) id), updateY_other (hn.imp (fun h => by rw [hw.2]; exact h.2) id)]
      rcases ho.updateY (J k) y w f with ⟨e, he⟩ | he
      · exact .inl ⟨e, he h X hw.1, he h' X' hw.2⟩
      · exact .inr ⟨_, _, he h X hw.1, he h' X' hw.2, RecodeH.of_nan _⟩
    rcases hh with ⟨hr, rfl, rfl⟩ | ⟨hJ, rfl, rfl⟩
    · cases hyr : y.mapM Flt.real? with
      | none => exact hnone (.inr (.inl hyr))
      | some yr =>
        cases hwr : w.mapM Flt.real? with
        | none => exact hnone (.inr (.inr hwr))
        | some wr =>
          obtain ⟨rows, h0, rfl, rfl⟩ := hX'
          rw [updateY_width hw.1 (vec_ofVec _) (mapM_vec _) hyr hwr, updateY_width hw.2 (vec_ofVec _) (mapM_vec _) hyr hwr, updateYGram_recode]
          exact .inr ⟨_, _, rfl, rfl, .inl ⟨_, rfl, rfl⟩⟩
    · exact hnone (.inl ⟨nan_vec hJ, nan_vec hJ⟩)
  fitBeta := by
    rintro k _ G G' h h' reg rfl hG hh
    have hG' : RecodeG (A k) G G' := hG
    have hl := hG'.length_eq
    have hnone : (mat? (J k) G = none ∧ mat? (J k) G' = none ∨ vec? (J k) h = none ∧ vec? (J k) h' = none) →
        BothRel (fun r r' => RecodeB (A k) r.1 r'.1 ∧ r'.2 = r.2 ∧ r.2 = .ols) ((packageMethods perm other).fitBeta .ols G h reg)
          ((packageMethods perm other).fitBeta .ols G' h' reg) := by
      intro hn
      rw [fitBeta_other hl.1 (hn.imp And.left And.left), fitBeta_other hl.2 (hn.imp And.right And.right)]
      rcases ho.fitBeta (J k) reg with ⟨e, he⟩ | he
      · exact .inl ⟨e, he G h hl.1, he G' h' hl.2⟩
      · exact .inr ⟨_, _, he G h hl.1, he G' h' hl.2, .inr (.inl ⟨rfl, rfl⟩), rfl, rfl⟩
    rcases hG' with ⟨Gr, rfl, rfl⟩ | ⟨hJ, rfl, rfl⟩
    · rcases hh with ⟨hr, rfl, rfl⟩ | ⟨hJ, rfl, rfl⟩
      · rw [fitBeta_width hl.1 (mat_ofMat _) (vec_ofVec _), fitBeta_width hl.2 (mat_ofMat _) (vec_ofVec _), olsBeta_recode (hA k)]
        exact .inr ⟨_, _, rfl, rfl, .inl ⟨_, rfl, rfl⟩, rfl, rfl⟩
      · exact hnone (.inr ⟨nan_vec hJ, nan_vec hJ⟩)
    · exact hnone (.inl ⟨nan_mat hJ, nan_mat hJ⟩)
  updateBeta := by
    rintro k _ G G' h h' b b' reg rfl hG hh _
    have hG' : RecodeG (A k) G G' := hG
    have hl := hG'.length_eq
    have hnone : (mat? (J k) G = none ∧ mat? (J k) G' = none ∨ vec? (J k) h = none ∧ vec? (J k) h' = none) →
        BothRel (fun r r' => RecodeB (A k) r.1 r'.1 ∧ r'.2 = r.2 ∧ r.2 = .ols) ((packageMethods perm other).updateBeta .ols G h b reg)
          ((packageMethods perm other).updateBeta .ols G' h' b' reg) := by
      intro hn
      rw [updateBeta_other hl.1 (hn.imp And.left And.left), updateBeta_other hl.2 (hn.imp And.right And.right)]
      rcases ho.updateBeta (J k) reg with ⟨e, he⟩ | he
      · exact .inl ⟨e, he G h b hl.1, he G' h' b' hl.2⟩
      · exact .inr ⟨_, _, he G h b hl.1, he G' h' b' hl.2, .inr (.inl ⟨rfl, rfl⟩), rfl, rfl⟩
    rcases hG' with ⟨Gr, rfl, rfl⟩ | ⟨hJ, rfl, rfl⟩
    · rcases hh with ⟨hr, rfl, rfl⟩ | ⟨hJ, rfl, rfl⟩
      · rw [updateBeta_finite hl.1 (mat_ofMat _) (vec_ofVec _), updateBeta_finite hl.2 (mat_ofMat _) (vec_ofVec _), olsBeta_recode (hA k)]
        exact .inr ⟨_, _, rfl, rfl, .inl ⟨_, rfl, rfl⟩, rfl, rfl⟩
      · exact hnone (.inr ⟨nan_vec hJ, nan_vec hJ⟩)
    · exact hnone (.inl ⟨nan_mat hJ, nan_mat hJ⟩)
  predict := fun k _ _ _ _ hX hb => predict_recode (hA k) hX hb
  zero := fun _ n => .inr (.inr ⟨n, rfl, rfl⟩)

end Ondil
