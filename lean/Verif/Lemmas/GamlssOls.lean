import Verif.Model.GamlssInstances
import Verif.Props.InitialValues
import Verif.Props.LeastSquares

/-!
# The least squares method on arrays of finite floats

On finite arrays the functions of the method are the real formulas, and the coefficients are the least squares
coefficients of the working data.
-/

open scoped BigOperators

namespace Ondil

variable {J : ℕ}

theorem mapM_real (l : List ℝ) : (l.map Flt.fin).mapM Flt.real? = some l := by
  induction l with
  | nil => rfl
  | cons a l ih =>
    rw [List.map_cons, List.mapM_cons, ih]
    rfl

theorem mapM_some_of {α β : Type} {f : β → Option α} {g : α → β} (h : ∀ a, f (g a) = some a) (l : List α) :
    (l.map g).mapM f = some l := by
  induction l with
  | nil => rfl
  | cons a l ih =>
    rw [List.map_cons, List.mapM_cons, ih, h]
    rfl

theorem ofVec_length (v : Row J) : (ofVec v).length = J := by simp [ofVec]

theorem ofMat_length (G : Matrix (Fin J) (Fin J) ℝ) : (ofMat G).length = J := by simp [ofMat]

theorem ofVec_eq_map (v : Row J) : ofVec v = ((List.finRange J).map v).map Flt.fin := by
  simp [ofVec, List.map_map, Function.comp_def]

theorem vec_ofVec (v : Row J) : vec? J (ofVec v) = some v := by
  unfold vec?
  rw [if_pos (ofVec_length v), ofVec_eq_map, mapM_real]
  simp only [Option.map_some, Option.some.injEq]
  funext j
  simp

theorem mapM_vec (X : List (Row J)) : (X.map ofVec).mapM (vec? J) = some X := mapM_some_of vec_ofVec X

theorem mat_ofMat (G : Matrix (Fin J) (Fin J) ℝ) : mat? J (ofMat G) = some G := by
  have h : ofMat G = ((List.finRange J).map fun i => (G i : Row J)).map ofVec := by
    rw [List.map_map]
    rfl
  unfold mat?
  rw [if_pos (ofMat_length G), h, mapM_vec]
  refine congrArg some ?_
  funext i j
  change ((List.finRange J).map fun i => (G i : Row J)).getD i 0 j = G i j
  simp

theorem ofVec_injective : Function.Injective (ofVec : Row J → Arr1) := by
  intro u v h
  have := congrArg (vec? J) h
  rw [vec_ofVec, vec_ofVec] at this
  exact Option.some.inj this

theorem width_map {X : List (Row J)} (hX : X ≠ []) : width (X.map ofVec) = J := by
  obtain ⟨x, X, rfl⟩ := List.exists_cons_of_ne_nil hX
  simp [width, ofVec_length]

variable {perm : ∀ J : ℕ, ℕ → ℕ → List (Fin J)} {other : MethodOps MethodState}

theorem initX_width {X : Arr2} (h : width X = J) {w : Arr1} {Xr : List (Row J)} {wr : List ℝ}
    (hX : X.mapM (vec? J) = some Xr) (hw : w.mapM Flt.real? = some wr) (f : ℝ) (m : MethodState) :
    (packageMethods perm other).initX m X w f = (m.initXReal Xr wr f).map ofMat := by
  subst h
  simp only [packageMethods, hX, hw]

theorem initX_ols {X : List (Row J)} (hX : X ≠ []) (w : List ℝ) (f : ℝ) :
    (packageMethods perm other).initX .ols (X.map ofVec) (w.map Flt.fin) f = (initInvertedGram X w f).map ofMat := by
  rw [initX_width (width_map hX) (mapM_vec X) (mapM_real w)]
  rfl

theorem initY_width {X : Arr2} (h : width X = J) {y w : Arr1} {Xr : List (Row J)} {yr wr : List ℝ}
    (hX : X.mapM (vec? J) = some Xr) (hy : y.mapM Flt.real? = some yr) (hw : w.mapM Flt.real? = some wr) (f : ℝ)
    (m : MethodState) : (packageMethods perm other).initY m X y w f = .ok (ofVec (initYGram Xr yr wr f)) := by
  subst h
  simp only [packageMethods, hX, hw, hy]

theorem initY_ols {X : List (Row J)} (hX : X ≠ []) (y w : List ℝ) (f : ℝ) (m : MethodState) :
    (packageMethods perm other).initY m (X.map ofVec) (y.map Flt.fin) (w.map Flt.fin) f =
      .ok (ofVec (initYGram X y w f)) :=
  initY_width (width_map hX) (mapM_vec X) (mapM_real y) (mapM_real w) f m

theorem fitBeta_width {G : Arr2} (h : G.length = J) {y : Arr1} {Gr : Matrix (Fin J) (Fin J) ℝ} {yr : Row J}
    (hG : mat? J G = some Gr) (hy : vec? J y = some yr) (reg : List Bool) :
    (packageMethods perm other).fitBeta .ols G y reg = .ok (ofVec (olsBeta Gr yr), .ols) := by
  subst h
  simp only [packageMethods, hG, hy]

theorem fitBeta_ols (G : Matrix (Fin J) (Fin J) ℝ) (h : Row J) (reg : List Bool) :
    (packageMethods perm other).fitBeta .ols (ofMat G) (ofVec h) reg = .ok (ofVec (olsBeta G h), .ols) :=
  fitBeta_width (ofMat_length G) (mat_ofMat G) (vec_ofVec h) reg

theorem dot_ofVec (x b : Row J) : dot (ofVec x) (ofVec b) = .fin (linPred x b) := by
  unfold dot ofVec asum linPred
  have h : List.zipWith Flt.mul ((List.finRange J).map fun j => Flt.fin (x j)) ((List.finRange J).map fun j => Flt.fin (b j)) =
      ((List.finRange J).map fun j => x j * b j).map Flt.fin := by
    rw [List.zipWith_map, List.zipWith_self, List.map_map]
    rfl
  rw [h, Dist.npSum_fin, ← List.sum_ofFn, List.ofFn_eq_map]

theorem matVec_ofVec (X : List (Row J)) (b : Row J) :
    matVec (X.map ofVec) (ofVec b) = .ok (X.map fun x => .fin (linPred x b)) := by
  unfold matVec
  rw [if_pos (by simp [ofVec_length]), List.map_map]
  congr 1
  exact List.map_congr_left fun x _ => dot_ofVec x b

/-! ### The least squares coefficients -/

/-- The coefficients the method computes for the data `d`. -/
noncomputable def lsq (f : ℝ) (d : List (Obs J)) : Row J :=
  olsBeta (initGram (xs d) (ws d) f)⁻¹ (initYGram (xs d) (ys d) (ws d) f)

theorem lsq_isLeastSquares {f : ℝ} (hf : f < 1) {d : List (Obs J)} (hw : NonnegWeights d) (hr : FullRank d) :
    IsLeastSquares f d (lsq f d) := by
  obtain ⟨M, hM, h⟩ := C08_least_squares hf d [] (by simp) hw (by simp) hr
  have hu := (isUnit_det_iff_fullRank hf d hw).2 hr
  unfold onlineInvertedGram at hM
  rw [initInvertedGram_of_isUnit hu] at hM
  have hM' : (initGram (xs d) (ws d) f)⁻¹ = M := by
    injection hM
  subst hM'
  simpa [lsq, onlineYGram] using h

/-- The two calls of a least squares fit on the working data `d`. -/
theorem ols_calls {f : ℝ} (hf : f < 1) {d : List (Obs J)} (hd : d ≠ []) (hw : NonnegWeights d) (hr : FullRank d)
    (reg : List Bool) : ∃ xg yg,
      (packageMethods perm other).initX .ols ((xs d).map ofVec) ((ws d).map Flt.fin) f = .ok xg ∧
      (packageMethods perm other).initY .ols ((xs d).map ofVec) ((ys d).map Flt.fin) ((ws d).map Flt.fin) f = .ok yg ∧
      (packageMethods perm other).fitBeta .ols xg yg reg = .ok (ofVec (lsq f d), .ols) := by
  have hX : xs d ≠ [] := by simpa [xs] using hd
  refine ⟨_, _, ?_, initY_ols hX _ _ _ _, fitBeta_ols _ _ reg⟩
  rw [initX_ols hX, initInvertedGram_of_isUnit ((isUnit_det_iff_fullRank hf d hw).2 hr)]
  rfl

end Ondil
