import Verif.Model.GamlssInstances

/-!
# Specification: the unit of the sample weights in the distributional regression
-/

namespace Ondil

/-- A float multiplied by a positive number. -/
noncomputable def Flt.times (k : ℝ) : Flt → Flt
  | .fin x => .fin (k * x)
  | .pinf => .pinf
  | .ninf => .ninf
  | .nan => .nan

/-- The options with the two absolute tolerances, which are compared with differences of deviances, in another unit. -/
noncomputable def GConfig.inUnit {μ : Type} {p : ℕ} (k : ℝ) (c : GConfig μ p) : GConfig μ p :=
  { c with absTolOuter := k * c.absTolOuter, absTolInner := k * c.absTolInner }

/-- The Gramian kept by least squares (an inverse) in another unit of the weights. -/
noncomputable def scaleGram (k : ℝ) (G : Arr2) : Arr2 := G.map fun r => r.map (Flt.times k⁻¹)

/-- The cross products with the response in another unit of the weights. -/
noncomputable def scaleCross (k : ℝ) (h : Arr1) : Arr1 := h.map (Flt.times k)

/-- The methods `ok` have no path, and their coefficients do not depend on the unit of the weights. -/
structure WeightFreeMethods {μ : Type} (k : ℝ) (ok : μ → Prop) (M : MethodOps μ) : Prop where
  notPath : ∀ m, ok m → M.pathBased m = false
  initX : ∀ m X w f, ok m → M.initX m X (scaleCross k w) f = (M.initX m X w f).map (scaleGram k)
  initY : ∀ m X y w f, ok m → M.initY m X y (scaleCross k w) f = (M.initY m X y w f).map (scaleCross k)
  updateX : ∀ m G X w f, ok m → M.updateX m (scaleGram k G) X (scaleCross k w) f = (M.updateX m G X w f).map (scaleGram k)
  updateY : ∀ m h X y w f, ok m →
    M.updateY m (scaleCross k h) X y (scaleCross k w) f = (M.updateY m h X y w f).map (scaleCross k)
  fitBeta : ∀ m G h reg, ok m → M.fitBeta m (scaleGram k G) (scaleCross k h) reg = M.fitBeta m G h reg
  fitOk : ∀ m G h reg r, ok m → M.fitBeta m G h reg = .ok r → ok r.2
  updateBeta : ∀ m G h b reg, ok m → M.updateBeta m (scaleGram k G) (scaleCross k h) b reg = M.updateBeta m G h b reg
  updateOk : ∀ m G h b reg r, ok m → M.updateBeta m G h b reg = .ok r → ok r.2

end Ondil
