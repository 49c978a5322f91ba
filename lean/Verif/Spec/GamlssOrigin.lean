import Verif.Model.GamlssInstances

/-!
# Specification: the origin of the response in the distributional regression
-/

namespace Ondil

/-- An observation whose response is measured from another origin. -/
def Obs.respondingFrom {p : ℕ} (δ : ℝ) (o : Obs p) : Obs p := { o with y := o.y + δ }

/-- A float plus a real. -/
noncomputable def Flt.plus (δ : ℝ) (v : Flt) : Flt := Flt.add v (.fin δ)

/-- Distribution parameters of one observation with the first parameter, the location, moved. -/
noncomputable def locationPlus (δ : ℝ) (r : ℕ → Flt) : ℕ → Flt := Function.update r 0 (Flt.plus δ (r 0))

/-- An array that belongs to the parameter `k`: only the arrays of the location move. -/
noncomputable def plusAt (δ : ℝ) (k : ℕ) (a : Arr1) : Arr1 := if k = 0 then a.map (Flt.plus δ) else a

/-- A coefficient vector with the first entry, the intercept, moved. -/
noncomputable def interceptPlus (δ : ℝ) : Arr1 → Arr1
  | [] => []
  | b :: bs => Flt.plus δ b :: bs

/-- For arrays that are not finite, whether the cross products are an exception or NaN does not depend on the response. -/
structure ResponseBlind (other : MethodOps MethodState) : Prop where
  initY : ∀ n w f, (∃ e, ∀ X y, width X = n → other.initY .ols X y w f = .error e) ∨
    ∀ X y, width X = n → other.initY .ols X y w f = .ok (List.replicate n .nan)
  updateY : ∀ n w f, (∃ e, ∀ h X y, width X = n → other.updateY .ols h X y w f = .error e) ∨
    ∀ h X y, width X = n → other.updateY .ols h X y w f = .ok (List.replicate n .nan)

/-- The classes whose first parameter is a location. -/
def Dist.LocationFamily : Dist → Prop
  | .normal | .normalMeanVariance | .studentT | .jsu _ | .logistic | .gumbel | .reverseGumbel => True
  | _ => False

/-- Outside the domains of the formulas: the identity link of what is not finite is not finite, and the derivatives, log densities
and quantiles depend on the location and the response as inside. -/
structure Elsewhere.Moves (e : Elsewhere) (δ : ℝ) : Prop where
  link : ∀ v : Flt, ¬ v.IsFinite → ¬ (e.link .identity v).IsFinite
  inverse : ∀ v : Flt, ¬ v.IsFinite → ¬ (e.inverse .identity v).IsFinite
  dl1 : ∀ y r k, e.dl1 (y + δ) (locationPlus δ r) k = e.dl1 y r k
  dl2 : ∀ y r k, e.dl2 (y + δ) (locationPlus δ r) k = e.dl2 y r k
  logpdf : ∀ y r, e.logpdf (y + δ) (locationPlus δ r) = e.logpdf y r
  ppf : ∀ q r, e.ppf q (locationPlus δ r) = Flt.plus δ (e.ppf q r)

/-- `st.t.fit` and `st.johnsonsu.fit` estimate a location that moves with the data (entry 1 or 2 of the result), and other
parameters that stay. -/
def ScipyOracles.FitMoves (o : ScipyOracles) (δ : ℝ) : Dist → Prop
  | .studentT => ∀ y k, o.fit (y.map (· + δ)) k = if k = 1 then Flt.plus δ (o.fit y k) else o.fit y k
  | .jsu false => ∀ y k, o.fit (y.map (· + δ)) k = if k = 2 then Flt.plus δ (o.fit y k) else o.fit y k
  | _ => True

end Ondil
