import Verif.Model.DistributionFunctions
import Mathlib.Data.List.Nodup

/-!
# Model of the conditional starting values, `src/ondil/base/distribution.py:343-383`

Keyword arguments are lists of names and values.  An array of distribution parameters is the list of its rows, so
`fixed`, whose entries are arrays over the observations, is one list of keyword arguments per observation.
`scipy.optimize.minimize` is an arbitrary function `minimise` of the objective and of the start.
-/

namespace Ondil

/-- Keyword arguments `**params` with one value per name. -/
abbrev Kwargs := List (String × ℝ)

/-- `params[name]`. -/
def Kwargs.get? : Kwargs → String → Option ℝ
  | [], _ => none
  | (m, v) :: kw, name => if m = name then some v else Kwargs.get? kw name

/-- `del params[name]`. -/
def Kwargs.del (kw : Kwargs) (name : String) : Except PyErr Kwargs :=
  if (kw.map Prod.fst).contains name then .ok (kw.filter fun e => e.1 ≠ name) else .error .keyError

/-- The classes of `scipy.stats` used by the package. -/
inductive Family
  | norm
  | t
  | johnsonsu
  | gamma
  | beta
  | lognorm
  | logistic
  | gumbelL
  | gumbelR
  | expon
  | invgamma
  | invgauss

namespace Family

/-- The shape parameters of a class (scipy reference). -/
def shapes : Family → List String
  | t => ["df"]
  | johnsonsu => ["a", "b"]
  | gamma | invgamma => ["a"]
  | beta => ["a", "b"]
  | lognorm => ["s"]
  | invgauss => ["mu"]
  | _ => []

/-- The frozen distribution for given values of shapes, location and scale. -/
def build (f : Family) (sh : String → ℝ) (loc scale : ℝ) : Frozen :=
  match f with
  | norm => .norm loc scale
  | t => .t (sh "df") loc scale
  | johnsonsu => .johnsonsu (sh "a") (sh "b") loc scale
  | gamma => .gamma (sh "a") loc scale
  | beta => .beta (sh "a") (sh "b") loc scale
  | lognorm => .lognorm (sh "s") loc scale
  | logistic => .logistic loc scale
  | gumbelL => .gumbelL loc scale
  | gumbelR => .gumbelR loc scale
  | expon => .expon loc scale
  | invgamma => .invgamma (sh "a") loc scale
  | invgauss => .invgauss (sh "mu") loc scale

/-- `st.<name>(**params)`: `TypeError` for a repeated or unknown keyword or a missing shape; `loc` and `scale` default
to 0 and 1. -/
def freeze (f : Family) (kw : Kwargs) : Except PyErr Frozen :=
  if (kw.map Prod.fst).Nodup ∧ (∀ e ∈ kw, e.1 ∈ f.shapes ∨ e.1 = "loc" ∨ e.1 = "scale")
      ∧ ∀ n ∈ f.shapes, (kw.get? n).isSome then
    .ok (f.build (fun n => (kw.get? n).getD 0) ((kw.get? "loc").getD 0) ((kw.get? "scale").getD 1))
  else .error .typeError

end Family

namespace Dist

/-- `scipy_dist`: normal.py:33, 108, studentt.py:25, johnsonsu.py:33, gamma.py:55, beta.py:64, lognormal.py:41,
lognormalmedian.py:32, logistic.py:26, gumbel.py:29, reversegumbel.py:29, exponential.py:26, inversegamma.py:33,
inversegaussian.py:48.  The inflated classes have none. -/
def family : Dist → Option Family
  | normal | normalMeanVariance => some .norm
  | studentT => some .t
  | jsu _ => some .johnsonsu
  | gamma => some .gamma
  | beta => some .beta
  | logNormal | logNormalMedian => some .lognorm
  | logistic => some .logistic
  | gumbel => some .gumbelL
  | reverseGumbel => some .gumbelR
  | exponential => some .expon
  | inverseGamma => some .invgamma
  | inverseGaussian => some .invgauss
  | betaInflated | betaInflatedZero | zeroAdjustedGamma => none

/-- `self.scipy_names[self.parameter_names[i]]`: normal.py:28-34, 103-109, studentt.py:16-26, johnsonsu.py:23-34,
gamma.py:48-58, beta.py:57-67, lognormal.py:38-42, lognormalmedian.py:26-33, logistic.py:23-27, gumbel.py:23-30,
reversegumbel.py:26-30, exponential.py:23-27, inversegamma.py:27-34, inversegaussian.py:42-49.  `none` is a
`KeyError`. -/
def scipyName : Dist → ℕ → Option String
  | normal, i | normalMeanVariance, i | logistic, i | gumbel, i | reverseGumbel, i => ["loc", "scale"][i]?
  | studentT, i => ["loc", "scale", "df"][i]?
  | jsu _, i => ["loc", "scale", "a", "b"][i]?
  | logNormal, i | logNormalMedian, i => ["scale", "s"][i]?
  | exponential, i => ["scale"][i]?
  | inverseGamma, i => ["scale", "a"][i]?
  | inverseGaussian, i => ["mu", "scale"][i]?
  | _, _ => none

/-- `theta_to_scipy_params` for one row: base/distribution.py:253-273, overridden in normal.py:129-141, gamma.py:67-80,
beta.py:76-90, lognormal.py:56-59, lognormalmedian.py:47-49, logistic.py:36-39, reversegumbel.py:44-50,
exponential.py:33-35, inversegamma.py:48-52, inversegaussian.py:63-65. -/
noncomputable def kwargs : Dist → (ℕ → ℝ) → Kwargs
  | normal, θ | logistic, θ | gumbel, θ | reverseGumbel, θ => [("loc", θ 0), ("scale", θ 1)]
  | normalMeanVariance, θ => [("loc", θ 0), ("scale", θ 1 ^ ((1 : ℝ) / 2))]
  | studentT, θ => [("loc", θ 0), ("scale", θ 1), ("df", θ 2)]
  | jsu _, θ => [("loc", θ 0), ("scale", θ 1), ("a", θ 2), ("b", θ 3)]
  | gamma, θ => [("a", 1 / θ 1 ^ 2), ("loc", 0), ("scale", 1 / (1 / (θ 1 ^ 2 * θ 0)))]
  | beta, θ => [("a", betaA (θ 0) (θ 1)), ("b", betaB (θ 0) (θ 1)), ("loc", 0), ("scale", 1)]
  | logNormal, θ => [("s", θ 1), ("scale", robustExp (θ 0)), ("loc", 0)]
  | logNormalMedian, θ => [("s", θ 1), ("scale", θ 0), ("loc", 0)]
  | exponential, θ => [("scale", θ 0)]
  | inverseGamma, θ => [("a", 1 / θ 1 ^ 2), ("scale", θ 0 * (1 + θ 1 ^ 2) / θ 1 ^ 2), ("loc", 0)]
  | inverseGaussian, θ => [("mu", θ 0 * θ 1 ^ 2), ("loc", 0), ("scale", 1 / θ 1 ^ 2)]
  | _, _ => []

/-- `np.arange(param, self.n_params)`. -/
def unknown (d : Dist) (k : ℕ) : List ℕ := (List.range d.nParams).filter fun i => k ≤ i

/-- The entry of `scipy_names`; `KeyError` if there is none. -/
def nameOf (d : Dist) (i : ℕ) : Except PyErr String :=
  match d.scipyName i with
  | some n => .ok n
  | none => .error .keyError

/-- `fixed` for one row, base/distribution.py:363-366: the translated parameters without the unknown ones. -/
noncomputable def fixedKwargs (d : Dist) (θ : ℕ → ℝ) (k : ℕ) : Except PyErr Kwargs :=
  (d.unknown k).foldlM (fun kw i => do
    let n ← d.nameOf i
    Kwargs.del kw n) (d.kwargs θ)

/-- `decision`, base/distribution.py:350-353: the candidate values under the scipy names. -/
def decision (d : Dist) (k : ℕ) (x : ℕ → ℝ) : Except PyErr Kwargs :=
  (d.unknown k).mapM fun i => do
    let n ← d.nameOf i
    pure (n, x i)

/-- The term of one observation in `_scipy_mle_objective`, base/distribution.py:343-354; `x` are the candidate values
of the parameters from `k` on (by column of `theta`). -/
noncomputable def objectiveTerm (d : Dist) (f : Family) (k : ℕ) (x : ℕ → ℝ) (y : ℝ) (θ : ℕ → ℝ) : Except PyErr Flt := do
  let fixed ← d.fixedKwargs θ k
  let dec ← d.decision k x
  let fr ← f.freeze (dec ++ fixed)
  pure (Flt.log (.fin (fr.pdf y)))

/-- `_scipy_mle_objective`, base/distribution.py:343-354. -/
noncomputable def objective (d : Dist) (f : Family) (k : ℕ) (ys : List ℝ) (θs : List (ℕ → ℝ)) (x : ℕ → ℝ) :
    Except PyErr Flt := do
  let terms ← (ys.zip θs).mapM fun r => d.objectiveTerm f k x r.1 r.2
  pure (Flt.neg (npSum terms))

/-- Columns from `k` on replaced. -/
def withTail (k : ℕ) (x θ : ℕ → ℝ) : ℕ → ℝ := fun i => if k ≤ i then x i else θ i

/-- `calculate_conditional_initial_values`, base/distribution.py:356-383.  For the inflated classes the method is the
abstract one, which returns `None` (betainflated.py:276-277, betainflatedzero.py:224-225, zeroadjustedgamma.py:176-177
and base/distribution.py:135-142); `None` fails at the subscript in online_gamlss.py:1024.  `minimise` returns `none`
when the optimiser reports failure. -/
noncomputable def conditionalStart (minimise : ((ℕ → ℝ) → Except PyErr Flt) → (ℕ → ℝ) → Option (ℕ → ℝ)) (d : Dist)
    (ys : List ℝ) (θs : List (ℕ → ℝ)) (k : ℕ) : Except PyErr (List (ℕ → ℝ)) :=
  match d.family, θs with
  | none, _ => .error .typeError
  | some _, [] => .error .indexError
  | some f, start :: rest => do
    let _ ← d.objective f k ys (start :: rest) start
    match minimise (d.objective f k ys (start :: rest)) start with
    | none => pure (start :: rest)
    | some x => pure ((start :: rest).map (withTail k x))

end Dist
end Ondil
