import Verif.Model.Scipy
import Verif.Model.SpecialFunctions
import Verif.Model.Links

/-!
# Model of `src/ondil/base/distribution.py` and `src/ondil/distributions`

The functions act row by row; one response `y` and one row `θ` of `theta` are modelled (`θ i` is column `i`).
Densities of the classes that inherit `ScipyMixin` are those of scipy (`Frozen.pdf`).  Classes with their own
density code are modelled on extended numbers where the code can produce infinities or NaN.
-/

namespace Ondil

/-- The distribution classes of `src/ondil/distributions/__init__.py:1-36`.  The flag of `jsu` is
`use_gamlss_init_values` (johnsonsu.py:42). -/
inductive Dist
  | normal
  | normalMeanVariance
  | studentT
  | jsu (gamlssInit : Bool)
  | gamma
  | beta
  | logNormal
  | logNormalMedian
  | logistic
  | gumbel
  | reverseGumbel
  | exponential
  | inverseGamma
  | inverseGaussian
  | betaInflated
  | betaInflatedZero
  | zeroAdjustedGamma

namespace Dist

/-- `n_params`, base/distribution.py:32-35: the number of `parameter_names` (normal.py:28, 103, studentt.py:16,
johnsonsu.py:23, gamma.py:48, beta.py:57, lognormal.py:38, lognormalmedian.py:26, logistic.py:23, gumbel.py:23,
reversegumbel.py:26, exponential.py:23, inversegamma.py:27, inversegaussian.py:42, betainflated.py:40,
betainflatedzero.py:28, zeroadjustedgamma.py:33). -/
def nParams : Dist → ℕ
  | jsu _ | betaInflated => 4
  | studentT | betaInflatedZero | zeroAdjustedGamma => 3
  | exponential => 1
  | _ => 2

/-- The interval of all reals. -/
noncomputable def allReals : EReal × EReal := (⊥, ⊤)

/-- `(np.nextafter(0, 1), np.inf)`. -/
noncomputable def positives (tiny : ℝ) : EReal × EReal := ((tiny : ℝ), ⊤)

/-- `(np.nextafter(0, 1), np.nextafter(1, 0))`. -/
noncomputable def unitOpen (tiny ulp : ℝ) : EReal × EReal := ((tiny : ℝ), ((1 - ulp : ℝ) : EReal))

/-- `distribution_support`: normal.py:30, 105, studentt.py:22, johnsonsu.py:30, gamma.py:53, beta.py:62,
lognormal.py:40, lognormalmedian.py:31, logistic.py:25, gumbel.py:28, reversegumbel.py:28, exponential.py:25,
inversegamma.py:32, inversegaussian.py:47, betainflated.py:47, betainflatedzero.py:34, zeroadjustedgamma.py:39.
`tiny` is `np.nextafter(0, 1)` and `1 - ulp` is `np.nextafter(1, 0)`. -/
noncomputable def support (tiny ulp : ℝ) : Dist → EReal × EReal
  | normal | normalMeanVariance | studentT | jsu _ | logistic | gumbel | reverseGumbel => allReals
  | gamma | exponential | inverseGaussian => positives tiny
  | beta => unitOpen tiny ulp
  | logNormal | logNormalMedian | inverseGamma | zeroAdjustedGamma => (0, ⊤)
  | betaInflated => (0, 1)
  | betaInflatedZero => (0, ((1 - ulp : ℝ) : EReal))

/-- `parameter_support`: normal.py:29, 104, studentt.py:17-21, johnsonsu.py:24-29, gamma.py:49-52, beta.py:58-61,
lognormal.py:39, lognormalmedian.py:27-30, logistic.py:24, gumbel.py:24-27, reversegumbel.py:27,
exponential.py:24, inversegamma.py:28-31, inversegaussian.py:43-46, betainflated.py:41-46,
betainflatedzero.py:29-33, zeroadjustedgamma.py:34-38.  Columns beyond `n_params` do not exist (`KeyError`,
`none` here). -/
noncomputable def parameterSupport (tiny ulp : ℝ) : Dist → ℕ → Option (EReal × EReal)
  | normal, i | normalMeanVariance, i | logNormal, i | logistic, i | gumbel, i | reverseGumbel, i =>
    [allReals, positives tiny][i]?
  | studentT, i => [allReals, positives tiny, positives tiny][i]?
  | jsu _, i => [allReals, positives tiny, allReals, positives tiny][i]?
  | gamma, i | logNormalMedian, i | inverseGamma, i | inverseGaussian, i => [positives tiny, positives tiny][i]?
  | beta, i => [unitOpen tiny ulp, unitOpen tiny ulp][i]?
  | exponential, i => [positives tiny][i]?
  | betaInflated, i => [unitOpen tiny ulp, unitOpen tiny ulp, positives tiny, positives tiny][i]?
  | betaInflatedZero, i => [unitOpen tiny ulp, unitOpen tiny ulp, positives tiny][i]?
  | zeroAdjustedGamma, i => [positives tiny, positives tiny, unitOpen tiny ulp][i]?

/-- The default links of the constructors: normal.py:36-40, 111-115, studentt.py:28-33, johnsonsu.py:36-43,
gamma.py:60-64, beta.py:69-73, lognormal.py:44-48, lognormalmedian.py:35-39, logistic.py:29-33, gumbel.py:32-36,
reversegumbel.py:32-36, exponential.py:29, inversegamma.py:36-40, inversegaussian.py:51-55,
betainflated.py:49-55, betainflatedzero.py:36-41, zeroadjustedgamma.py:41-46. -/
def defaultLinks : Dist → List LinkClass
  | normal | normalMeanVariance | logNormal | logistic | gumbel | reverseGumbel => [.identity, .log]
  | studentT => [.identity, .log, .logShiftTwo]
  | jsu _ => [.identity, .log, .identity, .log]
  | gamma | logNormalMedian | inverseGamma | inverseGaussian => [.log, .log]
  | beta => [.logit, .logit]
  | exponential => [.log]
  | betaInflated => [.logit, .logit, .log, .log]
  | betaInflatedZero => [.logit, .logit, .log]
  | zeroAdjustedGamma => [.log, .log, .logit]

open Classical in
/-- The warnings issued by `_validate_links`, base/distribution.py:67-78, for one parameter: one if the lower
bound of the link is below the parameter support, one if the upper bound is above. -/
noncomputable def linkWarnings (tiny ulp : ℝ) (sup : EReal × EReal) (l : LinkClass) : List String :=
  (if (l.linkSupport tiny ulp).1 < sup.1 then ["lower"] else [])
    ++ (if (l.linkSupport tiny ulp).2 > sup.2 then ["upper"] else [])

/-- `_validate_links`, base/distribution.py:67-78: the warnings for all parameters, in order. -/
noncomputable def validateLinks (tiny ulp : ℝ) (d : Dist) (links : List LinkClass) : List (ℕ × String) :=
  links.zipIdx.flatMap fun li =>
    match d.parameterSupport tiny ulp li.2 with
    | some sup => (linkWarnings tiny ulp sup li.1).map fun w => (li.2, w)
    | none => []

/-- `alpha`, beta.py:87, 97, 105, 119, 128, 144 and the same lines of betainflated.py, betainflatedzero.py. -/
noncomputable def betaA (μ σ : ℝ) : ℝ := μ * (1 - σ ^ 2) / σ ^ 2

/-- `beta`, beta.py:88, 98, 106, 120, 129, 145 and the same lines of betainflated.py, betainflatedzero.py. -/
noncomputable def betaB (μ σ : ℝ) : ℝ := (1 - μ) * (1 - σ ^ 2) / σ ^ 2

/-- `theta_to_scipy_params` followed by `scipy_dist(**params)`: base/distribution.py:253-273 with `scipy_names`
of normal.py:33-34, studentt.py:25-26, johnsonsu.py:33-34, gumbel.py:29-30; overridden in normal.py:129-141,
gamma.py:67-80, beta.py:76-90, lognormal.py:56-59, lognormalmedian.py:47-49, logistic.py:36-39,
reversegumbel.py:44-50, exponential.py:33-35, inversegamma.py:48-52, inversegaussian.py:63-65.  The inflated
distributions do not inherit `ScipyMixin`. -/
noncomputable def toScipy : Dist → (ℕ → ℝ) → Option Frozen
  | normal, θ => some (.norm (θ 0) (θ 1))
  | normalMeanVariance, θ => some (.norm (θ 0) (θ 1 ^ ((1 : ℝ) / 2)))
  | studentT, θ => some (.t (θ 2) (θ 0) (θ 1))
  | jsu _, θ => some (.johnsonsu (θ 2) (θ 3) (θ 0) (θ 1))
  | gamma, θ => some (.gamma (1 / θ 1 ^ 2) 0 (1 / (1 / (θ 1 ^ 2 * θ 0))))
  | beta, θ => some (.beta (betaA (θ 0) (θ 1)) (betaB (θ 0) (θ 1)) 0 1)
  | logNormal, θ => some (.lognorm (θ 1) 0 (robustExp (θ 0)))
  | logNormalMedian, θ => some (.lognorm (θ 1) 0 (θ 0))
  | logistic, θ => some (.logistic (θ 0) (θ 1))
  | gumbel, θ => some (.gumbelL (θ 0) (θ 1))
  | reverseGumbel, θ => some (.gumbelR (θ 0) (θ 1))
  | exponential, θ => some (.expon 0 (θ 0))
  | inverseGamma, θ => some (.invgamma (1 / θ 1 ^ 2) 0 (θ 0 * (1 + θ 1 ^ 2) / θ 1 ^ 2))
  | inverseGaussian, θ => some (.invgauss (θ 0 * θ 1 ^ 2) 0 (1 / θ 1 ^ 2))
  | betaInflated, _ => none
  | betaInflatedZero, _ => none
  | zeroAdjustedGamma, _ => none

/-- `_validate_dln_dpn_inputs`, base/distribution.py:80-86. -/
def validateIndex (n : ℕ) (param : ℤ) : Except PyErr Unit :=
  if param ≥ n then .error .valueError else .ok ()

/-- `_validate_dl2_dpp_inputs`, base/distribution.py:88-96. -/
def validatePair (n : ℕ) (params : ℤ × ℤ) : Except PyErr Unit :=
  if max params.1 params.2 ≥ n then .error .valueError
  else if params.1 = params.2 then .error .valueError
  else .ok ()

/-- The chain `if param == 0: return ...; if param == 1: return ...; ...`; falling off the end returns `None`. -/
def chain (results : List ℝ) (param : ℤ) : Option ℝ :=
  if param < 0 then none else results[param.toNat]?

/-- The chain `if sorted(params) == [i, j]: return ...`; falling off the end returns `None`. -/
def pairChain : List ((ℤ × ℤ) × ℝ) → ℤ × ℤ → Option ℝ
  | [], _ => none
  | (k, v) :: rest, p => if (min p.1 p.2, max p.1 p.2) = k then some v else pairChain rest p

/-- Validate the index, then run the chain. -/
noncomputable def checked (n : ℕ) (results : List ℝ) (param : ℤ) : Except PyErr (Option ℝ) :=
  (validateIndex n param).bind fun _ => .ok (chain results param)

/-- Chains of gumbel.py:39-60 and inversegaussian.py:67-85: no validation, `ValueError` at the end. -/
noncomputable def orRaise (results : List ℝ) (param : ℤ) : Except PyErr (Option ℝ) :=
  match chain results param with
  | some v => .ok (some v)
  | none => .error .valueError

/-- Validate the pair, then run the chain. -/
noncomputable def checkedPair (n : ℕ) (results : List ((ℤ × ℤ) × ℝ)) (params : ℤ × ℤ) :
    Except PyErr (Option ℝ) :=
  (validatePair n params).bind fun _ => .ok (pairChain results params)

/-! ### First derivatives -/

/-- studentt.py:46-71. -/
noncomputable def studentScore (y μ σ ν : ℝ) : List ℝ :=
  let dsq := (y - μ) ^ 2 / σ ^ 2
  let omega := (ν + 1) / (ν + dsq)
  [omega * (y - μ) / σ ^ 2,
   (omega * dsq - 1) / σ,
   (-Real.log (1 + dsq / ν) + (omega * dsq - 1) / ν + digamma ((ν + 1) / 2) - digamma (ν / 2)) / 2]

/-- johnsonsu.py:54-88. -/
noncomputable def jsuScore (y μ σ ν τ : ℝ) : List ℝ :=
  let z := (y - μ) / σ
  let r := ν + τ * Real.arsinh z
  [z / (σ * (z * z + 1)) + r * τ / (σ * Real.sqrt (z * z + 1)),
   -1 / (σ * (z * z + 1)) + r * τ * z / (σ * Real.sqrt (z * z + 1)),
   -r,
   (1 + r * ν - r * r) / τ]

/-- gamma.py:82-97; zeroadjustedgamma.py:53-68 for `y > 0`. -/
noncomputable def gammaScore (y μ σ : ℝ) : List ℝ :=
  [(y - μ) / (σ ^ 2 * μ ^ 2),
   2 / σ ^ 3 * (y / μ - Real.log y + Real.log μ + Real.log (σ ^ 2) - 1 + digamma (1 / σ ^ 2))]

/-- beta.py:92-112; betainflated.py:58-82 and betainflatedzero.py:44-68 away from the inflated points. -/
noncomputable def betaScore (y μ σ : ℝ) : List ℝ :=
  let a := betaA μ σ
  let b := betaB μ σ
  [(1 - σ ^ 2) / σ ^ 2 * (-digamma a + digamma b + Real.log y - Real.log (1 - y)),
   -(2 / σ ^ 3) * (μ * (-digamma a + digamma (a + b) + Real.log y)
      + (1 - μ) * (-digamma b + digamma (a + b) + Real.log (1 - y)))]

open Classical in
/-- betainflated.py:58-92. -/
noncomputable def betaInflatedScore (y μ σ ν τ : ℝ) : List ℝ :=
  (betaScore y μ σ).map (fun r => if y = 0 ∨ y = 1 then 0 else r) ++
  [if y = 0 then 1 / ν - 1 / (1 + ν + τ) else 0 - 1 / (1 + ν + τ),
   if y = 1 then 1 / τ - 1 / (1 + ν + τ) else 0 - 1 / (1 + ν + τ)]

open Classical in
/-- betainflatedzero.py:44-71. -/
noncomputable def betaInflatedZeroScore (y μ σ ν : ℝ) : List ℝ :=
  (betaScore y μ σ).map (fun r => if y = 0 then 0 else r) ++
  [(if y = 0 then 1 / ν else 0) - 1 / (1 + ν)]

open Classical in
/-- zeroadjustedgamma.py:49-71. -/
noncomputable def zagaScore (y μ σ ν : ℝ) : List ℝ :=
  (gammaScore y μ σ).map (fun r => if y = 0 then 0 else r) ++
  [if y = 0 then 1 / ν else -1 / (1 - ν)]

/-- lognormal.py:61-69 with location `m`. -/
noncomputable def logNormalScore (y m σ : ℝ) : List ℝ :=
  [(Real.log y - m) / σ ^ 2, ((Real.log y - m) ^ 2 - σ ^ 2) / σ ^ 3]

/-- `dl1_dp1`: normal.py:54-62, 143-151, studentt.py:42-71, johnsonsu.py:54-88, gamma.py:82-97, beta.py:92-112,
lognormal.py:61-69, lognormalmedian.py:51-57, logistic.py:41-55, gumbel.py:39-50, reversegumbel.py:52-62,
exponential.py:37-40, inversegamma.py:54-70, inversegaussian.py:67-75, betainflated.py:58-92,
betainflatedzero.py:44-71, zeroadjustedgamma.py:49-71. -/
noncomputable def dl1 (d : Dist) (y : ℝ) (θ : ℕ → ℝ) (param : ℤ) : Except PyErr (Option ℝ) :=
  match d with
  | normal =>
    checked 2 [1 / θ 1 ^ 2 * (y - θ 0), ((y - θ 0) ^ 2 - θ 1 ^ 2) / θ 1 ^ 3] param
  | normalMeanVariance =>
    checked 2 [1 / θ 1 * (y - θ 0), 0.5 * ((y - θ 0) ^ 2 - θ 1) / θ 1 ^ 2] param
  | studentT => checked 3 (studentScore y (θ 0) (θ 1) (θ 2)) param
  | jsu _ => checked 4 (jsuScore y (θ 0) (θ 1) (θ 2) (θ 3)) param
  | gamma => checked 2 (gammaScore y (θ 0) (θ 1)) param
  | beta => checked 2 (betaScore y (θ 0) (θ 1)) param
  | logNormal => checked 2 (logNormalScore y (θ 0) (θ 1)) param
  | logNormalMedian =>
    checked 2 [(Real.log y - Real.log (θ 0)) / (θ 0 * θ 1 ^ 2),
      ((Real.log y - Real.log (θ 0)) ^ 2 - θ 1 ^ 2) / θ 1 ^ 3] param
  | logistic =>
    let expz := Real.exp ((y - θ 0) / θ 1)
    checked 2 [1 / θ 1 * (expz - 1) / (1 + expz),
      -1 / θ 1 - (y - θ 0) / θ 1 ^ 2 + 2 * ((y - θ 0) / θ 1 ^ 2) * expz / (1 + expz)] param
  | gumbel =>
    let z := (y - θ 0) / θ 1
    orRaise [(Real.exp z - 1) / θ 1, -(1 / θ 1) + z / θ 1 * (Real.exp z - 1)] param
  | reverseGumbel =>
    let z := (y - θ 0) / θ 1
    let ez := Real.exp (-z)
    checked 2 [(1 - ez) / θ 1, -(1 / θ 1) * (1 - z) - z / θ 1 * ez] param
  | exponential => (validateIndex 1 param).bind fun _ => .ok (some ((y - θ 0) / θ 0 ^ 2))
  | inverseGamma =>
    let α := 1 / θ 1 ^ 2
    checked 2 [α / θ 0 - (α + 1) / y,
      -2 / θ 1 ^ 3 * (Real.log (θ 0) + α / (α + 1) + Real.log (α + 1) - digamma α - Real.log y - θ 0 / y)] param
  | inverseGaussian =>
    orRaise [(y - θ 0) / (θ 1 ^ 2 * θ 0 ^ 3), -1 / θ 1 + (y - θ 0) ^ 2 / (θ 1 ^ 3 * θ 0 ^ 2 * y)] param
  | betaInflated => checked 4 (betaInflatedScore y (θ 0) (θ 1) (θ 2) (θ 3)) param
  | betaInflatedZero => checked 3 (betaInflatedZeroScore y (θ 0) (θ 1) (θ 2)) param
  | zeroAdjustedGamma => checked 3 (zagaScore y (θ 0) (θ 1) (θ 2)) param

/-! ### Second derivatives -/

/-- studentt.py:73-93; `np.fmin(nu, 1e15)` and `np.clip(out, -np.inf, -1e-15)`. -/
noncomputable def studentInfo (σ ν : ℝ) : List ℝ :=
  let n := min ν (10 ^ 15)
  [-(ν + 1) / ((ν + 3) * σ ^ 2),
   -(2 * ν) / ((ν + 3) * σ ^ 2),
   min (((trigamma ((n + 1) / 2) - trigamma (n / 2)) + 2 * (n + 5) / (n * (n + 1) * (n + 3))) / 4)
     (-(1 / 10 ^ 15))]

/-- gamma.py:99-108; zeroadjustedgamma.py:77-86 for `y > 0`. -/
noncomputable def gammaInfo (μ σ : ℝ) : List ℝ :=
  [-1 / (σ ^ 2 * μ ^ 2), 4 / σ ^ 4 - 4 / σ ^ 6 * trigamma (1 / σ ^ 2)]

/-- beta.py:114-135; the inflated classes away from the inflated points. -/
noncomputable def betaInfo (μ σ : ℝ) : List ℝ :=
  let a := betaA μ σ
  let b := betaB μ σ
  [-((1 - σ ^ 2) ^ 2 / σ ^ 4) * (trigamma a + trigamma b),
   -(4 / σ ^ 6) * (μ ^ 2 * trigamma a + (1 - μ) ^ 2 * trigamma b - trigamma (a + b))]

/-- inversegamma.py:72-84. -/
noncomputable def inverseGammaInfo (μ σ : ℝ) : List ℝ :=
  [-1 / (σ ^ 2 * μ ^ 2),
   -4 * (trigamma (1 / σ ^ 2) - σ ^ 2 * (1 + 2 * σ ^ 2) / (1 + σ ^ 2) ^ 2) / σ ^ 6]

open Classical in
/-- `dl2_dp2`: normal.py:64-73, 153-162, studentt.py:73-93, johnsonsu.py:90-125, gamma.py:99-108, beta.py:114-135,
lognormal.py:71-78, lognormalmedian.py:59-65, logistic.py:57-65, gumbel.py:52-60, reversegumbel.py:64-72,
exponential.py:42-45, inversegamma.py:72-84, inversegaussian.py:77-85, betainflated.py:94-125,
betainflatedzero.py:73-101, zeroadjustedgamma.py:73-87. -/
noncomputable def dl2 (d : Dist) (y : ℝ) (θ : ℕ → ℝ) (param : ℤ) : Except PyErr (Option ℝ) :=
  match d with
  | normal => checked 2 [-(1 / θ 1 ^ 2), -(2 / θ 1 ^ 2)] param
  | normalMeanVariance => checked 2 [-(1 / θ 1), -(1 / (2 * θ 1 ^ 2))] param
  | studentT => checked 3 (studentInfo (θ 1) (θ 2)) param
  | jsu _ => checked 4 ((jsuScore y (θ 0) (θ 1) (θ 2) (θ 3)).map fun s => -(s * s)) param
  | gamma => checked 2 (gammaInfo (θ 0) (θ 1)) param
  | beta => checked 2 (betaInfo (θ 0) (θ 1)) param
  | logNormal => checked 2 [-1 / θ 1 ^ 2, -2 / θ 1 ^ 2] param
  | logNormalMedian => checked 2 [-1 / (θ 0 ^ 2 * θ 1 ^ 2), -2 / θ 1 ^ 2] param
  | logistic => checked 2 [-1 / (3 * θ 1 ^ 2), -(1 / (3 * θ 1 ^ 2)) * (1 + Real.pi ^ 2 / 3)] param
  | gumbel => orRaise [-1 / θ 1 ^ 2, -1.82368 / θ 1 ^ 2] param
  | reverseGumbel => checked 2 [-1 / θ 1 ^ 2, -1.82368 / θ 1 ^ 2] param
  | exponential => (validateIndex 1 param).bind fun _ => .ok (some (-1 / θ 0 ^ 2))
  | inverseGamma => (validateIndex 2 param).bind fun _ => orRaise (inverseGammaInfo (θ 0) (θ 1)) param
  | inverseGaussian => orRaise [-1 / (θ 0 ^ 3 * θ 1 ^ 2), -2 / θ 1 ^ 2] param
  | betaInflated =>
    checked 4 ((betaInfo (θ 0) (θ 1)).map (fun r => if y = 0 ∨ y = 1 then 0 else r) ++
      [-(1 + θ 3) / (θ 2 * (1 + θ 2 + θ 3) ^ 2), -(1 + θ 2) / (θ 3 * (1 + θ 2 + θ 3) ^ 2)]) param
  | betaInflatedZero =>
    checked 3 ((betaInfo (θ 0) (θ 1)).map (fun r => if y = 0 then 0 else r) ++
      [-1 / (θ 2 * (1 + θ 2) ^ 2)]) param
  | zeroAdjustedGamma =>
    checked 3 ((gammaInfo (θ 0) (θ 1)).map (fun r => if y = 0 then 0 else r) ++
      [-1 / (θ 2 * (1 - θ 2))]) param

/-- beta.py:137-149. -/
noncomputable def betaCross (μ σ : ℝ) : ℝ :=
  2 * (1 - σ ^ 2) / σ ^ 5 * (μ * trigamma (betaA μ σ) - (1 - μ) * trigamma (betaB μ σ))

/-- The products `-(dld_i * dld_j)` of johnsonsu.py:127-190. -/
noncomputable def jsuCross (y : ℝ) (θ : ℕ → ℝ) : List ((ℤ × ℤ) × ℝ) :=
  match jsuScore y (θ 0) (θ 1) (θ 2) (θ 3) with
  | [m, d, v, t] =>
    [((0, 1), -(m * d)), ((0, 2), -(m * v)), ((0, 3), -(m * t)), ((1, 2), -(d * v)), ((1, 3), -(d * t)),
      ((2, 3), -(v * t))]
  | _ => []

open Classical in
/-- `dl2_dpp`: normal.py:75-80, 164-169, studentt.py:95-110, johnsonsu.py:127-190, gamma.py:110-115,
beta.py:137-149, lognormal.py:80-85, lognormalmedian.py:67-71, logistic.py:67-71, gumbel.py:62-69,
reversegumbel.py:74-79, exponential.py:47-51, inversegamma.py:92-98, inversegaussian.py:87-92,
betainflated.py:127-156, betainflatedzero.py:103-123, zeroadjustedgamma.py:89-102. -/
noncomputable def dl2pp (d : Dist) (y : ℝ) (θ : ℕ → ℝ) (params : ℤ × ℤ) : Except PyErr (Option ℝ) :=
  match d with
  | normal | normalMeanVariance | gamma | logNormal => checkedPair 2 [((0, 1), 0)] params
  | studentT =>
    checkedPair 3 [((0, 1), 0), ((0, 2), 0), ((1, 2), 2 / (θ 1 * (θ 2 + 3) * (θ 2 + 1)))] params
  | jsu _ => checkedPair 4 (jsuCross y θ) params
  | beta => checkedPair 2 [((0, 1), betaCross (θ 0) (θ 1))] params
  | logNormalMedian | logistic => (validatePair 2 params).bind fun _ => .ok (some 0)
  | gumbel =>
    (validatePair 2 params).bind fun _ =>
      match pairChain [((0, 1), -0.422784 / θ 1 ^ 2)] params with
      | some v => .ok (some v)
      | none => .error .valueError
  | reverseGumbel => (validatePair 2 params).bind fun _ => .ok (some (-0.422784 / θ 1 ^ 2))
  | exponential => (validatePair 1 params).bind fun _ => .ok (some 0)
  | inverseGamma => checkedPair 2 [((0, 1), -(2 / (θ 0 * θ 1 * (1 + θ 1 ^ 2))))] params
  | inverseGaussian => if params.1 = params.2 then .error .valueError else .ok (some 0)
  | betaInflated =>
    checkedPair 4 [((0, 1), if y = 0 ∨ y = 1 then 0 else betaCross (θ 0) (θ 1)), ((0, 2), 0), ((0, 3), 0),
      ((1, 2), 0), ((1, 3), 0), ((2, 3), 1 / (1 + θ 2 + θ 3) ^ 2)] params
  | betaInflatedZero =>
    checkedPair 3 [((0, 1), if y = 0 then 0 else betaCross (θ 0) (θ 1)), ((0, 2), 0), ((1, 2), 0)] params
  | zeroAdjustedGamma => checkedPair 3 [((0, 1), 0), ((0, 2), 0), ((1, 2), 0)] params

/-! ### Densities -/

open Classical in
/-- `x ** a` of numpy for finite arguments: NaN for a negative base and a non-integer exponent, infinite for a
zero base and a negative exponent. -/
noncomputable def fltPow (x a : ℝ) : Flt :=
  if x < 0 ∧ ¬ ∃ n : ℤ, a = n then .nan
  else if x = 0 ∧ a < 0 then .pinf
  else .fin (x ^ a)

/-- `LogNormal.pdf`, lognormal.py:92-101. -/
noncomputable def logNormalPdf (y μ σ : ℝ) : Flt :=
  let dev := Flt.sub (Flt.log (.fin y)) (.fin μ)
  Flt.mul (Flt.div (.fin 1) (.fin (y * σ * Real.sqrt (2 * Real.pi))))
    (Flt.exp (Flt.div (Flt.neg (Flt.mul dev dev)) (.fin (2 * σ ^ 2))))

/-- `LogNormal.logpdf`, lognormal.py:117-124. -/
noncomputable def logNormalLogPdf (y μ σ : ℝ) : Flt :=
  let dev := Flt.sub (Flt.log (.fin y)) (.fin μ)
  Flt.add (Flt.log (Flt.div (.fin 1) (.fin (y * σ * Real.sqrt (2 * Real.pi)))))
    (Flt.div (Flt.neg (Flt.mul dev dev)) (.fin (2 * σ ^ 2)))

/-- `st.beta(alpha, beta)` of the inflated classes. -/
noncomputable def innerBeta (μ σ : ℝ) : Frozen := .beta (betaA μ σ) (betaB μ σ) 0 1

open Classical in
/-- `BetaInflated.pdf`, betainflated.py:181-197. -/
noncomputable def betaInflatedPdf (y μ σ ν τ : ℝ) : Flt :=
  if y < 0 ∨ y > 1 then .fin 0
  else if y = 0 then .fin (ν / (1 + ν + τ))
  else if y = 1 then .fin (τ / (1 + ν + τ))
  else .fin ((innerBeta μ σ).pdf y / (1 + ν + τ))

open Classical in
/-- `BetaInflated.logpdf`, betainflated.py:227-247. -/
noncomputable def betaInflatedLogPdf (y μ σ ν τ : ℝ) : Flt :=
  if y < 0 ∨ y > 1 then .fin 0
  else if y = 0 then Flt.sub (Flt.log (.fin ν)) (Flt.log (.fin (1 + ν + τ)))
  else if y = 1 then Flt.sub (Flt.log (.fin τ)) (Flt.log (.fin (1 + ν + τ)))
  else Flt.sub (Flt.log (.fin ((innerBeta μ σ).pdf y))) (Flt.log (.fin (1 + ν + τ)))

open Classical in
/-- `BetaInflatedZero.pdf`, betainflatedzero.py:144-157. -/
noncomputable def betaInflatedZeroPdf (y μ σ ν : ℝ) : Flt :=
  if y < 0 ∨ y ≥ 1 then .fin 0
  else if y = 0 then .fin (ν / (1 + ν))
  else .fin ((innerBeta μ σ).pdf y / (1 + ν))

open Classical in
/-- `BetaInflatedZero.logpdf`, betainflatedzero.py:187-199. -/
noncomputable def betaInflatedZeroLogPdf (y μ σ ν : ℝ) : Flt :=
  Flt.sub
    (if y = 0 then Flt.log (.fin ν)
      else if y > 0 then Flt.log (.fin ((innerBeta μ σ).pdf y))
      else .fin 0)
    (Flt.log (.fin (1 + ν)))

open Classical in
/-- `ZeroAdjustedGamma.pdf`, zeroadjustedgamma.py:118-131. -/
noncomputable def zagaPdf (y μ σ ν : ℝ) : Flt :=
  if y = 0 then .fin ν
  else
    Flt.div
      (Flt.mul (Flt.mul (.fin (1 - ν)) (fltPow (y / (μ * σ ^ 2)) (1 / σ ^ 2)))
        (Flt.exp (.fin (-y / (μ * σ ^ 2)))))
      (.fin (y * Real.Gamma (1 / σ ^ 2)))

open Classical in
/-- `ZeroAdjustedGamma.logpdf`, zeroadjustedgamma.py:149-160. -/
noncomputable def zagaLogPdf (y μ σ ν : ℝ) : Flt :=
  if y = 0 then Flt.log (.fin ν)
  else
    Flt.sub
      (Flt.sub
        (Flt.sub
          (Flt.add (Flt.log (.fin (1 - ν)))
            (Flt.mul (.fin (1 / σ ^ 2)) (Flt.log (.fin (y / (μ * σ ^ 2))))))
          (.fin (y / (μ * σ ^ 2))))
        (Flt.log (.fin y)))
      (.fin (logGamma (1 / σ ^ 2)))

/-- `pdf`: base/distribution.py:278-279, or the class's own method. -/
noncomputable def pdf (d : Dist) (y : ℝ) (θ : ℕ → ℝ) : Flt :=
  match d with
  | logNormal => logNormalPdf y (θ 0) (θ 1)
  | betaInflated => betaInflatedPdf y (θ 0) (θ 1) (θ 2) (θ 3)
  | betaInflatedZero => betaInflatedZeroPdf y (θ 0) (θ 1) (θ 2)
  | zeroAdjustedGamma => zagaPdf y (θ 0) (θ 1) (θ 2)
  | d => match d.toScipy θ with
    | some f => .fin (f.pdf y)
    | none => .nan

/-- `logpdf`: base/distribution.py:301-311 (scipy: the logarithm of the density, `-inf` where it is zero), or the
class's own method. -/
noncomputable def logpdf (d : Dist) (y : ℝ) (θ : ℕ → ℝ) : Flt :=
  match d with
  | logNormal => logNormalLogPdf y (θ 0) (θ 1)
  | betaInflated => betaInflatedLogPdf y (θ 0) (θ 1) (θ 2) (θ 3)
  | betaInflatedZero => betaInflatedZeroLogPdf y (θ 0) (θ 1) (θ 2)
  | zeroAdjustedGamma => zagaLogPdf y (θ 0) (θ 1) (θ 2)
  | d => match d.toScipy θ with
    | some f => Flt.log (.fin (f.pdf y))
    | none => .nan

end Dist
end Ondil
