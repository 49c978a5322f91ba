import Verif.Model.Distributions
import Mathlib.MeasureTheory.Measure.WithDensity
import Mathlib.MeasureTheory.Measure.Lebesgue.Basic
import Mathlib.Data.List.Sort

/-!
# Model of the distribution functions, quantile functions and initial values of `src/ondil/distributions`

The distribution function of a scipy distribution is taken to be the integral of its density, and `ppf` its
generalised inverse, with the end points of the support at the probabilities 0 and 1 (scipy reference).
-/

namespace Ondil

open MeasureTheory

/-! ### scipy -/

/-- The law of a frozen scipy distribution: the measure with density `pdf`. -/
noncomputable def Frozen.law (f : Frozen) : Measure ℝ :=
  volume.withDensity fun y => ENNReal.ofReal (f.pdf y)

/-- `frozen.cdf(y)`. -/
noncomputable def Frozen.cdf (f : Frozen) (y : ℝ) : ℝ := (f.law (Set.Iic y)).toReal

/-- Lower end `a * scale + loc` of the support, `frozen.ppf(0)`. -/
noncomputable def Frozen.lower : Frozen → Flt
  | .gamma _ l _ | .beta _ _ l _ | .lognorm _ l _ | .expon l _ | .invgamma _ l _ | .invgauss _ l _ => .fin l
  | _ => .ninf

/-- Upper end `b * scale + loc` of the support, `frozen.ppf(1)`. -/
noncomputable def Frozen.upper : Frozen → Flt
  | .beta _ _ l s => .fin (l + s)
  | _ => .pinf

open Classical in
/-- `frozen.ppf(q)`: NaN outside `[0, 1]`. -/
noncomputable def Frozen.ppf (f : Frozen) (q : ℝ) : Flt :=
  if q < 0 ∨ 1 < q then .nan
  else if q = 0 then f.lower
  else if q = 1 then f.upper
  else .fin (sInf {x | q ≤ f.cdf x})

/-- `frozen.logcdf(y)`: the logarithm of the distribution function. -/
noncomputable def Frozen.logcdf (f : Frozen) (y : ℝ) : Flt := Flt.log (.fin (f.cdf y))

namespace Dist

/-! ### Distribution functions

The quotients are real quotients: for admissible parameters no denominator vanishes. -/

open Classical in
/-- `BetaInflated.cdf`, betainflated.py:161-179. -/
noncomputable def betaInflatedCdf (y μ σ ν τ : ℝ) : ℝ :=
  let alpha := μ * (1 - σ ^ 2) / σ ^ 2
  let beta := alpha * (1 - μ) / μ
  let cdfBeta := (Frozen.beta alpha beta 0 1).cdf y
  let raw := if 0 < y ∧ y < 1 then ν + cdfBeta
    else if y = 0 then ν else if y = 1 then 1 + ν + τ else 0
  let result := raw / (1 + ν + τ)
  let result := if y < 0 then 0 else result
  if y > 1 then 1 else result

open Classical in
/-- `BetaInflated.logcdf`, betainflated.py:249-271. -/
noncomputable def betaInflatedLogCdf (y μ σ ν τ : ℝ) : Flt :=
  let denom := 1 + ν + τ
  let cdfBeta := (innerBeta μ σ).cdf y
  let raw := if 0 < y ∧ y < 1 then ν + cdfBeta
    else if y = 0 then ν else if y = 1 then denom else 0
  let result := Flt.log (Flt.div (.fin raw) (.fin denom))
  let result := if y < 0 then .ninf else result
  if y > 1 then .fin 0 else result

open Classical in
/-- `BetaInflated.ppf`, betainflated.py:199-218. -/
noncomputable def betaInflatedPpf (q μ σ ν τ : ℝ) : Flt :=
  let denom := 1 + ν + τ
  let lower := ν / denom
  let upper := (1 + ν) / denom
  let adjusted := (q - lower) * denom
  let finiteResult := (innerBeta μ σ).ppf adjusted
  let oneResult := if q = 1 ∨ q ≥ upper then .fin 1 else finiteResult
  let zeroResult := if q = 0 ∨ q ≤ lower then .fin 0 else oneResult
  if q < 0 ∨ q > 1 then .nan else zeroResult

open Classical in
/-- `BetaInflatedZero.cdf`, betainflatedzero.py:128-142. -/
noncomputable def betaInflatedZeroCdf (y μ σ ν : ℝ) : ℝ :=
  let alpha := μ * (1 - σ ^ 2) / σ ^ 2
  let beta := alpha * (1 - μ) / μ
  let cdfBeta := (Frozen.beta alpha beta 0 1).cdf y
  let raw := if y = 0 then ν else ν + cdfBeta
  let result := raw / (1 + ν)
  let result := if y < 0 then 0 else result
  if y ≥ 1 then 1 else result

open Classical in
/-- `BetaInflatedZero.logcdf`, betainflatedzero.py:201-219. -/
noncomputable def betaInflatedZeroLogCdf (y μ σ ν : ℝ) : Flt :=
  let denom := 1 + ν
  let cdfBeta := (innerBeta μ σ).cdf y
  let raw := if 0 < y ∧ y ≤ 1 then ν + cdfBeta else if y = 0 then ν else 0
  let result := Flt.log (Flt.div (.fin raw) (.fin denom))
  let result := if y < 0 then .ninf else result
  if y ≥ 1 then .fin 0 else result

open Classical in
/-- `BetaInflatedZero.ppf`, betainflatedzero.py:159-178; `1 - ulp` is `np.nextafter(1, 0)`. -/
noncomputable def betaInflatedZeroPpf (ulp q μ σ ν : ℝ) : Flt :=
  let denom := 1 + ν
  let lower := ν / denom
  let adjusted := (q - lower) * denom
  let finiteResult := (innerBeta μ σ).ppf adjusted
  let finiteResult := if q ≤ lower then .fin 0 else finiteResult
  let finiteResult := if q = 0 then .fin 0 else finiteResult
  let finiteResult := if q = 1 then .fin (1 - ulp) else finiteResult
  if q < 0 ∨ q > 1 then .nan else finiteResult

/-- `st.gamma(a=shape, loc=0, scale=scale)` of zeroadjustedgamma.py:109-111, 120-122, 135-138, 164-166. -/
noncomputable def innerGamma (μ σ : ℝ) : Frozen := .gamma (1 / σ ^ 2) 0 (μ * σ ^ 2)

open Classical in
/-- `ZeroAdjustedGamma.cdf`, zeroadjustedgamma.py:107-116. -/
noncomputable def zagaCdf (y μ σ ν : ℝ) : ℝ :=
  let cdfGamma := (innerGamma μ σ).cdf y
  let cont := ν + (1 - ν) * cdfGamma
  if y = 0 then ν else cont

open Classical in
/-- `ZeroAdjustedGamma.logcdf`, zeroadjustedgamma.py:162-171. -/
noncomputable def zagaLogCdf (y μ σ ν : ℝ) : Flt :=
  let cdfGamma := (innerGamma μ σ).cdf y
  let cont := Flt.log (.fin (ν + (1 - ν) * cdfGamma))
  if y = 0 then Flt.log (.fin ν) else cont

open Classical in
/-- `ZeroAdjustedGamma.ppf`, zeroadjustedgamma.py:133-140. -/
noncomputable def zagaPpf (q μ σ ν : ℝ) : Flt :=
  let result := (innerGamma μ σ).ppf ((q - ν) / (1 - ν))
  if q ≤ ν then .fin 0 else result

/-- `LogNormal.cdf`, lognormal.py:103-108, for a positive response (`np.log` of the others is not finite). -/
noncomputable def logNormalCdf (y μ σ : ℝ) : ℝ := (Frozen.norm 0 1).cdf ((Real.log y - μ) / σ)

/-- `LogNormal.ppf`, lognormal.py:110-115. -/
noncomputable def logNormalPpf (q μ σ : ℝ) : Flt :=
  Flt.exp (Flt.add (.fin μ) (Flt.mul (.fin σ) ((Frozen.norm 0 1).ppf q)))

/-- `cdf`: base/distribution.py:275-276, or the class's own method. -/
noncomputable def cdf (d : Dist) (y : ℝ) (θ : ℕ → ℝ) : Flt :=
  match d with
  | logNormal => .fin (logNormalCdf y (θ 0) (θ 1))
  | betaInflated => .fin (betaInflatedCdf y (θ 0) (θ 1) (θ 2) (θ 3))
  | betaInflatedZero => .fin (betaInflatedZeroCdf y (θ 0) (θ 1) (θ 2))
  | zeroAdjustedGamma => .fin (zagaCdf y (θ 0) (θ 1) (θ 2))
  | d => match d.toScipy θ with
    | some f => .fin (f.cdf y)
    | none => .nan

/-- `logcdf`: base/distribution.py:313-323, lognormal.py:126-127, or the class's own method. -/
noncomputable def logcdf (d : Dist) (y : ℝ) (θ : ℕ → ℝ) : Flt :=
  match d with
  | logNormal => Flt.log (.fin (logNormalCdf y (θ 0) (θ 1)))
  | betaInflated => betaInflatedLogCdf y (θ 0) (θ 1) (θ 2) (θ 3)
  | betaInflatedZero => betaInflatedZeroLogCdf y (θ 0) (θ 1) (θ 2)
  | zeroAdjustedGamma => zagaLogCdf y (θ 0) (θ 1) (θ 2)
  | d => match d.toScipy θ with
    | some f => f.logcdf y
    | none => .nan

/-- `ppf`: base/distribution.py:286-287, or the class's own method. -/
noncomputable def ppf (ulp : ℝ) (d : Dist) (q : ℝ) (θ : ℕ → ℝ) : Flt :=
  match d with
  | logNormal => logNormalPpf q (θ 0) (θ 1)
  | betaInflated => betaInflatedPpf q (θ 0) (θ 1) (θ 2) (θ 3)
  | betaInflatedZero => betaInflatedZeroPpf ulp q (θ 0) (θ 1) (θ 2)
  | zeroAdjustedGamma => zagaPpf q (θ 0) (θ 1) (θ 2)
  | d => match d.toScipy θ with
    | some f => f.ppf q
    | none => .nan

/-! ### Initial values -/

/-- Sum of an array. -/
noncomputable def npSum (xs : List Flt) : Flt := xs.foldr Flt.add (.fin 0)

/-- `np.mean`; NaN for an empty array. -/
noncomputable def npMean (xs : List Flt) : Flt := Flt.div (npSum xs) (.fin xs.length)

/-- `np.var(x, ddof=ddof)`; the divisor is `max(n - ddof, 0)`. -/
noncomputable def npVar (ddof : ℕ) (xs : List Flt) : Flt :=
  Flt.div (npSum (xs.map fun x => Flt.mul (Flt.sub x (npMean xs)) (Flt.sub x (npMean xs))))
    (.fin ((xs.length - ddof : ℕ) : ℝ))

/-- `np.std(x, ddof=ddof)`. -/
noncomputable def npStd (ddof : ℕ) (xs : List Flt) : Flt := Flt.sqrt (npVar ddof xs)

open Classical in
/-- `np.median`: NaN if an entry is NaN, else the middle of the sorted array or the mean of the two middle
entries. -/
noncomputable def npMedian (xs : List Flt) : Flt :=
  if Flt.nan ∈ xs then .nan
  else
    let s := xs.insertionSort Flt.le
    if xs.length % 2 = 1 then s.getD (xs.length / 2) .nan
    else Flt.div (Flt.add (s.getD (xs.length / 2 - 1) .nan) (s.getD (xs.length / 2) .nan)) (.fin 2)

/-- One row of `initial_values(y)`: normal.py:82-84, 171-173, studentt.py:112-114, johnsonsu.py:192-205,
gamma.py:117-119, beta.py:151-153, lognormal.py:87-90, lognormalmedian.py:73-78, logistic.py:73-75,
gumbel.py:71-75, reversegumbel.py:81-86, exponential.py:53-54, inversegamma.py:100-111, inversegaussian.py:94-98,
betainflated.py:158-159, betainflatedzero.py:125-126, zeroadjustedgamma.py:104-105.  `ys` is the response vector,
`y` its entry in this row, `fit` the result of `st.t.fit` or `st.johnsonsu.fit` (not modelled). -/
noncomputable def initialRow (fit : List ℝ → ℕ → Flt) (d : Dist) (ys : List ℝ) (y : ℝ) : List Flt :=
  let x := ys.map Flt.fin
  let logx := x.map Flt.log
  match d with
  | normal => [npMean x, npStd 1 x]
  | normalMeanVariance => [npMean x, npVar 1 x]
  | studentT => [fit ys 1, fit ys 2, fit ys 0]
  | jsu true => [Flt.div (Flt.add (npMean x) (.fin y)) (.fin 2), .fin 0.1, .fin 0, .fin 0.5]
  | jsu false => [fit ys 2, fit ys 3, fit ys 0, fit ys 1]
  | gamma => [npMean x, .fin 1]
  | beta => [npMean x, .fin 0.5]
  | logNormal => [npMean logx, npStd 1 logx]
  | logNormalMedian => [Flt.exp (npMedian logx), npStd 0 logx]
  | logistic =>
    [npMean x, Flt.div (Flt.mul (.fin (Real.sqrt 3)) (npStd 1 x)) (.fin (Real.sqrt Real.pi))]
  | gumbel => [npMean x, Flt.div (Flt.mul (.fin (Real.sqrt 6)) (npStd 0 x)) (.fin Real.pi)]
  | reverseGumbel =>
    let s := Flt.div (Flt.mul (.fin (Real.sqrt 6)) (npStd 0 x)) (.fin Real.pi)
    [Flt.add (npMean x) (Flt.mul (.fin 0.5772157) s), s]
  | exponential => [npMean x]
  | inverseGamma => [npMean x, Flt.div (npStd 1 x) (Flt.sqrt (npMean x))]
  | inverseGaussian => [npMean x, Flt.div (npStd 0 x) (Flt.sqrt (npMean x))]
  | betaInflated => [npMean x, .fin 0.5, .fin 5, .fin 5]
  | betaInflatedZero => [npMean x, .fin 0.5, npMean x]
  | zeroAdjustedGamma => [npMean x, .fin 1, .fin 0.5]

/-- `initial_values(y)`: one row per response. -/
noncomputable def initialValues (fit : List ℝ → ℕ → Flt) (d : Dist) (ys : List ℝ) : List (List Flt) :=
  ys.map (initialRow fit d ys)

end Dist
end Ondil
