import Verif.Model.DistributionFunctions
import Mathlib.MeasureTheory.Constructions.Pi

/-!
# Model of `rvs`

Random numbers are arguments: what `scipy.stats` draws is a point of a probability space.  Assumed of scipy: the numbers of
`st.uniform.rvs(size=size)` are independent and uniform on `[0, 1)`, and `frozen.rvs((size, n))`, where the parameters of
`frozen` are arrays of `n` entries, are independent numbers, the one in row `s` and column `i` from the distribution with
the `i`-th parameters.
-/

namespace Ondil

open MeasureTheory

/-- The law of one number of `st.uniform.rvs`. -/
noncomputable def uniformLaw : Measure ℝ := volume.restrict (Set.Ico 0 1)

/-- Broadcasting of two arrays of one axis: equal lengths, or one of the lengths is 1; numpy raises `ValueError`
otherwise. -/
def broadcast {α β : Type} (a : List α) (b : List β) : Except PyErr (List (α × β)) :=
  if a.length = b.length then .ok (a.zip b)
  else
    match a, b with
    | [x], b => .ok (b.map fun y => (x, y))
    | a, [y] => .ok (a.map fun x => (x, y))
    | _, _ => .error .valueError

namespace Dist

/-- `rvs` of the inflated classes, betainflated.py:223-225, betainflatedzero.py:183-185 and zeroadjustedgamma.py:145-147:
`u` is what `st.uniform.rvs(size=size)` returned. -/
noncomputable def inflatedRvs (ulp : ℝ) (d : Dist) (u : List ℝ) (θs : List (ℕ → ℝ)) : Except PyErr (List Flt) := do
  let r ← broadcast u θs
  pure (r.map fun qθ => d.ppf ulp qθ.1 qθ.2)

/-- The law of the array `scipy_dist(**params).rvs((size, theta.shape[0]))`, base/distribution.py:325-328. -/
noncomputable def scipyDraws (d : Dist) {n : ℕ} (size : ℕ) (θs : Fin n → ℕ → ℝ) : Measure (Fin size × Fin n → ℝ) :=
  Measure.pi fun si =>
    match d.toScipy (θs si.2) with
    | some f => f.law
    | none => 0

/-- `rvs` of the classes with `ScipyMixin`, base/distribution.py:325-330: the transposed array. -/
def scipyRvs {n size : ℕ} (Z : Fin size × Fin n → ℝ) : Fin n × Fin size → ℝ := fun is => Z (is.2, is.1)

/-- The law of what `InverseGamma.sample(n, theta)` returns, inversegamma.py:86-90. The parameters passed to
`st.invgamma.rvs(a=alpha, scale=scale, size=n)` are arrays with one entry for each row of `theta`. Assumed of scipy: it raises
`ValueError` unless the arrays have `n` entries or a single one, and otherwise returns `n` independent numbers, the `i`-th one from the
distribution with the `i`-th (or the single) parameters. -/
noncomputable def inverseGammaSample (n : ℕ) (θs : List (ℕ → ℝ)) : Except PyErr (Measure (Fin n → ℝ)) :=
  let frozen (θ : ℕ → ℝ) : Frozen :=
    let alpha := 1 / θ 1 ^ 2
    let scale := θ 0 * (1 + θ 1 ^ 2) / θ 1 ^ 2
    .invgamma alpha 0 scale
  match θs with
  | [θ] => .ok (Measure.pi fun _ => (frozen θ).law)
  | θs =>
    if h : θs.length = n then .ok (Measure.pi fun i => (frozen (θs[i.1]'(h ▸ i.2))).law)
    else .error .valueError

end Dist
end Ondil
