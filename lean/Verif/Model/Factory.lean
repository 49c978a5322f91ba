import Verif.Model.Methods

/-!
# Model of `src/ondil/methods/factory.py` with object identity

Method objects live on a heap; an address is an index.  Only the attributes that any method of the classes
assigns after construction are kept for `Ridge`; the arguments of the path methods are all kept.  Arrays held
in attributes are never written in place by the package (coordinate descent works on copies,
coordinate_descent.py:64-65), so they are values here.
-/

namespace Ondil

/-- A method object: its class and its attributes. -/
inductive HeapObj
  | ols
  | path (a : EnetArgs)
  | ridge (lambdaReg : Option ℝ) (lower upper : Option (List (Option ℝ)))

/-- All objects ever created; the address of an object is its position. -/
abbrev Heap := List HeapObj

/-- What the user passes as `method`: a string, a reference to a method object, or something else. -/
inductive HeapArg
  | str (s : String)
  | ref (addr : ℕ)
  | other

/-- Object creation. -/
def Heap.alloc (H : Heap) (o : HeapObj) : ℕ × Heap := (H.length, H ++ [o])

/-- `EstimationMethodFactory.from_string`, methods/factory.py:13-24; the default arguments are those of
methods/lasso_path.py:31-75 and methods/elasticnet.py:36-56. -/
noncomputable def Heap.fromString (H : Heap) (s : String) : Except PyErr (ℕ × Heap) :=
  let dflt : EnetArgs :=
    { alpha := 1, lambdaN := 100, lambdaEps := 1 / 10000, earlyStop := 0,
      startInitial := .previousLambda, startUpdate := .previousFit, selection := .cyclic,
      lower := none, upper := none, tolerance := 1 / 10000, maxIterations := 1000 }
  if s = "lasso" then .ok (H.alloc (.path dflt))
  else if s = "ols" then .ok (H.alloc .ols)
  else if s = "elasticnet" then .ok (H.alloc (.path { dflt with alpha := 1 / 2 }))
  else .error .valueError

/-- `get_estimation_method`, methods/factory.py:27-37; `copy.copy` creates an object with the same attributes. -/
noncomputable def Heap.getEstimationMethod (H : Heap) : HeapArg → Except PyErr (ℕ × Heap)
  | .str s => H.fromString s
  | .ref a =>
    match H[a]? with
    | some o => .ok (H.alloc o)
    | none => .error .valueError
  | .other => .error .valueError

/-- A call of a method that assigns attributes of `self`: `fit_beta_path` or `fit_beta` with a Gramian of
`J` columns whose diagonal has mean `diagMean`. -/
structure FitCall where
  J : ℕ
  diagMean : ℝ

/-- `_set_and_validate_bounds`, methods/elasticnet.py:104-114 and methods/ridge.py:60-70: missing bounds become
arrays of infinities. -/
def fillBound (J : ℕ) : Option (List (Option ℝ)) → Option (List (Option ℝ))
  | none => some (List.replicate J none)
  | some l => some l

/-- The attributes of `self` after a call: bounds for the path methods (elasticnet.py:133) and `Ridge`, and the
penalty of `Ridge` (ridge.py:104-105; it is not reached when the bounds are rejected). -/
def HeapObj.afterFit (c : FitCall) : HeapObj → HeapObj
  | .ols => .ols
  | .path a => .path { a with lower := fillBound c.J a.lower, upper := fillBound c.J a.upper }
  | .ridge lam lo up =>
    let lo' := fillBound c.J lo
    let up' := fillBound c.J up
    if (lo'.map List.length) = some c.J ∧ (up'.map List.length) = some c.J then
      .ridge (some (lam.getD c.diagMean)) lo' up'
    else .ridge lam lo' up'

/-- A fit on the object at an address: attributes of that object are assigned. -/
def Heap.fitAt (H : Heap) (addr : ℕ) (c : FitCall) : Heap := H.modify addr (HeapObj.afterFit c)

/-- A sequence of fits on objects, each on the object at the given address. -/
def Heap.fits (H : Heap) : List (ℕ × FitCall) → Heap
  | [] => H
  | (a, c) :: l => (H.fitAt a c).fits l

/-- The methods of an estimator with several parameters, online_gamlss.py:234-237: one look-up per entry. -/
noncomputable def Heap.getMethods (H : Heap) : List HeapArg → Except PyErr (List ℕ × Heap)
  | [] => .ok ([], H)
  | m :: ms => do
    let r ← H.getEstimationMethod m
    let q ← r.2.getMethods ms
    pure (r.1 :: q.1, q.2)

end Ondil
