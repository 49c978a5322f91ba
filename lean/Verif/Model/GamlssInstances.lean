import Verif.Model.Gamlss
import Verif.Model.ConditionalStart
import Verif.Model.LinearModel

/-!
# The distributions, links and estimation methods of the package as seen by the estimator

The models of `Verif.Model.Links`, `Verif.Model.Distributions` and `Verif.Model.Methods` work with reals.  Here they act
on arrays of floats: on finite values of the domain the real formulas apply, elsewhere (NaN, infinities, values outside
the domain of a formula) the result is left open, it is whatever an arbitrary `Elsewhere` record gives.  Shapes and
exceptions that do not depend on values are those of the code.
-/

namespace Ondil

/-- A finite float as a real. -/
def Flt.real? : Flt → Option ℝ
  | .fin x => some x
  | _ => none

/-- Elementwise results outside the domains of the real formulas.  `mean` is the mean of a frozen scipy distribution. -/
structure Elsewhere where
  link : LinkClass → Flt → Flt
  inverse : LinkClass → Flt → Flt
  inverseDerivative : LinkClass → Flt → Flt
  dl1 : ℝ → (ℕ → Flt) → ℕ → Flt
  dl2 : ℝ → (ℕ → Flt) → ℕ → Flt
  logpdf : ℝ → (ℕ → Flt) → Flt
  ppf : ℝ → (ℕ → Flt) → Flt
  mean : (ℕ → Flt) → Flt
  conditional : List ℝ → Fv → ℕ → Fv

/-- What the distributions take from scipy without a model: `st.t.fit` and `st.johnsonsu.fit`, the optimiser, and the
means of the frozen distributions. -/
structure ScipyOracles where
  fit : List ℝ → ℕ → Flt
  minimise : ((ℕ → ℝ) → Except PyErr Flt) → (ℕ → ℝ) → Option (ℕ → ℝ)
  mean : Frozen → Flt

open Classical in
/-- A row of distribution parameters as reals, when all of them are finite and in the support of the parameters. -/
noncomputable def Dist.realRow? (tiny ulp : ℝ) (d : Dist) (r : ℕ → Flt) : Option (ℕ → ℝ) :=
  if ∀ k < d.nParams, ∃ x sup, r k = .fin x ∧ d.parameterSupport tiny ulp k = some sup ∧ sup.1 ≤ (x : EReal) ∧
      (x : EReal) ≤ sup.2 then
    some fun k => ((r k).real?).getD 0
  else none

open Classical in
/-- `link` of one entry. -/
noncomputable def LinkClass.linkFlt (tiny ulp : ℝ) (e : Elsewhere) (l : LinkClass) : Flt → Flt
  | .fin x => if (l.linkSupport tiny ulp).1 ≤ (x : EReal) ∧ (x : EReal) ≤ (l.linkSupport tiny ulp).2 then .fin (l.link x)
      else e.link l (.fin x)
  | v => e.link l v

/-- `inverse` of one entry. -/
noncomputable def LinkClass.inverseFlt (e : Elsewhere) (l : LinkClass) : Flt → Flt
  | .fin x => .fin (l.inverse x)
  | v => e.inverse l v

/-- `inverse_derivative` of one entry. -/
noncomputable def LinkClass.inverseDerivativeFlt (e : Elsewhere) (l : LinkClass) : Flt → Flt
  | .fin x => .fin (l.inverseDerivative x)
  | v => e.inverseDerivative l v

/-- The elementwise application of a link function, base/distribution.py:98-112: `self.links[param]` raises `KeyError`
for a parameter without link. -/
def withLink (links : List LinkClass) (f : LinkClass → Flt → Flt) (k : ℕ) (a : Arr1) : Except PyErr Arr1 :=
  match links[k]? with
  | some l => .ok (a.map (f l))
  | none => .error .keyError

/-- One entry of a derivative: the model of the class where the row is admissible; `None` (a chain that falls off its
end) makes the next operation raise `TypeError`. -/
noncomputable def derivativeAt (real : (ℕ → ℝ) → Except PyErr (Option ℝ)) (other : Flt) (row : Option (ℕ → ℝ)) :
    Except PyErr Flt :=
  match row with
  | some θ =>
    match real θ with
    | .ok (some v) => .ok (.fin v)
    | .ok none => .error .typeError
    | .error e => .error e
  | none => .ok other

/-- The rows of the starting values as functions of the column. -/
def rowFn (l : List Flt) : ℕ → Flt := fun k => l.getD k .nan

open Classical in
/-- `calculate_conditional_initial_values` on arrays of floats. -/
noncomputable def Dist.conditionalFlt (tiny ulp : ℝ) (o : ScipyOracles) (e : Elsewhere) (d : Dist) (y : List ℝ) (fv : Fv)
    (k : ℕ) : Except PyErr Fv :=
  match fv.mapM (d.realRow? tiny ulp) with
  | some rows => do
    let out ← d.conditionalStart o.minimise y rows k
    pure (out.map fun θ i => .fin (θ i))
  | none => if d.family.isSome then .ok (e.conditional y fv k) else .error .typeError

/-- Where `np.where` replaces the derivatives with respect to the first two parameters by zero, whatever the parameters are
(also NaN): betainflated.py:70, 82, 106, 119, betainflatedzero.py:56, 68, 85, 98, zeroadjustedgamma.py:56, 68, 79, 84. -/
def Dist.WhereZero : Dist → ℝ → ℕ → Prop
  | .betaInflated, y, k => (y = 0 ∨ y = 1) ∧ k < 2
  | .betaInflatedZero, y, k => y = 0 ∧ k < 2
  | .zeroAdjustedGamma, y, k => y = 0 ∧ k < 2
  | _, _, _ => False

open Classical in
/-- A derivative for a row of parameters that are not all finite and in the support. -/
noncomputable def Dist.outside (d : Dist) (y : ℝ) (k : ℕ) (other : Flt) : Flt := if d.WhereZero y k then .fin 0 else other

open Classical in
/-- A distribution object of the package with given links, as the estimator uses it.  `median` is defined nowhere in
`src/ondil`; `mean` is defined by `ScipyMixin` (base/distribution.py:332-341) only. -/
noncomputable def Dist.ops (tiny ulp : ℝ) (o : ScipyOracles) (e : Elsewhere) (d : Dist) (links : List LinkClass) : DistOps where
  nParams := d.nParams
  support := d.support tiny ulp
  link := withLink links (LinkClass.linkFlt tiny ulp e)
  linkInverse := withLink links (LinkClass.inverseFlt e)
  linkInverseDerivative := withLink links (LinkClass.inverseDerivativeFlt e)
  dl1 := fun y fv k => (y.zip fv).mapM fun r =>
    derivativeAt (fun θ => d.dl1 r.1 θ k) (d.outside r.1 k (e.dl1 r.1 r.2 k)) (d.realRow? tiny ulp r.2)
  dl2 := fun y fv k => (y.zip fv).mapM fun r =>
    derivativeAt (fun θ => d.dl2 r.1 θ k) (d.outside r.1 k (e.dl2 r.1 r.2 k)) (d.realRow? tiny ulp r.2)
  logpdf := fun y fv => List.zipWith (fun v r =>
    match d.realRow? tiny ulp r with
    | some θ => d.logpdf v θ
    | none => e.logpdf v r) y fv
  initialValues := fun y => .ok ((d.initialValues o.fit y).map rowFn)
  conditionalInitialValues := d.conditionalFlt tiny ulp o e
  ppf := fun q fv => fv.map fun r =>
    match d.realRow? tiny ulp r with
    | some θ => d.ppf ulp q θ
    | none => e.ppf q r
  mean := if d.family.isSome then
      some fun fv => fv.map fun r =>
        match (d.realRow? tiny ulp r).bind d.toScipy with
        | some f => o.mean f
        | none => e.mean r
    else none
  median := none

/-! ### Estimation methods -/

/-- An array of finite floats as a vector of `J` entries. -/
noncomputable def vec? (J : ℕ) (l : Arr1) : Option (Row J) :=
  if l.length = J then (l.mapM Flt.real?).map fun r j => r.getD j 0 else none

/-- An array of finite floats as a square matrix. -/
noncomputable def mat? (J : ℕ) (g : Arr2) : Option (Matrix (Fin J) (Fin J) ℝ) :=
  if g.length = J then (g.mapM (vec? J)).map fun r i j => (r.getD i 0) j else none

/-- A vector as an array of floats. -/
def ofVec {J : ℕ} (v : Row J) : Arr1 := (List.finRange J).map fun j => .fin (v j)

/-- A matrix as an array of floats. -/
def ofMat {J : ℕ} (G : Matrix (Fin J) (Fin J) ℝ) : Arr2 := (List.finRange J).map fun i => ofVec (G i)

/-- Boolean array as a function. -/
def flags (J : ℕ) (l : List Bool) : Fin J → Bool := fun j => l.getD j false

/-- `Ridge` objects: the arguments of the constructor (methods/ridge.py:26-58) with the penalty stored by `fit_beta`.
Simplification: a start vector of the wrong length counts as missing. -/
structure RidgeObj where
  lambdaReg : Option ℝ
  startBeta : Option (List ℝ)
  selection : Selection
  lower : Option (List (Option ℝ))
  upper : Option (List (Option ℝ))
  tolerance : ℝ
  maxIterations : ℕ

/-- The arguments for a problem with `J` coefficients. -/
def RidgeObj.args (a : RidgeObj) (J : ℕ) : RidgeArgs J where
  lambdaReg := a.lambdaReg
  startBeta := a.startBeta.bind fun l => if l.length = J then some fun j : Fin J => l.getD j 0 else none
  selection := a.selection
  lower := a.lower
  upper := a.upper
  tolerance := a.tolerance
  maxIterations := a.maxIterations

/-- Method objects: `OrdinaryLeastSquares`, `ElasticNetPath` and `LassoPath`, `Ridge`. -/
inductive MethodState
  | ols
  | path (a : EnetArgs)
  | ridge (a : RidgeObj)

/-- The Gramian of a method, methods/*.py `init_x_gram`, for real arrays. -/
noncomputable def MethodState.initXReal {J : ℕ} (m : MethodState) (X : List (Row J)) (w : List ℝ) (forget : ℝ) :
    Except PyErr (Matrix (Fin J) (Fin J) ℝ) :=
  match m with
  | .ols => initInvertedGram X w forget
  | _ => .ok (initGram X w forget)

/-- The Gramian of a method, methods/*.py `update_x_gram`, for real arrays. -/
noncomputable def MethodState.updateXReal {J : ℕ} (m : MethodState) (G : Matrix (Fin J) (Fin J) ℝ) (X : List (Row J))
    (w : List ℝ) (forget : ℝ) : Except PyErr (Matrix (Fin J) (Fin J) ℝ) :=
  match m with
  | .ols => updateInvertedGram G X forget (.array w)
  | _ => .ok (updateGram G X forget (.array w))

/-- Number of columns of an array. -/
def width (X : Arr2) : ℕ := (X.headD []).length

/-- The rows of the path before an update, as far as they are read: with `start_value_update = "previous_lambda"` only their
number matters, coordinate_descent.py:136-146. -/
noncomputable def EnetArgs.oldRows (a : EnetArgs) (J : ℕ) (path : Arr2) : Option (List (Row J)) :=
  if a.startUpdate = .previousLambda then some (path.map fun _ => 0) else path.mapM (vec? J)

/-- The estimation methods of the package (recursive_least_squares.py:19-74, elasticnet.py:116-180, ridge.py:72-142) on
arrays of floats.  `perm` are the random orders, `other` is what happens for arrays that are not finite.  A method that
is not path based raises in the path functions and the other way round (`NotImplementedError`). -/
noncomputable def packageMethods (perm : ∀ J : ℕ, ℕ → ℕ → List (Fin J)) (other : MethodOps MethodState) :
    MethodOps MethodState where
  ols := .ols
  pathBased := fun m =>
    match m with
    | .path _ => true
    | _ => false
  initX := fun m X w f =>
    match X.mapM (vec? (width X)), w.mapM Flt.real? with
    | some Xr, some wr => (m.initXReal Xr wr f).map ofMat
    | _, _ => other.initX m X w f
  initY := fun m X y w f =>
    match X.mapM (vec? (width X)), y.mapM Flt.real?, w.mapM Flt.real? with
    | some Xr, some yr, some wr => .ok (ofVec (initYGram Xr yr wr f))
    | _, _, _ => other.initY m X y w f
  updateX := fun m G X w f =>
    match mat? (width X) G, X.mapM (vec? (width X)), w.mapM Flt.real? with
    | some Gr, some Xr, some wr => (m.updateXReal Gr Xr wr f).map ofMat
    | _, _, _ => other.updateX m G X w f
  updateY := fun m h X y w f =>
    match vec? (width X) h, X.mapM (vec? (width X)), y.mapM Flt.real?, w.mapM Flt.real? with
    | some hr, some Xr, some yr, some wr => .ok (ofVec (updateYGram hr Xr yr f (.array wr)))
    | _, _, _, _ => other.updateY m h X y w f
  fitBeta := fun m G h reg =>
    match mat? G.length G, vec? G.length h with
    | some Gr, some hr =>
      match m with
      | .ols => .ok (ofVec (olsBeta Gr hr), .ols)
      | .ridge a => do
        let r ← (a.args G.length).fitBeta Gr hr (flags G.length reg) (perm G.length 0)
        pure (ofVec r.1, .ridge { a with lambdaReg := some r.2 })
      | .path _ => .error .notImplemented
    | _, _ => other.fitBeta m G h reg
  updateBeta := fun m G h b reg =>
    match m with
    | .ols =>
      match mat? G.length G, vec? G.length h with
      | some Gr, some hr => .ok (ofVec (olsBeta Gr hr), .ols)
      | _, _ => other.updateBeta .ols G h b reg
    | .ridge a =>
      match mat? G.length G, vec? G.length h, vec? G.length b with
      | some Gr, some hr, some br =>
        match a.lambdaReg with
        | some lam => do
          let r ← (a.args G.length).updateBeta lam Gr hr br (flags G.length reg) (perm G.length 0)
          pure (ofVec r, .ridge a)
        | none => .error .typeError
      | _, _, _ => other.updateBeta (.ridge a) G h b reg
    | .path _ => .error .notImplemented
  fitPath := fun m G h reg =>
    match mat? G.length G, vec? G.length h with
    | some Gr, some hr =>
      match m with
      | .path a => do
        let rows ← a.fitBetaPath Gr hr (flags G.length reg) (perm G.length)
        pure (rows.map ofVec, .path a)
      | _ => .error .notImplemented
    | _, _ => other.fitPath m G h reg
  updatePath := fun m G h path reg =>
    match m with
    | .path a =>
      match mat? G.length G, vec? G.length h, a.oldRows G.length path with
      | some Gr, some hr, some pr => do
        let rows ← a.updateBetaPath Gr hr pr (flags G.length reg) (perm G.length)
        pure (rows.map ofVec, .path a)
      | _, _, _ => other.updatePath (.path a) G h path reg
    | _ => .error .notImplemented

end Ondil
