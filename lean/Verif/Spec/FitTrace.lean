import Verif.Model.Gamlss

/-!
# What a fit does, pass by pass

The specification of the iterations of `fit` as a list of records, without reference to the attributes of the estimator.
-/

namespace Ondil

variable {μ : Type} {p : ℕ}

/-- One pass of an inner loop. -/
structure Pass where
  /-- its number, from zero -/
  it : ℕ
  /-- the fitted values around which the log density is expanded -/
  fv : Fv
  /-- the step size -/
  step : ℝ
  /-- the linear predictor at these values, the working weights and the working vector -/
  wk : Working
  /-- the coefficients that solve the weighted regression -/
  beta : Arr1
  /-- the proposed values of the treated parameter -/
  values : Arr1
  /-- the fitted values with the proposal in place -/
  new : Fv
  /-- the deviance the proposal is compared with -/
  reference : Flt
  /-- the deviance of the proposal -/
  dev : Flt
  /-- how many of the passes before raised the deviance -/
  raised : ℕ

/-- The proposal has a higher deviance than the values it starts from. -/
def Pass.Raises (q : Pass) : Prop := Flt.lt q.reference q.dev

/-- `dev` is close to `old` in relative or in absolute terms. -/
def CloseTo (rel : Flt → Prop) (abs : Flt → Prop) (old dev : Flt) : Prop :=
  abs (Flt.abs (Flt.sub old dev)) ∨ rel (Flt.div (Flt.abs (Flt.sub old dev)) (Flt.abs old))

/-- From one pass to the next: a proposal that raises the deviance is dropped and the step size is halved; otherwise the
next pass starts at the proposal, with the step size `step` of the options. -/
structure Pass.Next (k : ℕ) (step : ℝ) (q r : Pass) : Prop where
  it : r.it = q.it + 1
  dropped : q.Raises → r.fv = q.fv ∧ r.reference = q.reference ∧ r.step = q.step / 2 ∧ r.raised = q.raised + 1
  taken : ¬ q.Raises → r.fv = q.fv.setCol k (q.new.col k) ∧ r.reference = q.dev ∧ r.step = step ∧ r.raised = q.raised
  new : r.new = q.new.setCol k r.values

/-- What ends the inner loop of `fit` early: the sixth increase of the deviance, unless in the last scheduled pass, and,
except in the very first pass, a deviance that hardly changes or the limit on the number of passes. -/
def Pass.Ends (c : GConfig μ p) (o n : ℕ) (q : Pass) : Prop :=
  (q.Raises ∧ 5 ≤ q.raised ∧ q.it + 1 < n) ∨
    (¬ (o = 1 ∧ q.it = 0) ∧ (CloseTo (fun a => Flt.lt a (.fin c.relTolInner)) (fun a => Flt.le a (.fin c.absTolInner))
      q.reference q.dev ∨ q.it + 1 = c.maxInner))

/-- `m` is the estimation method `m0` after some of its calls, which may change the object. -/
inductive Derived (M : MethodOps μ) (m0 : μ) : μ → Prop
  | start : Derived M m0 m0
  | fitBeta {m m' : μ} {xg : Arr2} {yg b : Arr1} {reg : List Bool} : Derived M m0 m → M.pathBased m = false →
      M.fitBeta m xg yg reg = .ok (b, m') → Derived M m0 m'
  | updateBeta {m m' : μ} {xg : Arr2} {yg b0 b : Arr1} {reg : List Bool} : Derived M m0 m → M.pathBased m = false →
      M.updateBeta m xg yg b0 reg = .ok (b, m') → Derived M m0 m'
  | fitPath {m m' : μ} {xg : Arr2} {yg : Arr1} {b : Arr2} {reg : List Bool} : Derived M m0 m → M.pathBased m = true →
      M.fitPath m xg yg reg = .ok (b, m') → Derived M m0 m'
  | updatePath {m m' : μ} {xg : Arr2} {yg : Arr1} {b0 b : Arr2} {reg : List Bool} : Derived M m0 m → M.pathBased m = true →
      M.updatePath m xg yg b0 reg = .ok (b, m') → Derived M m0 m'

/-- The weighted regression of one pass of outer iteration `o` with the method `m0`.  A method that computes a path starts
from scratch in the very first pass of the fit only; the coefficients of the pass are a row of the path. -/
def Pass.Solves (M : MethodOps μ) (m0 : μ) (w : List ℝ) (forget : ℝ) (reg : List Bool) (X : Arr2) (o : ℕ) (q : Pass) : Prop :=
  ∃ m m' xg yg, Derived M m0 m ∧ M.initX m X (wmul w q.wk.wt) forget = .ok xg ∧ M.initY m X q.wk.wv (wmul w q.wk.wt) forget = .ok yg ∧
    (M.pathBased m = false → M.fitBeta m xg yg reg = .ok (q.beta, m')) ∧
    (M.pathBased m = true → ∃ path, q.beta ∈ path ∧
      (if o = 1 ∧ q.it = 0 then M.fitPath m xg yg reg = .ok (path, m') else ∃ b, M.updatePath m xg yg b reg = .ok (path, m')))

/-- The treatment of parameter `k` in outer iteration `o` of `fit`, with at most `n` passes and the step size `step`, of an
estimator with fitted values `fv`. -/
structure InnerTrace (D : DistOps) (M : MethodOps μ) (c : GConfig μ p) (m0 : μ) (y w : List ℝ) (X : Arr2) (forget : ℝ)
    (reg : List Bool) (step : ℝ) (k o n : ℕ) (fv : Fv) (passes : List Pass) : Prop where
  first : ∃ q, passes.head? = some q ∧ q.it = 0 ∧ q.reference = deviance D y w fv ∧ q.step = step ∧ q.raised = 0 ∧
    q.new = fv.setCol k q.values ∧
    (if o = 1 ∧ 1 ≤ k ∧ c.condStartVal = true then D.conditionalInitialValues y fv k = .ok q.fv else q.fv = fv)
  next : passes.IsChain (Pass.Next k step)
  each : ∀ q ∈ passes, working D fitClip y q.fv k = .ok q.wk ∧ q.Solves M m0 w forget reg X o ∧
    (∃ xb, matVec X q.beta = .ok xb ∧ D.linkInverse k (List.zipWith (fun u e =>
      Flt.add (Flt.mul (.fin q.step) u) (Flt.mul (.fin (1 - q.step)) e)) xb q.wk.eta) = .ok q.values) ∧
    q.dev = deviance D y w q.new
  continues : ∀ q ∈ passes.dropLast, ¬ q.Ends c o n
  ends : ∀ q, passes.getLast? = some q → q.Ends c o n ∨ q.it + 1 = n

/-- The treatment of one parameter in one outer iteration. -/
structure Treatment where
  outer : ℕ
  param : ℕ
  /-- the fitted values before and after -/
  before : Fv
  after : Fv
  passes : List Pass
  /-- the last pass -/
  last : Pass

/-- What is kept of a treatment: the proposal of the last pass, in the first outer iteration always, later unless its
deviance is above the one before the treatment. -/
def Treatment.Keeps (D : DistOps) (y w : List ℝ) (a : Treatment) : Prop :=
  a.outer = 1 ∨ ¬ Flt.lt (deviance D y w a.before) a.last.dev

/-- The deviance the outer loop compares the deviance `d i` with: the one of the outer iteration before, and at the
beginning a thousand more. -/
noncomputable def lastOuter (d : ℕ → Flt) : ℕ → Flt
  | 0 => Flt.add (d 0) (.fin 1000)
  | i + 1 => d i

/-- What ends the outer loops before iteration `i + 1`: the required number of iterations is made, and the deviance hardly
changed, the limit is reached or, in `fit`, the deviance went up. -/
def OuterEnds (c : GConfig μ p) (required : ℕ) (whenRaised : Prop) (i : ℕ) (old dev : Flt) : Prop :=
  required ≤ i ∧ (CloseTo (fun a => Flt.lt a (.fin c.relTolOuter)) (fun a => Flt.lt a (.fin c.absTolOuter)) old dev ∨
    c.maxOuter ≤ i ∨ (whenRaised ∧ Flt.lt old dev))

/-- The outer loop makes `it` iterations with the deviances `d 0`, ..., `d it`. -/
structure OuterTrace (c : GConfig μ p) (required : ℕ) (whenRaised : Prop) (d : ℕ → Flt) (it : ℕ) : Prop where
  continues : ∀ i < it, ¬ OuterEnds c required whenRaised i (lastOuter d i) (d i)
  ends : OuterEnds c required whenRaised it (lastOuter d it) (d it)

/-- The iterations of a fit, from the fitted values `fv0` to the fitted values `fv1`. -/
structure FitTrace (D : DistOps) (M : MethodOps μ) (c : GConfig μ p) (method : ℕ → Option μ) (y w : List ℝ) (X : ℕ → Option Arr2)
    (forget : ℕ → Option ℝ) (reg : ℕ → Option (List Bool)) (step : ℕ → Option ℝ) (order : List ℕ) (fv0 fv1 : Fv) (it : ℕ)
    (d : ℕ → Flt) (l : List Treatment) : Prop where
  /-- the outer loop, with the deviances `d` -/
  outer : OuterTrace c (if 0 < c.prefitInitial then c.prefitInitial else c.minItOuter) True d it
  start : d 0 = deviance D y w fv0
  /-- every outer iteration treats the parameters in the given order -/
  cycle : l.map (fun a => (a.outer, a.param)) = (List.range it).flatMap fun i => order.map fun k => (i + 1, k)
  /-- its deviance is the one of the last pass for the last parameter -/
  devs : ∀ a ∈ l, order.getLast? = some a.param → d a.outer = a.last.dev
  /-- one treatment starts with the fitted values that the one before leaves -/
  first : ∀ a, l.head? = some a → a.before = fv0
  next : l.IsChain fun a b => b.before = a.after
  last : ∀ a, l.getLast? = some a → a.after = fv1
  none : l = [] → fv1 = fv0
  /-- the passes for one parameter: one in the first `prefit_initial` outer iterations, then at most `max_it_inner` -/
  inner : ∀ a ∈ l, a.passes.getLast? = some a.last ∧ ∃ m0 A f r st, method a.param = some m0 ∧
    X a.param = some A ∧ forget a.param = some f ∧
    reg a.param = some r ∧ step a.param = some st ∧ InnerTrace D M c m0 y w A f r st a.param a.outer
      (if a.outer ≤ c.prefitInitial then 1 else c.maxInner) a.before a.passes
  /-- what is kept -/
  kept : ∀ a ∈ l, a.Keeps D y w → a.after = a.before.setCol a.param (a.last.new.col a.param)
  refused : ∀ a ∈ l, ¬ a.Keeps D y w → a.after = a.before

/-! ### Update

The step size plays no role: the proposal is the solution of the regression.  The field `step` of a pass is not used. -/

/-- From one pass of `update` to the next: a proposal that raises the deviance is dropped, but neither the statistics nor
the step change. -/
structure Pass.NextUpdate (k : ℕ) (q r : Pass) : Prop where
  it : r.it = q.it + 1
  dropped : q.Raises → r.fv = q.fv ∧ r.reference = q.reference ∧ r.raised = q.raised + 1
  taken : ¬ q.Raises → r.fv = q.fv.setCol k (q.new.col k) ∧ r.reference = q.dev ∧ r.raised = q.raised
  new : r.new = q.new.setCol k r.values

/-- What ends the inner loop of `update` early: the sixth increase of the deviance, and, unless the deviance went up in
the last pass the limit allows, a deviance that hardly changes or this limit. -/
def Pass.EndsUpdate (c : GConfig μ p) (q : Pass) : Prop :=
  (q.Raises ∧ 5 ≤ q.raised) ∨ ((¬ q.Raises ∨ q.it + 1 < c.maxInner) ∧
    (CloseTo (fun a => Flt.lt a (.fin c.relTolInner)) (fun a => Flt.le a (.fin c.absTolInner)) q.reference q.dev ∨
      q.it + 1 = c.maxInner))

/-- The weighted regression of one pass with the method `m0`: the Gramians of the calls before, discounted and updated with
the new rows.  If the method computes a path, the coefficients of the pass are a row of the path. -/
def Pass.SolvesUpdate (M : MethodOps μ) (m0 : μ) (w : List ℝ) (forget : ℝ) (reg : List Bool) (X : Arr2) (x0 : Arr2) (y0 : Arr1)
    (q : Pass) : Prop :=
  ∃ m m' xg yg b, Derived M m0 m ∧ M.updateX m x0 X (wmul w q.wk.wt) forget = .ok xg ∧
    M.updateY m y0 X q.wk.wv (wmul w q.wk.wt) forget = .ok yg ∧
    (M.pathBased m = false → M.updateBeta m xg yg b reg = .ok (q.beta, m')) ∧
    (M.pathBased m = true → ∃ path b, q.beta ∈ path ∧ M.updatePath m xg yg b reg = .ok (path, m'))

/-- The treatment of parameter `k` in one outer iteration of `update`; `dev` is the deviance of fitted values. -/
structure InnerUpdateTrace (D : DistOps) (M : MethodOps μ) (c : GConfig μ p) (m0 : μ) (y w : List ℝ) (dev : Fv → Flt) (X : Arr2)
    (forget : ℝ) (reg : List Bool) (x0 : Arr2) (y0 : Arr1) (k n : ℕ) (fv : Fv) (passes : List Pass) : Prop where
  first : ∃ q, passes.head? = some q ∧ q.it = 0 ∧ q.reference = dev fv ∧ q.raised = 0 ∧ q.new = fv.setCol k q.values ∧
    q.fv = fv
  next : passes.IsChain (Pass.NextUpdate k)
  each : ∀ q ∈ passes, working D updateClip y q.fv k = .ok q.wk ∧ q.SolvesUpdate M m0 w forget reg X x0 y0 ∧
    (∃ xb, matVec X q.beta = .ok xb ∧ D.linkInverse k xb = .ok q.values) ∧ q.dev = dev q.new
  continues : ∀ q ∈ passes.dropLast, ¬ q.EndsUpdate c
  ends : ∀ q, passes.getLast? = some q → q.EndsUpdate c ∨ q.it + 1 = n

/-- The iterations of an update, from the fitted values `fv0` to the fitted values `fv1`.  `required` is the least number
of outer iterations, `schedule` the number of passes allowed in each, `x0` and `y0` the Gramians before the call. -/
structure UpdateTrace (D : DistOps) (M : MethodOps μ) (c : GConfig μ p) (method : ℕ → Option μ) (y w : List ℝ) (dev : Fv → Flt)
    (X : ℕ → Option Arr2) (forget : ℕ → Option ℝ) (reg : ℕ → Option (List Bool)) (x0 : ℕ → Option Arr2) (y0 : ℕ → Option Arr1)
    (required : ℕ) (schedule : ℕ → ℕ) (order : List ℕ) (fv0 fv1 : Fv) (it : ℕ) (d : ℕ → Flt) (l : List Treatment) :
    Prop where
  outer : OuterTrace c required False d it
  start : d 0 = dev fv0
  cycle : l.map (fun a => (a.outer, a.param)) = (List.range it).flatMap fun i => order.map fun k => (i + 1, k)
  devs : ∀ a ∈ l, order.getLast? = some a.param → d a.outer = a.last.dev
  first : ∀ a, l.head? = some a → a.before = fv0
  next : l.IsChain fun a b => b.before = a.after
  last : ∀ a, l.getLast? = some a → a.after = fv1
  none : l = [] → fv1 = fv0
  inner : ∀ a ∈ l, a.passes.getLast? = some a.last ∧ ∃ m0 A f r g h, method a.param = some m0 ∧
    X a.param = some A ∧ forget a.param = some f ∧
    reg a.param = some r ∧ x0 a.param = some g ∧ y0 a.param = some h ∧
    InnerUpdateTrace D M c m0 y w dev A f r g h a.param (schedule (a.outer - 1)) a.before a.passes
  /-- the last proposal is kept, whatever its deviance -/
  kept : ∀ a ∈ l, a.after = a.before.setCol a.param (a.last.new.col a.param)

end Ondil
