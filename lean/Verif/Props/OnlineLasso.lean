import Verif.Model.OnlineLasso

/-!
# C75: `OnlineLasso`
-/

namespace Ondil

variable {p : ℕ} {fi : Bool}

/-- **C75 fails.** `get_params` of every `OnlineLasso` raises `AttributeError`. -/
theorem C75_get_params_fails (a : LassoArgs p) : getParams lassoSignature (a.attributes fi) = .error .attributeError := rfl

theorem fitContext_error {q : ℕ} {σ : Type} {signature : List String} {a : Attributes p q} {e : PyErr}
    (h : getParams signature a = .error e) (body : Py σ Unit) (s : σ) : fitContext signature a body s = (.error e, s) := by
  unfold fitContext
  rw [h]
  rfl

/-- **C75 fails.** Every call of `fit`, `update` and `partial_fit` of an `OnlineLasso` raises `AttributeError` and leaves
the object unchanged, whatever the arguments of the constructor, the data and the state. -/
theorem C75_every_call_fails (a : LassoArgs p) (perm : ℕ → ℕ → List (Fin (designDim p fi))) (call : EstimatorCall p)
    (s : LM p fi) : estimatorCall lassoSignature (a.config fi) perm call s = (.error .attributeError, s) := by
  have h : getParams lassoSignature (a.config fi).attributes = .error .attributeError := rfl
  cases call with
  | fit data => exact fitContext_error h _ _
  | update data => exact fitContext_error h _ _
  | partialFit data =>
    simp only [estimatorCall]
    rw [Py.bind_self]
    split
    · exact fitContext_error h _ _
    · exact fitContext_error h _ _

/-- **C75 fails.** After any sequence of calls, an `OnlineLasso` is not fitted and `predict` raises. -/
theorem C75_never_fitted_fails (a : LassoArgs p) (perm : ℕ → ℕ → List (Fin (designDim p fi)))
    (calls : List (EstimatorCall p)) :
    let s := calls.foldl (fun s call => (estimatorCall lassoSignature (a.config fi) perm call s).2) (LM.new p fi)
    s.isFitted = false ∧ ∀ X, s.predict X = .error .notFitted := by
  have h : calls.foldl (fun s call => (estimatorCall lassoSignature (a.config fi) perm call s).2) (LM.new p fi) = LM.new p fi := by
    induction calls with
    | nil => rfl
    | cons call calls ih =>
      rw [List.foldl_cons, C75_every_call_fails]
      exact ih
  intro s
  have hs : s = LM.new p fi := h
  rw [hs]
  exact ⟨rfl, fun X => rfl⟩

/-- **C75 (what holds).** The estimator that `OnlineLasso` stands for, an `OnlineLinearModel` with the same method object,
has all its parameters, and its methods are the undecorated ones.  Missing: the same for `OnlineLasso`. -/
theorem C75_linear_model_partial (c : LMConfig p fi) (perm : ℕ → ℕ → List (Fin (designDim p fi))) (data : List (Obs p)) :
    getParams linearSignature c.attributes = .ok [("forget", .real c.forget), ("scale_inputs", .scale c.scaleInputs),
      ("fit_intercept", .bool fi), ("regularize_intercept", .bool c.regularizeIntercept), ("method", .method c.method),
      ("ic", .ic c.ic)] ∧
    estimatorCall linearSignature c perm (.fit data) = LM.fit c perm data ∧
    estimatorCall linearSignature c perm (.update data) = LM.update c perm data ∧
    estimatorCall linearSignature c perm (.partialFit data) = LM.partialFit c perm data := by
  refine ⟨rfl, rfl, rfl, rfl⟩

/-- The default arguments, online_lasso.py:12-25. -/
noncomputable def lassoArgsDefault (p : ℕ) : LassoArgs p :=
  { forget := 0, scaleInputs := .all, regularizeIntercept := false, ic := .bic, earlyStop := 0, lower := none, upper := none,
    lambdaN := 100, lambdaEps := 1 / 10000, startValue := .previousFit, tolerance := 1 / 10000, maxIterations := 1000,
    selection := .cyclic }

/-- The parameters of the default object are valid, so only the missing attributes are to blame. -/
example : ((lassoArgsDefault 2).config true).Valid := by
  simp [LMConfig.Valid, lassoArgsDefault, LassoArgs.config]

end Ondil
