import Verif.Model.GamlssInstances

/-!
# The order of the observations: what is meant
-/

namespace Ondil

variable {p : ℕ}

/-- Batch for batch the same observations, in another order within each batch. -/
def SameBatches (bs bs' : List (List (Obs p))) : Prop := List.Forall₂ List.Perm bs bs'

/-- No distribution parameter forgets: every entry that the option `forget` gives is zero. -/
def NoForget {μ : Type} (D : DistOps) (c : GConfig μ p) : Prop :=
  ∀ d, (c.forget.process D.nParams (.value 0)).result = .ok d → ∀ k f, d.get? k = some f → f = 0

/-- `st.t.fit` and `st.johnsonsu.fit` do not depend on the order of the sample. -/
def ScipyOracles.Symmetric (o : ScipyOracles) : Prop := ∀ l l' : List ℝ, l.Perm l' → o.fit l = o.fit l'

/-- Outside the domain of the formulas the second derivatives are not positive. -/
def Elsewhere.Concave (e : Elsewhere) : Prop := ∀ y r k, ¬ Flt.lt (.fin 0) (e.dl2 y r k)

/-- What the methods do with arrays that are not finite does not depend on the order of the rows either, an inverse Gramian of such
arrays is not a finite matrix, and methods stay the methods they are. -/
structure SymmetricElsewhere (other : MethodOps MethodState) : Prop where
  initX : ∀ m (l l' : List (Arr1 × Flt)), l.Perm l' →
    other.initX m (l.map Prod.fst) (l.map Prod.snd) 0 = other.initX m (l'.map Prod.fst) (l'.map Prod.snd) 0
  initY : ∀ m (l l' : List (Arr1 × Flt × Flt)), l.Perm l' →
    other.initY m (l.map Prod.fst) (l.map fun r => r.2.1) (l.map fun r => r.2.2) 0 =
      other.initY m (l'.map Prod.fst) (l'.map fun r => r.2.1) (l'.map fun r => r.2.2) 0
  updateX : ∀ m G (l l' : List (Arr1 × Flt)), l.Perm l' →
    other.updateX m G (l.map Prod.fst) (l.map Prod.snd) 0 = other.updateX m G (l'.map Prod.fst) (l'.map Prod.snd) 0
  updateY : ∀ m h (l l' : List (Arr1 × Flt × Flt)), l.Perm l' →
    other.updateY m h (l.map Prod.fst) (l.map fun r => r.2.1) (l.map fun r => r.2.2) 0 =
      other.updateY m h (l'.map Prod.fst) (l'.map fun r => r.2.1) (l'.map fun r => r.2.2) 0
  notFinite : ∀ X w G, other.initX .ols X w 0 = .ok G → ∀ J, mat? J G = none
  notFiniteUpdate : ∀ G X w G', other.updateX .ols G X w 0 = .ok G' → ∀ J, mat? J G' = none
  fitBeta : ∀ m G h reg r, other.fitBeta m G h reg = .ok r → (r.2 = .ols ↔ m = .ols)
  updateBeta : ∀ m G h b reg r, other.updateBeta m G h b reg = .ok r → (r.2 = .ols ↔ m = .ols)
  fitPath : ∀ m G h reg r, other.fitPath m G h reg = .ok r → (r.2 = .ols ↔ m = .ols)
  updatePath : ∀ m G h b reg r, other.updatePath m G h b reg = .ok r → (r.2 = .ols ↔ m = .ols)

end Ondil
