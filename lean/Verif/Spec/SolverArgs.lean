import Verif.Model.SolverArgs
/-!
# What the parameters of an optimisation problem should be
-/
namespace Verif.Spec

/-- The value a parameter should have, given those `call_solver` works with. -/
def slotValue {α : Type} (c : CallArgs α) : ParSlot → Option α
  | .p i => c.p[i]?
  | .theta el i => (c.theta.get? el).bind fun v => v[i]?
  | .x0 i => c.x0[i]?
  | .lastU i => c.lastU.bind fun u => u[i]?

/-- The vector passed to the solver has as many entries as the problem has parameters, each the value
of its parameter. -/
def Placed {α : Type} (s : MethodSetup α) (c : CallArgs α) : Prop :=
  c.par.length = s.nlpParameters.length ∧
  ∀ (k : Nat) slot, s.nlpParameters[k]? = some slot → c.par[k]? = slotValue c slot

/-- The values given to the call, where there are any, have the sizes of the model. -/
structure SizedArgs {α : Type} (s : MethodSetup α) (a : SolveArgs α) : Prop where
  p : ∀ v, a.p = some v → v.length = s.nP
  theta : ∀ th, a.theta = some th → ∀ el < s.elements, ∃ v, th.get? el = some v ∧
    v.length = s.nTheta
  lastU : ∀ u, s.problemLastU = some u → u.length = s.nU

end Verif.Spec
