import Verif.Model.NetInitial
import Verif.Spec.Network
/-!
# Specification of the initial condition of a network
-/
namespace Verif
namespace Spec
open Net

/-- The values `ρ` are those at the last point of a simulation of a problem. -/
structure EndsAt (o : Ocp) (r : SimOut) (ρ : Sym → Rat) : Prop where
  x : r.x.getLast? = some (o.model.x.map ρ)
  y : r.y.getLast? = some (o.model.y.map ρ)
  u : r.u.getLast? = some (o.model.u.map ρ)

/-- The variables of a model with values `ρ`. -/
def valuesOf (k : SysModel) (ρ : Sym → Rat) : Condition := ⟨k.x.map ρ, k.y.map ρ, k.u.map ρ⟩

/-- Every node has a model, whose variables are variables of its problem. -/
def Posed (s : Network) : Prop :=
  ∀ r ∈ s.graph.nodes, ∃ k o, (s.heap r).model = some k ∧ (s.heap r).problem = some o ∧
    (∀ v ∈ k.x, v ∈ o.model.x) ∧ (∀ v ∈ k.y, v ∈ o.model.y) ∧ ∀ v ∈ k.u, v ∈ o.model.u

end Spec
end Verif
