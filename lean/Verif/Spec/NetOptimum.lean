import Verif.Spec.NetDescent
import Mathlib.Algebra.Module.LinearMap.Defs
import Mathlib.Algebra.Order.Ring.Abs
/-!
# The problem of a network
-/
namespace Verif.Spec
open DistAL

/-- One coupling condition, for one variable of a connection at one point: a value computed from the
result of one node and a value computed from that of another have to agree. With its multiplier and its
penalty. -/
structure CouplingCondition (N E K : Type) [Field K] [AddCommGroup E] [Module K E] where
  source : N
  target : N
  output : E →ₗ[K] K
  input : E →ₗ[K] K
  nu : K
  mu : K

/-- The nodes of a network have these costs and coupling conditions. -/
structure CoupledCosts (N E K : Type) [Field K] [AddCommGroup E] [Module K E] where
  own : N → E → K
  conditions : List (CouplingCondition N E K)

variable {N E K : Type} [DecidableEq N] [Field K] [LinearOrder K] [AddCommGroup E] [Module K E]

omit [DecidableEq N] [LinearOrder K] in
/-- By how much a coupling condition is violated. -/
def CouplingCondition.error (c : CouplingCondition N E K) (z : N → E) : K :=
  c.input (z c.target) - c.output (z c.source)

/-- The augmented Lagrangian of the network. -/
def CoupledCosts.lagrangian (p : CoupledCosts N E K) : NetCost N E K where
  own := p.own
  edges := p.conditions.map fun c =>
    { source := c.source
      target := c.target
      cost := fun x y => c.nu * (c.input y - c.output x) +
        c.mu / 2 * ((c.input y - c.output x) * (c.input y - c.output x)) }

/-- What all nodes cost, without multipliers and penalties. -/
def CoupledCosts.cost (p : CoupledCosts N E K) (nodes : List N) (z : N → E) : K :=
  (nodes.map fun n => p.own n (z n)).sum

/-- The results are admissible for the problem of the network: each for its node, and they agree. -/
structure CoupledCosts.Admissible (p : CoupledCosts N E K) (nodes : List N) (feasible : N → E → Prop)
    (w : N → E) : Prop where
  nodes : ∀ n ∈ nodes, feasible n (w n)
  agree : ∀ c ∈ p.conditions, c.error w = 0

/-- The admissible results of the nodes form convex sets, the costs of the nodes are convex on them, the
penalties are not negative, and the conditions are between nodes of the network. -/
structure CoupledCosts.Convex (p : CoupledCosts N E K) (nodes : List N) (feasible : N → E → Prop) :
    Prop where
  sets : ∀ n ∈ nodes, ∀ x y, feasible n x → feasible n y → ∀ t : K, 0 ≤ t → t ≤ 1 →
    feasible n (x + t • (y - x))
  costs : ∀ n ∈ nodes, ∀ x y, feasible n x → feasible n y → ∀ t : K, 0 ≤ t → t ≤ 1 →
    p.own n (x + t • (y - x)) ≤ p.own n x + t * (p.own n y - p.own n x)
  penalties : ∀ c ∈ p.conditions, 0 ≤ c.mu
  within : ∀ c ∈ p.conditions, c.source ∈ nodes ∧ c.target ∈ nodes

end Verif.Spec
