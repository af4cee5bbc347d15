import Verif.Spec.DistSolve
/-!
# The augmented Lagrangian of a network
-/
namespace Verif.Spec
open DistAL

/-- A term of the augmented Lagrangian that belongs to a connection. It depends on the results of the two
nodes. -/
structure NetEdge (N R K : Type) where
  source : N
  target : N
  cost : R → R → K

/-- The costs of the nodes and of the connections, for fixed multipliers and penalties. -/
structure NetCost (N R K : Type) where
  own : N → R → K
  edges : List (NetEdge N R K)

variable {N R S K : Type} [DecidableEq N] [Field K] [LinearOrder K]

/-- The augmented Lagrangian of the network: what all nodes cost and what all connections cost. -/
def NetCost.value (f : NetCost N R K) (nodes : List N) (z : N → R) : K :=
  (nodes.map fun n => f.own n (z n)).sum + (f.edges.map fun e => e.cost (z e.source) (z e.target)).sum

/-- The results with that of one node replaced. -/
def withResult (z : N → R) (n : N) (r : R) : N → R := fun m => if m = n then r else z m

/-- What node `n` minimises when the others have the results `z`: its own cost and the costs of its
connections. -/
def NetCost.nodeCost (f : NetCost N R K) (z : N → R) (n : N) (r : R) : K :=
  f.own n r + ((f.edges.filter fun e => decide (e.source = n ∨ e.target = n)).map fun e =>
    e.cost (withResult z n r e.source) (withResult z n r e.target)).sum

/-- All nodes have a result. -/
def AllSolved (nodes : List N) (last : N → Option R) (z : N → R) : Prop := ∀ m ∈ nodes, last m = some (z m)

/-- Whenever the solver of a node succeeds, it gives an admissible result that minimises the cost of the
node for the last results of the others. -/
def ExactSolver (f : NetCost N R K) (nodes : List N) (feasible : N → R → Prop)
    (solver : NodeSolver N R) : Prop :=
  ∀ n ∈ nodes, ∀ last z, AllSolved nodes last z → ∀ r, solver n last = some r →
    feasible n r ∧ ∀ r', feasible n r' → f.nodeCost z n r ≤ f.nodeCost z n r'

/-- The blocks that are visited contain nodes of the network only. -/
def BlocksWithin (nodes : List N) (blocks : List (List N)) : Prop := ∀ b ∈ blocks, ∀ n ∈ b, n ∈ nodes

/-- No connection joins two different ones of these nodes. -/
def NetCost.Apart (f : NetCost N R K) (visited : List N) : Prop :=
  ∀ e ∈ f.edges, e.source ∈ visited → e.target ∈ visited → e.source = e.target

end Verif.Spec
