import Verif.Model.AugLag
import Verif.Model.Util
import Mathlib.Order.WithBot
import Mathlib.Data.List.Dedup
/-!
# Distributed augmented Lagrangian

distributedaugmetedlagrangian.py and bipartite_jacobi_admm.py. The blocks are in `Model/Blocks.lean`,
the local methods in `Model/Relax.lean` and `Model/AugLag.lean`. External: the solution of a node
problem and the random choices.
-/
namespace Verif.DistAL
open Verif

/-! ## Exchanged trajectories -/

/-- A connection as seen from a node: the variables of the neighbour, the vector of the neighbour's
model they are looked up in, and the neighbour's last result (position in that vector, element,
collocation point). -/
structure Link (K : Type) where
  vars : List Sym
  vector : List Sym
  traj : Nat → Nat → Nat → K

/-- The loop body of `_get_node_theta` for one connection,
distributedaugmetedlagrangian.py:264-268 and 275-279: variable by variable, all points of the element. -/
def linkTheta {K : Type} (degree : Nat) (el : Nat) (l : Link K) : List K :=
  (findIndices l.vars l.vector).flatMap fun ind => (List.range degree).map fun j => l.traj ind el j

/-- `_get_node_theta(node)[el]`, distributedaugmetedlagrangian.py:257-281: predecessors, then
successors. bipartite_jacobi_admm.py:83-117 is the same loop with two links for each connection. -/
def nodeTheta {K : Type} (degree : Nat) (links : List (Link K)) (el : Nat) : List K :=
  links.flatMap (linkTheta degree el)

/-- Number of variables of the connections before connection `a`. -/
def offset {K : Type} (links : List (Link K)) (a : Nat) : Nat :=
  ((links.take a).map fun l => l.vars.length).sum

/-- The approximation of variable `k` of connection `a` in `_include_exogenous_variables`,
distributedaugmetedlagrangian.py:112-148: one approximation of size one for each variable, their
parameters one after the other in `theta`. -/
def approximation {K : Type} [Field K] (roots : List K) (degree : Nat) (links : List (Link K))
    (theta : List K) (a k : Nat) (tau : K) : Option K :=
  (polyApproxUtil roots 1 degree false
    (fun _ j => theta[(offset links a + k) * degree + j]?.getD 0) tau)[0]?

/-- The approximation of variable `k` of connection `a` in bipartite_jacobi_admm.py:26-81: one
approximation for all variables of the connection, its parameters column by column in `theta`. -/
def approximationBipartite {K : Type} [Field K] (roots : List K) (degree : Nat)
    (links : List (Link K)) (theta : List K) (a k : Nat) (tau : K) : Option K :=
  let n := (links[a]?.map fun l => l.vars.length).getD 0
  (polyApproxUtil roots n degree false
    (fun i j => theta[offset links a * degree + (j * n + i)]?.getD 0) tau)[k]?

/-! ## Solving the nodes -/

/-- The solution of a node problem, given the last results of all nodes; `none` when the solver does
not succeed. -/
abbrev NodeSolver (N R : Type) := N → (N → Option R) → Option R

/-- `self._last_result[node] = result` if `result.success`. -/
def store {N R : Type} [DecidableEq N] (last : N → Option R) (n : N) (r : Option R) :
    N → Option R :=
  fun m => if m = n then r.orElse fun _ => last m else last m

/-- `_solve_node_problems_serial(blocks)`, distributedaugmetedlagrangian.py:291-313: the last results
after it. -/
def solveSerial {N R : Type} [DecidableEq N] (solve : NodeSolver N R) (blocks : List (List N))
    (last : N → Option R) : N → Option R :=
  blocks.flatten.foldl (fun last n => store last n (solve n last)) last

/-- `_solve_node_problems_distributed(blocks)`, distributedaugmetedlagrangian.py:315-352, and the
update of the results in `solve`: all nodes use the last results from before. -/
def solveDistributed {N R : Type} [DecidableEq N] (solve : NodeSolver N R) (blocks : List (List N))
    (last : N → Option R) : N → Option R :=
  blocks.flatten.foldl (fun new n => store new n (solve n last)) last

/-- `_block_iterator`, distributedaugmetedlagrangian.py:364-377. `choices` and `sample` stand for the
functions of `random` applied to the blocks. -/
def blockIterator {N : Type} (method : String) (blocks choices sample : List (List N)) :
    Except Err (List (List N)) :=
  if method = "cyclic" then .ok blocks
  else if method = "choices" then .ok choices
  else if method = "sample" then .ok sample
  else .error .valueError

/-! ## Inner iterations -/

/-- `_number_of_inner_iterations(outer)`, distributedaugmetedlagrangian.py:354-362. -/
def innerLimit (maxInner : Nat) (maxInnerFirst : Option Nat) (outer : Nat) : Nat :=
  match maxInnerFirst with
  | some first => if outer = 0 then max maxInner first else maxInner
  | none => maxInner

/-- `objective > (1 - inner_loop_tol) * last_objective`, distributedaugmetedlagrangian.py:429-432,
with `none` for an infinite last objective: then the product is infinite, not a number or, for a
tolerance above one, minus infinity. -/
def innerStop {K : Type} [Field K] [LinearOrder K] (tol : K) (last : Option K) (objective : K) :
    Bool :=
  match last with
  | none => decide (1 < tol)
  | some l => decide ((1 - tol) * l < objective)

/-- The loop of inner iterations, distributedaugmetedlagrangian.py:402-435: `objective k` is the
objective after iteration `k`. The result is the number of iterations. -/
def innerLoop {K : Type} [Field K] [LinearOrder K] (tol : K) (objective : Nat → K) :
    Nat → Nat → Option K → Nat
  | 0, k, _ => k
  | n + 1, k, last =>
      if innerStop tol last (objective k) then k + 1
      else innerLoop tol objective n (k + 1) (some (objective k))

/-- The number of inner iterations in outer iteration `outer`. -/
def innerIterations {K : Type} [Field K] [LinearOrder K] (maxInner : Nat)
    (maxInnerFirst : Option Nat) (tol : K) (outer : Nat) (objective : Nat → K) : Nat :=
  innerLoop tol objective (innerLimit maxInner maxInnerFirst outer) 0 none

/-! ## Primal-dual penalties -/

/-- The data of one external variable, `ALExogeunousData`, augmented_lagrangian.py:90-92, with the
data of the same variable at the last call. -/
structure Exogenous (K : Type) where
  block : Nat
  data : List K
  previous : List K

variable {K : Type} [Field K] [LinearOrder K]

/-- The dual residual of `compute_primal_dual`, augmented_lagrangian.py:698-713, on the data of the
inputs. -/
def dualResidual (own : Nat) (ins : List (Exogenous K)) : WithBot K :=
  ins.foldl (fun s d => if d.block < own then s
    else max s (AugLag.maxAbs (List.zipWith (· - ·) d.data d.previous) : K)) ⊥

/-- `compute_primal_dual`, augmented_lagrangian.py:684-716: the primal and the dual residual. `ins` is
`none` in the first call. The new multipliers are those of `AugLag.computeNu`. -/
def primalDual (block : Option Nat) (error : List K) (ins : Option (List (Exogenous K))) :
    Except Err (K × WithBot K) :=
  match block with
  | none => .error .valueError
  | some b => .ok (AugLag.maxAbs error, (ins.map (dualResidual b)).getD ⊥)

/-- `max(*l)` of scalars: with one argument Python iterates over it, which CasADi forbids, with none
it raises too. -/
def maxStar {α : Type} [LinearOrder α] : List α → Except Err α
  | [] => .error .typeError
  | [_] => .error .exception
  | a :: b :: l => .ok ((b :: l).foldl max a)

/-- `gamma * s` for a positive `gamma`. -/
def scale (gamma : K) (s : WithBot K) : WithBot K := s.map (gamma * ·)

/-- The rule of `_compute_primal_dual_mu`, distributedaugmetedlagrangian.py:500-510. -/
def balance (beta betaDecrease gamma mu r : K) (s : WithBot K) : K :=
  if scale gamma s < (r : WithBot K) then beta * mu
  else if ((gamma * r : K) : WithBot K) < s then betaDecrease⁻¹ * mu
  else mu

/-- `_compute_primal_dual_mu(mu, r_k_list, s_k_list)`, distributedaugmetedlagrangian.py:495-510. -/
def primalDualMu (beta betaDecrease gamma mu : K) (r : List K) (s : List (WithBot K)) :
    Except Err K := do
  let r₁ ← maxStar r
  let s₁ ← maxStar s
  .ok (balance beta betaDecrease gamma mu r₁ s₁)

/-- The primal-dual branch of `_update_parameters_serial`, distributedaugmetedlagrangian.py:624-646:
`mus` are the penalties of the nodes, of which only the first entry is read; the result is the new
penalty of all nodes. -/
def updatePrimalDual (beta betaDecrease gamma : K) (mus : List K) (r : List K)
    (s : List (WithBot K)) : Except Err K :=
  match mus.dedup with
  | [] => .error .keyError
  | [mu] => primalDualMu beta betaDecrease gamma mu r s
  | _ => .error .valueError

/-! ## Updates of all nodes -/

/-- `update_parameters` of a node with its data. The state after an exception is dropped. -/
def runUpdate (n : Py (AugLag.St K) (List K) × AugLag.St K) : Except Err (List K × AugLag.St K) :=
  match n.1 n.2 with
  | (.ok e, s) => .ok (e, s)
  | (.error e, _) => .error e

/-- `_update_parameters_serial` for a rule other than the primal-dual one,
distributedaugmetedlagrangian.py:647-661: `update_parameters` of one node after the other. A node is
its `update_parameters` with the data of the network, and the attributes of its method. -/
def updateSerial (nodes : List (Py (AugLag.St K) (List K) × AugLag.St K)) :
    Except Err (List (List K × AugLag.St K)) :=
  nodes.mapM runUpdate

/-- Python's `max(l)`. -/
def largest : List K → Except Err K
  | [] => .error .valueError
  | m :: l => .ok (l.foldl max m)

/-- `max_mu * DM.ones(mu.shape)`, distributedaugmetedlagrangian.py:612. -/
def levelled (top : K) (n : List K × AugLag.St K) : List K × AugLag.St K :=
  (n.1, { n.2 with mu := n.2.mu.map fun _ => top })

/-- `_update_parameters_distributed` for a rule other than the primal-dual one,
distributedaugmetedlagrangian.py:554-617: every node is updated in its process, then all entries of
all penalties become the largest one. -/
def updateDistributed (nodes : List (Py (AugLag.St K) (List K) × AugLag.St K)) :
    Except Err (List (List K × AugLag.St K)) := do
  let r ← updateSerial nodes
  let tops ← r.mapM fun n => largest n.2.mu
  let top ← largest tops
  .ok (r.map (levelled top))

end Verif.DistAL
