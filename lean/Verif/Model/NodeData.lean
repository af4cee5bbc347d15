import Verif.Model.DistAL
import Verif.Model.OptResult
/-!
# Distributed augmented Lagrangian: what a node is told about its neighbours

The values of the coupled variables given to the problem of a node as time-varying parameters, and
the data for the dual residual. The results are those of `Model/OptResult.lean`.
-/
namespace Verif.DistAL
open Verif

/-- A connection with what is known about the neighbour: the coupled variables, the vector of the
neighbour's model they are looked up in (`"y"` of a predecessor, `"u"` of a successor), the block of
the neighbour, its last result and the guess of its problem for that vector. -/
structure Neighbour where
  vars : List Sym
  vector : List Sym
  kind : String
  block : Nat
  last : Option OptResult := none
  guess : Option (List Rat) := none

/-- `_get_variable_last_result(node, variable_type, index)` for one index,
distributedaugmetedlagrangian.py:190-218: the last result, else the guess, else zeros. -/
def lastValues (degree elements : Nat) (n : Neighbour) (index : Nat) :
    Except Err (List (List Rat)) :=
  match n.last with
  | some r => r.getVariable n.kind index
  | none => match n.guess with
    | some g => (List.range elements).mapM fun _ => (List.range degree).mapM fun _ => entryOf g index
    | none => .ok (List.replicate elements (List.replicate degree 0))

/-- `data[i] = vertcat(data[i], *values[i])` for all elements, distributedaugmetedlagrangian.py:267-268
and 278-279. Entry `i` of the list is `data[i]`; a missing one is empty (`defaultdict(DM)`). -/
def appendData (elements : Nat) (data : List (List Rat)) (values : List (List Rat)) :
    Except Err (List (List Rat)) :=
  (List.range elements).mapM fun i =>
    match values[i]? with
    | some v => .ok (data[i]?.getD [] ++ v)
    | none => .error .indexError

/-- The variables of the connections in the order of the loops, each as its connection and its
position in the vector of the neighbour. -/
def coupled (ns : List Neighbour) : List (Neighbour × Nat) :=
  ns.flatMap fun n => (findIndices n.vars n.vector).map fun i => (n, i)

/-- `_get_node_theta(node)`, distributedaugmetedlagrangian.py:257-281, for the connections with the
predecessors followed by those with the successors. -/
def thetaData (degree elements : Nat) (ns : List Neighbour) : Except Err (List (List Rat)) :=
  (coupled ns).foldlM (init := []) fun data ni => do
    let values ← lastValues degree elements ni.1 ni.2
    appendData elements data values

/-- The connection as one of `Model/DistAL.lean`, for the places of its variables in `theta`. -/
def Neighbour.slot (n : Neighbour) : Link Rat where
  vars := n.vars
  vector := n.vector
  traj := fun _ _ _ => 0

/-- `_get_block_number(node)`, distributedaugmetedlagrangian.py:220-224. -/
def blockNumber {N : Type} [DecidableEq N] : List (Nat × List N) → N → Except Err Nat
  | [], _ => .error .valueError
  | (b, nodes) :: blocks, n => if n ∈ nodes then .ok b else blockNumber blocks n

/-- `data[...][vector[ind].name()] = {...}`, distributedaugmetedlagrangian.py:237-240 and 250-253. -/
def setEntry (nm : Sym → String) (data : Dict String (Nat × List (List Rat)))
    (ni : Neighbour × Nat) (values : List (List Rat)) :
    Except Err (Dict String (Nat × List (List Rat))) :=
  match ni.1.vector[ni.2]? with
  | some v => .ok (data.set (nm v) (ni.1.block, values))
  | none => .error .runtimeError

/-- One half of `_get_node_exogenous(node)`, distributedaugmetedlagrangian.py:228-240 for the
predecessors, 242-253 for the successors: the data of the coupled variables by the names of the
variables. -/
def exogenousData (nm : Sym → String) (degree elements : Nat) (ns : List Neighbour) :
    Except Err (Dict String (Nat × List (List Rat))) :=
  (coupled ns).foldlM (init := []) fun data ni => do
    let values ← lastValues degree elements ni.1 ni.2
    setEntry nm data ni values

/-- The body of the loop for the dual residual, augmented_lagrangian.py:703-712. -/
def dualStep (own : Nat) (old : Dict String (Nat × List (List Rat))) (s : WithBot Rat)
    (kv : String × (Nat × List (List Rat))) : Except Err (WithBot Rat) :=
  if kv.2.1 < own then .ok s
  else match old.get? kv.1 with
    | none => .error .keyError
    | some prev => match subColumns kv.2.2.flatten prev.2.flatten with
      | .error e => .error e
      | .ok d => .ok (max s ((AugLag.maxAbs d : Rat) : WithBot Rat))

/-- The dual residual, augmented_lagrangian.py:700-712, from the data of this call and of the last
one; without data of a last call it is minus infinity. -/
def dualOf (own : Nat) (new : Dict String (Nat × List (List Rat)))
    (old : Option (Dict String (Nat × List (List Rat)))) : Except Err (WithBot Rat) :=
  match old with
  | none => .ok ⊥
  | some old => new.foldlM (dualStep own old) ⊥

end Verif.DistAL
