import Verif.Model.DistAL
/-!
# The solution of a network by the distributed augmented Lagrangian

`DistributedAugmentedLagrangian.solve` after the preparation of the nodes, and the result it returns
(methods/base/distributed_optimization_result.py). External: the solution of a node problem, the update of the
attributes of the local methods, and the random choices.
-/
namespace Verif.DistAL
open Verif

/-- What `solve` uses. `S` stands for the attributes of all local methods (multipliers, penalties),
`R` for the result of a node. -/
structure Setup (N R S K : Type) where
  /-- the nodes, in the order of the network -/
  nodes : List N
  blocks : List (List N)
  /-- `block_choice_method` -/
  method : String
  /-- what the random functions give in inner iteration `k` -/
  choices : Nat → List (List N)
  sample : Nat → List (List N)
  distributed : Bool
  solver : S → NodeSolver N R
  /-- `result.objective_opt_problem` -/
  objective : R → K
  /-- `_update_parameters(result_dict)`: the errors of the nodes with a result -/
  update : S → (N → Option R) → Except Err (List (N × List K) × S)
  maxOuter : Nat
  maxInner : Nat
  maxInnerFirst : Option Nat
  innerTol : K
  absTol : K

/-- The variables of the loops, distributedaugmetedlagrangian.py:387-396. `last` stands for
`result_dict` and `_last_result`, which are the same object after the first inner iteration. -/
structure Loop (N R S K : Type) where
  methods : S
  last : N → Option R
  errors : List (N × List K) := []
  innerIt : Int := -1
  outerIt : Int := -1
  total : Nat := 0
  blockIterations : Nat := 0

variable {N R S K : Type} [DecidableEq N] [Field K] [LinearOrder K]

/-- `_solve_node_problems(blocks)`, distributedaugmetedlagrangian.py:283-289. -/
def Setup.solveNodes (c : Setup N R S K) (s : S) (blocks : List (List N)) (last : N → Option R) :
    N → Option R :=
  if c.distributed then solveDistributed (c.solver s) blocks last
  else solveSerial (c.solver s) blocks last

/-- `sum(result.objective_opt_problem for result in result_dict.values())`,
distributedaugmetedlagrangian.py:422-425 and 476-478. -/
def Setup.total (c : Setup N R S K) (last : N → Option R) : K :=
  ((c.nodes.filterMap last).map c.objective).sum

/-- The body of an inner iteration up to the stopping test, distributedaugmetedlagrangian.py:402-425. -/
def Setup.innerStep (c : Setup N R S K) (k : Nat) (l : Loop N R S K) : Except Err (Loop N R S K) := do
  let it ← blockIterator c.method c.blocks (c.choices l.total) (c.sample l.total)
  .ok { l with
    last := c.solveNodes l.methods it l.last
    innerIt := k
    total := l.total + 1
    blockIterations := l.blockIterations + c.blocks.length }

/-- The loop of inner iterations, distributedaugmetedlagrangian.py:402-435, from iteration `k` on, with
`n` iterations left. -/
def Setup.inner (c : Setup N R S K) : Nat → Nat → Option K → Loop N R S K →
    Except Err (Loop N R S K)
  | 0, _, _, l => .ok l
  | n + 1, k, lastObjective, l => do
    let l ← c.innerStep k l
    if innerStop c.innerTol lastObjective (c.total l.last) then .ok l
    else Setup.inner c n (k + 1) (some (c.total l.last)) l

/-- The body of an outer iteration, distributedaugmetedlagrangian.py:397-455: the largest error too. -/
def Setup.outerStep (c : Setup N R S K) (outer : Nat) (l : Loop N R S K) :
    Except Err (Loop N R S K × K) := do
  let l ← c.inner (innerLimit c.maxInner c.maxInnerFirst outer) 0 none { l with outerIt := outer }
  let u ← c.update l.methods l.last
  let e ← maxStar (u.1.flatMap Prod.snd)
  .ok ({ l with methods := u.2, errors := u.1 }, e)

/-- The loop of outer iterations, distributedaugmetedlagrangian.py:397-473, with `n` iterations
left. -/
def Setup.outer (c : Setup N R S K) : Nat → Nat → Loop N R S K → Except Err (Loop N R S K)
  | 0, _, l => .ok l
  | n + 1, k, l => do
    let r ← c.outerStep k l
    if r.2 < c.absTol then .ok r.1 else Setup.outer c n (k + 1) r.1

/-- `DistibutedOptimizationResult`, distributed_optimization_result.py:13-33, without the times. -/
structure Solution (N R K : Type) where
  results : N → Option R
  objective : K
  inner : Int
  outer : Int
  blockIterations : Nat
  violations : List (List K)

/-- The constructor of the result, distributedaugmetedlagrangian.py:474-488 and
distributed_optimization_result.py:22-31. -/
def Setup.finish (c : Setup N R S K) (l : Loop N R S K) : Except Err (Solution N R K) :=
  if l.errors.isEmpty then .error .valueError
  else .ok
    { results := l.last
      objective := c.total l.last
      inner := l.innerIt
      outer := l.outerIt
      blockIterations := l.blockIterations
      violations := l.errors.map Prod.snd }

/-- `solve()`, distributedaugmetedlagrangian.py:386-488, with the attributes of the local methods after
their construction: a first call, `_last_result` is empty. -/
def Setup.solve (c : Setup N R S K) (s : S) : Except Err (Solution N R K) := do
  let l ← c.outer c.maxOuter 0 { methods := s, last := fun _ => none }
  c.finish l

end Verif.DistAL
