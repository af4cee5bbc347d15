import Verif.Model.Network
import Verif.Model.Relax
/-!
# Nodes of the distributed method: the coupling variables

`_include_exogenous_variables` of distributedaugmetedlagrangian.py for one node. External: the
polynomial of an approximation as an expression of its parameters (its value is in `Model/Poly.lean`
and `Model/DistAL.lean`). `SX.sym` makes symbols nobody else has; the model takes them from a counter.
-/
namespace Verif.DistPrepare
open Verif Net

/-- The problem of a node and its entries of `relax_dict`, distributedaugmetedlagrangian.py:102-110;
the entry `"u"` is never used. -/
structure Prep where
  problem : Ocp
  next : Sym
  algInd : List Nat := []
  yRelax : List Nat := []
  eqInd : List Nat := []
  deriving DecidableEq

/-- The options used: the degree, and `debug_skip_replace_by_approximation`. `approx` stands for the
polynomial of `create_polynomial_approximation` in the model time of the node. -/
structure Opts where
  degree : Nat
  approx : List Sym → Expr
  skip : Bool := false

/-- A method of the problem, `node.problem.f(...)`. -/
def onProblem {α : Type} (c : Py Ocp α) : Py Prep α := fun s =>
  ((c s.problem).1, { s with problem := (c s.problem).2 })

/-- `_create_variable_approx(var, tau)` for one variable, distributedaugmetedlagrangian.py:181-188:
the approximation and its parameters. -/
def approxOne (o : Opts) : Py Prep (Expr × List Sym) := fun s =>
  let par := List.range' s.next o.degree
  (.ok (o.approx par, par), { s with next := s.next + o.degree })

/-- The loops over the elements of a variable, distributedaugmetedlagrangian.py:125-132 and 158-165:
the approximations, and all parameters one after the other. -/
def approxAll (o : Opts) : Nat → Py Prep (List Expr × List Sym)
  | 0 => Py.pure ([], [])
  | n + 1 => do
    let a ← approxOne o
    let r ← approxAll o n
    Py.pure (a.1 :: r.1, a.2 ++ r.2)

/-- What takes the place of the variables of the other node: the approximations, or with
`debug_skip_replace_by_approximation` the variables themselves. -/
def other (o : Opts) (vars : List Sym) (appr : List Expr) : List Expr :=
  if o.skip then vars.map .sym else appr

/-- The body of the loop over the predecessors, distributedaugmetedlagrangian.py:113-148. -/
def bindInput (o : Opts) (e : Edge) : Py Prep Unit := do
  let a ← approxAll o e.y.length
  Py.modify fun s => { s with
    algInd := s.algInd ++ List.range' s.problem.model.alg.length e.u.length }
  onProblem (Ocp.connect e.u (other o e.y a.1) false)
  onProblem (Ocp.onModel (SysModel.includeTheta a.2))
  Py.modify fun s => { s with yRelax := s.yRelax ++ findIndices e.u s.problem.model.y }

/-- The body of the loop over the successors, distributedaugmetedlagrangian.py:150-179. Simplification:
vectors of different sizes always raise; CasADi would repeat a scalar. -/
def bindOutput (o : Opts) (e : Edge) : Py Prep Unit := do
  let a ← approxAll o e.u.length
  Py.modify fun s => { s with
    eqInd := s.eqInd ++ List.range' s.problem.gEq.length e.y.length }
  Py.raiseIf (decide (e.u.length ≠ e.y.length)) .runtimeError
  onProblem (Ocp.includeTimeEquality
    (List.zipWith (fun a b => Expr.sub a (.sym b)) (other o e.u a.1) e.y) "default")
  onProblem (Ocp.onModel (SysModel.includeTheta a.2))

/-- `_include_exogenous_variables()` for one node with the connections `ins` from its predecessors and
`outs` to its successors, distributedaugmetedlagrangian.py:112-179. -/
def includeAll (o : Opts) (ins outs : List Edge) : Py Prep Unit := do
  Py.forEach ins (bindInput o)
  Py.forEach outs (bindOutput o)

/-- The node before it. -/
def start (problem : Ocp) (next : Sym) : Prep where
  problem := problem
  next := next

/-- The arguments of the local method, distributedaugmetedlagrangian.py:690-694: the relaxations of
`AugmentedLagrangian`. -/
def relaxArgs (s : Prep) : Relax.Args where
  algIndex := some s.algInd
  algVarIndex := some s.yRelax
  timeIndex := some s.eqInd

/-- What `solve` does with the problem of a node: the coupling variables,
distributedaugmetedlagrangian.py:380, and the relaxations in the constructor of the local method,
distributedaugmetedlagrangian.py:686-694 and augmented_lagrangian.py:214-221. Simplification: the
parameters of the multipliers, which the constructor adds after that, are left out. -/
def prepare (o : Opts) (mu0 : Rat) (ins outs : List Edge) (problem : Ocp) (next : Sym) :
    Except Err Relax :=
  match includeAll o ins outs (start problem next) with
  | (.error e, _) => .error e
  | (.ok _, s) =>
    match Relax.relax mu0 (relaxArgs s) (Relax.start s.problem s.next) with
    | (.error e, _) => .error e
    | (.ok _, r) => .ok r

end Verif.DistPrepare
