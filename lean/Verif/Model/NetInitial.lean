import Verif.Model.Network
import Verif.Model.OcpSimulate
/-!
# The initial condition of a network (modelling/network/network.py)
-/
namespace Verif
namespace Net

/-- The last column of an entry, `values[:, -1]`, simulation_result.py:88-92 (casadi raises
`RuntimeError` when there is no column). -/
def lastColumn (l : List Vec) : Except Err Vec :=
  match l.getLast? with
  | none => .error .runtimeError
  | some v => .ok v

/-- Values of states, algebraic variables and controls. -/
structure Condition where
  x : Vec
  y : Vec
  u : Vec
  deriving DecidableEq, Repr

/-- `final_condition()`, simulation_result.py:83-92. -/
def finalCondition (r : SimOut) : Except Err Condition := do
  let x ← lastColumn r.x
  let y ← lastColumn r.y
  let u ← lastColumn r.u
  return ⟨x, y, u⟩

/-- `find_type_and_index(var)`, network.py:319-326: the vector of values and the positions in it. -/
def findTypeAndIndex (m : SysModel) (f : Condition) (v : Sym) : Except Err (Vec × List Nat) :=
  if findIndices [v] m.x ≠ [] then .ok (f.x, findIndices [v] m.x)
  else if findIndices [v] m.y ≠ [] then .ok (f.y, findIndices [v] m.y)
  else if findIndices [v] m.u ≠ [] then .ok (f.u, findIndices [v] m.u)
  else .error .valueError

/-- One number; the constructor `DM([...])` takes a list of numbers or of one by one matrices, for
others it raises `NotImplementedError`. -/
def scalar : Vec → Except Err Rat
  | [a] => .ok a
  | _ => .error .notImplementedError

/-- `get_variable_final_condition(final_condition, var)`, network.py:328-330, made an element of a
`DM`. -/
def finalValue (m : SysModel) (f : Condition) (v : Sym) : Except Err Rat := do
  let i ← findTypeAndIndex m f v
  let g ← gather i.1 i.2
  scalar g

/-- The entry of one node, network.py:333-352. -/
def nodeCondition (m : SysModel) (f : Condition) (k : SysModel) : Except Err Condition := do
  let x ← k.x.mapM (finalValue m f)
  let y ← k.y.mapM (finalValue m f)
  let u ← k.u.mapM (finalValue m f)
  return ⟨x, y, u⟩

/-- `node.model` of which an attribute is read. -/
def nodeModel (n : Node) : Except Err SysModel :=
  match n.model with
  | none => .error .attributeError
  | some k => .ok k

/-- Loop body of `get_initial_condition`, network.py:332-352. -/
def addCondition (m : SysModel) (f : Condition) (s : Network) (d : Dict (Option String) Condition)
    (r : Ref) : Except Err (Dict (Option String) Condition) := do
  let k ← nodeModel (s.heap r)
  let c ← nodeCondition m f k
  return d.set (s.heap r).name c

/-- `get_initial_condition(t_f)`, network.py:314-354. -/
def getInitialCondition (s : Network) (t tau : Sym) (integ : Plugin → Integrator) (fu : ControlFn)
    (tf : TfArg) : Except Err (Dict (Option String) Condition) := do
  let o ← getProblem s t tau
  let r ← o.simulate integ none fu none tf none none none [] none none
  let f ← finalCondition r
  s.graph.nodes.foldlM (addCondition o.model f s) []

end Net
end Verif
