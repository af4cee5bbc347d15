import Verif.Model.Intermediary
import Verif.Model.NodeData
/-!
# Result of an intermediary node

`IntermediaryNodeSolutionMethod.create_optimization_result` and the calls of the distributed method on an
intermediary node.
-/
namespace Verif.Intermediary
open Verif Verif.AugLag Verif.DistAL

/-- CasADi `horzsplit(row, n)` of a matrix of one row: pieces of `n` columns, the last one may be
shorter. -/
def pieces (n : Nat) (row : List Rat) : List (List Rat) :=
  (List.range ((row.length + n - 1) / n)).map fun i => (row.drop (i * n)).take n

/-- `[horzsplit(element_values, 1) for element_values in horzsplit(raw_solution_dict["x"], degree)]`,
intermediary_node_solution_method.py:204-207 and 210-213: a matrix of one row and one column is the list
of its entry. -/
def perElement (degree : Nat) (x : List Rat) : List (List (List Rat)) :=
  (pieces degree x).map fun e => e.map fun v => [v]

/-- The names in the result, intermediary_node_solution_method.py:195-201. -/
structure Labels where
  x : List String := []
  y : List String
  u : List String
  thetaOpt : List String := []

/-- `create_optimization_result(raw_solution_dict, p, theta)`,
intermediary_node_solution_method.py:177-220, for the values `x` of `raw_solution_dict["x"]`. The
attributes that are not set keep the values of a new result, optimizationresult.py:36-59. -/
def result (o : Opts Rat) (names : Labels) (x : List Rat) : OptResult where
  finiteElements := o.elements
  degreeControl := o.degree
  tf := o.tf
  breakpoints := []
  xNames := names.x
  yNames := names.y
  uNames := names.u
  thetaOptNames := names.thetaOpt
  x := ⟨[], []⟩
  y := ⟨perElement o.degree x, (List.range o.elements).map fun el => (List.range o.degree).map (o.timeNu el)⟩
  u := ⟨perElement o.degree x, (List.range o.elements).map fun el => (List.range o.degree).map (o.timeNu el)⟩
  thetaOpt := []
  other := []

/-- One solve by the distributed method, distributedaugmetedlagrangian.py:296-312: the values of the
neighbours, then `solve`, intermediary_node_solution_method.py:160-175. The value found and the result;
the result is always a success, so it becomes the last one of the node. -/
def solveNode (o : Opts Rat) (names : Labels) (ns : List Neighbour) (s : St Rat) :
    Except Err (List Rat × OptResult) := do
  let theta ← thetaData o.degree o.elements ns
  let x ← solve o theta none s
  .ok (x, result o names x)

/-- One update by the distributed method, distributedaugmetedlagrangian.py:651-660, with the last value
found. -/
def updateNode (o : Opts Rat) (ns : List Neighbour) (x : List Rat) : Py (St Rat) (List Rat) := do
  let theta ← Py.lift (thetaData o.degree o.elements ns)
  updateParameters o theta none x

end Verif.Intermediary
