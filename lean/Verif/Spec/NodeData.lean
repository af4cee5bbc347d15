import Verif.Model.NodeData
import Mathlib.Algebra.Order.Group.Unbundled.Abs
/-!
# What a node should be told about its neighbours
-/
namespace Verif.Spec
open Verif.DistAL

/-- The trajectories of a result for the vector `"y"` or `"u"`. -/
def reportedRows (kind : String) (r : OptResult) : List (List (List Rat)) :=
  if kind = "y" then r.y.values else r.u.values

/-- The value of the entry `index` of the vector of a neighbour at point `j` of element `el`: the one
of its last result, else its guess, else zero. -/
def told (n : Neighbour) (index el j : Nat) : Rat :=
  match n.last, n.guess with
  | some r, _ => (((reportedRows n.kind r)[el]?.getD [])[j]?.getD [])[index]?.getD 0
  | none, some g => g[index]?.getD 0
  | none, none => 0

/-- The coupled variables are different entries of the vector of the neighbour, and a guess has one
entry for each. -/
structure CoupledTo (n : Neighbour) : Prop where
  kind : n.kind = "y" ∨ n.kind = "u"
  distinct : n.vector.Nodup
  found : ∀ v ∈ n.vars, v ∈ n.vector
  guess : ∀ g, n.guess = some g → g.length = n.vector.length

/-- The last result of the neighbour, if there is one, has `points` columns in each element. -/
def ReportsAt (elements points : Nat) (n : Neighbour) : Prop :=
  ∀ r, n.last = some r → (reportedRows n.kind r).length = elements ∧
    ∀ e ∈ reportedRows n.kind r, e.length = points ∧ ∀ c ∈ e, c.length = n.vector.length

/-- The number of values in each element that are known for a neighbour whose results have `points`
columns: before the first result, as many as there are parameters. -/
def known (degree points : Nat) (n : Neighbour) : Nat :=
  if n.last.isSome then points else degree

/-- The number of parameters in each element of the approximations of the coupled variables. -/
def parameterCount (degree : Nat) (ns : List Neighbour) : Nat :=
  (ns.map fun n => n.vars.length).sum * degree

/-- The names of all coupled variables are different. -/
def DistinctNames (nm : Sym → String) (ns : List Neighbour) : Prop :=
  (ns.flatMap fun n => n.vars.map nm).Nodup

/-- `prev n` is the neighbour `n` as it was before: the same connection with an earlier result. -/
structure Earlier (n m : Neighbour) : Prop where
  vars : m.vars = n.vars
  vector : m.vector = n.vector
  kind : m.kind = n.kind
  block : m.block = n.block
  guess : m.guess = n.guess

/-- The change of a value told about a neighbour in the own block or a later one. -/
def IsChange (degree elements own : Nat) (ns : List Neighbour) (prev : Neighbour → Neighbour)
    (x : Rat) : Prop :=
  ∃ n ∈ ns, own ≤ n.block ∧ ∃ v ∈ n.vars, ∃ el < elements, ∃ j < degree,
    x = |told n (n.vector.idxOf v) el j - told (prev n) (n.vector.idxOf v) el j|

/-- The largest change, minus infinity if nothing can change. -/
def LargestChange (degree elements own : Nat) (ns : List Neighbour) (prev : Neighbour → Neighbour)
    (s : WithBot Rat) : Prop :=
  (∀ x, IsChange degree elements own ns prev x → (x : WithBot Rat) ≤ s) ∧
    (s = ⊥ ∨ ∃ x : Rat, s = x ∧ IsChange degree elements own ns prev x)

end Verif.Spec
