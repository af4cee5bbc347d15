import Verif.Spec.CouplingError
import Verif.Spec.Intermediary
import Verif.Model.IntermediaryResult
/-!
# What an intermediary node should tell its neighbours, and what it should share with them
-/
namespace Verif.Spec
open Net DistAL

variable {K : Type} [Field K] [LinearOrder K]

/-- The value number `j` of element `el`. -/
def pointValue (degree : Nat) (x : List Rat) (el j : Nat) : Rat := x.getD (el * degree + j) 0

/-- The intermediary node is coupled to one variable of its predecessor, an output, and to one of its
successor, an input, and both report their values at the points of the method. -/
structure CoupledBetween (degree elements : Nat) (pred succ : Neighbour) (y u : Sym) : Prop where
  output : pred.vars = [y]
  input : succ.vars = [u]
  coupled : ∀ n ∈ [pred, succ], CoupledTo n
  reported : ∀ n ∈ [pred, succ], ReportsAt elements degree n

/-- A trajectory of one variable: its value at the points of all elements, and the times. -/
structure IsTrajectory (degree elements : Nat) (value time : Nat → Nat → Rat) (s : Series) : Prop where
  values : s.values = (List.range elements).map fun el => (List.range degree).map fun j => [value el j]
  time : s.time = (List.range elements).map fun el => (List.range degree).map (time el)

/-- What a neighbour knows about the intermediary node: a vector of one variable, and its last result. -/
structure KnowsIntermediary (result : OptResult) (v : Sym) (n : Neighbour) : Prop where
  kind : n.kind = "y" ∨ n.kind = "u"
  vars : n.vars = [v]
  vector : n.vector = [v]
  last : n.last = some result
  guess : ∀ g, n.guess = some g → g.length = 1

/-- A neighbour of the intermediary node that was solved by collocation. -/
structure SolvedNeighbour (po : DistPrepare.Opts) (elements : Nat) (a : NodeSolution) : Prop where
  constraints : ∃ next ops ρ, EvaluatesCouplings po next ops ρ a
  solved : SolvedByCollocation po.degree elements a
  told : ToldByAll po.degree elements a

/-- An intermediary node between `a` and `b`, by their connections number `j` and `i`: it knows the last
results of `a` and `b`, and they know its last result. -/
structure InBetween (po : DistPrepare.Opts) (elements : Nat) (a b : NodeSolution) (j i : Nat)
    (pred succ : Neighbour) (result : OptResult) (y u : Sym) : Prop where
  nodeA : SolvedNeighbour po elements a
  nodeB : SolvedNeighbour po elements b
  controls : ControlsAtPoints b
  between : CoupledBetween po.degree elements pred succ y u
  ofA : IsAbout a "y" a.y pred
  ofB : IsAbout b "u" b.u succ
  outgoing : ∃ e x v, a.outs[j]? = some e ∧ e.y = [y] ∧ a.neighbours[a.ins.length + j]? = some x ∧
    KnowsIntermediary result v x
  incoming : ∃ e x v, b.ins[i]? = some e ∧ e.u = [u] ∧ b.neighbours[i]? = some x ∧
    KnowsIntermediary result v x

/-- What happens between two updates of an intermediary node: the penalty, the output of the predecessor,
the input of the successor and the intermediary value at all points. -/
structure Exchange (K : Type) where
  mu : K
  y1 : Nat → Nat → K
  u2 : Nat → Nat → K
  z : Nat → Nat → K

/-- The first-order method of multipliers, from multipliers `n1`, `n2` to `m1`, `m2`: each intermediary
value minimises the augmented Lagrangian for the values of the two neighbours, and each multiplier is
increased by the penalty times the violation. -/
inductive FirstOrder : (n1 n2 : Nat → Nat → K) → List (Exchange K) → (m1 m2 : Nat → Nat → K) → Prop
  | nil (n1 n2 : Nat → Nat → K) : FirstOrder n1 n2 [] n1 n2
  | cons (n1 n2 : Nat → Nat → K) (x : Exchange K) (xs : List (Exchange K)) (m1 m2 : Nat → Nat → K)
      (hz : ∀ el j, UniqueMinimiser
        (intermediaryCost x.mu x.mu (x.y1 el j) (x.u2 el j) (n1 el j) (n2 el j)) (x.z el j))
      (h : FirstOrder (fun el j => n1 el j + x.mu * (x.z el j - x.y1 el j))
        (fun el j => n2 el j + x.mu * (x.u2 el j - x.z el j)) xs m1 m2) :
      FirstOrder n1 n2 (x :: xs) m1 m2

end Verif.Spec
