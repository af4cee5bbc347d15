import Verif.Spec.DistPrepare
import Verif.Spec.NodeData
import Verif.Spec.NuUpdate
import Verif.Spec.NetEnds
/-!
# The coupling errors of the two ends of a connection
-/
namespace Verif.Spec
open Net DistAL

/-- A node that was solved by collocation: its method, its relaxed constraints and its control law, the
values found, the algebraic variables and the controls of its problem, its connections, its result, and
what it is told about its neighbours. -/
structure NodeSolution where
  m : Transcription Rat
  o : AugLag.Opts Rat
  r : AugLag.Relaxed Rat
  c : ControlLaw Rat
  b : Blocks Rat
  y : List Sym
  u : List Sym
  ins : List Edge
  outs : List Edge
  result : OptResult
  neighbours : List Neighbour

/-- The position of a time in an element, from 0 to 1. -/
def positionIn (m : Transcription Rat) (el : Nat) (t : Rat) : Rat :=
  (t - elementLength m * (el : Rat)) / elementLength m

/-- The number of the relaxed constraint of variable `k` of the incoming connection number `a`. -/
def inputPosition (n : NodeSolution) (a k : Nat) : Nat :=
  ((n.ins.take a).map fun e => e.u.length).sum + k

/-- The number of the relaxed constraint of variable `k` of the outgoing connection number `a`. -/
def outputPosition (n : NodeSolution) (a k : Nat) : Nat :=
  (inputsOf n.ins).length + (((n.outs.take a).map fun e => e.y.length).sum + k)

/-- The relaxed constraints are the equations of the couplings of C144, evaluated with the control, the
algebraic variables and the parameters at a point; the node has no other time-varying parameters than
those of the couplings, and `approx` is the polynomial through its parameters. -/
structure EvaluatesCouplings (po : DistPrepare.Opts) (next : Sym) (ops : Expr.Ops Rat)
    (ρ : Nat → Point Rat → Sym → Rat) (n : NodeSolution) : Prop where
  inputs : ∀ el pt, n.r.alg el pt =
    (inputEquations po next (inputsOf n.ins)).map fun e => e.eval ops (ρ el pt)
  outputs : ∀ el pt, n.r.eq el pt =
    (outputEquations po next (inputsOf n.ins).length (outputsOf n.outs)).map fun e => e.eval ops (ρ el pt)
  control : ∀ el pt, ∀ v ∈ n.u, ρ el pt v = (n.c.value el pt).getD (n.u.idxOf v) 0
  algebraic : ∀ el pt, ∀ v ∈ n.y, ρ el pt v = pt.y.getD (n.y.idxOf v) 0
  parameter : ∀ el pt i, i < ((inputsOf n.ins).length + (outputsOf n.outs).length) * po.degree →
    ρ el pt (next + i) = pt.theta.getD i 0
  approx : ∀ el pt (par : List Sym), par.length = po.degree →
    (po.approx par).eval ops (ρ el pt) =
      (polyApproxUtil n.m.roots 1 po.degree false (fun _ j => ρ el pt (par.getD j 0))
        (positionIn n.m el pt.t)).getD 0 0

/-- The problem of the node has been solved by collocation with the grid of the distributed method, and
the result reports the values found. -/
structure SolvedByCollocation (degree elements : Nat) (n : NodeSolution) : Prop where
  collocatable : Collocatable n.m
  data : CollocationData n.m.dims n.b
  sameDegree : n.m.dims.degree = degree
  sameElements : n.m.dims.elements = elements
  grid : SameGrid n.o n.m
  points : n.o.roots n.o.degree = n.m.roots
  direct : n.r.direct = true
  controls : n.m.dims.nUPar > 0 ∧ Parametrised n.m n.c ∨ Determined n.m n.c
  relaxed : n.o.nRelax = (inputsOf n.ins).length + (outputsOf n.outs).length
  sizes : n.y.length = n.m.dims.nY ∧ n.u.length = n.m.dims.nU
  result : ∃ p theta s rep, s.x = Layout.stacked n.b ∧ n.m.report n.c p theta s = .ok rep ∧
    n.result.y.values = rep.yValues ∧ n.result.u.values = rep.uValues

/-- The controls have as many values in an element as there are collocation points (the option
`degree_control` is the degree). -/
structure ControlsAtPoints (n : NodeSolution) : Prop where
  some : n.m.dims.nUPar > 0
  parametrised : Parametrised n.m n.c
  degree : n.m.dims.degreeControl = n.m.dims.degree
  points : n.c.roots = n.m.roots

/-- What a node is told: one entry for each connection, first the predecessors and their outputs, then
the successors and their inputs; and all known results have the points of the method. -/
structure ToldByAll (degree elements : Nat) (n : NodeSolution) : Prop where
  vars : n.neighbours.map Neighbour.vars = n.ins.map (fun e => e.y) ++ n.outs.map fun e => e.u
  sized : ∀ e ∈ n.ins ++ n.outs, e.u.length = e.y.length
  coupled : ∀ x ∈ n.neighbours, CoupledTo x
  reported : ∀ x ∈ n.neighbours, ReportsAt elements degree x

/-- The entry `x` is about node `n`, with its vector of variables `"y"` or `"u"` and its last result. -/
structure IsAbout (n : NodeSolution) (kind : String) (vector : List Sym) (x : Neighbour) : Prop where
  kind : x.kind = kind
  vector : x.vector = vector
  last : x.last = some n.result

/-- Connection number `i` from the predecessors of `b` is connection number `j` to the successors of `a`,
and each of them is told about the other. -/
structure Connects (a b : NodeSolution) (j i : Nat) (e : Edge) : Prop where
  incoming : b.ins[i]? = some e
  outgoing : a.outs[j]? = some e
  ofA : ∃ x, b.neighbours[i]? = some x ∧ IsAbout a "y" a.y x
  ofB : ∃ x, a.neighbours[a.ins.length + j]? = some x ∧ IsAbout b "u" b.u x

/-- Nodes `a` and `b` are connected by `e`, both were solved by collocation, and the controls of `b` have
as many values in an element as there are collocation points. -/
structure ConnectedPair (po : DistPrepare.Opts) (elements : Nat) (a b : NodeSolution) (j i : Nat)
    (e : Edge) : Prop where
  constraintsA : ∃ next ops ρ, EvaluatesCouplings po next ops ρ a
  constraintsB : ∃ next ops ρ, EvaluatesCouplings po next ops ρ b
  solvedA : SolvedByCollocation po.degree elements a
  solvedB : SolvedByCollocation po.degree elements b
  toldA : ToldByAll po.degree elements a
  toldB : ToldByAll po.degree elements b
  controls : ControlsAtPoints b
  connected : Connects a b j i e

/-- The violations of the relaxed constraints of a node when its parameters are updated: with what it is
told about its neighbours and its multipliers `nu`. -/
def UpdatedWith (degree elements : Nat) (n : NodeSolution) (p : List Rat) (nu : List (List Rat))
    (viol : List (List (List Rat))) : Prop :=
  ∃ theta, thetaData degree elements n.neighbours = .ok theta ∧
    AugLag.violationsCollocation n.m n.o n.r p (List.zipWith (· ++ ·) theta nu)
      (Layout.stacked n.b) = .ok viol

/-- An outer iteration of the two nodes of a connection: both are solved at least once, and then both are
updated with the last solutions. `c` is the number of the relaxed constraint of variable `k` of the
connection in node `b`, with options `o`, and `c'` the one in node `a`, with options `o'`. -/
structure PairRound (po : DistPrepare.Opts) (elements : Nat) (j i : Nat) (e : Edge) (k : Nat)
    (o o' : AugLag.Opts Rat) (c c' : Nat) (a b : NodeSolution) (r : NodeRound Rat × NodeRound Rat) :
    Prop where
  pair : ConnectedPair po elements a b j i e
  solvedB : r.1.solves ≠ []
  solvedA : r.2.solves ≠ []
  updatedB : ∃ p nu, nu.length = elements ∧ UpdatedWith po.degree elements b p nu r.1.viol
  updatedA : ∃ p nu, nu.length = elements ∧ UpdatedWith po.degree elements a p nu r.2.viol
  common : r.2.common = r.1.common
  optionsB : b.o = o
  optionsA : a.o = o'
  inputB : inputPosition b i k = c
  outputA : outputPosition a j k = c'

end Verif.Spec
