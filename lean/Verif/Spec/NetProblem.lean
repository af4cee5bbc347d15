import Verif.Spec.DistPrepare
import Verif.Spec.RelaxOptimal
import Verif.Spec.NetOptimum
/-!
# The discretised problem of a network, and what its nodes solve

Trajectories are values of the symbols at finitely many points, as in `Spec/RelaxOptimal.lean`; all nodes
have the same points.
-/
namespace Verif.Spec
open Net DistPrepare DistAL

variable {N K : Type} {n : Nat}

/-- One variable of a connection: an output, the input it is connected to, their multipliers at the points
and their penalty. -/
structure Wire (K : Type) (n : Nat) where
  y : Sym
  u : Sym
  nu : Fin n → K
  mu : K

/-- A connection of two nodes. -/
structure Cable (N K : Type) (n : Nat) where
  source : N
  target : N
  wires : List (Wire K n)

/-- The connection as the network keeps it. -/
def Cable.edge (c : Cable N K n) : Edge := ⟨c.wires.map (·.y), c.wires.map (·.u)⟩

/-- A network of problems. The symbols `fixed` of a node are not optimised and have `given` values: the time
and the values of parameters. `next` is the first symbol a node does not use. -/
structure ProblemNetwork (N K : Type) (n : Nat) where
  nodes : List N
  problem : N → Ocp
  cables : List (Cable N K n)
  fixed : N → List Sym
  given : N → GridValues K n
  next : N → Sym

namespace ProblemNetwork
variable [DecidableEq N]

/-- The connections into a node and out of a node. -/
def into (net : ProblemNetwork N K n) (m : N) : List (Cable N K n) :=
  net.cables.filter fun c => decide (c.target = m)
def outOf (net : ProblemNetwork N K n) (m : N) : List (Cable N K n) :=
  net.cables.filter fun c => decide (c.source = m)

/-- The variables of the connections into a node, with the node at the other end. -/
def incoming (net : ProblemNetwork N K n) (m : N) : List (N × Wire K n) :=
  (net.into m).flatMap fun c => c.wires.map fun w => (c.source, w)

/-- The variables of the connections out of a node, with the node at the other end. -/
def outgoing (net : ProblemNetwork N K n) (m : N) : List (N × Wire K n) :=
  (net.outOf m).flatMap fun c => c.wires.map fun w => (c.target, w)

variable [Field K] [LinearOrder K]

omit [DecidableEq N] in
/-- The trajectories a node admits. -/
def Admits (net : ProblemNetwork N K n) (ops : Expr.Ops K) (sch : Scheme K n) (m : N)
    (tr : GridValues K n) : Prop :=
  SatisfiesAll ops sch (net.problem m) (withValues (net.fixed m) (net.given m) tr)

omit [DecidableEq N] [LinearOrder K] in
/-- What a trajectory costs a node. -/
def ownCost (net : ProblemNetwork N K n) (ops : Expr.Ops K) (sch : Scheme K n) (m : N)
    (tr : GridValues K n) : K :=
  costOf ops sch (net.problem m) (withValues (net.fixed m) (net.given m) tr)

omit [DecidableEq N] [Field K] [LinearOrder K] in
/-- Connected inputs have the values of the outputs, at all points. -/
def Agree (net : ProblemNetwork N K n) (z : N → GridValues K n) : Prop :=
  ∀ c ∈ net.cables, ∀ w ∈ c.wires, ∀ k, z c.target k w.u = z c.source k w.y

omit [DecidableEq N] in
/-- A solution of the network: every node admits its trajectory, and they agree. -/
def Consistent (net : ProblemNetwork N K n) (ops : Expr.Ops K) (sch : Scheme K n)
    (z : N → GridValues K n) : Prop :=
  (∀ m ∈ net.nodes, net.Admits ops sch m (z m)) ∧ net.Agree z

omit [DecidableEq N] in
/-- An optimal solution of the network: no other one has a smaller total cost. -/
def Optimum (net : ProblemNetwork N K n) (ops : Expr.Ops K) (sch : Scheme K n)
    (z : N → GridValues K n) : Prop :=
  net.Consistent ops sch z ∧ ∀ w, net.Consistent ops sch w →
    (net.nodes.map fun m => net.ownCost ops sch m (z m)).sum ≤
      (net.nodes.map fun m => net.ownCost ops sch m (w m)).sum

/-- The augmented Lagrangian of the network: the costs of the nodes and, with the weights of the points,
the terms of the connections. -/
def augmented (net : ProblemNetwork N K n) (ops : Expr.Ops K) (sch : Scheme K n)
    (z : N → GridValues K n) : K :=
  (net.nodes.map fun m => net.ownCost ops sch m (z m)).sum +
    (net.cables.map fun c => (c.wires.map fun w => ∑ k, sch.weight k *
      (w.nu k * (z c.target k w.u - z c.source k w.y) +
        w.mu / 2 * (z c.target k w.u - z c.source k w.y) ^ 2)).sum).sum

/-- A node knows the results of its neighbours: with the values `val` of its parameters, the approximations
in its couplings have the values of the variables of the other nodes at the points, its multipliers and
penalties are those of the connections. -/
structure Informed (net : ProblemNetwork N K n) (o : Opts) (ops : Expr.Ops K) (r : Relax) (m : N)
    (z : N → GridValues K n) (val : GridValues K n) : Prop where
  fixed : ∀ s ∈ net.fixed m, ∀ k, val k s = net.given m k s
  inputs : ∀ j p, (net.incoming m)[j]? = some p → ∀ k,
    (o.approx (couplingParams o.degree (net.next m) j)).eval ops (val k) = z p.1 k p.2.y
  outputs : ∀ j p, (net.outgoing m)[j]? = some p → ∀ k,
    (o.approx (couplingParams o.degree (net.next m) ((net.incoming m).length + j))).eval ops (val k) =
      z p.1 k p.2.u
  nu : ∀ k, r.nuSym.map (val k) = (net.incoming m ++ net.outgoing m).map fun p => p.2.nu k
  mu : ∀ k, r.muSym.map (val k) = (net.incoming m ++ net.outgoing m).map fun p => p.2.mu

/-- What is not optimised in the problem of a node with its couplings: multipliers, penalties, and the
parameters of the approximations. -/
def exchanged (net : ProblemNetwork N K n) (o : Opts) (r : Relax) (m : N) : List Sym :=
  net.fixed m ++ (r.nuSym ++ r.muSym ++
    allParams o.degree (net.next m) ((net.incoming m).length + (net.outgoing m).length))

omit [DecidableEq N] in
/-- The trajectory is a solution of the problem for the values `val` of the symbols `par`. -/
def _root_.Verif.Spec.SolutionFor (ops : Expr.Ops K) (sch : Scheme K n) (o : Ocp) (par : List Sym)
    (val tr : GridValues K n) : Prop :=
  SatisfiesAll ops sch o (withValues par val tr) ∧
    ∀ tr', SatisfiesAll ops sch o (withValues par val tr') →
      costOf ops sch o (withValues par val tr) ≤ costOf ops sch o (withValues par val tr')

/-- A node of the network that the method can handle: its connections fit its problem, its variables are not
fixed, the approximations depend on their own parameters and fixed symbols only, and its inputs have no
limits on their rates. -/
structure Node (net : ProblemNetwork N K n) (o : Opts) (sch : Scheme K n) (m : N) : Prop where
  fits : Fits (net.problem m) ((net.into m).map (·.edge)) ((net.outOf m).map (·.edge))
  guesses : GuessesFit (net.problem m)
  square : (net.problem m).model.alg.length = (net.problem m).model.y.length
  equations : ((net.problem m).model.alg ++
    inputEquations o (net.next m) ((net.incoming m).map (·.2.u))).Nodup
  tags : (net.problem m).timeGEq.length = (net.problem m).gEq.length
  left : net.outgoing m ≠ [] → (net.problem m).gEq.length + (net.outgoing m).length ≤
    (net.problem m).model.alg.length
  below : Below (net.next m) (net.problem m)
  blind : Blind sch (net.next m) (net.problem m)
  fixedBelow : ∀ s ∈ net.fixed m, s < net.next m
  free : ∀ s ∈ (net.problem m).model.u, s ∉ net.fixed m
  outputs : ∀ p ∈ net.outgoing m, p.2.y < net.next m ∧ p.2.y ∉ net.fixed m
  approx : ∀ k, ∀ s ∈ (o.approx (couplingParams o.degree (net.next m) k)).syms,
    s ∈ couplingParams o.degree (net.next m) k ∨ s ∈ net.fixed m
  rates : ∀ p ∈ net.incoming m,
    (bounds (net.problem m).model.u (net.problem m).duMax).lookup p.2.u = some ⊤ ∧
      (bounds (net.problem m).model.u (net.problem m).duMin).lookup p.2.u = some ⊥

omit [DecidableEq N] [Field K] [LinearOrder K] in
/-- No node is connected to itself. -/
def NoLoops (net : ProblemNetwork N K n) : Prop := ∀ c ∈ net.cables, c.source ≠ c.target

/-- Every node that has a result was solved with the couplings that the method makes, for the last results
of the others. -/
def Solves (net : ProblemNetwork N K n) (o : Opts) (mu0 : Rat) (ops : Expr.Ops K) (sch : Scheme K n)
    (solver : NodeSolver N (GridValues K n)) : Prop :=
  ∀ m ∈ net.nodes, ∀ last z, AllSolved net.nodes last z → ∀ tr, solver m last = some tr →
    ∃ r val, prepare o mu0 ((net.into m).map (·.edge)) ((net.outOf m).map (·.edge)) (net.problem m)
        (net.next m) = .ok r ∧
      net.Informed o ops r m z val ∧ SolutionFor ops sch r.problem (net.exchanged o r m) val tr

/-- A convex network: the nodes admit convex sets of trajectories, their costs are convex on them, the
weights of the points and the penalties are not negative, and connections are between nodes of the
network. -/
structure IsConvex (net : ProblemNetwork N K n) (ops : Expr.Ops K) (sch : Scheme K n) : Prop where
  sets : ∀ m ∈ net.nodes, ∀ x y, net.Admits ops sch m x → net.Admits ops sch m y → ∀ t : K, 0 ≤ t →
    t ≤ 1 → net.Admits ops sch m (x + t • (y - x))
  costs : ∀ m ∈ net.nodes, ∀ x y, net.Admits ops sch m x → net.Admits ops sch m y → ∀ t : K, 0 ≤ t →
    t ≤ 1 → net.ownCost ops sch m (x + t • (y - x)) ≤
      net.ownCost ops sch m x + t * (net.ownCost ops sch m y - net.ownCost ops sch m x)
  weights : ∀ k, 0 ≤ sch.weight k
  penalties : ∀ c ∈ net.cables, ∀ w ∈ c.wires, 0 ≤ w.mu
  within : ∀ c ∈ net.cables, c.source ∈ net.nodes ∧ c.target ∈ net.nodes

end ProblemNetwork
end Verif.Spec
