import Verif.Spec.NetProblem
import Verif.Spec.Merge
import Verif.Spec.Network
/-!
# The problem of a network as one problem
-/
namespace Verif.Spec
open Net

variable {K : Type} [Field K] [LinearOrder K] {n : Nat}

omit [LinearOrder K] in
/-- The relations of a scheme treat the equations one by one: they hold for the equations of two problems
together when they hold for each of them, and they only depend on the values of right-hand sides. -/
structure Scheme.Modular (sch : Scheme K n) (ops : Expr.Ops K) : Prop where
  dynamicsNil : ∀ tr, sch.dynamics [] [] tr
  dynamicsAppend : ∀ (x x' : List Sym) (f f' : Dict Sym (Option Expr)) tr, f.keys = x → f'.keys = x' →
    (sch.dynamics (x ++ x') (f ++ f') tr ↔ sch.dynamics x f tr ∧ sch.dynamics x' f' tr)
  dynamicsValues : ∀ (x : List Sym) (f : Dict Sym (Option Expr)) (g : Expr → Expr) tr,
    (∀ e k, (g e).eval ops (tr k) = e.eval ops (tr k)) →
    (sch.dynamics x (f.map fun p => (p.1, p.2.map g)) tr ↔ sch.dynamics x f tr)
  boundaryNil : ∀ tr, sch.boundary [] [] [] [] tr
  boundaryAppend : ∀ h h' hi hi' hf hf' (x x' : List (Sym × Rat)) tr,
    (sch.boundary (h ++ h') (hi ++ hi') (hf ++ hf') (x ++ x') tr ↔
      sch.boundary h hi hf x tr ∧ sch.boundary h' hi' hf' x' tr)
  inequalitiesNil : ∀ tr, sch.inequalities [] [] tr
  inequalitiesAppend : ∀ g g' (t t' : List String) tr, g.length = t.length →
    (sch.inequalities (g ++ g') (t ++ t') tr ↔ sch.inequalities g t tr ∧ sch.inequalities g' t' tr)

/-- Schemes with a differentiation matrix: the polynomials through the values of a state have the right-hand
sides as derivatives at the points `rows`, initial values and boundary conditions hold at the points `first`
and `final`, path inequalities at the points of their tags. -/
def matrixScheme (ops : Expr.Ops K) (weight : Fin n → K) (holds : String → Fin n → Prop)
    (d : Fin n → Fin n → K) (rows : Fin n → Prop) (first final : Fin n) : Scheme K n where
  weight := weight
  last := final
  holds := holds
  dynamics _ f tr := ∀ p ∈ f, ∀ e, p.2 = some e → ∀ k, rows k →
    ∑ j, d k j * tr j p.1 = e.eval ops (tr k)
  boundary h hi hf x tr := (∀ e ∈ h ++ hf, e.eval ops (tr final) = 0) ∧
    (∀ e ∈ hi, e.eval ops (tr first) = 0) ∧ ∀ p ∈ x, tr first p.1 = (p.2 : K)
  inequalities g tags tr := ∀ p ∈ g.zip tags, ∀ k, holds p.2 k → p.1.eval ops (tr k) ≤ 0

omit [LinearOrder K] in
/-- The problem only depends on the symbols `own`. -/
structure DependsOn (sch : Scheme K n) (own : Sym → Prop) (o : Ocp) : Prop where
  expressions : ∀ e ∈ o.L :: o.V :: o.S :: (o.model.alg ++ o.gEq), ∀ s ∈ e.syms, own s
  vars : ∀ s ∈ o.model.x ++ o.model.y ++ o.model.u, own s
  scheme : ∀ tr tr' : GridValues K n, (∀ k s, own s → tr k s = tr' k s) →
    (sch.inequalities o.gIneq o.timeGIneq tr → sch.inequalities o.gIneq o.timeGIneq tr') ∧
    (sch.dynamics o.model.x o.model.ode tr → sch.dynamics o.model.x o.model.ode tr') ∧
    (sch.boundary o.h o.hInitial o.hFinal (o.model.x.zip o.x0) tr →
      sch.boundary o.h o.hInitial o.hFinal (o.model.x.zip o.x0) tr')

namespace ProblemNetwork

omit [Field K] [LinearOrder K] in
/-- The problems of the nodes. -/
def problems (net : ProblemNetwork Nat K n) : List Ocp := net.nodes.map net.problem

omit [Field K] [LinearOrder K] in
/-- The description fits the network: the same nodes in the order of their identifiers, their problems, the
same connections. -/
structure Describes (net : ProblemNetwork Nat K n) (s : Network) : Prop where
  order : InOrder s net.nodes
  problems : ∀ m ∈ net.nodes, (s.heap m).problem = some (net.problem m)
  cables : (net.cables.map fun c => (c.source, c.target, c.edge)).Perm s.graph.edges

omit [Field K] [LinearOrder K] in
/-- A network whose problem `get_problem` returns: it has a name and nodes, its nodes have problems of the
right sizes with one horizon and models that can be merged into a model with the times `t` and `tau`,
distinct controls, and connections that can be made; connected inputs have no limits on their rates. -/
structure Joint (net : ProblemNetwork Nat K n) (s : Network) (t tau : Sym) : Prop where
  reached : Reached s
  name : s.name.isSome
  nodes : net.nodes ≠ []
  describes : net.Describes s
  sizes : ∀ k ∈ net.problems, Sized k
  tags : ∀ k ∈ net.problems, k.timeGEq.length = k.gEq.length ∧ k.timeGIneq.length = k.gIneq.length
  guesses : ∀ k ∈ net.problems, GuessSized k
  horizon : ∀ j ∈ net.problems, ∀ k ∈ net.problems, j.t0 = k.t0 ∧ j.tf = k.tf
  controls : (net.problems.flatMap (·.model.u)).Nodup
  models : Mergeable (SysModel.new t tau) (net.problems.map (·.model))
  connections : Joinable (merged (SysModel.new t tau) (net.problems.map (·.model)))
    (s.graph.edges.map (·.2.2))
  rates : ∀ c ∈ net.cables, ∀ w ∈ c.wires, ∀ k ∈ net.problems, w.u ∈ k.model.u →
    (bounds k.model.u k.duMax).lookup w.u = some ⊤ ∧ (bounds k.model.u k.duMin).lookup w.u = some ⊥

omit [LinearOrder K] in
/-- The nodes have their own symbols `own`: a symbol of two nodes is fixed, and has the same value for all
nodes; connections are between symbols of their ends that are not fixed; the times are fixed and the same
for all nodes. -/
structure Separate (net : ProblemNetwork Nat K n) (sch : Scheme K n) (t tau : Sym)
    (own : Nat → Sym → Prop) (fixed : List Sym) (given : GridValues K n) : Prop where
  depends : ∀ m ∈ net.nodes, DependsOn sch (own m) (net.problem m)
  shared : ∀ l ∈ net.nodes, ∀ m ∈ net.nodes, l ≠ m → ∀ s, own l s → own m s → s ∈ fixed
  values : ∀ m ∈ net.nodes, net.fixed m = fixed ∧ net.given m = given
  ends : ∀ c ∈ net.cables, c.source ∈ net.nodes ∧ c.target ∈ net.nodes ∧ ∀ w ∈ c.wires,
    (own c.source w.y ∧ w.y ∉ fixed) ∧ own c.target w.u ∧ w.u ∉ fixed
  times : ∀ k ∈ net.problems, ∀ s ∈ [k.model.t, k.model.tau, t, tau], s ∈ fixed
  clock : ∀ k ∈ net.problems, ∀ i, given i k.model.t = given i t ∧ given i k.model.tau = given i tau

end ProblemNetwork

omit [Field K] [LinearOrder K] in
/-- The trajectory `w` has the trajectories `z` of the nodes as parts. -/
def Joins (nodes : List Nat) (own : Nat → Sym → Prop) (fixed : List Sym) (z : Nat → GridValues K n)
    (w : GridValues K n) : Prop :=
  ∀ m ∈ nodes, ∀ k s, own m s → s ∉ fixed → w k s = z m k s

end Verif.Spec
