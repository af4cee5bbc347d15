import Verif.Model.Network
import Verif.Spec.Ocp
import Verif.Spec.Merge
/-!
# What a network should satisfy
-/
namespace Verif
namespace Spec
open Net

/-- A network just created: no nodes; the objects of the heap are not used yet. -/
def emptyNetwork (name : Option String) (intermediary : Bool) : Network where
  name := name
  counter := 0
  intermediary := intermediary
  graph := Graph.empty
  heap := fun _ => ⟨none, none, none, none⟩
  next := 0

/-- What a user does with a network: create node objects, include them, let the network create them,
connect and disconnect them, insert intermediary nodes. -/
inductive NetCall
  | alloc (n : Node)
  | includeNodes (rs : List Ref)
  | createNode (n : Node)
  | connect (y u : List Sym) (a b : Ref) (fresh : Sym)
  | removeConnection (a b : Ref)
  | insertIntermediaryNodes (fresh : Nat → Sym)

/-- Execute one call. -/
def NetCall.run : NetCall → Py Network Unit
  | .alloc n => Py.bind (Net.alloc n) fun _ => Py.pure ()
  | .includeNodes rs => Net.includeNodes rs
  | .createNode n => Py.bind (Net.createNode n) fun _ => Py.pure ()
  | .connect y u a b fresh => Net.connect y u a b fresh
  | .removeConnection a b => Net.removeConnection a b
  | .insertIntermediaryNodes fresh => Net.insertIntermediaryNodes fresh

/-- The network after a history of calls, whether they raise or not. -/
def netAfter (cs : List NetCall) (s : Network) : Network :=
  runHistory (fun c s => (NetCall.run c s).2) cs s

/-- The user only passes node objects that exist, and leaves the identifiers to the network. -/
def AutomaticIds : NetCall → Network → Prop
  | .alloc n, _ => n.id = none
  | .includeNodes rs, s => ∀ r ∈ rs, r < s.next
  | .createNode n, _ => n.id = none
  | .connect _ _ a b _, s => a ∈ s.graph.nodes ∧ b ∈ s.graph.nodes
  | .removeConnection _ _, _ => True
  | .insertIntermediaryNodes _, _ => True

/-- The networks a user can get without giving identifiers. -/
def Reached (s : Network) : Prop :=
  ∃ name i cs, Follows NetCall.run AutomaticIds cs (emptyNetwork name i) ∧
    s = netAfter cs (emptyNetwork name i)

/-- The call is not `insert_intermediary_nodes`. -/
def NotInsertion : NetCall → Prop
  | .insertIntermediaryNodes _ => False
  | _ => True

/-- Connections that can be subdivided: as many inputs as outputs, and the first node has a
problem. -/
def Subdividable (s : Network) : Prop :=
  ∀ a b e, s.graph.edge? a b = some e → e.y ≠ [] ∧ e.u.length = e.y.length ∧
    (s.heap a).problem.isSome = true

/-- The dictionaries of a graph fit together. -/
structure GraphOk (g : Graph) : Prop where
  nodes : g.nodes.Nodup
  targets : ∀ a, (g.succOf a).keys.Nodup
  ends : ∀ a b, g.hasEdge a b = true → a ∈ g.nodes ∧ b ∈ g.nodes

/-- Two nodes are connected, in one direction or the other. -/
def Connected (g : Graph) (a b : Ref) : Prop := g.hasEdge a b = true ∨ g.hasEdge b a = true

/-- The inputs of a list of connections. -/
def inputsOf (es : List Edge) : List Sym := es.flatMap (·.u)

/-- The equations of a list of connections. -/
def equationsOf (es : List Edge) : List Expr :=
  es.flatMap fun e => e.u.zipWith (fun a b => Expr.sub (.sym a) (.sym b)) e.y

/-- A model with some inputs connected. -/
def joined (m : SysModel) (es : List Edge) : SysModel :=
  { m with
    alg := m.alg ++ equationsOf es
    y := m.y ++ inputsOf es
    uExpr := ((m.u.zip m.uExpr).filter fun p => decide (p.1 ∉ inputsOf es)).map Prod.snd
    u := m.u.filter fun a => decide (a ∉ inputsOf es)
    uPar := m.uPar.filter fun a => decide (a ∉ inputsOf es) }

/-- The connections can be made in a model: as many inputs as outputs, the inputs are controls, and no
input has two connections. -/
structure Joinable (m : SysModel) (es : List Edge) : Prop where
  sizes : ∀ e ∈ es, e.u.length = e.y.length ∧ e.u ≠ []
  once : (inputsOf es).Nodup
  inputs : ∀ v ∈ inputsOf es, v ∈ m.u ∧ v ∈ m.uPar

/-- The nodes in the order of their identifiers. -/
structure InOrder (s : Network) (rs : List Ref) : Prop where
  perm : rs.Perm s.graph.nodes
  sorted : rs.Pairwise fun a b => ∃ i j, (s.heap a).id = some i ∧ (s.heap b).id = some j ∧ i ≤ j

/-- What is left of a problem after its inputs `ins` were connected. -/
structure JoinedProblem (o : Ocp) (ins : List Sym) (o' : Ocp) : Prop where
  horizon : o'.t0 = o.t0 ∧ o'.tf = o.tf
  costs : o'.L = o.L ∧ o'.V = o.V ∧ o'.S = o.S
  constraints : o'.h = o.h ∧ o'.hInitial = o.hInitial ∧ o'.hFinal = o.hFinal ∧ o'.gEq = o.gEq ∧
    o'.gIneq = o.gIneq ∧ o'.timeGEq = o.timeGEq ∧ o'.timeGIneq = o.timeGIneq
  x : o'.model.x = o.model.x ∧ o'.xMax = o.xMax ∧ o'.xMin = o.xMin ∧ o'.x0 = o.x0
  u : o'.model.u = o.model.u.filter (fun v => decide (v ∉ ins))
  uMax : bounds o'.model.u o'.uMax = boundsWithout ins (bounds o.model.u o.uMax)
  uMin : bounds o'.model.u o'.uMin = boundsWithout ins (bounds o.model.u o.uMin)
  duMax : bounds o'.model.u o'.duMax = boundsWithout ins (bounds o.model.u o.duMax)
  duMin : bounds o'.model.u o'.duMin = boundsWithout ins (bounds o.model.u o.duMin)
  yMax : ∃ new, bounds o'.model.y o'.yMax = bounds o.model.y o.yMax ++ new ∧
    new.map Prod.fst = ins ∧ ∀ p ∈ new, (bounds o.model.u o.uMax).lookup p.1 = some p.2
  yMin : ∃ new, bounds o'.model.y o'.yMin = bounds o.model.y o.yMin ++ new ∧
    new.map Prod.fst = ins ∧ ∀ p ∈ new, (bounds o.model.u o.uMin).lookup p.1 = some p.2

/-- Every guess for the controls has one entry per control. -/
def GuessSized (o : Ocp) : Prop := ∀ g : List Rat, o.uGuess = some g → g.length = o.model.u.length

end Spec
end Verif
