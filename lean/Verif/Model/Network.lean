import Verif.Model.Ocp
import Mathlib.Data.List.Sort
/-!
# `modelling/network`: nodes, the graph, composition, colouring

The graph is a `networkx.DiGraph`; what is used of it is modelled: the insertion-ordered dictionaries
of successors (with the edge data) and of predecessors. Node objects are references into a heap, as
they are shared between the network and its user.
-/
namespace Verif
namespace Net

/-- A reference to a `Node` object. -/
scoped notation "Ref" => Nat

/-- A `Node`, node.py:14-36. `problem.model` is a copy of the model (ocp.py:81), so both are values.
`solution_method` and `color` are not modelled. -/
structure Node where
  id : Option Int
  name : Option String
  model : Option SysModel
  problem : Option Ocp

/-- `Node(node_id, name, model, problem)`, node.py:15-33; `modelName` is the name attribute of the
model. -/
def Node.new (id : Option Int) (name : Option String) (model : Option SysModel)
    (problem : Option Ocp) (modelName : String) : Node :=
  let m := match model, problem with
    | none, some o => some o.model
    | m, _ => m
  let n := match name, m with
    | none, some _ => some modelName
    | n, _ => n
  ⟨id, n, m, problem⟩

/-- The data of an edge: outputs of the first node, inputs of the second. -/
structure Edge where
  y : List Sym
  u : List Sym
  deriving DecidableEq

/-- A `networkx.DiGraph`. -/
structure Graph where
  succ : Dict Ref (Dict Ref Edge)
  pred : Dict Ref (List Ref)
  deriving DecidableEq

namespace Graph

/-- `networkx.DiGraph()`. -/
def empty : Graph := ⟨[], []⟩

/-- Iterating over the graph: the nodes in the order of insertion. -/
def nodes (g : Graph) : List Ref := g.succ.keys

/-- `graph.add_node(n)`. -/
def addNode (r : Ref) (g : Graph) : Graph :=
  if g.succ.has r then g else ⟨g.succ.set r [], g.pred.set r []⟩

/-- `graph.add_nodes_from(nodes)`. -/
def addNodes (rs : List Ref) (g : Graph) : Graph := rs.foldl (fun g r => g.addNode r) g

/-- `graph.succ[n]`. -/
def succOf (g : Graph) (a : Ref) : Dict Ref Edge := (g.succ.get? a).getD []

/-- `graph.pred[n]`. -/
def predOf (g : Graph) (a : Ref) : List Ref := (g.pred.get? a).getD []

/-- `(a, b) in graph.edges`. -/
def hasEdge (g : Graph) (a b : Ref) : Bool := (g.succOf a).has b

/-- `graph.edges[a, b]`. -/
def edge? (g : Graph) (a b : Ref) : Option Edge := (g.succOf a).get? b

/-- `graph.add_edge(a, b, **e)` for a pair without an edge: missing nodes are added. -/
def addEdge (a b : Ref) (e : Edge) (g : Graph) : Graph :=
  let g := (g.addNode a).addNode b
  ⟨g.succ.set a ((g.succOf a).set b e), g.pred.set b (g.predOf b ++ [a])⟩

/-- Assignments to `graph.edges[a, b]["y"]` and `["u"]`. -/
def setEdge (a b : Ref) (e : Edge) (g : Graph) : Graph :=
  { g with succ := g.succ.set a ((g.succOf a).set b e) }

/-- `graph.remove_edge(a, b)`. -/
def removeEdge (a b : Ref) (g : Graph) : Graph :=
  ⟨g.succ.set a ((g.succOf a).del b), g.pred.set b ((g.predOf b).filter fun r => decide (r ≠ a))⟩

/-- Iterating over `graph.edges`: by first node in the order of insertion, then by second node. -/
def edges (g : Graph) : List (Ref × Ref × Edge) :=
  g.succ.flatMap fun kv => kv.2.map fun be => (kv.1, be.1, be.2)

end Graph

/-- The attributes of a `Network`, network.py:27-47, with the heap of node objects (`next` is the
next free reference). -/
structure Network where
  name : Option String
  counter : Nat
  intermediary : Bool
  graph : Graph
  heap : Ref → Node
  next : Ref

/-- Assign to a node object. -/
def Network.put (s : Network) (r : Ref) (n : Node) : Network :=
  { s with heap := fun q => if q = r then n else s.heap q }

/-- The user creates a `Node` object. -/
def alloc (n : Node) : Py Network Ref := fun s => (.ok s.next, { s.put s.next n with next := s.next + 1 })

/-! ## Nodes -/

/-- `_set_node_an_id(node)`, network.py:226-237. -/
def setNodeAnId (r : Ref) : Py Network Unit :=
  Py.modify fun s => { s.put r { s.heap r with id := some (s.counter : Int) } with
    counter := s.counter + 1 }

/-- `if node.node_id is None: ...`, network.py:131-132. -/
def setMissingId (r : Ref) : Py Network Unit := fun s =>
  if (s.heap r).id.isNone then setNodeAnId r s else (.ok (), s)

/-- `include_nodes(nodes)`, network.py:120-134. -/
def includeNodes (rs : List Ref) : Py Network Unit := do
  Py.forEach rs setMissingId
  Py.modify fun s => { s with graph := s.graph.addNodes rs }

/-- `create_node(name, model, problem, **kwargs)`, network.py:97-118. -/
def createNode (n : Node) : Py Network Ref := do
  let r ← alloc n
  includeNodes [r]
  Py.pure r

/-- `remove_connection(node1, node2)`, network.py:136-144; networkx raises `NetworkXError`, a
subclass of `Exception`. -/
def removeConnection (a b : Ref) : Py Network Unit := do
  let s ← Py.get
  Py.raiseIf (!s.graph.hasEdge a b) .exception
  Py.modify fun s => { s with graph := s.graph.removeEdge a b }

/-- `get_node_by_id(id)`, network.py:216-219. -/
def getNodeById (s : Network) (id : Int) : Option Ref :=
  s.graph.nodes.find? fun r => decide ((s.heap r).id = some id)

/-- `get_node_by_name(name)`, network.py:221-224. -/
def getNodeByName (s : Network) (name : String) : Option Ref :=
  s.graph.nodes.find? fun r => decide ((s.heap r).name = some name)

/-- `network[key]`: an integer, a string or something else. -/
inductive Key
  | int (i : Int)
  | str (n : String)
  | other

/-- `Network.__getitem__`, network.py:49-60. -/
def getItem (s : Network) : Key → Except Err Ref
  | .int i => match getNodeById s i with
    | none => .error .indexError
    | some r => .ok r
  | .str n => match getNodeByName s n with
    | none => .error .keyError
    | some r => .ok r
  | .other => .error .notImplementedError

/-- The nodes of `network[k]`, `network[k+1]`, ..., at most `fuel` of them, until one raises. -/
def iterateFrom (s : Network) : Nat → Nat → List Ref
  | 0, _ => []
  | fuel + 1, k => match getNodeById s k with
    | none => []
    | some r => r :: iterateFrom s fuel (k + 1)

/-- `for node in network`: the class has `__getitem__` and no `__iter__`, so Python takes
`network[0]`, `network[1]`, ... until `IndexError`. Each of them is another node, so as many steps as
there are nodes are enough. -/
def iterate (s : Network) : List Ref := iterateFrom s s.graph.nodes.length 0

/-! ## Connections -/

/-- `node.model` used as a model: `None` has no attributes. -/
def modelOf (n : Node) : Except Err SysModel :=
  match n.model with
  | none => .error .attributeError
  | some m => .ok m

/-- `node.problem.t_f`. -/
def horizonOf (n : Node) : Except Err Rat :=
  match n.problem with
  | none => .error .attributeError
  | some o => .ok o.tf

/-- `if (node1, node2) not in self.graph.edges: add_edge(..., y=DM(), u=DM())`, network.py:170-171. -/
def ensureEdge (a b : Ref) (g : Graph) : Graph :=
  if g.hasEdge a b then g else g.addEdge a b ⟨[], []⟩

/-- The graph after `_connect(y, u, node1, node2)`, network.py:169-178. -/
def joinEdge (y u : List Sym) (a b : Ref) (g : Graph) : Graph :=
  let g := ensureEdge a b g
  let e := (g.edge? a b).getD ⟨[], []⟩
  g.setEdge a b ⟨e.y ++ y, e.u ++ u⟩

/-- `_connect(y, u, node1, node2)`, network.py:169-178. -/
def connectDirect (y u : List Sym) (a b : Ref) : Py Network Unit :=
  Py.modify fun s => { s with graph := joinEdge y u a b s.graph }

/-- `vertcat(*[...])` of a list of new symbols: `NotImplementedError` when it is empty. -/
def freshColumn (start n : Nat) : Except Err (List Sym) :=
  if n = 0 then .error .notImplementedError else .ok ((List.range n).map (start + ·))

/-- The model of an intermediary node, network.py:283-296. `fresh`, `fresh + 1`, ... are new symbols:
the times of the model, one control for each output and one algebraic variable for each input. -/
def dummyModel (y u : List Sym) (fresh : Sym) : Except Err (SysModel × List Sym × List Sym) := do
  let du ← freshColumn (fresh + 2) y.length
  let dy ← freshColumn (fresh + 2 + y.length) u.length
  let eq ← vecSub (du.map .sym) (dy.map .sym)
  return ({ SysModel.new fresh (fresh + 1) with
    u := du, uExpr := du.map .sym, uPar := du, y := dy, alg := eq }, du, dy)

/-- `"<prefix>{}_to_{}".format(node1.name, node2.name)`. -/
def dummyName (a b : Node) : String :=
  "Dummy_node_" ++ a.name.getD "None" ++ "_to_" ++ b.name.getD "None"

/-- `insert_intermediary_node(y, u, node1, node2)`, network.py:282-312. -/
def insertIntermediaryNode (y u : List Sym) (a b : Ref) (fresh : Sym) : Py Network Unit := do
  let s ← Py.get
  let d ← Py.lift (dummyModel y u fresh)
  let tf ← Py.lift (horizonOf (s.heap a))
  let r ← createNode ⟨none, some (dummyName (s.heap a) (s.heap b)), some d.1,
    some (Ocp.new d.1 none 0 tf)⟩
  connectDirect y d.2.1 a r
  connectDirect d.2.2 u r b

/-- `if not node.model.has_variable(v): raise ValueError`, network.py:155-162. -/
def checkVariable (n : Node) (v : List Sym) : Except Err Unit := do
  let m ← modelOf n
  if m.hasVariable v then return () else .error .valueError

/-- `connect(y, u, node1, node2)`, network.py:146-167. -/
def connect (y u : List Sym) (a b : Ref) (fresh : Sym) : Py Network Unit := do
  let s ← Py.get
  Py.lift (checkVariable (s.heap a) y)
  Py.lift (checkVariable (s.heap b) u)
  if s.intermediary then insertIntermediaryNode y u a b fresh else connectDirect y u a b

/-- `insert_intermediary_nodes()`, network.py:269-280. The symbols of the `k`-th new model start at
`fresh k`. -/
def insertIntermediaryNodes (fresh : Nat → Sym) : Py Network Unit := do
  let s ← Py.get
  Py.modify fun s => { s with graph := Graph.empty }
  Py.forEach s.graph.edges.zipIdx fun ek =>
    insertIntermediaryNode ek.1.2.2.y ek.1.2.2.u ek.1.1 ek.1.2.1 (fresh ek.2)

/-! ## Composition -/

/-- `sorted(self.nodes, key=lambda x: x.node_id)`, network.py:85 and 95: with at least two nodes a
missing identifier cannot be compared (`TypeError`). -/
def sortedNodes (s : Network) : Except Err (List Ref) :=
  if s.graph.nodes.length ≥ 2 ∧ s.graph.nodes.any (fun r => (s.heap r).id.isNone) then
    .error .typeError
  else .ok (s.graph.nodes.insertionSort fun a b =>
    decide ((s.heap a).id.getD 0 ≤ (s.heap b).id.getD 0))

/-- Loop body of `include_models` on a node's model. -/
def includeNodeModel (m : Option SysModel) : Py SysModel Unit :=
  match m with
  | none => Py.throw .attributeError
  | some k => SysModel.includeModel k

/-- `get_model()`, network.py:180-193; `t` and `tau` are the times of the new model. -/
def getModel (s : Network) (t tau : Sym) : Except Err SysModel := do
  let rs ← sortedNodes s
  let r := (Py.bind (Py.forEach rs fun r => includeNodeModel (s.heap r).model) fun _ =>
    Py.forEach s.graph.edges fun e => SysModel.connect e.2.2.u (e.2.2.y.map .sym) false)
      (SysModel.new t tau)
  match r.1 with
  | .error e => .error e
  | .ok () => return r.2

/-- `problem.merge(problems)` with a missing problem: its attributes are read first. -/
def mergeNodeProblem (o : Option Ocp) : Py Ocp Unit :=
  match o with
  | none => Py.throw .attributeError
  | some k => Ocp.mergeOne k

/-- `self.problems[0]`, its times. -/
def firstHorizon (s : Network) : List Ref → Except Err (Rat × Rat)
  | [] => .error .indexError
  | r :: _ => match (s.heap r).problem with
    | none => .error .attributeError
    | some o => .ok (o.t0, o.tf)

/-- `get_problem()`, network.py:195-214. -/
def getProblem (s : Network) (t tau : Sym) : Except Err Ocp := do
  if s.name.isNone then .error .typeError
  else do
    let rs ← sortedNodes s
    let h ← firstHorizon s rs
    let r := (Py.bind (Py.forEach rs fun r => mergeNodeProblem (s.heap r).problem) fun _ =>
      Py.forEach s.graph.edges fun e => Ocp.connect e.2.2.u (e.2.2.y.map .sym) false)
        { Ocp.new (SysModel.new t tau) none 0 1 with t0 := h.1, tf := h.2 }
    match r.1 with
    | .error e => .error e
    | .ok () => return r.2

/-! ## Colouring -/

/-- The first of 0, 1, 2, ... that is not in the list (`itertools.count()` loop of networkx's
`greedy_color`). -/
def firstFree (used : List Nat) : Nat :=
  ((List.range (used.length + 1)).find? fun c => !used.contains c).getD used.length

/-- Loop body of networkx's `greedy_color`: the neighbours `G[u]` that have a colour. -/
def colourNode (adj : Ref → List Ref) (colours : Dict Ref Nat) (r : Ref) : Dict Ref Nat :=
  colours.set r (firstFree ((adj r).filterMap fun v => colours.get? v))

/-- networkx's `greedy_color` for an order of the nodes. -/
def greedyColour (adj : Ref → List Ref) (order : List Ref) : Dict Ref Nat :=
  order.foldl (colourNode adj) []

/-- networkx's strategy `largest_first`: `sorted(G, key=G.degree, reverse=True)`. -/
def largestFirst (degree : Ref → Nat) (nodes : List Ref) : List Ref :=
  nodes.insertionSort fun a b => decide (degree b ≤ degree a)

/-- `G[u]` of the directed graph: the successors. -/
def successors (g : Graph) (r : Ref) : List Ref := (g.succOf r).keys

/-- `G[u]` of `graph.to_undirected()`: the nodes with an edge from or to `u`. -/
def neighbours (g : Graph) (r : Ref) : List Ref :=
  g.nodes.filter fun v => g.hasEdge r v || g.hasEdge v r

/-- Degree in the directed graph. -/
def directedDegree (g : Graph) (r : Ref) : Nat := (successors g r).length + (g.predOf r).length

/-- Degree in the undirected graph: a loop counts twice. -/
def undirectedDegree (g : Graph) (r : Ref) : Nat :=
  (neighbours g r).length + (if g.hasEdge r r then 1 else 0)

/-- `grouping_dict[color].append(node)`, network.py:262-265. -/
def addToGroup (d : Dict Nat (List Ref)) (rc : Ref × Nat) : Dict Nat (List Ref) :=
  let d := if d.has rc.2 then d else d.set rc.2 []
  d.set rc.2 ((d.get? rc.2).getD [] ++ [rc.1])

/-- The groups of a colouring, network.py:260-267. -/
def groupsOf (colouring : Dict Ref Nat) : List (List Ref) := (colouring.foldl addToGroup []).values

/-- `get_map_coloring_groups()`, network.py:258-267. -/
def mapColouringGroups (g : Graph) : List (List Ref) :=
  groupsOf (greedyColour (neighbours g) (largestFirst (undirectedDegree g) g.nodes))

end Net
end Verif
