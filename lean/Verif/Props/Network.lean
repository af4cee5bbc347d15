import Verif.Lemmas.NetworkIter
/-!
# C59, C62, C102–C104: nodes and connections of a network
-/
namespace Verif
open Net

/-! ## C59: identifiers -/

/-- C59, partial: after every history of calls in which the user leaves the identifiers to the
network and connects nodes of the network, every node has an identifier, no two have the same, and
looking up an identifier gives the node that carries it. -/
theorem C59_unique_partial (name : Option String) (i : Bool) (cs : List Spec.NetCall)
    (hc : Spec.Follows Spec.NetCall.run Spec.AutomaticIds cs (Spec.emptyNetwork name i)) :
    let s := Spec.netAfter cs (Spec.emptyNetwork name i)
    s.graph.nodes.Nodup ∧
    (∀ r ∈ s.graph.nodes, ∃ id, (s.heap r).id = some id) ∧
    (∀ r ∈ s.graph.nodes, ∀ q ∈ s.graph.nodes, r ≠ q → (s.heap r).id ≠ (s.heap q).id) ∧
    ∀ r ∈ s.graph.nodes, ∀ id, (s.heap r).id = some id → getItem s (.int id) = .ok r := by
  intro s
  have h : IdsOk s := ids_history (ids_empty name i) cs hc
  refine ⟨h.graph.nodes, fun r hr => Option.isSome_iff_exists.mp (h.nodes r hr), ?_, ?_⟩
  · intro r hr q _ hne he
    obtain ⟨id, hid⟩ := Option.isSome_iff_exists.mp (h.nodes r hr)
    exact hne (h.inj r q id hid (he ▸ hid))
  · intro r hr id hid
    simp only [getItem, find?_unique h hr hid]

/-- C59: an identifier no node carries raises `IndexError`, an unknown name `KeyError`, a key of
another type `NotImplementedError`. -/
theorem C59_missing (s : Network) :
    (∀ i, (∀ r ∈ s.graph.nodes, (s.heap r).id ≠ some i) → getItem s (.int i) = .error .indexError) ∧
    (∀ n, (∀ r ∈ s.graph.nodes, (s.heap r).name ≠ some n) → getItem s (.str n) = .error .keyError) ∧
    getItem s .other = .error .notImplementedError := by
  refine ⟨fun i hi => ?_, fun n hn => ?_, rfl⟩
  · have : getNodeById s i = none := List.find?_eq_none.mpr fun r hr => by simpa using hi r hr
    simp only [getItem, this]
  · have : getNodeByName s n = none := List.find?_eq_none.mpr fun r hr => by simpa using hn r hr
    simp only [getItem, this]

/-- C59 fails for identifiers given by the user: creating a node with the identifier of another node
is accepted; both carry it, and the lookup never finds the new one. -/
theorem C59_given_id_fails (s : Network) (h' : Spec.Reached s) (r : Ref) (i : Int) (hr : r ∈ s.graph.nodes)
    (hi : (s.heap r).id = some i) (n : Node) (hn : n.id = some i) :
    ∃ s', createNode n s = (.ok s.next, s') ∧ r ≠ s.next ∧ r ∈ s'.graph.nodes ∧
      s.next ∈ s'.graph.nodes ∧ (s'.heap r).id = some i ∧ (s'.heap s.next).id = some i ∧
      getItem s' (.int i) = .ok r := by
  have h := ids_reached h'
  have hne : r ≠ s.next := fun e => not_node_next h (e ▸ hr)
  have hrun : createNode n s = (.ok s.next, { s.put s.next n with
      next := s.next + 1, graph := s.graph.addNode s.next }) := by
    simp only [createNode, Py.bind_eq]
    rw [Py.bind_ok (show alloc n s = (.ok s.next, { s.put s.next n with next := s.next + 1 }) from rfl)]
    have hm : setMissingId s.next { s.put s.next n with next := s.next + 1 } =
        (.ok (), { s.put s.next n with next := s.next + 1 }) := by
      simp [setMissingId, Network.put, hn]
    have hf : Py.forEach [s.next] setMissingId { s.put s.next n with next := s.next + 1 } =
        (.ok (), { s.put s.next n with next := s.next + 1 }) := (Py.bind_ok hm).trans rfl
    have hi : includeNodes [s.next] { s.put s.next n with next := s.next + 1 } = (.ok (),
        { s.put s.next n with next := s.next + 1, graph := s.graph.addNode s.next }) :=
      (Py.bind_ok hf).trans rfl
    rw [Py.bind_ok hi]
    rfl
  refine ⟨_, hrun, hne, (mem_nodes_addNode ..).mpr (.inl hr), (mem_nodes_addNode ..).mpr (.inr rfl),
    by simp [Network.put, hne, hi], by simp [Network.put, hn], ?_⟩
  have hf := find?_unique h hr hi
  have : getNodeById { s.put s.next n with next := s.next + 1, graph := s.graph.addNode s.next } i =
      some r := by
    unfold getNodeById at *
    rw [nodes_addNode, if_neg (not_node_next h), List.find?_append]
    have he : (s.graph.nodes.find? fun q => decide (((s.put s.next n).heap q).id = some i)) = some r := by
      rw [← hf, ← List.head?_filter, ← List.head?_filter]
      refine congrArg _ (List.filter_congr fun q hq => ?_)
      have : q ≠ s.next := fun e => not_node_next h (e ▸ hq)
      simp [Network.put, this]
    rw [he]
    rfl
  simp only [getItem, this]

/-- C59 fails for nodes that are connected without having been included: they become nodes of the
network without an identifier, and the network's models cannot be listed any more. -/
theorem C59_not_included_fails (s : Network) (h' : Spec.Reached s) (y u : List Sym) (a b : Ref) (fresh : Sym)
    (hi : s.intermediary = false) (ha : a ∈ s.graph.nodes) (hb : (s.heap b).id = none)
    (hy : checkVariable (s.heap a) y = .ok ()) (hu : checkVariable (s.heap b) u = .ok ()) :
    ∃ s', connect y u a b fresh s = (.ok (), s') ∧ b ∈ s'.graph.nodes ∧ (s'.heap b).id = none ∧
      ∀ t tau, getModel s' t tau = .error .typeError := by
  have h := ids_reached h'
  have hrun : connect y u a b fresh s = (.ok (), { s with graph := joinEdge y u a b s.graph }) :=
    connect_run s y u a b fresh hi hy hu
  have hbn : b ∈ (joinEdge y u a b s.graph).nodes := (nodes_joinEdge h.graph ..).mpr (.inr (.inr rfl))
  have han : a ∈ (joinEdge y u a b s.graph).nodes := (nodes_joinEdge h.graph ..).mpr (.inl ha)
  refine ⟨_, hrun, hbn, hb, fun t tau => ?_⟩
  have hne : a ≠ b := by
    rintro rfl
    have := h.nodes a ha
    rw [hb] at this
    cases this
  have hlen : (joinEdge y u a b s.graph).nodes.length ≥ 2 := by
    have hsub : [a, b].Subperm (joinEdge y u a b s.graph).nodes :=
      List.subperm_of_subset (by simp [hne]) (by
        intro x hx
        rcases List.mem_cons.mp hx with rfl | hx
        · exact han
        · rcases List.mem_cons.mp hx with rfl | hx
          · exact hbn
          · cases hx)
    exact hsub.length_le
  have : sortedNodes { s with graph := joinEdge y u a b s.graph } = .error .typeError := by
    unfold sortedNodes
    refine if_pos ⟨hlen, List.any_eq_true.mpr ⟨b, hbn, by simp [hb]⟩⟩
  simp only [getModel, this]
  rfl

/-! ## C62: intermediary nodes -/

/-- C62, partial: every connection from `a` to `b` becomes a path over a new node whose model has one
control for each output of `a` and one algebraic variable for each input of `b`, and makes them
equal; there are no other connections, in particular no two old nodes are connected directly; the
nodes are the new ones and the old ones that had a connection. -/
theorem C62_subdivided_partial (s : Network) (h' : Spec.Reached s) (hs : Spec.Subdividable s)
    (fresh : Nat → Sym) :
    ∃ s', insertIntermediaryNodes fresh s = (.ok (), s') ∧
      (∀ a b e, s.graph.edge? a b = some e → ∃ c m du dy, c ∉ s.graph.nodes ∧
        (s'.heap c).model = some m ∧ s'.graph.edge? a c = some ⟨e.y, du⟩ ∧
        s'.graph.edge? c b = some ⟨dy, e.u⟩ ∧ m.u = du ∧ m.y = dy ∧ m.x = [] ∧
        m.alg = List.zipWith (fun v w => Expr.sub (.sym v) (.sym w)) du dy ∧
        du.length = e.y.length ∧ dy.length = e.u.length) ∧
      (∀ a ∈ s.graph.nodes, ∀ b ∈ s.graph.nodes, s'.graph.hasEdge a b = false) ∧
      (∀ c d, s'.graph.hasEdge c d = true →
        (c ∉ s.graph.nodes ∧ ∃ a, s.graph.hasEdge a d = true ∧ s'.graph.hasEdge a c = true) ∨
        (d ∉ s.graph.nodes ∧ ∃ b, s.graph.hasEdge c b = true ∧ s'.graph.hasEdge d b = true)) ∧
      (∀ r ∈ s.graph.nodes, (r ∈ s'.graph.nodes ↔ ∃ q, Spec.Connected s.graph r q) ∧
        s'.heap r = s.heap r) := by
  have h := ids_reached h'
  have hids : ∀ a b e, (a, b, e) ∈ s.graph.edges → e.y ≠ [] ∧ e.u.length = e.y.length ∧
      (s.heap a).problem.isSome = true ∧ (s.heap a).id.isSome = true ∧
      (s.heap b).id.isSome = true ∧ a < s.next ∧ b < s.next := by
    intro a b e he
    rw [mem_edges h.graph] at he
    obtain ⟨h1, h2, h3⟩ := hs a b e he
    have hab := h.graph.ends a b (by rw [hasEdge_iff, he]; rfl)
    exact ⟨h1, h2, h3, h.nodes a hab.1, h.nodes b hab.2, lt_next h (h.nodes a hab.1),
      lt_next h (h.nodes b hab.2)⟩
  have hp0 : Progress s.graph.edges fresh s.next s.heap 0 { s with graph := Graph.empty } := by
    refine ⟨⟨ok_empty, h.bound, h.inj, h.unused, ?_⟩, rfl, fun _ _ => rfl, ?_, ?_, ?_⟩
    · intro r hr
      simp [Graph.empty, Graph.nodes, Dict.keys] at hr
    · intro i a b e hi
      omega
    · intro c d hcd
      simp [Graph.hasEdge, Graph.succOf, Graph.empty, Dict.get?, Dict.has] at hcd
    · intro q
      simp [Graph.empty, Graph.nodes, Dict.keys]
  obtain ⟨s', hrun, hp⟩ := progress_all hids s.graph.edges 0 _ rfl (Nat.zero_le _) hp0
  have hnew : ∀ i, s.next + i ∉ s.graph.nodes := fun i hi => by
    have := lt_next h (h.nodes _ hi); omega
  have hget : ∀ {i : Nat} {a b : Ref} {e : Edge}, s.graph.edges[i]? = some (a, b, e) →
      s.graph.hasEdge a b = true ∧ a ∈ s.graph.nodes ∧ b ∈ s.graph.nodes := by
    intro i a b e hi
    have := (mem_edges h.graph a b e).mp (List.mem_of_getElem? hi)
    have hab : s.graph.hasEdge a b = true := by rw [hasEdge_iff, this]; rfl
    exact ⟨hab, h.graph.ends a b hab⟩
  refine ⟨s', ?_, ?_, ?_, ?_, ?_⟩
  · simp only [insertIntermediaryNodes, Py.bind_eq, Py.get_bind, Py.modify_bind]
    exact hrun
  · intro a b e he
    obtain ⟨i, hi, hie⟩ := List.getElem_of_mem ((mem_edges h.graph a b e).mpr he)
    obtain ⟨m, du, dy, h1, h2, h3, h4⟩ := hp.path i a b e hi (by rw [List.getElem?_eq_getElem hi, hie])
    obtain ⟨m', du', dy', g1, g2, g3, g4, g5, g6, g7⟩ := dummyModel_ok e.y e.u (fresh i)
      (hs a b e he).1 (hs a b e he).2.1
    rw [h1] at g1
    cases g1
    exact ⟨s.next + i, m, du, dy, hnew i, h2, h3, h4, g2, g3, g4, g7, g5, g6⟩
  · intro a ha b hb
    by_contra hc
    obtain ⟨i, a', b', e', -, -, hor⟩ := hp.only a b (by simpa using hc)
    rcases hor with ⟨-, rfl⟩ | ⟨rfl, -⟩
    exacts [hnew i hb, hnew i ha]
  · intro c d hcd
    obtain ⟨i, a, b, e, hi, hie, hor⟩ := hp.only c d hcd
    obtain ⟨m, du, dy, -, -, h3, h4⟩ := hp.path i a b e hi hie
    obtain ⟨hab, -⟩ := hget hie
    rcases hor with ⟨rfl, rfl⟩ | ⟨rfl, rfl⟩
    · exact .inr ⟨hnew i, b, hab, by rw [hasEdge_iff, h4]; rfl⟩
    · exact .inl ⟨hnew i, a, hab, by rw [hasEdge_iff, h3]; rfl⟩
  · intro r hr
    refine ⟨?_, hp.old r (lt_next h (h.nodes r hr))⟩
    rw [hp.nodes]
    constructor
    · rintro ⟨i, a, b, e, hi, hie, rfl | rfl | rfl⟩
      · exact absurd hr (hnew i)
      · exact ⟨b, .inl (hget hie).1⟩
      · exact ⟨a, .inr (hget hie).1⟩
    · rintro ⟨q, hq | hq⟩ <;>
      · rw [hasEdge_iff] at hq
        obtain ⟨e, he⟩ := Option.isSome_iff_exists.mp hq
        obtain ⟨i, hi, hie⟩ := List.getElem_of_mem ((mem_edges h.graph ..).mpr he)
        exact ⟨i, _, _, e, hi, by rw [List.getElem?_eq_getElem hi, hie], by simp⟩

/-- C62 fails for nodes without a connection: they are not in the network any more. -/
theorem C62_isolated_fails (s : Network) (h' : Spec.Reached s) (hs : Spec.Subdividable s)
    (fresh : Nat → Sym) (r : Ref) (hr : r ∈ s.graph.nodes)
    (hiso : ∀ q, ¬ Spec.Connected s.graph r q) :
    ∃ s', insertIntermediaryNodes fresh s = (.ok (), s') ∧ r ∉ s'.graph.nodes := by
  have h := ids_reached h'
  obtain ⟨s', h1, -, -, -, h5⟩ := C62_subdivided_partial s h' hs fresh
  refine ⟨s', h1, fun hc => ?_⟩
  obtain ⟨q, hq⟩ := ((h5 r hr).1).mp hc
  exact hiso q hq

/-! ## C103: failing insertion -/

/-- C103 fails: when the first node of the first connection has no problem, the insertion raises
`AttributeError` and the network has lost all its nodes and connections. -/
theorem C103_atomic_fails (s : Network) (fresh : Nat → Sym) (a b : Ref) (e : Edge)
    (l : List (Ref × Ref × Edge)) (hl : s.graph.edges = (a, b, e) :: l) (hy : e.y ≠ [])
    (hu : e.u.length = e.y.length) (hp : (s.heap a).problem = none) :
    insertIntermediaryNodes fresh s = (.error .attributeError, { s with graph := Graph.empty }) := by
  simp only [insertIntermediaryNodes, Py.bind_eq, Py.get_bind, Py.modify_bind, hl, List.zipIdx_cons,
    Py.forEach]
  refine Py.bind_error ?_
  obtain ⟨m, du, dy, hd, -⟩ := dummyModel_ok e.y e.u (fresh 0) hy hu
  simp only [insertIntermediaryNode, Py.bind_eq, Py.get_bind, hd]
  refine (Py.bind_ok (show Py.lift (Except.ok (m, du, dy)) { s with graph := Graph.empty } =
    (.ok (m, du, dy), { s with graph := Graph.empty }) from rfl)).trans ?_
  refine Py.bind_error ?_
  simp only [horizonOf, hp]
  rfl

/-! ## C104: connecting -/

/-- C104: a rejected connection leaves the network as it was. -/
theorem C104_rejected (s s' : Network) (y u : List Sym) (a b : Ref) (fresh : Sym) (e : Err)
    (hr : connect y u a b fresh s = (.error e, s')) : s' = s := by
  simp only [connect, Py.bind_eq, Py.get_bind] at hr
  cases h1 : checkVariable (s.heap a) y with
  | error e1 =>
    rw [h1, Py.bind_error (show Py.lift (Except.error e1) s = (.error e1, s) from rfl)] at hr
    cases hr; rfl
  | ok _ =>
    rw [h1, Py.bind_ok (show Py.lift (Except.ok _) s = (.ok _, s) from rfl)] at hr
    cases h2 : checkVariable (s.heap b) u with
    | error e2 =>
      rw [h2, Py.bind_error (show Py.lift (Except.error e2) s = (.error e2, s) from rfl)] at hr
      cases hr; rfl
    | ok _ =>
      rw [h2, Py.bind_ok (show Py.lift (Except.ok _) s = (.ok _, s) from rfl)] at hr
      split at hr
      · rcases insert_cases y u a b fresh s with ⟨e', he⟩ | ⟨m, du, dy, tf, -, -, he⟩
        · rw [he] at hr; cases hr; rfl
        · rw [he, Py.bind_ok (createNode_run s _ rfl)] at hr
          cases hr
      · cases hr

/-- C104: a connection whose output or input is not a variable of its node is rejected with
`ValueError`. -/
theorem C104_unknown (s : Network) (y u : List Sym) (a b : Ref) (fresh : Sym) (m k : SysModel)
    (hm : (s.heap a).model = some m) (hk : (s.heap b).model = some k)
    (h : (∀ v ∈ y, v ∉ m.x ++ m.y ++ m.u ++ m.p ++ m.theta ++ m.uPar) ∨
      ∀ v ∈ u, v ∉ k.x ++ k.y ++ k.u ++ k.p ++ k.theta ++ k.uPar) :
    connect y u a b fresh s = (.error .valueError, s) := by
  have hno : ∀ (n : SysModel) (v : List Sym),
      (∀ w ∈ v, w ∉ n.x ++ n.y ++ n.u ++ n.p ++ n.theta ++ n.uPar) → n.hasVariable v = false := by
    intro n v hv
    have : findIndices v (n.x ++ n.y ++ n.u ++ n.p ++ n.theta ++ n.uPar) = [] := by
      rw [List.eq_nil_iff_forall_not_mem]
      intro i hi
      rw [mem_findIndices] at hi
      obtain ⟨w, hw, hi⟩ := hi
      exact hv w hw (List.mem_of_getElem? hi)
    unfold SysModel.hasVariable
    rw [this]
    rfl
  simp only [connect, Py.bind_eq, Py.get_bind]
  have hc : ∀ (n : Node) (k : SysModel) (v : List Sym), n.model = some k → k.hasVariable v = false →
      checkVariable n v = .error .valueError := by
    intro n k v hn hv
    simp only [checkVariable, modelOf, hn, bind, Except.bind, hv]
    rfl
  rcases h with h | h
  · rw [hc _ m y hm (hno m y h)]
    exact Py.bind_error rfl
  · cases h1 : m.hasVariable y with
    | false =>
      rw [hc _ m y hm h1]
      exact Py.bind_error rfl
    | true =>
      have : checkVariable (s.heap a) y = .ok () := by
        simp only [checkVariable, modelOf, hm, bind, Except.bind, h1]; rfl
      rw [this, Py.bind_ok (show Py.lift (Except.ok ()) s = (.ok (), s) from rfl),
        hc _ k u hk (hno k u h)]
      exact Py.bind_error rfl

/-- C104, partial: an accepted direct connection appends the variables to those of the pair, and no
other connection and no node object changes. Accepted is every connection of which at least one
entry of each vector is a variable of its node. -/
theorem C104_registered_partial (s : Network) (y u : List Sym) (a b : Ref) (fresh : Sym)
    (m k : SysModel) (hi : s.intermediary = false) (hm : (s.heap a).model = some m)
    (hk : (s.heap b).model = some k)
    (hy : ∃ v ∈ y, v ∈ m.x ++ m.y ++ m.u ++ m.p ++ m.theta ++ m.uPar)
    (hu : ∃ v ∈ u, v ∈ k.x ++ k.y ++ k.u ++ k.p ++ k.theta ++ k.uPar) :
    ∃ s', connect y u a b fresh s = (.ok (), s') ∧ s'.heap = s.heap ∧
      s'.graph.edge? a b = some ⟨((s.graph.edge? a b).map (·.y)).getD [] ++ y,
        ((s.graph.edge? a b).map (·.u)).getD [] ++ u⟩ ∧
      ∀ c d, ¬ (c = a ∧ d = b) → s'.graph.edge? c d = s.graph.edge? c d := by
  have hyes : ∀ (n : Node) (k : SysModel) (v : List Sym), n.model = some k →
      (∃ w ∈ v, w ∈ k.x ++ k.y ++ k.u ++ k.p ++ k.theta ++ k.uPar) → checkVariable n v = .ok () := by
    intro n k v hn ⟨w, hw, hmem⟩
    obtain ⟨i, hi, hiw⟩ := List.getElem_of_mem hmem
    have : i ∈ findIndices v (k.x ++ k.y ++ k.u ++ k.p ++ k.theta ++ k.uPar) :=
      mem_findIndices.mpr ⟨w, hw, by rw [List.getElem?_eq_getElem hi, hiw]⟩
    have : k.hasVariable v = true := by
      simp only [SysModel.hasVariable, decide_eq_true_eq]
      exact List.length_pos_of_mem this
    simp only [checkVariable, modelOf, hn, bind, Except.bind, this]
    rfl
  refine ⟨{ s with graph := joinEdge y u a b s.graph }, ?_, rfl, ?_, ?_⟩
  · exact connect_run s y u a b fresh hi (hyes _ m y hm hy) (hyes _ k u hk hu)
  · rw [edge?_joinEdge, if_pos ⟨rfl, rfl⟩]
  · intro c d hcd
    rw [edge?_joinEdge, if_neg hcd]

/-- C104 fails for vectors: entries that are no variable of the node are accepted next to one that
is. -/
theorem C104_vector_fails : ∃ (s : Network) (y u : List Sym) (a b : Ref) (m : SysModel),
    (s.heap a).model = some m ∧ (∃ v ∈ y, v ∉ m.x ++ m.y ++ m.u ++ m.p ++ m.theta ++ m.uPar) ∧
    (connect y u a b 50 s).1 = .ok () :=
  ⟨{ Spec.emptyNetwork none false with heap := fun _ => ⟨none, none,
      some { SysModel.new 0 1 with x := [2], u := [3], uPar := [3] }, none⟩ }, [2, 9], [3, 9], 0, 1, _,
    rfl, ⟨9, by decide, by decide⟩, by decide +kernel⟩

/-- C104 and C105: removing a connection removes that pair and nothing else; a pair that is not
connected raises, and nothing changes. -/
theorem C105_removed (s : Network) (h' : Spec.Reached s) (a b : Ref) :
    (s.graph.hasEdge a b = true → ∃ s', removeConnection a b s = (.ok (), s') ∧
      s'.graph.edge? a b = none ∧ (∀ c d, ¬ (c = a ∧ d = b) → s'.graph.edge? c d = s.graph.edge? c d) ∧
      s'.graph.nodes = s.graph.nodes ∧ s'.heap = s.heap) ∧
    (s.graph.hasEdge a b = false → removeConnection a b s = (.error .exception, s)) := by
  have h := ids_reached h'
  simp only [removeConnection, Py.bind_eq, Py.get_bind, Py.raiseIf]
  constructor
  · intro hab
    simp only [hab, Bool.not_true, Bool.false_eq_true, if_false, Py.pure_bind, Py.modify]
    refine ⟨_, rfl, ?_, ?_, (ok_removeEdge h.graph a b hab).2, rfl⟩
    · simp only [Graph.edge?, Graph.removeEdge, Graph.succOf, get?_getD_set, if_pos]
      have : ∀ d : Dict Ref Edge, (d.del b).get? b = none := fun d => by
        cases hg : (d.del b).get? b with
        | none => rfl
        | some e =>
          have : b ∈ (d.del b).keys := List.mem_map_of_mem (f := Prod.fst) (mem_of_get? hg)
          rw [Dict.keys_del, List.mem_filter] at this
          simp at this
      exact this _
    · intro c d hcd
      simp only [Graph.edge?, Graph.removeEdge, Graph.succOf, get?_getD_set]
      split
      · next e =>
        subst e
        have : d ≠ b := fun e => hcd ⟨rfl, e⟩
        rw [Dict.get?_del _ _ _ this]
      · rfl
  · intro hab
    simp only [hab, Bool.not_false, if_true]
    rfl

/-! ## C102: iterating -/

/-- C102, partial: iterating over a network that was built by including, creating and connecting
nodes visits every node once, in the order of the identifiers. -/
theorem C102_iterate_partial (name : Option String) (i : Bool) (cs : List Spec.NetCall)
    (hc : Spec.Follows Spec.NetCall.run (fun c s => Spec.AutomaticIds c s ∧ Spec.NotInsertion c) cs
      (Spec.emptyNetwork name i)) :
    let s := Spec.netAfter cs (Spec.emptyNetwork name i)
    (iterate s).Perm s.graph.nodes ∧
      ∀ (k : Nat) (r : Ref), (iterate s)[k]? = some r → (s.heap r).id = some (k : Int) := by
  intro s
  obtain ⟨h, hd⟩ : IdsOk s ∧ Dense s := dense_history (ids_empty name i)
    (fun k hk => absurd hk (by simp [Spec.emptyNetwork])) cs hc
  have hlen := length_nodes h hd
  obtain ⟨h1, h2⟩ := iterateFrom_dense (s := s) s.graph.nodes.length 0 fun j _ hj => by
    obtain ⟨r, hr, hid⟩ := hd j (by omega)
    exact ⟨r, find?_unique h hr hid⟩
  refine ⟨?_, fun k r hr => ?_⟩
  · refine (List.subperm_of_subset (nodup_iterateFrom s _ 0) fun r hr => ?_).perm_of_length_le
      (Nat.le_of_eq h1.symm)
    obtain ⟨j, hj, rfl⟩ := List.getElem_of_mem hr
    exact (getNodeById_some (h2 j _ (List.getElem?_eq_getElem hj))).1
  · have := (getNodeById_some (h2 k r hr)).2
    simpa using this

/-- C102 fails after the insertion of intermediary nodes when the node with identifier 0 has no
connection: the loop over the network has no iteration, whatever nodes the network has. -/
theorem C102_empty_fails (s : Network) (h' : Spec.Reached s) (hs : Spec.Subdividable s)
    (fresh : Nat → Sym) (r : Ref) (hr : r ∈ s.graph.nodes) (hid : (s.heap r).id = some 0)
    (hiso : ∀ q, ¬ Spec.Connected s.graph r q) (a b : Ref) (hab : s.graph.hasEdge a b = true) :
    ∃ s', insertIntermediaryNodes fresh s = (.ok (), s') ∧ s'.graph.nodes ≠ [] ∧ iterate s' = [] := by
  obtain ⟨s', h1, h2, h3, h4, h5⟩ := C62_subdivided_partial s h' hs fresh
  have h := ids_reached h'
  have hne : s'.graph.nodes ≠ [] := by
    have ha := (h.graph.ends a b hab).1
    exact List.ne_nil_of_mem (((h5 a ha).1).mpr ⟨b, .inl hab⟩)
  refine ⟨s', h1, hne, ?_⟩
  have hids : IdsOk s' := by
    have := ids_call h (.insertIntermediaryNodes fresh) trivial
    simp only [Spec.NetCall.run, h1] at this
    exact this
  have hg : getNodeById s' 0 = none := by
    cases hg : getNodeById s' 0 with
    | none => rfl
    | some q =>
      obtain ⟨hq, hq0⟩ := getNodeById_some hg
      have : q = r := hids.inj q r 0 hq0 (by rw [(h5 r hr).2]; exact hid)
      subst this
      obtain ⟨p, hp⟩ := ((h5 q hr).1).mp hq
      exact absurd hp (hiso p)
  unfold iterate
  cases hl : s'.graph.nodes.length with
  | zero => rfl
  | succ n => simp only [iterateFrom, Nat.cast_zero, hg]

end Verif
