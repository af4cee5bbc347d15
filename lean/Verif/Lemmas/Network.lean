import Verif.Lemmas.Ocp
import Verif.Spec.Network
import Verif.Lemmas.Dict
import Mathlib.Data.List.Nodup
/-!
# The graph, identifiers and intermediary nodes
-/
namespace Verif
namespace Net

/-! ## Dictionaries -/

theorem get?_getD_set {α κ : Type} [DecidableEq κ] (d : Dict κ α) (k k' : κ) (v dflt : α) :
    ((d.set k v).get? k').getD dflt = if k' = k then v else (d.get? k').getD dflt := by
  rw [Dict.get?_set]; split <;> rfl

theorem mem_of_get? {α κ : Type} [DecidableEq κ] {d : Dict κ α} {k : κ} {v : α}
    (h : d.get? k = some v) : (k, v) ∈ d := by
  induction d with
  | nil => cases h
  | cons kv d ih =>
    obtain ⟨k', v'⟩ := kv
    simp only [Dict.get?] at h
    split at h
    · next e => subst e; cases h; simp
    · exact List.mem_cons_of_mem _ (ih h)

theorem get?_of_mem {α κ : Type} [DecidableEq κ] {d : Dict κ α} {k : κ} {v : α} (hn : d.keys.Nodup)
    (h : (k, v) ∈ d) : d.get? k = some v := by
  obtain ⟨i, hi, e⟩ := List.getElem_of_mem h
  exact Dict.get?_of_getElem d hn i k v (by rw [List.getElem?_eq_getElem hi, e])

theorem has_eq_isSome {α κ : Type} [DecidableEq κ] (d : Dict κ α) (k : κ) :
    d.has k = (d.get? k).isSome := by
  cases h : d.get? k with
  | none =>
    rw [Dict.get?_eq_none_iff] at h
    simpa using (Dict.has_eq_false_iff d k).mpr h
  | some v =>
    have : k ∈ d.keys := by
      by_contra hk
      rw [← Dict.get?_eq_none_iff, h] at hk
      cases hk
    simpa using (Dict.has_iff d k).mpr this

theorem nodup_keys_set {α κ : Type} [DecidableEq κ] (d : Dict κ α) (k : κ) (v : α)
    (h : d.keys.Nodup) : (d.set k v).keys.Nodup := by
  rw [Dict.keys_set]
  split
  · exact h
  · next hk => exact List.nodup_append.mpr ⟨h, by simp, by simp; rintro a ha rfl; exact hk ha⟩

/-! ## Graphs -/

theorem mem_edges {g : Graph} (h : Spec.GraphOk g) (a b : Ref) (e : Edge) :
    (a, b, e) ∈ g.edges ↔ g.edge? a b = some e := by
  simp only [Graph.edges, List.mem_flatMap, List.mem_map, Prod.mk.injEq, Prod.exists]
  constructor
  · rintro ⟨a', d, hd, b', e', he, rfl, rfl, rfl⟩
    have hs : g.succ.get? a' = some d := get?_of_mem h.nodes hd
    have hn := h.targets a'
    simp only [Graph.succOf, hs, Option.getD_some] at hn
    simp only [Graph.edge?, Graph.succOf, hs, Option.getD_some]
    exact get?_of_mem hn he
  · intro he
    simp only [Graph.edge?, Graph.succOf] at he
    cases hs : g.succ.get? a with
    | none => rw [hs] at he; cases he
    | some d =>
      rw [hs] at he
      exact ⟨a, d, mem_of_get? hs, b, e, mem_of_get? he, rfl, rfl, rfl⟩

theorem hasEdge_iff (g : Graph) (a b : Ref) : g.hasEdge a b = (g.edge? a b).isSome :=
  has_eq_isSome _ _

theorem nodes_addNode (g : Graph) (r : Ref) :
    (g.addNode r).nodes = if r ∈ g.nodes then g.nodes else g.nodes ++ [r] := by
  unfold Graph.addNode Graph.nodes
  by_cases h : r ∈ g.succ.keys
  · rw [if_pos ((Dict.has_iff _ _).mpr h), if_pos h]
  · rw [if_neg (by rw [Dict.has_iff]; exact h), Dict.keys_set]

theorem mem_nodes_addNode (g : Graph) (r q : Ref) :
    q ∈ (g.addNode r).nodes ↔ q ∈ g.nodes ∨ q = r := by
  rw [nodes_addNode]
  split
  · next h => exact ⟨Or.inl, fun h' => h'.elim id (fun e => e ▸ h)⟩
  · simp

theorem succOf_addNode (g : Graph) (r a : Ref) : (g.addNode r).succOf a = g.succOf a := by
  unfold Graph.addNode
  split
  · rfl
  · next h =>
    simp only [Graph.succOf, get?_getD_set]
    split
    · next e =>
      subst e
      have : g.succ.get? a = none :=
        (Dict.get?_eq_none_iff _ _).mpr fun hk => h ((Dict.has_iff _ _).mpr hk)
      rw [this]; rfl
    · rfl

theorem predOf_addNode (g : Graph) (r a : Ref) (h : r ∉ g.nodes → g.pred.get? r = none) :
    (g.addNode r).predOf a = g.predOf a := by
  unfold Graph.addNode
  split
  · rfl
  · next hr =>
    simp only [Graph.predOf, get?_getD_set]
    split
    · next e =>
      subst e
      rw [h fun hk => hr ((Dict.has_iff _ _).mpr hk)]; rfl
    · rfl

theorem edge?_addNode (g : Graph) (r a b : Ref) : (g.addNode r).edge? a b = g.edge? a b := by
  simp only [Graph.edge?, succOf_addNode]

theorem ok_addNode {g : Graph} (h : Spec.GraphOk g) (r : Ref) : Spec.GraphOk (g.addNode r) := by
  refine ⟨?_, fun a => by rw [succOf_addNode]; exact h.targets a, fun a b hab => ?_⟩
  · rw [nodes_addNode]
    split
    · exact h.nodes
    · next hr => exact List.nodup_append.mpr ⟨h.nodes, by simp, by simp; rintro a ha rfl; exact hr ha⟩
  · rw [hasEdge_iff, edge?_addNode, ← hasEdge_iff] at hab
    exact ⟨(mem_nodes_addNode ..).mpr (Or.inl (h.ends a b hab).1),
      (mem_nodes_addNode ..).mpr (Or.inl (h.ends a b hab).2)⟩

theorem addNodes_cons (r : Ref) (rs : List Ref) (g : Graph) :
    g.addNodes (r :: rs) = (g.addNode r).addNodes rs := rfl

theorem ok_addNodes {g : Graph} (h : Spec.GraphOk g) (rs : List Ref) : Spec.GraphOk (g.addNodes rs) := by
  induction rs generalizing g with
  | nil => exact h
  | cons r rs ih => exact ih (ok_addNode h r)

theorem mem_nodes_addNodes (g : Graph) (rs : List Ref) (q : Ref) :
    q ∈ (g.addNodes rs).nodes ↔ q ∈ g.nodes ∨ q ∈ rs := by
  induction rs generalizing g with
  | nil => simp [Graph.addNodes]
  | cons r rs ih => rw [addNodes_cons, ih, mem_nodes_addNode, List.mem_cons, or_assoc]

theorem edge?_addNodes (g : Graph) (rs : List Ref) (a b : Ref) :
    (g.addNodes rs).edge? a b = g.edge? a b := by
  induction rs generalizing g with
  | nil => rfl
  | cons r rs ih => rw [addNodes_cons, ih, edge?_addNode]

/-- Assigning to the data of the pair `a`, `b`. -/
theorem edge?_put (g : Graph) (succ' : Dict Ref (Dict Ref Edge)) (pred') (a b c d : Ref) (e : Edge)
    (hs : succ' = g.succ.set a ((g.succOf a).set b e)) :
    Graph.edge? ⟨succ', pred'⟩ c d = if c = a ∧ d = b then some e else g.edge? c d := by
  subst hs
  simp only [Graph.edge?, Graph.succOf, get?_getD_set]
  by_cases hc : c = a
  · subst hc
    simp only [if_true, true_and, Dict.get?_set]
  · simp [hc]

theorem ok_put {g : Graph} (h : Spec.GraphOk g) (pred') (a b : Ref) (e : Edge) (ha : a ∈ g.nodes)
    (hb : b ∈ g.nodes) : Spec.GraphOk ⟨g.succ.set a ((g.succOf a).set b e), pred'⟩ := by
  have hn : Graph.nodes ⟨g.succ.set a ((g.succOf a).set b e), pred'⟩ = g.nodes := by
    simp only [Graph.nodes] at *
    rw [Dict.keys_set, if_pos ha]
  refine ⟨hn ▸ h.nodes, fun c => ?_, fun c d hcd => ?_⟩
  · simp only [Graph.succOf, get?_getD_set]
    split
    · exact nodup_keys_set _ _ _ (h.targets a)
    · exact h.targets c
  · rw [hasEdge_iff, edge?_put g _ _ a b c d e rfl] at hcd
    rw [hn]
    split at hcd
    · next hc => rw [hc.1, hc.2]; exact ⟨ha, hb⟩
    · rw [← hasEdge_iff] at hcd; exact h.ends c d hcd

theorem nodes_addEdge (g : Graph) (a b : Ref) (e : Edge) (q : Ref) :
    q ∈ (g.addEdge a b e).nodes ↔ q ∈ g.nodes ∨ q = a ∨ q = b := by
  have ha : a ∈ ((g.addNode a).addNode b).nodes := by simp [mem_nodes_addNode]
  simp only [Graph.addEdge]
  have : Graph.nodes ⟨((g.addNode a).addNode b).succ.set a
      ((((g.addNode a).addNode b).succOf a).set b e),
      ((g.addNode a).addNode b).pred.set b (((g.addNode a).addNode b).predOf b ++ [a])⟩ =
      ((g.addNode a).addNode b).nodes := by
    simp only [Graph.nodes] at *
    rw [Dict.keys_set, if_pos ha]
  rw [this, mem_nodes_addNode, mem_nodes_addNode, or_assoc]

theorem edge?_addEdge (g : Graph) (a b c d : Ref) (e : Edge) :
    (g.addEdge a b e).edge? c d = if c = a ∧ d = b then some e else g.edge? c d := by
  rw [Graph.addEdge, edge?_put ((g.addNode a).addNode b) _ _ a b c d e rfl, edge?_addNode,
    edge?_addNode]

theorem ok_addEdge {g : Graph} (h : Spec.GraphOk g) (a b : Ref) (e : Edge) :
    Spec.GraphOk (g.addEdge a b e) :=
  ok_put (ok_addNode (ok_addNode h a) b) _ a b e (by simp [mem_nodes_addNode])
    (by simp [mem_nodes_addNode])

theorem ok_ensureEdge {g : Graph} (h : Spec.GraphOk g) (a b : Ref) :
    Spec.GraphOk (ensureEdge a b g) ∧ a ∈ (ensureEdge a b g).nodes ∧ b ∈ (ensureEdge a b g).nodes := by
  unfold ensureEdge
  split
  · next hab => exact ⟨h, h.ends a b hab⟩
  · exact ⟨ok_addEdge h a b _, by simp [nodes_addEdge], by simp [nodes_addEdge]⟩

theorem ok_joinEdge {g : Graph} (h : Spec.GraphOk g) (y u : List Sym) (a b : Ref) :
    Spec.GraphOk (joinEdge y u a b g) := by
  obtain ⟨h1, h2, h3⟩ := ok_ensureEdge h a b
  exact ok_put h1 _ a b _ h2 h3

theorem nodes_joinEdge {g : Graph} (h : Spec.GraphOk g) (y u : List Sym) (a b q : Ref) :
    q ∈ (joinEdge y u a b g).nodes ↔ q ∈ g.nodes ∨ q = a ∨ q = b := by
  obtain ⟨h1, h2, h3⟩ := ok_ensureEdge h a b
  have : (joinEdge y u a b g).nodes = (ensureEdge a b g).nodes := by
    simp only [joinEdge, Graph.setEdge, Graph.nodes] at *
    rw [Dict.keys_set, if_pos h2]
  rw [this]
  unfold ensureEdge
  split
  · next hab =>
    have := h.ends a b hab
    constructor
    · exact Or.inl
    · rintro (h | rfl | rfl)
      exacts [h, this.1, this.2]
  · rw [nodes_addEdge]

theorem edge?_joinEdge (g : Graph) (y u : List Sym) (a b c d : Ref) :
    (joinEdge y u a b g).edge? c d =
      if c = a ∧ d = b then
        some ⟨((g.edge? a b).map (·.y)).getD [] ++ y, ((g.edge? a b).map (·.u)).getD [] ++ u⟩
      else g.edge? c d := by
  simp only [joinEdge, Graph.setEdge]
  rw [edge?_put (ensureEdge a b g) _ _ a b c d _ rfl]
  unfold ensureEdge
  by_cases hab : g.hasEdge a b = true
  · rw [hasEdge_iff, Option.isSome_iff_exists] at hab
    obtain ⟨e, he⟩ := hab
    have : g.hasEdge a b = true := by rw [hasEdge_iff, he]; rfl
    simp only [this, if_true, he]
    rfl
  · simp only [hab]
    have hn : g.edge? a b = none := by
      rw [hasEdge_iff] at hab
      simpa using hab
    simp only [Bool.false_eq_true, if_false, edge?_addEdge, true_and, hn]
    by_cases hcd : c = a ∧ d = b
    · simp [hcd]
    · rw [if_neg hcd, if_neg hcd, if_neg hcd]

theorem ok_removeEdge {g : Graph} (h : Spec.GraphOk g) (a b : Ref) (hab : g.hasEdge a b = true) :
    Spec.GraphOk (g.removeEdge a b) ∧ (g.removeEdge a b).nodes = g.nodes := by
  have ha := (h.ends a b hab).1
  have hn : (g.removeEdge a b).nodes = g.nodes := by
    simp only [Graph.removeEdge, Graph.nodes] at *
    rw [Dict.keys_set, if_pos ha]
  refine ⟨⟨hn ▸ h.nodes, fun c => ?_, fun c d hcd => ?_⟩, hn⟩
  · simp only [Graph.removeEdge, Graph.succOf, get?_getD_set]
    split
    · rw [Dict.keys_del]; exact (h.targets a).filter _
    · exact h.targets c
  · rw [hn]
    simp only [Graph.hasEdge, Graph.removeEdge, Graph.succOf, get?_getD_set] at hcd
    split at hcd
    · next e =>
      subst e
      rw [Dict.has_iff, Dict.keys_del, List.mem_filter] at hcd
      exact h.ends c d ((Dict.has_iff _ _).mpr hcd.1)
    · exact h.ends c d hcd

theorem ok_empty : Spec.GraphOk Graph.empty :=
  ⟨List.nodup_nil, fun _ => List.nodup_nil, fun a b h => by simp [Graph.hasEdge, Graph.succOf,
    Graph.empty, Dict.get?, Dict.has] at h⟩

/-! ## Identifiers -/

/-- What holds of the identifiers when the network gives all of them. -/
structure IdsOk (s : Network) : Prop where
  graph : Spec.GraphOk s.graph
  bound : ∀ r i, (s.heap r).id = some i → 0 ≤ i ∧ i < s.counter
  inj : ∀ r q i, (s.heap r).id = some i → (s.heap q).id = some i → r = q
  unused : ∀ r, s.next ≤ r → (s.heap r).id = none
  nodes : ∀ r ∈ s.graph.nodes, (s.heap r).id.isSome = true

/-- Identifiers stay, and objects are not forgotten. -/
def Mono (s s' : Network) : Prop :=
  s.next ≤ s'.next ∧ ∀ r i, (s.heap r).id = some i → (s'.heap r).id = some i

theorem Mono.refl (s : Network) : Mono s s := ⟨Nat.le_refl _, fun _ _ h => h⟩

theorem Mono.trans {s s' s'' : Network} (h : Mono s s') (h' : Mono s' s'') : Mono s s'' :=
  ⟨Nat.le_trans h.1 h'.1, fun r i hi => h'.2 r i (h.2 r i hi)⟩

theorem Mono.isSome {s s' : Network} (h : Mono s s') {r : Ref}
    (hr : (s.heap r).id.isSome = true) : (s'.heap r).id.isSome = true := by
  obtain ⟨i, hi⟩ := Option.isSome_iff_exists.mp hr
  rw [h.2 r i hi]; rfl

theorem ids_alloc {s : Network} (h : IdsOk s) (n : Node) (hn : n.id = none) :
    IdsOk (alloc n s).2 ∧ Mono s (alloc n s).2 := by
  have hid : ∀ r, ((alloc n s).2.heap r).id = (s.heap r).id := by
    intro r
    simp only [alloc, Network.put]
    split
    · next e => subst e; rw [hn, h.unused s.next (Nat.le_refl _)]
    · rfl
  refine ⟨⟨h.graph, ?_, ?_, ?_, ?_⟩, Nat.le_succ _, fun r i hr => by rw [hid]; exact hr⟩
  · intro r i hr; rw [hid] at hr; exact h.bound r i hr
  · intro r q i hr hq; rw [hid] at hr hq; exact h.inj r q i hr hq
  · intro r hr
    rw [hid]
    exact h.unused r (Nat.le_of_succ_le hr)
  · intro r hr; rw [hid]; exact h.nodes r hr

theorem ids_setMissingId {s : Network} (h : IdsOk s) (r : Ref) (hr : r < s.next) :
    IdsOk (setMissingId r s).2 ∧ Mono s (setMissingId r s).2 ∧
      ((setMissingId r s).2.heap r).id.isSome = true ∧ (setMissingId r s).1 = .ok () ∧
      (setMissingId r s).2.next = s.next ∧ (setMissingId r s).2.graph = s.graph := by
  unfold setMissingId
  cases hid : (s.heap r).id with
  | some i => exact ⟨h, Mono.refl s, by simp [hid], rfl, rfl, rfl⟩
  | none =>
    simp only [Option.isNone_none, if_true]
    have he : ∀ q, ((setNodeAnId r s).2.heap q).id =
        if q = r then some (s.counter : Int) else (s.heap q).id := by
      intro q
      simp only [setNodeAnId, Py.modify, Network.put]
      split <;> rfl
    refine ⟨⟨h.graph, ?_, ?_, ?_, ?_⟩, ⟨Nat.le_refl _, ?_⟩, ?_, rfl, rfl, rfl⟩
    · intro q i hq
      rw [he] at hq
      simp only [setNodeAnId, Py.modify]
      split at hq
      · injection hq with hq; omega
      · have := h.bound q i hq; omega
    · intro q q' i hq hq'
      rw [he] at hq hq'
      split at hq <;> split at hq'
      · next e e' => rw [e, e']
      · have := h.bound q' i hq'; injection hq with hq; omega
      · have := h.bound q i hq; injection hq' with hq'; omega
      · exact h.inj q q' i hq hq'
    · intro q hq
      rw [he]
      have hlt : q ≠ r := by
        rintro rfl
        exact absurd hr (Nat.not_lt.mpr hq)
      rw [if_neg hlt]
      exact h.unused q hq
    · intro q hq
      rw [he]
      split
      · rfl
      · exact h.nodes q hq
    · intro q i hq
      rw [he]
      split
      · next e => subst e; rw [hid] at hq; cases hq
      · exact hq
    · rw [he]; simp

theorem ids_setMissing {s : Network} (h : IdsOk s) (rs : List Ref) (hr : ∀ r ∈ rs, r < s.next) :
    IdsOk (Py.forEach rs setMissingId s).2 ∧ Mono s (Py.forEach rs setMissingId s).2 ∧
      (∀ r ∈ rs, ((Py.forEach rs setMissingId s).2.heap r).id.isSome = true) ∧
      (Py.forEach rs setMissingId s).1 = .ok () ∧
      (Py.forEach rs setMissingId s).2.next = s.next ∧
      (Py.forEach rs setMissingId s).2.graph = s.graph := by
  induction rs generalizing s with
  | nil => exact ⟨h, Mono.refl s, by simp, rfl, rfl, rfl⟩
  | cons r rs ih =>
    obtain ⟨h1, h2, h3, h4, h5, h6⟩ := ids_setMissingId h r (hr r (by simp))
    obtain ⟨k1, k2, k3, k4, k5, k6⟩ := ih h1 (fun q hq => by rw [h5]; exact hr q (by simp [hq]))
    have e : Py.forEach (r :: rs) setMissingId s = Py.forEach rs setMissingId (setMissingId r s).2 :=
      Py.bind_ok (Prod.ext h4 rfl)
    rw [e]
    refine ⟨k1, h2.trans k2, ?_, k4, k5.trans h5, k6.trans h6⟩
    intro q hq
    rcases List.mem_cons.mp hq with rfl | hq
    · exact k2.isSome h3
    · exact k3 q hq

theorem includeNodes_run {s : Network} (h : IdsOk s) (rs : List Ref) (hr : ∀ r ∈ rs, r < s.next) :
    includeNodes rs s = (.ok (), { (Py.forEach rs setMissingId s).2 with
      graph := s.graph.addNodes rs }) := by
  obtain ⟨-, -, -, h4, -, h6⟩ := ids_setMissing h rs hr
  simp only [includeNodes, Py.bind_eq]
  rw [Py.bind_ok (Prod.ext h4 rfl)]
  simp only [Py.modify, h6]

theorem ids_includeNodes {s : Network} (h : IdsOk s) (rs : List Ref) (hr : ∀ r ∈ rs, r < s.next) :
    IdsOk (includeNodes rs s).2 ∧ Mono s (includeNodes rs s).2 := by
  obtain ⟨k1, k2, k3, k4, k5, k6⟩ := ids_setMissing h rs hr
  rw [includeNodes_run h rs hr]
  refine ⟨⟨ok_addNodes h.graph rs, k1.bound, k1.inj, k1.unused, ?_⟩, k2⟩
  intro r hr'
  rcases (mem_nodes_addNodes ..).mp hr' with hr' | hr'
  · exact k1.nodes r (by rw [k6]; exact hr')
  · exact k3 r hr'

/-- Creating a node: the new reference, its identifier and what stays. -/
theorem createNode_run (s : Network) (n : Node) (hn : n.id = none) :
    createNode n s = (.ok s.next,
      { s with
        counter := s.counter + 1
        graph := s.graph.addNode s.next
        heap := fun q => if q = s.next then { n with id := some (s.counter : Int) } else s.heap q
        next := s.next + 1 }) := by
  simp only [createNode, Py.bind_eq]
  rw [Py.bind_ok (show alloc n s = (.ok s.next, { s.put s.next n with next := s.next + 1 }) from rfl)]
  have hb : setMissingId s.next { s.put s.next n with next := s.next + 1 } =
      setNodeAnId s.next { s.put s.next n with next := s.next + 1 } := by
    simp [setMissingId, Network.put, hn]
  have hi : includeNodes [s.next] { s.put s.next n with next := s.next + 1 } = (.ok (),
      { s with
        counter := s.counter + 1
        graph := s.graph.addNode s.next
        heap := fun q => if q = s.next then { n with id := some (s.counter : Int) } else s.heap q
        next := s.next + 1 }) := by
    have hf : Py.forEach [s.next] setMissingId { s.put s.next n with next := s.next + 1 } =
        (.ok (), (setNodeAnId s.next { s.put s.next n with next := s.next + 1 }).2) :=
      (Py.bind_ok (a := ()) (hb.trans rfl)).trans rfl
    refine (Py.bind_ok hf).trans ?_
    simp only [Py.modify, Network.put, setNodeAnId, Graph.addNodes, List.foldl]
    congr 2
    funext q
    by_cases hq : q = s.next <;> simp [hq]
  rw [Py.bind_ok hi]
  rfl

theorem ids_createNode {s : Network} (h : IdsOk s) (n : Node) (hn : n.id = none) :
    IdsOk (createNode n s).2 ∧ Mono s (createNode n s).2 := by
  rw [createNode_run s n hn]
  have hnext := h.unused s.next (Nat.le_refl _)
  have hlt : s.next ∉ s.graph.nodes := by
    intro hm
    have := h.nodes _ hm
    rw [hnext] at this
    cases this
  refine ⟨⟨ok_addNode h.graph _, ?_, ?_, ?_, ?_⟩, Nat.le_succ _, ?_⟩
  · intro r i hr
    simp only at hr ⊢
    split at hr
    · simp only [Option.some.injEq] at hr; omega
    · have := h.bound r i hr; omega
  · intro r q i hr hq
    simp only at hr hq
    split at hr <;> split at hq
    · next e e' => rw [e, e']
    · have := h.bound q i hq; simp only [Option.some.injEq] at hr; omega
    · have := h.bound r i hr; simp only [Option.some.injEq] at hq; omega
    · exact h.inj r q i hr hq
  · intro r hr
    simp only at hr ⊢
    have hr' : s.next < r := hr
    rw [if_neg (Nat.ne_of_gt hr')]
    exact h.unused r (Nat.le_of_lt hr')
  · intro r hr
    simp only at hr ⊢
    split
    · rfl
    · next hne =>
      rcases (mem_nodes_addNode ..).mp hr with hr | hr
      · exact h.nodes r hr
      · exact absurd hr hne
  · intro r i hr
    simp only
    split
    · next e => subst e; rw [hnext] at hr; cases hr
    · exact hr

theorem ids_connectDirect {s : Network} (h : IdsOk s) (y u : List Sym) (a b : Ref)
    (ha : (s.heap a).id.isSome = true) (hb : (s.heap b).id.isSome = true) :
    IdsOk (connectDirect y u a b s).2 ∧ Mono s (connectDirect y u a b s).2 := by
  refine ⟨⟨ok_joinEdge h.graph .., h.bound, h.inj, h.unused, ?_⟩, Mono.refl s⟩
  intro r hr
  rcases (nodes_joinEdge h.graph ..).mp hr with hr | rfl | rfl
  exacts [h.nodes r hr, ha, hb]

theorem insert_cases (y u : List Sym) (a b : Ref) (fresh : Sym) (s : Network) :
    (∃ e, insertIntermediaryNode y u a b fresh s = (.error e, s)) ∨
    ∃ m du dy tf, dummyModel y u fresh = .ok (m, du, dy) ∧ horizonOf (s.heap a) = .ok tf ∧
      insertIntermediaryNode y u a b fresh s = Py.bind
        (createNode ⟨none, some (dummyName (s.heap a) (s.heap b)), some m,
          some (Ocp.new m none 0 tf)⟩) (fun r => Py.bind (connectDirect y du a r)
          fun _ => connectDirect dy u r b) s := by
  simp only [insertIntermediaryNode, Py.bind_eq, Py.get_bind]
  cases hd : dummyModel y u fresh with
  | error e => exact Or.inl ⟨e, Py.bind_error rfl⟩
  | ok d =>
    rw [Py.bind_ok (show Py.lift (Except.ok d) s = (.ok d, s) from rfl)]
    cases ht : horizonOf (s.heap a) with
    | error e => exact Or.inl ⟨e, Py.bind_error rfl⟩
    | ok tf =>
      rw [Py.bind_ok (show Py.lift (Except.ok tf) s = (.ok tf, s) from rfl)]
      exact Or.inr ⟨d.1, d.2.1, d.2.2, tf, rfl, rfl, rfl⟩

theorem ids_insert {s : Network} (h : IdsOk s) (y u : List Sym) (a b : Ref) (fresh : Sym)
    (ha : (s.heap a).id.isSome = true) (hb : (s.heap b).id.isSome = true) :
    IdsOk (insertIntermediaryNode y u a b fresh s).2 ∧
      Mono s (insertIntermediaryNode y u a b fresh s).2 := by
  rcases insert_cases y u a b fresh s with ⟨e, he⟩ | ⟨m, du, dy, tf, -, -, he⟩
  · rw [he]; exact ⟨h, Mono.refl s⟩
  · rw [he]
    generalize hn : (⟨none, some (dummyName (s.heap a) (s.heap b)), some m,
      some (Ocp.new m none 0 tf)⟩ : Node) = n
    have hnn : n.id = none := by rw [← hn]
    obtain ⟨h1, m1⟩ := ids_createNode h n hnn
    have hr := createNode_run s n hnn
    have hid : ((createNode n s).2.heap s.next).id.isSome = true := by rw [hr]; simp
    obtain ⟨h2, m2⟩ := ids_connectDirect h1 y du a s.next (m1.isSome ha) hid
    obtain ⟨h3, m3⟩ := ids_connectDirect h2 dy u s.next b (m2.isSome hid)
      (m2.isSome (m1.isSome hb))
    have e1 : createNode n s = (.ok s.next, (createNode n s).2) := by rw [hr]
    rw [Py.bind_ok e1, Py.bind_ok (show connectDirect y du a s.next (createNode n s).2 =
      (.ok (), (connectDirect y du a s.next (createNode n s).2).2) from rfl)]
    exact ⟨h3, m1.trans (m2.trans m3)⟩

theorem ids_insertAll {s : Network} (h : IdsOk s) (fresh : Nat → Sym)
    (l : List ((Ref × Ref × Edge) × Nat))
    (hl : ∀ ek ∈ l, (s.heap ek.1.1).id.isSome = true ∧ (s.heap ek.1.2.1).id.isSome = true) :
    IdsOk (Py.forEach l (fun ek => insertIntermediaryNode ek.1.2.2.y ek.1.2.2.u ek.1.1 ek.1.2.1
      (fresh ek.2)) s).2 := by
  induction l generalizing s with
  | nil => exact h
  | cons ek l ih =>
    obtain ⟨h1, m1⟩ := ids_insert h ek.1.2.2.y ek.1.2.2.u ek.1.1 ek.1.2.1 (fresh ek.2)
      (hl ek (by simp)).1 (hl ek (by simp)).2
    simp only [Py.forEach]
    cases hr : insertIntermediaryNode ek.1.2.2.y ek.1.2.2.u ek.1.1 ek.1.2.1 (fresh ek.2) s with
    | mk r s1 =>
      rw [hr] at h1 m1
      cases r with
      | error e => rw [Py.bind_error hr]; exact h1
      | ok a =>
        rw [Py.bind_ok hr]
        exact ih h1 fun q hq => ⟨m1.isSome (hl q (by simp [hq])).1, m1.isSome (hl q (by simp [hq])).2⟩

theorem ids_call {s : Network} (h : IdsOk s) (c : Spec.NetCall) (hc : Spec.AutomaticIds c s) :
    IdsOk (c.run s).2 := by
  cases c with
  | alloc n => exact (ids_alloc h n hc).1
  | includeNodes rs => exact (ids_includeNodes h rs hc).1
  | createNode n =>
    have := (ids_createNode h n hc).1
    simp only [Spec.NetCall.run]
    cases hr : createNode n s with
    | mk r s1 =>
      rw [hr] at this
      cases r with
      | error e => rw [Py.bind_error hr]; exact this
      | ok a => rw [Py.bind_ok hr]; exact this
  | removeConnection a b =>
    simp only [Spec.NetCall.run, removeConnection, Py.bind_eq, Py.get_bind, Py.raiseIf]
    by_cases hab : s.graph.hasEdge a b = true
    · simp only [hab, Bool.not_true, Bool.false_eq_true, if_false, Py.pure_bind, Py.modify]
      obtain ⟨h1, h2⟩ := ok_removeEdge h.graph a b hab
      exact ⟨h1, h.bound, h.inj, h.unused, fun r hr => h.nodes r (h2 ▸ hr)⟩
    · simp only [Bool.not_eq_true] at hab
      simp only [hab, Bool.not_false, if_true]
      exact h
  | insertIntermediaryNodes fresh =>
    simp only [Spec.NetCall.run, insertIntermediaryNodes, Py.bind_eq, Py.get_bind, Py.modify_bind]
    refine ids_insertAll (s := { s with graph := Graph.empty })
      ⟨ok_empty, h.bound, h.inj, h.unused, fun r hr => ?_⟩ fresh _ fun ek hek => ?_
    · simp [Graph.empty, Graph.nodes, Dict.keys] at hr
    · obtain ⟨⟨a, b, e⟩, k⟩ := ek
      have hm := (mem_edges h.graph a b e).mp (List.fst_mem_of_mem_zipIdx hek)
      have := h.graph.ends a b (by rw [hasEdge_iff, hm]; rfl)
      exact ⟨h.nodes a this.1, h.nodes b this.2⟩
  | connect y u a b fresh =>
    have ha := h.nodes a hc.1
    have hb := h.nodes b hc.2
    simp only [Spec.NetCall.run, connect, Py.bind_eq, Py.get_bind]
    cases h1 : checkVariable (s.heap a) y with
    | error e => rw [Py.bind_error (show Py.lift (Except.error e) s = (.error e, s) from rfl)]; exact h
    | ok _ =>
      rw [Py.bind_ok (show Py.lift (Except.ok _) s = (.ok _, s) from rfl)]
      cases h2 : checkVariable (s.heap b) u with
      | error e => rw [Py.bind_error (show Py.lift (Except.error e) s = (.error e, s) from rfl)]; exact h
      | ok _ =>
        rw [Py.bind_ok (show Py.lift (Except.ok _) s = (.ok _, s) from rfl)]
        split
        · exact (ids_insert h y u a b fresh ha hb).1
        · exact (ids_connectDirect h y u a b ha hb).1

theorem ids_empty (name : Option String) (i : Bool) : IdsOk (Spec.emptyNetwork name i) :=
  ⟨ok_empty, by simp [Spec.emptyNetwork], by simp [Spec.emptyNetwork], by simp [Spec.emptyNetwork],
    by simp [Spec.emptyNetwork, Graph.empty, Graph.nodes, Dict.keys]⟩

theorem ids_history {s : Network} (h : IdsOk s) (cs : List Spec.NetCall)
    (hc : Spec.Follows Spec.NetCall.run Spec.AutomaticIds cs s) : IdsOk (Spec.netAfter cs s) := by
  induction cs generalizing s with
  | nil => exact h
  | cons c cs ih => exact ih (ids_call h c hc.1) hc.2

/-! ## Intermediary nodes -/

theorem not_node_next {s : Network} (h : IdsOk s) : s.next ∉ s.graph.nodes := by
  intro hm
  have := h.nodes _ hm
  rw [h.unused s.next (Nat.le_refl _)] at this
  cases this

theorem lt_next {s : Network} (h : IdsOk s) {r : Ref} (hr : (s.heap r).id.isSome = true) :
    r < s.next := by
  by_contra hc
  rw [h.unused r (Nat.not_lt.mp hc)] at hr
  cases hr

theorem edge?_none_of_left {g : Graph} (h : Spec.GraphOk g) {a : Ref} (b : Ref) (ha : a ∉ g.nodes) :
    g.edge? a b = none := by
  cases he : g.edge? a b with
  | none => rfl
  | some e => exact absurd (h.ends a b (by rw [hasEdge_iff, he]; rfl)).1 ha

theorem edge?_none_of_right {g : Graph} (h : Spec.GraphOk g) (a : Ref) {b : Ref} (hb : b ∉ g.nodes) :
    g.edge? a b = none := by
  cases he : g.edge? a b with
  | none => rfl
  | some e => exact absurd (h.ends a b (by rw [hasEdge_iff, he]; rfl)).2 hb

theorem insert_step {s : Network} (h : IdsOk s) (y u : List Sym) (a b : Ref) (fresh : Sym)
    (ha : (s.heap a).id.isSome = true) (hb : (s.heap b).id.isSome = true) {m du dy tf}
    (hd : dummyModel y u fresh = .ok (m, du, dy)) (ht : horizonOf (s.heap a) = .ok tf) :
    ∃ s', insertIntermediaryNode y u a b fresh s = (.ok (), s') ∧ IdsOk s' ∧
      s'.next = s.next + 1 ∧ (∀ r, r ≠ s.next → s'.heap r = s.heap r) ∧
      s'.heap s.next = ⟨some (s.counter : Int), some (dummyName (s.heap a) (s.heap b)), some m,
        some (Ocp.new m none 0 tf)⟩ ∧
      (∀ c d, s'.graph.edge? c d = if c = s.next ∧ d = b then some ⟨dy, u⟩
        else if c = a ∧ d = s.next then some ⟨y, du⟩ else s.graph.edge? c d) ∧
      ∀ q, q ∈ s'.graph.nodes ↔ q ∈ s.graph.nodes ∨ q = s.next ∨ q = a ∨ q = b := by
  have hids := (ids_insert h y u a b fresh ha hb).1
  rcases insert_cases y u a b fresh s with ⟨e, he⟩ | ⟨m', du', dy', tf', hd', ht', he⟩
  · exfalso
    simp only [insertIntermediaryNode, Py.bind_eq, Py.get_bind, hd, ht] at he
    rw [Py.bind_ok (show Py.lift (Except.ok _) s = (.ok _, s) from rfl),
      Py.bind_ok (show Py.lift (Except.ok _) s = (.ok _, s) from rfl),
      Py.bind_ok (createNode_run s _ rfl)] at he
    cases he
  · rw [hd] at hd'
    rw [ht] at ht'
    cases hd'
    cases ht'
    refine ⟨_, ?_, hids, ?_⟩
    · rw [he, Py.bind_ok (createNode_run s _ rfl)]
      rfl
    · rw [he, Py.bind_ok (createNode_run s _ rfl)]
      have hn := not_node_next h
      have hsa : a ≠ s.next := Nat.ne_of_lt (lt_next h ha)
      have hsb : b ≠ s.next := Nat.ne_of_lt (lt_next h hb)
      refine ⟨rfl, fun r hr => by simp [connectDirect, Py.modify, Py.bind, hr],
        by simp [connectDirect, Py.modify, Py.bind], ?_, ?_⟩
      · intro c d
        simp only [connectDirect, Py.modify, Py.bind, edge?_joinEdge, edge?_addNode]
        rw [edge?_none_of_left h.graph b hn, edge?_none_of_right h.graph a hn]
        have hab : ¬ (s.next = a ∧ b = s.next) := fun hc => hsa hc.1.symm
        simp only [hab, if_false]
        rfl
      · intro q
        simp only [connectDirect, Py.modify, Py.bind]
        rw [nodes_joinEdge (ok_joinEdge (ok_addNode h.graph _) ..), nodes_joinEdge (ok_addNode h.graph _),
          mem_nodes_addNode]
        tauto

theorem dummyModel_ok (y u : List Sym) (fresh : Sym) (hy : y ≠ []) (hu : u.length = y.length) :
    ∃ m du dy, dummyModel y u fresh = .ok (m, du, dy) ∧ m.u = du ∧ m.y = dy ∧ m.x = [] ∧
      du.length = y.length ∧ dy.length = u.length ∧
      m.alg = List.zipWith (fun a b => Expr.sub (.sym a) (.sym b)) du dy := by
  have h1 : y.length ≠ 0 := fun h => hy (List.length_eq_zero_iff.mp h)
  have h2 : u.length ≠ 0 := by omega
  simp only [dummyModel, freshColumn, if_neg h1, if_neg h2]
  have hv : vecSub (((List.range y.length).map (fresh + 2 + ·)).map .sym)
      (((List.range u.length).map (fresh + 2 + y.length + ·)).map .sym) =
      .ok (List.zipWith (fun a b => Expr.sub (.sym a) (.sym b))
        ((List.range y.length).map (fresh + 2 + ·))
        ((List.range u.length).map (fresh + 2 + y.length + ·))) := by
    unfold vecSub
    rw [if_pos (by simp [hu]), List.zipWith_map]
  simp only [bind, Except.bind, hv]
  exact ⟨_, _, _, rfl, rfl, rfl, rfl, by simp, by simp, rfl⟩

/-- How far the insertion of intermediary nodes is after `k` of the connections `l`. -/
structure Progress (l : List (Ref × Ref × Edge)) (fresh : Nat → Sym) (n0 : Ref) (heap0 : Ref → Node)
    (k : Nat) (s : Network) : Prop where
  ids : IdsOk s
  next : s.next = n0 + k
  old : ∀ r, r < n0 → s.heap r = heap0 r
  path : ∀ (i : Nat) a b e, i < k → l[i]? = some (a, b, e) →
    ∃ m du dy, dummyModel e.y e.u (fresh i) = .ok (m, du, dy) ∧ (s.heap (n0 + i)).model = some m ∧
      s.graph.edge? a (n0 + i) = some ⟨e.y, du⟩ ∧ s.graph.edge? (n0 + i) b = some ⟨dy, e.u⟩
  only : ∀ c d, s.graph.hasEdge c d = true → ∃ (i : Nat) (a b : Ref) (e : Edge), i < k ∧ l[i]? = some (a, b, e) ∧
    (c = a ∧ d = n0 + i ∨ c = n0 + i ∧ d = b)
  nodes : ∀ q, q ∈ s.graph.nodes ↔ ∃ (i : Nat) (a b : Ref) (e : Edge), i < k ∧ l[i]? = some (a, b, e) ∧
    (q = n0 + i ∨ q = a ∨ q = b)

theorem progress_step {l : List (Ref × Ref × Edge)} {fresh : Nat → Sym} {n0 : Ref}
    {heap0 : Ref → Node} {k : Nat} {s : Network} (h : Progress l fresh n0 heap0 k s)
    {a b : Ref} {e : Edge} (hk : l[k]? = some (a, b, e))
    (hl : ∀ a b e, (a, b, e) ∈ l → e.y ≠ [] ∧ e.u.length = e.y.length ∧
      (heap0 a).problem.isSome = true ∧ (heap0 a).id.isSome = true ∧ (heap0 b).id.isSome = true ∧
      a < n0 ∧ b < n0) :
    ∃ s', insertIntermediaryNode e.y e.u a b (fresh k) s = (.ok (), s') ∧
      Progress l fresh n0 heap0 (k + 1) s' := by
  obtain ⟨hy, hu, hp, hia, hib, han, hbn⟩ := hl a b e (List.mem_of_getElem? hk)
  obtain ⟨m, du, dy, hd, -⟩ := dummyModel_ok e.y e.u (fresh k) hy hu
  obtain ⟨o, ho⟩ := Option.isSome_iff_exists.mp hp
  have ht : horizonOf (s.heap a) = .ok o.tf := by rw [h.old a han, horizonOf, ho]
  obtain ⟨s', h1, h2, h3, h4, h5, h6, h7⟩ := insert_step h.ids e.y e.u a b (fresh k)
    (by rw [h.old a han]; exact hia) (by rw [h.old b hbn]; exact hib) hd ht
  refine ⟨s', h1, ⟨h2, by rw [h3, h.next]; rfl, fun r hr => ?_, ?_, ?_, ?_⟩⟩
  · rw [h4 r (by rw [h.next]; omega), h.old r hr]
  · intro i a' b' e' hi hie
    by_cases hik : i = k
    · subst hik
      rw [hk] at hie
      simp only [Option.some.injEq, Prod.mk.injEq] at hie
      obtain ⟨rfl, rfl, rfl⟩ := hie
      refine ⟨m, du, dy, hd, by rw [← h.next, h5], ?_, ?_⟩
      · rw [h6, ← h.next, if_neg (fun hc => ?_), if_pos ⟨rfl, rfl⟩]
        have := hc.1
        rw [h.next] at this
        omega
      · rw [h6, ← h.next, if_pos ⟨rfl, rfl⟩]
    · obtain ⟨m', du', dy', g1, g2, g3, g4⟩ := h.path i a' b' e' (by omega) hie
      have hne : n0 + i ≠ s.next := by rw [h.next]; omega
      obtain ⟨-, -, -, -, -, han', hbn'⟩ := hl a' b' e' (List.mem_of_getElem? hie)
      refine ⟨m', du', dy', g1, by rw [h4 _ hne, g2], ?_, ?_⟩
      · rw [h6, if_neg (fun hc => ?_), if_neg (fun hc => hne hc.2), g3]
        have := hc.1; rw [h.next] at this; omega
      · rw [h6, if_neg (fun hc => hne hc.1), if_neg (fun hc => ?_), g4]
        have := hc.2; rw [h.next] at this; omega
  · intro c d hcd
    rw [hasEdge_iff, h6] at hcd
    split at hcd
    · next hc => exact ⟨k, a, b, e, Nat.lt_succ_self _, hk, .inr ⟨by rw [hc.1, h.next], hc.2⟩⟩
    · split at hcd
      · next hc => exact ⟨k, a, b, e, Nat.lt_succ_self _, hk, .inl ⟨hc.1, by rw [hc.2, h.next]⟩⟩
      · rw [← hasEdge_iff] at hcd
        obtain ⟨i, a', b', e', hi, hie, hor⟩ := h.only c d hcd
        exact ⟨i, a', b', e', by omega, hie, hor⟩
  · intro q
    rw [h7, h.nodes]
    constructor
    · rintro (⟨i, a', b', e', hi, hie, hor⟩ | hor)
      · exact ⟨i, a', b', e', by omega, hie, hor⟩
      · exact ⟨k, a, b, e, Nat.lt_succ_self _, hk, by rw [← h.next]; exact hor⟩
    · rintro ⟨i, a', b', e', hi, hie, hor⟩
      by_cases hik : i = k
      · subst hik
        rw [hk] at hie
        simp only [Option.some.injEq, Prod.mk.injEq] at hie
        obtain ⟨rfl, rfl, rfl⟩ := hie
        exact .inr (by rw [h.next]; exact hor)
      · exact .inl ⟨i, a', b', e', by omega, hie, hor⟩

theorem progress_all {l : List (Ref × Ref × Edge)} {fresh : Nat → Sym} {n0 : Ref}
    {heap0 : Ref → Node}
    (hl : ∀ a b e, (a, b, e) ∈ l → e.y ≠ [] ∧ e.u.length = e.y.length ∧
      (heap0 a).problem.isSome = true ∧ (heap0 a).id.isSome = true ∧ (heap0 b).id.isSome = true ∧
      a < n0 ∧ b < n0) (rest : List (Ref × Ref × Edge)) :
    ∀ (k : Nat) (s : Network), l.drop k = rest → k ≤ l.length → Progress l fresh n0 heap0 k s →
      ∃ s', Py.forEach (rest.zipIdx k) (fun ek => insertIntermediaryNode ek.1.2.2.y ek.1.2.2.u ek.1.1
        ek.1.2.1 (fresh ek.2)) s = (.ok (), s') ∧ Progress l fresh n0 heap0 l.length s' := by
  induction rest with
  | nil =>
    intro k s hr hk h
    have : k = l.length := by
      have := List.drop_eq_nil_iff.mp hr
      omega
    subst this
    exact ⟨s, rfl, h⟩
  | cons x rest ih =>
    obtain ⟨a, b, e⟩ := x
    intro k s hr hk h
    have hk' : l[k]? = some (a, b, e) := by
      have := congrArg (·[0]?) hr
      simpa using this
    obtain ⟨s1, h1, p1⟩ := progress_step h hk' hl
    have hlt : k < l.length := (List.getElem?_eq_some_iff.mp hk').1
    obtain ⟨s2, h2, p2⟩ := ih (k + 1) s1 (by rw [← List.drop_drop, hr]; rfl) hlt p1
    refine ⟨s2, ?_, p2⟩
    rw [List.zipIdx_cons]
    exact (Py.bind_ok h1).trans h2

theorem connect_run (s : Network) (y u : List Sym) (a b : Ref) (fresh : Sym)
    (hi : s.intermediary = false) (hy : checkVariable (s.heap a) y = .ok ())
    (hu : checkVariable (s.heap b) u = .ok ()) :
    connect y u a b fresh s = (.ok (), { s with graph := joinEdge y u a b s.graph }) := by
  unfold connect
  refine (Py.bind_ok (show Py.get s = (.ok s, s) from rfl)).trans ?_
  refine (Py.bind_ok (show Py.lift (checkVariable (s.heap a) y) s = (.ok (), s) by
    rw [hy]; rfl)).trans ?_
  refine (Py.bind_ok (show Py.lift (checkVariable (s.heap b) u) s = (.ok (), s) by
    rw [hu]; rfl)).trans ?_
  rw [if_neg (by simp [hi])]
  rfl

end Net
end Verif
