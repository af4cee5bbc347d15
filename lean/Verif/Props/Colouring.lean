import Verif.Lemmas.Colouring
/-!
# C60, C61, C107: colour groups and blocks
-/
namespace Verif
open Net

/-- A colouring of the network: every node has one colour, connected nodes have different ones. -/
structure Spec.ProperColouring (g : Graph) (c : Dict Nat Nat) : Prop where
  once : c.keys.Nodup
  nodes : ∀ r, r ∈ c.keys ↔ r ∈ g.nodes
  proper : ∀ r q, Spec.Connected g r q → r ≠ q → c.get? r ≠ c.get? q

/-- A list of groups contains every node exactly once, and no group two connected nodes. -/
structure Spec.IndependentGroups (g : Graph) (gs : List (List Nat)) : Prop where
  once : gs.flatten.Perm g.nodes
  nonempty : ∀ G ∈ gs, G ≠ []
  independent : ∀ G ∈ gs, ∀ r ∈ G, ∀ q ∈ G, r ≠ q → ¬ Spec.Connected g r q

/-- C60. For every proper colouring, the groups partition the nodes, and two nodes of one group are
never connected. -/
theorem C60_proper_colouring (g : Graph) (hn : g.nodes.Nodup) (c : Dict Nat Nat)
    (hc : Spec.ProperColouring g c) : Spec.IndependentGroups g (groupsOf c) := by
  have h := grouped_groups c
  refine ⟨h.perm.trans ?_, ?_, ?_⟩
  · exact (List.perm_ext_iff_of_nodup hc.once hn).mpr hc.nodes
  · intro G hG
    obtain ⟨⟨k, H⟩, hm, rfl⟩ := List.mem_map.mp hG
    exact (h.colour k H hm).1
  · intro G hG r hr q hq hne hcon
    obtain ⟨⟨k, H⟩, hm, rfl⟩ := List.mem_map.mp hG
    have h1 := get?_of_mem hc.once ((h.colour k H hm).2 r hr)
    have h2 := get?_of_mem hc.once ((h.colour k H hm).2 q hq)
    exact hc.proper r q hcon hne (h1.trans h2.symm)

theorem Net.perm_largestFirst (d : Nat → Nat) (l : List Nat) : (largestFirst d l).Perm l :=
  List.perm_insertionSort _ l

theorem Net.mem_neighbours {g : Graph} (h : Spec.GraphOk g) (r q : Nat) :
    q ∈ neighbours g r ↔ Spec.Connected g r q := by
  unfold neighbours Spec.Connected
  rw [List.mem_filter, Bool.or_eq_true]
  refine ⟨fun hh => hh.2, fun hh => ⟨?_, hh⟩⟩
  rcases hh with hh | hh
  exacts [(h.ends _ _ hh).2, (h.ends _ _ hh).1]

/-- C60. The colouring the network computes is proper, and so `get_map_coloring_groups` partitions the
nodes of every network into groups without connections. -/
theorem C60_groups (s : Network) (h' : Spec.Reached s) :
    Spec.IndependentGroups s.graph (mapColouringGroups s.graph) := by
  have h := (ids_reached h').graph
  have hp := perm_largestFirst (undirectedDegree s.graph) s.graph.nodes
  have hk : (greedyColour (neighbours s.graph) (largestFirst (undirectedDegree s.graph)
      s.graph.nodes)).keys = largestFirst (undirectedDegree s.graph) s.graph.nodes := by
    have := keys_colour (neighbours s.graph) (largestFirst (undirectedDegree s.graph) s.graph.nodes) []
      (by simpa [Dict.keys] using hp.nodup_iff.mpr h.nodes)
    simpa [Dict.keys, greedyColour] using this
  refine C60_proper_colouring s.graph h.nodes _ ⟨?_, ?_, ?_⟩
  · rw [hk]; exact hp.nodup_iff.mpr h.nodes
  · intro r; rw [hk]; exact hp.mem_iff
  · intro r q hcon hne he
    have hends : r ∈ s.graph.nodes ∧ q ∈ s.graph.nodes := by
      rcases hcon with hh | hh
      exacts [h.ends _ _ hh, (h.ends _ _ hh).symm]
    cases hr : (greedyColour (neighbours s.graph) (largestFirst (undirectedDegree s.graph)
      s.graph.nodes)).get? r with
    | none =>
      rw [Dict.get?_eq_none_iff, hk] at hr
      exact hr (hp.mem_iff.mpr hends.1)
    | some a =>
      have hq := he ▸ hr
      refine colour_proper (neighbours s.graph) (largestFirst (undirectedDegree s.graph) s.graph.nodes)
        [] (by simpa [Dict.keys] using hp.nodup_iff.mpr h.nodes) ?_ r q
        ((mem_neighbours h r q).mpr hcon) ((mem_neighbours h q r).mpr hcon.symm) hne a a hr hq rfl
      intro r q _ _ _ a b ha
      cases ha

/-! ## C61: every node is in a block -/

/-- The colours of the runs are different: nodes of one colour stand next to each other. -/
def Spec.Contiguous (c : Dict Nat Nat) : Prop := (Dict.keys (groupRuns c)).Nodup

/-- C61, partial: when nodes of one colour stand next to each other in the colouring, every node is in
exactly one block. -/
theorem C61_contiguous_partial (c : Dict Nat Nat) (hc : Spec.Contiguous c) :
    (Dict.values (blocksOf c)).flatten = c.keys ∧ (blocksOf c).keys.Nodup := by
  have : blocksOf c = groupRuns c := by
    unfold blocksOf
    rw [update_nodup [] (groupRuns c) (by simpa [Spec.Contiguous] using hc)]
    simp
  rw [this]
  exact ⟨flatten_runs c, hc⟩

/-- C61: what the block of a colour is: the last run of nodes with that colour. -/
theorem C61_last_run (c : Dict Nat Nat) (k : Nat) :
    (blocksOf c).get? k = ((groupRuns c).filter fun kG => decide (kG.1 = k)).getLast?.map (·.2) := by
  unfold blocksOf Dict.update
  have : ∀ (l d : Dict Nat (List Nat)),
      Dict.get? (l.foldl (fun d kv => d.set kv.1 kv.2) d) k =
        ((l.filter fun kG => decide (kG.1 = k)).getLast?.map (·.2)).or (d.get? k) := by
    intro l
    induction l with
    | nil => intro d; simp
    | cons kv l ih =>
      intro d
      rw [List.foldl_cons, ih, Dict.get?_set, List.filter_cons]
      by_cases e : kv.1 = k
      · simp only [e, decide_true, if_true, List.getLast?_cons]
        cases hl : (l.filter fun kG => decide (kG.1 = k)).getLast? <;> simp
      · have e' : ¬ k = kv.1 := fun h => e h.symm
        simp [e, e']
  rw [this]
  simp [Dict.get?]

namespace Example

/-- Nodes with one state and one control each. -/
def blockNode (t : Sym) : Node :=
  ⟨none, none, some { SysModel.new t (t + 1) with x := [t + 2], u := [t + 3], uPar := [t + 3] }, none⟩

/-- A chain of three nodes. -/
def chainCalls : List Spec.NetCall :=
  [.createNode (blockNode 10), .createNode (blockNode 20), .createNode (blockNode 30),
    .connect [12] [23] 0 1 100, .connect [22] [33] 1 2 100]

/-- The chain. -/
def chain : Network := Spec.netAfter chainCalls (Spec.emptyNetwork none false)

theorem chain_reached : Spec.Reached chain :=
  ⟨_, _, chainCalls, ⟨rfl, rfl, rfl, ⟨by decide +kernel, by decide +kernel⟩,
    ⟨by decide +kernel, by decide +kernel⟩, trivial⟩, rfl⟩

end Example

/-- C61 fails: the node in the middle of a chain of three nodes is in no block, so it is never
optimised. -/
theorem C61_chain_fails : ∃ s : Network, Spec.Reached s ∧ s.graph.nodes = [0, 1, 2] ∧
    s.graph.edges.map (fun e => (e.1, e.2.1)) = [(0, 1), (1, 2)] ∧
    ∀ k G, (k, G) ∈ defaultBlocks s.graph → 1 ∉ G := by
  refine ⟨Example.chain, Example.chain_reached, by decide +kernel, by decide +kernel, ?_⟩
  have : defaultBlocks Example.chain.graph = [(0, [2]), (1, [0])] := by decide +kernel
  intro k G hm
  rw [this] at hm
  simp only [List.mem_cons, Prod.mk.injEq, List.not_mem_nil, or_false] at hm
  rcases hm with ⟨-, rfl⟩ | ⟨-, rfl⟩ <;> decide

/-! ## C107: no two nodes of a block are connected -/

/-- C107, partial: when all connections are in both directions, no two nodes of a block are
connected. -/
theorem C107_symmetric_partial (s : Network) (h' : Spec.Reached s)
    (hsym : ∀ a b, s.graph.hasEdge a b = true → s.graph.hasEdge b a = true) :
    ∀ k G, (defaultBlocks s.graph).get? k = some G → ∀ r ∈ G, ∀ q ∈ G, r ≠ q →
      ¬ Spec.Connected s.graph r q := by
  have h := (ids_reached h').graph
  have hp := perm_largestFirst (directedDegree s.graph) s.graph.nodes
  have hn : (Dict.keys ([] : Dict Nat Nat) ++ largestFirst (directedDegree s.graph) s.graph.nodes).Nodup := by
    simpa [Dict.keys] using hp.nodup_iff.mpr h.nodes
  have hk : (greedyColour (successors s.graph) (largestFirst (directedDegree s.graph)
      s.graph.nodes)).keys = largestFirst (directedDegree s.graph) s.graph.nodes := by
    have := keys_colour (successors s.graph) (largestFirst (directedDegree s.graph) s.graph.nodes) [] hn
    simpa [Dict.keys, greedyColour] using this
  intro k G hG r hr q hq hne hcon
  have hs : ∀ r q, Spec.Connected s.graph r q → q ∈ successors s.graph r := by
    intro r q hcon
    have : s.graph.hasEdge r q = true := hcon.elim id (hsym q r)
    exact (Dict.has_iff _ _).mp this
  unfold defaultBlocks at hG
  rw [C61_last_run] at hG
  obtain ⟨⟨k', G'⟩, hl, rfl⟩ := Option.map_eq_some_iff.mp hG
  have hm := List.mem_of_getLast? hl
  obtain ⟨hm', hkk⟩ := List.mem_filter.mp hm
  simp only [decide_eq_true_eq] at hkk
  subst hkk
  have hc := colour_runs _ k' G' hm'
  have hnd : (greedyColour (successors s.graph) (largestFirst (directedDegree s.graph)
      s.graph.nodes)).keys.Nodup := by rw [hk]; exact hp.nodup_iff.mpr h.nodes
  refine colour_proper (successors s.graph) _ [] hn ?_ r q (hs r q hcon) (hs q r hcon.symm) hne k' k'
    (get?_of_mem hnd (hc r hr)) (get?_of_mem hnd (hc q hq)) rfl
  intro r q _ _ _ a b ha
  cases ha

/-- C107 fails for connections in one direction: when the nodes are listed with each connection going
from an earlier to a later node, all of them are in one block. -/
theorem C107_one_way_fails (s : Network) (h' : Spec.Reached s) (hne : s.graph.nodes ≠ [])
    (hord : ∀ (i j : Nat) (a b : Nat),
      (largestFirst (directedDegree s.graph) s.graph.nodes)[i]? = some a →
      (largestFirst (directedDegree s.graph) s.graph.nodes)[j]? = some b →
      s.graph.hasEdge a b = true → i < j) :
    defaultBlocks s.graph = [(0, largestFirst (directedDegree s.graph) s.graph.nodes)] := by
  have h := (ids_reached h').graph
  have hp := perm_largestFirst (directedDegree s.graph) s.graph.nodes
  have hn : (Dict.keys ([] : Dict Nat Nat) ++ largestFirst (directedDegree s.graph) s.graph.nodes).Nodup := by
    simpa [Dict.keys] using hp.nodup_iff.mpr h.nodes
  unfold defaultBlocks greedyColour blocksOf
  rw [colour_zero _ _ [] hn (by simp) (fun i r hi v hv => ⟨by simp [Dict.keys], fun hm => ?_⟩)]
  · rw [List.nil_append, runs_zero _ (fun e => hne (List.Perm.eq_nil (e ▸ hp.symm)))]
    rfl
  · obtain ⟨j, hj, hjv⟩ := List.getElem_of_mem hm
    rw [List.length_take] at hj
    rw [List.getElem_take] at hjv
    have hj' : (largestFirst (directedDegree s.graph) s.graph.nodes)[j]? = some v := by
      rw [List.getElem?_eq_getElem (by omega), hjv]
    have := hord i j r v hi hj' ((Dict.has_iff _ _).mpr hv)
    omega

/-- The hypotheses hold for a network of two nodes with one connection: both nodes are in one block
although they are connected. -/
example : ∃ s : Network, Spec.Reached s ∧ s.graph.hasEdge 0 1 = true ∧
    defaultBlocks s.graph = [(0, [0, 1])] :=
  ⟨Spec.netAfter [.createNode (Example.blockNode 10), .createNode (Example.blockNode 20),
      .connect [12] [23] 0 1 100] (Spec.emptyNetwork none false),
    ⟨none, false, [.createNode (Example.blockNode 10), .createNode (Example.blockNode 20),
      .connect [12] [23] 0 1 100], ⟨rfl, rfl, ⟨by decide +kernel, by decide +kernel⟩, trivial⟩, rfl⟩,
    by decide +kernel, by decide +kernel⟩

example : mapColouringGroups Example.chain.graph = [[1], [0, 2]] := by decide +kernel

example : Spec.Contiguous [(5, 0), (3, 0), (4, 1)] ∧ ¬ Spec.Contiguous [(5, 0), (3, 1), (4, 0)] := by
  constructor <;> simp [Spec.Contiguous, groupRuns, Dict.keys]

/-- Two nodes connected in both directions are in two blocks. -/
example : defaultBlocks (Spec.netAfter [.createNode (Example.blockNode 10),
    .createNode (Example.blockNode 20), .connect [12] [23] 0 1 100, .connect [22] [13] 1 0 100]
    (Spec.emptyNetwork none false)).graph = [(0, [0]), (1, [1])] := by decide +kernel

end Verif
