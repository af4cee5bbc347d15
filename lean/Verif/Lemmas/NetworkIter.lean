import Verif.Lemmas.Network
import Mathlib.Data.List.Perm.Subperm
/-!
# Iterating over a network
-/
namespace Verif
namespace Net

theorem find?_unique {s : Network} (h : IdsOk s) {r : Ref} {i : Int} (hr : r ∈ s.graph.nodes)
    (hi : (s.heap r).id = some i) : getNodeById s i = some r := by
  unfold getNodeById
  cases hf : s.graph.nodes.find? fun r => decide ((s.heap r).id = some i) with
  | none =>
    have := List.find?_eq_none.mp hf r hr
    simp [hi] at this
  | some q =>
    have := List.find?_some hf
    simp only [decide_eq_true_eq] at this
    rw [h.inj q r i this hi]

theorem getNodeById_some {s : Network} {r : Ref} {i : Int} (h : getNodeById s i = some r) :
    r ∈ s.graph.nodes ∧ (s.heap r).id = some i :=
  ⟨List.mem_of_find?_eq_some h, by simpa using List.find?_some h⟩

theorem ids_reached {s : Network} (h : Spec.Reached s) : IdsOk s := by
  obtain ⟨name, i, cs, hc, rfl⟩ := h
  exact ids_history (ids_empty name i) cs hc

theorem reached_call {s : Network} (h : Spec.Reached s) (c : Spec.NetCall)
    (hc : Spec.AutomaticIds c s) : Spec.Reached (c.run s).2 := by
  obtain ⟨name, i, cs, hf, hs⟩ := h
  refine ⟨name, i, cs ++ [c], ?_, ?_⟩
  · generalize Spec.emptyNetwork name i = s0 at hf hs
    induction cs generalizing s0 with
    | nil => subst hs; exact ⟨hc, trivial⟩
    | cons d cs ih => exact ⟨hf.1, ih _ hf.2 hs⟩
  · generalize Spec.emptyNetwork name i = s0 at hf hs ⊢
    induction cs generalizing s0 with
    | nil => subst hs; rfl
    | cons d cs ih => exact ih _ hf.2 hs

/-- Every identifier below the counter belongs to a node. -/
def Dense (s : Network) : Prop := ∀ k : Nat, k < s.counter → ∃ r ∈ s.graph.nodes, (s.heap r).id = some (k : Int)

theorem counter_setMissing {s : Network} (h : IdsOk s) (rs : List Ref) (hr : ∀ r ∈ rs, r < s.next) :
    ∀ k : Nat, k < (Py.forEach rs setMissingId s).2.counter → k < s.counter ∨
      ∃ r ∈ rs, ((Py.forEach rs setMissingId s).2.heap r).id = some (k : Int) := by
  induction rs generalizing s with
  | nil => exact fun k hk => .inl hk
  | cons r rs ih =>
    obtain ⟨h1, h2, h3, h4, h5, h6⟩ := ids_setMissingId h r (hr r (by simp))
    have hr' : ∀ q ∈ rs, q < (setMissingId r s).2.next :=
      fun q hq => by rw [h5]; exact hr q (by simp [hq])
    have e : Py.forEach (r :: rs) setMissingId s = Py.forEach rs setMissingId (setMissingId r s).2 :=
      Py.bind_ok (Prod.ext h4 rfl)
    rw [e]
    intro k hk
    rcases ih h1 hr' k hk with hk | ⟨q, hq, hid⟩
    · have hm := (ids_setMissing h1 rs hr').2.1.2
      by_cases hid : (s.heap r).id = none
      · have hs : setMissingId r s = setNodeAnId r s := by
          simp [setMissingId, hid]
        rw [hs] at hk
        by_cases hlt : k < s.counter
        · exact .inl hlt
        · have hk' : k < s.counter + 1 := hk
          have : k = s.counter := by omega
          refine .inr ⟨r, by simp, hm r k ?_⟩
          rw [hs, this]
          simp [setNodeAnId, Py.modify, Network.put]
      · have hs : (setMissingId r s).2 = s := by
          simp [setMissingId, hid]
        rw [hs] at hk
        exact .inl hk
    · exact .inr ⟨q, by simp [hq], hid⟩

theorem dense_includeNodes {s : Network} (h : IdsOk s) (hd : Dense s) (rs : List Ref)
    (hr : ∀ r ∈ rs, r < s.next) : Dense (includeNodes rs s).2 := by
  intro k hk
  have hm := (ids_setMissing h rs hr).2.1.2
  rw [includeNodes_run h rs hr] at hk ⊢
  rcases counter_setMissing h rs hr k hk with hk | ⟨r, hr, hid⟩
  · obtain ⟨r, hr, hid⟩ := hd k hk
    exact ⟨r, (mem_nodes_addNodes ..).mpr (.inl hr), hm r k hid⟩
  · exact ⟨r, (mem_nodes_addNodes ..).mpr (.inr hr), hid⟩

theorem dense_createNode {s : Network} (h : IdsOk s) (hd : Dense s) (n : Node) (hn : n.id = none) :
    Dense (createNode n s).2 := by
  intro k hk
  rw [createNode_run s n hn] at hk ⊢
  by_cases hlt : k < s.counter
  · obtain ⟨r, hr, hid⟩ := hd k hlt
    refine ⟨r, (mem_nodes_addNode ..).mpr (.inl hr), ?_⟩
    have hne : r ≠ s.next := fun e => not_node_next h (e ▸ hr)
    simp [hne, hid]
  · have hk' : k < s.counter + 1 := hk
    have : k = s.counter := by omega
    exact ⟨s.next, (mem_nodes_addNode ..).mpr (.inr rfl), by simp [this]⟩

theorem dense_connectDirect {s : Network} (h : IdsOk s) (hd : Dense s) (y u : List Sym) (a b : Ref) :
    Dense (connectDirect y u a b s).2 := fun k hk => by
  obtain ⟨r, hr, hid⟩ := hd k hk
  exact ⟨r, (nodes_joinEdge h.graph ..).mpr (.inl hr), hid⟩

theorem dense_insert {s : Network} (h : IdsOk s) (hd : Dense s) (y u : List Sym) (a b : Ref)
    (fresh : Sym) (ha : (s.heap a).id.isSome = true) :
    Dense (insertIntermediaryNode y u a b fresh s).2 := by
  rcases insert_cases y u a b fresh s with ⟨e, he⟩ | ⟨m, du, dy, tf, -, -, he⟩
  · rw [he]; exact hd
  · rw [he]
    generalize hn : (⟨none, some (dummyName (s.heap a) (s.heap b)), some m,
      some (Ocp.new m none 0 tf)⟩ : Node) = n
    have hnn : n.id = none := by rw [← hn]
    have d1 := dense_createNode h hd n hnn
    obtain ⟨h1, m1⟩ := ids_createNode h n hnn
    have hr := createNode_run s n hnn
    have hid : ((createNode n s).2.heap s.next).id.isSome = true := by rw [hr]; simp
    have h2 := (ids_connectDirect h1 y du a s.next (m1.isSome ha) hid).1
    have e1 : createNode n s = (.ok s.next, (createNode n s).2) := by rw [hr]
    rw [Py.bind_ok e1, Py.bind_ok (show connectDirect y du a s.next (createNode n s).2 =
      (.ok (), (connectDirect y du a s.next (createNode n s).2).2) from rfl)]
    exact dense_connectDirect h2 (dense_connectDirect h1 d1 y du a s.next) dy u s.next b

theorem dense_call {s : Network} (h : IdsOk s) (hd : Dense s) (c : Spec.NetCall)
    (hc : Spec.AutomaticIds c s ∧ Spec.NotInsertion c) : Dense (c.run s).2 := by
  obtain ⟨hc, hins⟩ := hc
  cases c with
  | alloc n =>
    intro k hk
    obtain ⟨r, hr, hid⟩ := hd k hk
    exact ⟨r, hr, (ids_alloc h n hc).2.2 r k hid⟩
  | includeNodes rs => exact dense_includeNodes h hd rs hc
  | createNode n =>
    have := dense_createNode h hd n hc
    simp only [Spec.NetCall.run]
    rw [Py.bind_ok (show createNode n s = (.ok s.next, (createNode n s).2) by
      rw [createNode_run s n hc])]
    exact this
  | removeConnection a b =>
    simp only [Spec.NetCall.run, removeConnection, Py.bind_eq, Py.get_bind, Py.raiseIf]
    by_cases hab : s.graph.hasEdge a b = true
    · simp only [hab, Bool.not_true, Bool.false_eq_true, if_false, Py.pure_bind, Py.modify]
      obtain ⟨h1, h2⟩ := ok_removeEdge h.graph a b hab
      intro k hk
      obtain ⟨r, hr, hid⟩ := hd k hk
      exact ⟨r, h2 ▸ hr, hid⟩
    · simp only [Bool.not_eq_true] at hab
      simp only [hab, Bool.not_false, if_true]
      exact hd
  | insertIntermediaryNodes fresh => exact hins.elim
  | connect y u a b fresh =>
    have ha := h.nodes a hc.1
    simp only [Spec.NetCall.run, connect, Py.bind_eq, Py.get_bind]
    cases h1 : checkVariable (s.heap a) y with
    | error e => rw [Py.bind_error (show Py.lift (Except.error e) s = (.error e, s) from rfl)]; exact hd
    | ok _ =>
      rw [Py.bind_ok (show Py.lift (Except.ok _) s = (.ok _, s) from rfl)]
      cases h2 : checkVariable (s.heap b) u with
      | error e => rw [Py.bind_error (show Py.lift (Except.error e) s = (.error e, s) from rfl)]; exact hd
      | ok _ =>
        rw [Py.bind_ok (show Py.lift (Except.ok _) s = (.ok _, s) from rfl)]
        split
        · exact dense_insert h hd y u a b fresh ha
        · exact dense_connectDirect h hd y u a b

theorem dense_history {s : Network} (h : IdsOk s) (hd : Dense s) (cs : List Spec.NetCall)
    (hc : Spec.Follows Spec.NetCall.run (fun c s => Spec.AutomaticIds c s ∧ Spec.NotInsertion c) cs s) :
    IdsOk (Spec.netAfter cs s) ∧ Dense (Spec.netAfter cs s) := by
  induction cs generalizing s with
  | nil => exact ⟨h, hd⟩
  | cons c cs ih => exact ih (ids_call h c hc.1.1) (dense_call h hd c hc.1) hc.2

theorem length_nodes {s : Network} (h : IdsOk s) (hd : Dense s) : s.graph.nodes.length = s.counter := by
  have hp : (s.graph.nodes.map fun r => ((s.heap r).id.getD 0).toNat).Perm (List.range s.counter) := by
    rw [List.perm_ext_iff_of_nodup]
    · intro k
      rw [List.mem_range, List.mem_map]
      constructor
      · rintro ⟨r, hr, rfl⟩
        obtain ⟨i, hi⟩ := Option.isSome_iff_exists.mp (h.nodes r hr)
        have := h.bound r i hi
        rw [hi, Option.getD_some]
        omega
      · intro hk
        obtain ⟨r, hr, hid⟩ := hd k hk
        exact ⟨r, hr, by simp [hid]⟩
    · refine List.Nodup.map_on (fun r hr q hq he => ?_) h.graph.nodes
      obtain ⟨i, hi⟩ := Option.isSome_iff_exists.mp (h.nodes r hr)
      obtain ⟨j, hj⟩ := Option.isSome_iff_exists.mp (h.nodes q hq)
      have b1 := h.bound r i hi
      have b2 := h.bound q j hj
      rw [hi, hj, Option.getD_some, Option.getD_some] at he
      exact h.inj r q i hi (by rw [hj]; congr 1; omega)
    · exact List.nodup_range
  simpa using hp.length_eq

theorem iterateFrom_dense {s : Network} (fuel k : Nat)
    (hd : ∀ j, k ≤ j → j < k + fuel → ∃ r, getNodeById s (j : Int) = some r) :
    (iterateFrom s fuel k).length = fuel ∧
      ∀ (j : Nat) (r : Ref), (iterateFrom s fuel k)[j]? = some r →
        getNodeById s ((k + j : Nat) : Int) = some r := by
  induction fuel generalizing k with
  | zero => simp [iterateFrom]
  | succ f ih =>
    obtain ⟨r, hr⟩ := hd k (Nat.le_refl _) (by omega)
    obtain ⟨h1, h2⟩ := ih (k + 1) fun j hj hj' => hd j (by omega) (by omega)
    have e : iterateFrom s (f + 1) k = r :: iterateFrom s f (k + 1) := by simp only [iterateFrom, hr]
    rw [e]
    refine ⟨by simp [h1], fun j q hq => ?_⟩
    cases j with
    | zero => simp at hq; subst hq; exact hr
    | succ j =>
      have := h2 j q (by simpa using hq)
      rw [show k + (j + 1) = k + 1 + j by omega]
      exact this

/-- More steps than there are nodes give nothing more, whatever the identifiers are. -/
theorem iterateFrom_mem (s : Network) (fuel k : Nat) :
    ∀ (j : Nat) (r : Ref), (iterateFrom s fuel k)[j]? = some r →
      getNodeById s ((k + j : Nat) : Int) = some r := by
  induction fuel generalizing k with
  | zero => simp [iterateFrom]
  | succ f ih =>
    intro j q hq
    cases hg : getNodeById s k with
    | none => simp [iterateFrom, hg] at hq
    | some r =>
      have e : iterateFrom s (f + 1) k = r :: iterateFrom s f (k + 1) := by simp only [iterateFrom, hg]
      rw [e] at hq
      cases j with
      | zero => simp at hq; subst hq; exact hg
      | succ j =>
        have := ih (k + 1) j q (by simpa using hq)
        rw [show k + (j + 1) = k + 1 + j by omega]
        exact this

theorem nodup_iterateFrom (s : Network) (fuel : Nat) (k : Nat) : (iterateFrom s fuel k).Nodup := by
  rw [List.nodup_iff_getElem?_ne_getElem?]
  intro i j hij hj he
  have hi : i < (iterateFrom s fuel k).length := by omega
  have h1 := getNodeById_some (iterateFrom_mem s fuel k i _ (List.getElem?_eq_getElem hi))
  have h2 := getNodeById_some (iterateFrom_mem s fuel k j _ (List.getElem?_eq_getElem hj))
  rw [List.getElem?_eq_getElem hi, List.getElem?_eq_getElem hj] at he
  injection he with he
  rw [he] at h1
  have := h1.2.symm.trans h2.2
  injection this with this
  omega

theorem iterateFrom_length_le (s : Network) (fuel k : Nat) :
    (iterateFrom s fuel k).length ≤ s.graph.nodes.length := by
  refine (List.subperm_of_subset (nodup_iterateFrom s fuel k) fun r hr => ?_).length_le
  obtain ⟨j, hj, rfl⟩ := List.getElem_of_mem hr
  exact (getNodeById_some (iterateFrom_mem s fuel k j _ (List.getElem?_eq_getElem hj))).1

theorem iterateFrom_stable (s : Network) (fuel k : Nat) (h : (iterateFrom s (fuel + 1) k).length ≤ fuel) :
    iterateFrom s (fuel + 1) k = iterateFrom s fuel k := by
  induction fuel generalizing k with
  | zero => exact List.eq_nil_of_length_eq_zero (Nat.le_zero.mp h)
  | succ f ih =>
    cases hg : getNodeById s k with
    | none => simp [iterateFrom, hg]
    | some r =>
      have e : ∀ f, iterateFrom s (f + 1) k = r :: iterateFrom s f (k + 1) := fun f => by
        simp only [iterateFrom, hg]
      rw [e (f + 1)] at h
      rw [e (f + 1), e f, ih (k + 1) (by simpa using h)]

/-- The number of steps of `iterate` is enough: Python's iteration, which has no bound, gives the
same nodes. -/
theorem iterate_fuel (s : Network) (extra : Nat) :
    iterateFrom s (s.graph.nodes.length + extra) 0 = iterate s := by
  induction extra with
  | zero => rfl
  | succ n ih =>
    rw [← ih, ← Nat.add_assoc]
    exact iterateFrom_stable s _ 0 (Nat.le_trans (iterateFrom_length_le s _ 0) (Nat.le_add_right ..))

end Net
end Verif
