import Verif.Spec.NodeData
import Verif.Lemmas.DistAL
import Verif.Lemmas.AugLag
import Verif.Lemmas.Collocation
import Verif.Lemmas.Dict
namespace Verif.DistAL
open Verif Verif.Spec

theorem dataOf_reported (n : Neighbour) (h : n.kind = "y" ∨ n.kind = "u") (r : OptResult) :
    r.dataOf n.kind = .ok (reportedRows n.kind r) := by
  rcases h with h | h <;> simp [h, OptResult.dataOf, reportedRows]

theorem range_map_getElem {α : Type} (l : List α) (d : α) :
    (List.range l.length).map (fun i => l[i]?.getD d) = l := by
  apply List.ext_getElem
  · simp
  · intro i h₁ h₂
    simp [List.getElem?_eq_getElem h₂]

/-- What is told about one entry of the vector of a neighbour. -/
def toldRows (degree elements points : Nat) (n : Neighbour) (index : Nat) : List (List Rat) :=
  (List.range elements).map fun el => (List.range (known degree points n)).map fun j =>
    told n index el j

theorem lastValues_ok (degree elements points : Nat) (n : Neighbour) (h : CoupledTo n)
    (hr : ReportsAt elements points n) (index : Nat) (hi : index < n.vector.length) :
    lastValues degree elements n index = .ok (toldRows degree elements points n index) := by
  unfold lastValues toldRows known
  cases hl : n.last with
  | some r =>
    obtain ⟨h₁, h₂⟩ := hr r hl
    simp only [OptResult.getVariable, dataOf_reported n h.kind r, bind, Except.bind,
      OptResult.rowOf, Option.isSome_some, if_true]
    rw [mapM_ok _ (fun e => e.map fun c => c[index]?.getD 0) _ ?_]
    · congr 1
      apply List.ext_getElem
      · simp [h₁]
      · intro el g₁ g₂
        simp only [List.length_map, List.length_range] at g₁ g₂
        have hm := List.getElem_mem g₁
        obtain ⟨h₃, h₄⟩ := h₂ _ hm
        simp only [List.getElem_map, List.getElem_range]
        apply List.ext_getElem
        · simp [h₃]
        · intro j k₁ k₂
          simp only [List.length_map, List.length_range] at k₁ k₂
          simp [told, hl, List.getElem?_eq_getElem g₁, List.getElem?_eq_getElem k₁]
    · intro e he
      apply mapM_ok
      intro c hc
      have := (h₂ e he).2 c hc
      rw [entryOf_ok (a := c[index]) (by simp), List.getElem?_eq_getElem (by omega)]
      rfl
  | none =>
    cases hg : n.guess with
    | some g =>
      have hlen := h.guess g hg
      have he : entryOf g index = .ok (g[index]?.getD 0) := by
        rw [entryOf_ok (a := g[index]'(by omega)) (by simp),
          List.getElem?_eq_getElem (by omega)]
        rfl
      simp only [he]
      rw [mapM_ok _ (fun _ => (List.range degree).map fun _ => g[index]?.getD 0) _
        fun _ _ => mapM_ok _ _ _ fun _ _ => rfl]
      simp [told, hl, hg]
    | none =>
      simp only [told, hl, hg]
      congr 1
      simp [List.map_const']

theorem coupled_of (ns : List Neighbour) (h : ∀ n ∈ ns, CoupledTo n) :
    coupled ns = ns.flatMap fun n => n.vars.map fun v => (n, n.vector.idxOf v) := by
  unfold coupled
  apply List.flatMap_congr
  intro n hn
  rw [findIndices_nodup _ _ (h n hn).distinct (h n hn).found, List.map_map]
  rfl

theorem mem_coupled (ns : List Neighbour) (h : ∀ n ∈ ns, CoupledTo n) (ni : Neighbour × Nat)
    (hm : ni ∈ coupled ns) : ni.1 ∈ ns ∧ ni.2 < ni.1.vector.length := by
  rw [coupled_of ns h] at hm
  simp only [List.mem_flatMap, List.mem_map] at hm
  obtain ⟨n, hn, v, hv, rfl⟩ := hm
  exact ⟨hn, List.idxOf_lt_length_of_mem ((h n hn).found v hv)⟩

theorem appendData_ok (elements : Nat) (data values : List (List Rat))
    (hv : values.length = elements) :
    appendData elements data values =
      .ok ((List.range elements).map fun i => data[i]?.getD [] ++ values[i]?.getD []) := by
  unfold appendData
  apply mapM_ok
  intro i hi
  rw [List.mem_range] at hi
  rw [List.getElem?_eq_getElem (by omega)]
  rfl

/-- The vectors of parameters that the loops build. -/
theorem fold_theta (degree elements : Nat) (pts : Neighbour → Nat) (L : List (Neighbour × Nat))
    (h : ∀ ni ∈ L, lastValues degree elements ni.1 ni.2 =
      .ok (toldRows degree elements (pts ni.1) ni.1 ni.2)) (data : List (List Rat)) :
    ∃ data', L.foldlM (m := Except Err) (init := data) (fun data ni => do
        let values ← lastValues degree elements ni.1 ni.2
        appendData elements data values) = .ok data' ∧
      ∀ el < elements, data'[el]?.getD [] = data[el]?.getD [] ++
        L.flatMap fun ni => (List.range (known degree (pts ni.1) ni.1)).map fun j =>
          told ni.1 ni.2 el j := by
  induction L generalizing data with
  | nil => exact ⟨data, rfl, by simp⟩
  | cons ni L ih =>
    rw [List.foldlM_cons, h ni (by simp)]
    simp only [bind, Except.bind]
    rw [appendData_ok _ _ _ (by simp [toldRows])]
    obtain ⟨data', h₁, h₂⟩ := ih (fun x hx => h x (by simp [hx])) _
    simp only [bind, Except.bind] at h₁
    refine ⟨data', h₁, fun el hel => ?_⟩
    rw [h₂ el hel]
    simp [hel, toldRows]

/-- The neighbour as a connection with the values told. -/
def Neighbour.link (n : Neighbour) : Link Rat where
  vars := n.vars
  vector := n.vector
  traj := told n

theorem thetaData_ok (degree elements : Nat) (pts : Neighbour → Nat) (ns : List Neighbour)
    (h : ∀ n ∈ ns, CoupledTo n) (hr : ∀ n ∈ ns, ReportsAt elements (pts n) n) :
    ∃ theta, thetaData degree elements ns = .ok theta ∧ ∀ el < elements, theta[el]?.getD [] =
      ns.flatMap fun n => n.vars.flatMap fun v => (List.range (known degree (pts n) n)).map fun j =>
        told n (n.vector.idxOf v) el j := by
  obtain ⟨data, h₁, h₂⟩ := fold_theta degree elements pts (coupled ns) (fun ni hm => by
    obtain ⟨a, b⟩ := mem_coupled ns h ni hm
    exact lastValues_ok _ _ _ _ (h _ a) (hr _ a) _ b) []
  refine ⟨data, h₁, fun el hel => ?_⟩
  rw [h₂ el hel, coupled_of ns h]
  simp [List.flatMap_assoc, List.flatMap_map]

theorem thetaData_nodeTheta (degree elements : Nat) (ns : List Neighbour)
    (h : ∀ n ∈ ns, CoupledTo n) (hr : ∀ n ∈ ns, ReportsAt elements degree n) :
    ∃ theta, thetaData degree elements ns = .ok theta ∧ ∀ el < elements, theta[el]?.getD [] =
      nodeTheta degree (ns.map Neighbour.link) el := by
  obtain ⟨theta, h₁, h₂⟩ := thetaData_ok degree elements (fun _ => degree) ns h hr
  refine ⟨theta, h₁, fun el hel => ?_⟩
  rw [h₂ el hel, nodeTheta, List.flatMap_map]
  apply List.flatMap_congr
  intro n hn
  rw [linkTheta_found degree el n.link ⟨(h n hn).distinct, (h n hn).found⟩, List.flatMap_map]
  have : known degree degree n = degree := by simp [known]
  rw [this]
  rfl

theorem slot_offset (ns : List Neighbour) (a : Nat) :
    offset (ns.map Neighbour.link) a = ((ns.take a).map fun n => n.vars.length).sum := by
  simp [offset, ← List.map_take, List.map_map, Function.comp_def, Neighbour.link]

/-! ### Blocks -/

theorem blockNumber_ok {N : Type} [DecidableEq N] (blocks : List (Nat × List N)) (n : N) (b : Nat) :
    blockNumber blocks n = .ok b ↔ ∃ (i : Nat) (nodes : List N), blocks[i]? = some (b, nodes) ∧ n ∈ nodes ∧
      ∀ i' < i, ∀ x : Nat × List N, blocks[i']? = some x → n ∉ x.2 := by
  induction blocks with
  | nil => simp [blockNumber]
  | cons x blocks ih =>
    obtain ⟨b', nodes⟩ := x
    rw [blockNumber]
    by_cases hn : n ∈ nodes
    · rw [if_pos hn]
      constructor
      · intro h
        cases h
        exact ⟨0, nodes, by simp, hn, by simp⟩
      · rintro ⟨i, nodes', h₁, h₂, h₃⟩
        cases i with
        | zero => simp at h₁; rw [h₁.1]
        | succ i => exact absurd hn (h₃ 0 (by omega) _ rfl)
    · rw [if_neg hn, ih]
      constructor
      · rintro ⟨i, nodes', h₁, h₂, h₃⟩
        refine ⟨i + 1, nodes', by simpa using h₁, h₂, fun i' hi' x hx => ?_⟩
        cases i' with
        | zero => simp at hx; subst hx; exact hn
        | succ i' => exact h₃ i' (by omega) x (by simpa using hx)
      · rintro ⟨i, nodes', h₁, h₂, h₃⟩
        cases i with
        | zero => simp at h₁; rw [← h₁.2] at h₂; exact absurd h₂ hn
        | succ i =>
          exact ⟨i, nodes', by simpa using h₁, h₂, fun i' hi' x hx =>
            h₃ (i' + 1) (by omega) x (by simpa using hx)⟩

theorem blockNumber_error {N : Type} [DecidableEq N] (blocks : List (Nat × List N)) (n : N)
    (h : ∀ x ∈ blocks, n ∉ x.2) : blockNumber blocks n = .error .valueError := by
  induction blocks with
  | nil => rfl
  | cons x blocks ih =>
    obtain ⟨b', nodes⟩ := x
    rw [blockNumber, if_neg (h (b', nodes) (by simp)), ih fun x hx => h x (by simp [hx])]

/-! ### Data for the dual residual -/

theorem fold_exogenous (nm : Sym → String) (degree elements : Nat) (pts : Neighbour → Nat)
    (L : List (Neighbour × Nat)) (h : ∀ ni ∈ L, lastValues degree elements ni.1 ni.2 =
      .ok (toldRows degree elements (pts ni.1) ni.1 ni.2))
    (hv : ∀ ni ∈ L, ni.2 < ni.1.vector.length) (data : Dict String (Nat × List (List Rat))) :
    L.foldlM (m := Except Err) (init := data) (fun data ni => do
        let values ← lastValues degree elements ni.1 ni.2
        setEntry nm data ni values) =
      .ok (Dict.update data (L.map fun ni => (nm (ni.1.vector[ni.2]?.getD 0),
        (ni.1.block, toldRows degree elements (pts ni.1) ni.1 ni.2)))) := by
  induction L generalizing data with
  | nil => rfl
  | cons ni L ih =>
    rw [List.foldlM_cons, h ni (by simp)]
    have := hv ni (by simp)
    simp only [bind, Except.bind, setEntry, List.getElem?_eq_getElem this]
    have ih := ih (fun x hx => h x (by simp [hx])) (fun x hx => hv x (by simp [hx]))
      (data.set (nm (ni.1.vector[ni.2])) (ni.1.block, toldRows degree elements (pts ni.1) ni.1 ni.2))
    simp only [bind, Except.bind, setEntry] at ih
    rw [ih]
    simp [Dict.update, List.getElem?_eq_getElem this]

/-- The entries of the data, in the order of the loops. -/
def entries (nm : Sym → String) (degree elements : Nat) (pts : Neighbour → Nat)
    (ns : List Neighbour) : List (String × (Nat × List (List Rat))) :=
  ns.flatMap fun n => n.vars.map fun v =>
    (nm v, (n.block, toldRows degree elements (pts n) n (n.vector.idxOf v)))

theorem exogenousData_ok (nm : Sym → String) (degree elements : Nat) (pts : Neighbour → Nat)
    (ns : List Neighbour) (h : ∀ n ∈ ns, CoupledTo n) (hr : ∀ n ∈ ns, ReportsAt elements (pts n) n) :
    exogenousData nm degree elements ns =
      .ok (Dict.update [] (entries nm degree elements pts ns)) := by
  unfold exogenousData
  rw [fold_exogenous nm degree elements pts (coupled ns) (fun ni hm => by
    obtain ⟨a, b⟩ := mem_coupled ns h ni hm
    exact lastValues_ok _ _ _ _ (h _ a) (hr _ a) _ b) (fun ni hm => (mem_coupled ns h ni hm).2) []]
  congr 2
  rw [coupled_of ns h, entries, List.map_flatMap]
  apply List.flatMap_congr
  intro n hn
  rw [List.map_map]
  apply List.map_congr_left
  intro v hv
  have := List.idxOf_lt_length_of_mem ((h n hn).found v hv)
  simp [List.getElem?_eq_getElem this]

theorem update_nil {κ α : Type} [DecidableEq κ] (kvs : List (κ × α)) (h : (kvs.map (·.1)).Nodup) :
    Dict.update [] kvs = kvs := by
  have : ∀ (d kvs : List (κ × α)), ((d ++ kvs).map (·.1)).Nodup →
      Dict.update d kvs = d ++ kvs := by
    intro d kvs
    induction kvs generalizing d with
    | nil => intro _; simp [Dict.update]
    | cons kv kvs ih =>
      intro hd
      have hk : kv.1 ∉ Dict.keys d := by
        intro hm
        rw [List.map_append, List.nodup_append] at hd
        exact hd.2.2 _ hm _ (by simp) rfl
      have := ih (d ++ [kv]) (by simpa using hd)
      simp only [Dict.update, List.foldl_cons] at this ⊢
      rw [Dict.set_new d kv.1 kv.2 hk, this]
      simp
  simpa using this [] kvs (by simpa using h)

/-! ### The dual residual -/

/-- A list of the values of all points. -/
def grid (elements points : Nat) (f : Nat → Nat → Rat) : List Rat :=
  (List.range elements).flatMap fun el => (List.range points).map (f el)

theorem toldRows_flatten (degree elements points : Nat) (n : Neighbour) (index : Nat) :
    (toldRows degree elements points n index).flatten =
      grid elements (known degree points n) (told n index) := by
  simp [toldRows, grid, List.flatMap_def]

theorem length_grid (elements points : Nat) (f : Nat → Nat → Rat) :
    (grid elements points f).length = elements * points := by
  simp [grid, List.length_flatMap]

theorem zipWith_grid (elements points : Nat) (f g : Nat → Nat → Rat) :
    List.zipWith (fun x y => x - y) (grid elements points f) (grid elements points g) =
      grid elements points fun el j => f el j - g el j := by
  unfold grid
  induction List.range elements with
  | nil => rfl
  | cons a l ih =>
    simp only [List.flatMap_cons]
    rw [List.zipWith_append (by simp), ih]
    congr 1
    simp [List.zipWith_map, List.zipWith_self]

theorem mem_grid (elements points : Nat) (f : Nat → Nat → Rat) (x : Rat) :
    x ∈ grid elements points f ↔ ∃ el < elements, ∃ j < points, x = f el j := by
  simp only [grid, List.mem_flatMap, List.mem_map, List.mem_range]
  constructor
  · rintro ⟨el, hel, j, hj, rfl⟩; exact ⟨el, hel, j, hj, rfl⟩
  · rintro ⟨el, hel, j, hj, rfl⟩; exact ⟨el, hel, j, hj, rfl⟩

/-- The fold of the dual residual for entries whose earlier data have the same size. -/
theorem fold_dual (own : Nat) (old : Dict String (Nat × List (List Rat)))
    (d : String × (Nat × List (List Rat)) → List Rat) (L : List (String × (Nat × List (List Rat))))
    (h : ∀ kv ∈ L, ∃ p, old.get? kv.1 = some p ∧
      subColumns kv.2.2.flatten p.2.flatten = .ok (d kv)) (s : WithBot Rat) :
    ∃ t, L.foldlM (dualStep own old) s = .ok t ∧ s ≤ t ∧
      (∀ kv ∈ L, own ≤ kv.2.1 → ((AugLag.maxAbs (d kv) : Rat) : WithBot Rat) ≤ t) ∧
      (t = s ∨ ∃ kv ∈ L, own ≤ kv.2.1 ∧ t = ((AugLag.maxAbs (d kv) : Rat) : WithBot Rat)) := by
  induction L generalizing s with
  | nil => exact ⟨s, rfl, le_refl _, by simp, Or.inl rfl⟩
  | cons kv L ih =>
    obtain ⟨p, hp, hd⟩ := h kv (by simp)
    rw [List.foldlM_cons]
    by_cases hb : kv.2.1 < own
    · obtain ⟨t, h₁, h₂, h₃, h₄⟩ := ih (fun x hx => h x (by simp [hx])) s
      refine ⟨t, ?_, h₂, ?_, ?_⟩
      · simp only [dualStep, if_pos hb, bind, Except.bind]
        exact h₁
      · intro x hx hxo
        rcases List.mem_cons.1 hx with rfl | hx
        · omega
        · exact h₃ x hx hxo
      · rcases h₄ with h₄ | ⟨x, hx, h₄⟩
        · exact Or.inl h₄
        · exact Or.inr ⟨x, by simp [hx], h₄⟩
    · obtain ⟨t, h₁, h₂, h₃, h₄⟩ := ih (fun x hx => h x (by simp [hx]))
        (max s ((AugLag.maxAbs (d kv) : Rat) : WithBot Rat))
      refine ⟨t, ?_, le_trans (le_max_left _ _) h₂, ?_, ?_⟩
      · simp only [dualStep, if_neg hb, hp, hd, bind, Except.bind]
        exact h₁
      · intro x hx hxo
        rcases List.mem_cons.1 hx with rfl | hx
        · exact le_trans (le_max_right _ _) h₂
        · exact h₃ x hx hxo
      · rcases h₄ with h₄ | ⟨x, hx, h₄⟩
        · rcases max_choice s ((AugLag.maxAbs (d kv) : Rat) : WithBot Rat) with hm | hm
          · exact Or.inl (by rw [h₄, hm])
          · exact Or.inr ⟨kv, by simp, by omega, by rw [h₄, hm]⟩
        · exact Or.inr ⟨x, by simp [hx], h₄⟩

theorem maxAbs_attained (l : List Rat) (h : l ≠ []) :
    (∀ v ∈ l, |v| ≤ AugLag.maxAbs l) ∧ ∃ v ∈ l, |v| = AugLag.maxAbs l := by
  obtain ⟨-, h₂, h₃⟩ := AugLag.le_foldl_max l (0 : Rat)
  refine ⟨h₂, ?_⟩
  rcases h₃ with h₃ | h₃
  · obtain ⟨v, hv⟩ := List.exists_mem_of_ne_nil l h
    have := h₂ v hv
    rw [h₃] at this
    have h0 : |v| = 0 := le_antisymm this (abs_nonneg v)
    exact ⟨v, hv, by rw [h0]; exact h₃.symm⟩
  · exact h₃

theorem entries_keys (nm : Sym → String) (degree elements : Nat) (pts : Neighbour → Nat)
    (ns : List Neighbour) :
    (entries nm degree elements pts ns).map (·.1) = ns.flatMap fun n => n.vars.map nm := by
  simp [entries, List.map_flatMap, Function.comp_def]

theorem get?_of_mem {κ α : Type} [DecidableEq κ] (d : Dict κ α) (hn : (d.map (·.1)).Nodup) (k : κ)
    (v : α) (h : (k, v) ∈ d) : d.get? k = some v := by
  induction d with
  | nil => cases h
  | cons x d ih =>
    obtain ⟨k', v'⟩ := x
    simp only [List.map_cons, List.nodup_cons] at hn
    rcases List.mem_cons.1 h with hm | hm
    · cases hm; simp [Dict.get?]
    · have : k ≠ k' := by
        rintro rfl
        exact hn.1 (List.mem_map.2 ⟨(k, v), hm, rfl⟩)
      rw [Dict.get?, if_neg this, ih hn.2 hm]

end Verif.DistAL
