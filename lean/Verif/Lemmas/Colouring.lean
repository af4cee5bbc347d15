import Verif.Model.Blocks
import Verif.Lemmas.NetworkIter
/-!
# Colourings, groups and blocks
-/
namespace Verif
namespace Net

/-! ## The first free colour -/

theorem firstFree_not_mem (used : List Nat) : firstFree used ∉ used := by
  unfold firstFree
  cases hf : (List.range (used.length + 1)).find? fun c => !used.contains c with
  | some c =>
    have := List.find?_some hf
    simpa using this
  | none =>
    exfalso
    have hall : ∀ c < used.length + 1, c ∈ used := by
      intro c hc
      have := List.find?_eq_none.mp hf c (List.mem_range.mpr hc)
      simpa using this
    have hsub : (List.range (used.length + 1)).Subperm used :=
      List.subperm_of_subset List.nodup_range fun c hc => hall c (List.mem_range.mp hc)
    have := hsub.length_le
    simp at this

/-- It is the least colour that is not used. -/
theorem firstFree_least (used : List Nat) (c : Nat) (hc : c < firstFree used) : c ∈ used := by
  unfold firstFree at hc
  by_contra hn
  cases hf : (List.range (used.length + 1)).find? fun c => !used.contains c with
  | some d =>
    rw [hf, Option.getD_some] at hc
    obtain ⟨hp, i, hi, hd, hb⟩ := List.find?_eq_some_iff_getElem.mp hf
    simp only [List.getElem_range] at hd
    have := hb c (by omega)
    simp only [List.getElem_range] at this
    simp [hn] at this
  | none =>
    rw [hf, Option.getD_none] at hc
    have := List.find?_eq_none.mp hf c (List.mem_range.mpr (by omega))
    simp [hn] at this

/-! ## Greedy colouring -/

theorem keys_colour (adj : Nat → List Nat) (order : List Nat) (c : Dict Nat Nat)
    (hn : (c.keys ++ order).Nodup) : (order.foldl (colourNode adj) c).keys = c.keys ++ order := by
  induction order generalizing c with
  | nil => simp
  | cons r l ih =>
    have hr : r ∉ c.keys := fun h => (List.nodup_append.mp hn).2.2 r h r (by simp) rfl
    have hk : (colourNode adj c r).keys = c.keys ++ [r] := by
      rw [colourNode, Dict.keys_set, if_neg hr]
    rw [List.foldl_cons, ih (colourNode adj c r) (by rw [hk]; simpa using hn), hk]
    simp

/-- A node coloured later has another colour than its neighbours coloured before. -/
theorem colour_proper (adj : Nat → List Nat) (order : List Nat) (c : Dict Nat Nat)
    (hn : (c.keys ++ order).Nodup)
    (hc : ∀ r q, q ∈ adj r → r ∈ adj q → r ≠ q → ∀ a b, c.get? r = some a → c.get? q = some b → a ≠ b) :
    ∀ r q, q ∈ adj r → r ∈ adj q → r ≠ q → ∀ a b,
      (order.foldl (colourNode adj) c).get? r = some a →
      (order.foldl (colourNode adj) c).get? q = some b → a ≠ b := by
  induction order generalizing c with
  | nil => exact hc
  | cons s l ih =>
    have hs : s ∉ c.keys := fun h => (List.nodup_append.mp hn).2.2 s h s (by simp) rfl
    have hk : (colourNode adj c s).keys = c.keys ++ [s] := by
      rw [colourNode, Dict.keys_set, if_neg hs]
    refine ih (colourNode adj c s) (by rw [hk]; simpa using hn) ?_
    intro r q hrq hqr hne a b ha hb hab
    subst hab
    simp only [colourNode, Dict.get?_set] at ha hb
    split at ha <;> split at hb
    · next e e' => exact hne (e.trans e'.symm)
    · next e e' =>
      subst e
      injection ha with ha
      have hm : a ∈ (adj r).filterMap fun v => c.get? v := List.mem_filterMap.mpr ⟨q, hrq, hb⟩
      rw [← ha] at hm
      exact firstFree_not_mem _ hm
    · next e e' =>
      subst e'
      injection hb with hb
      have hm : a ∈ (adj q).filterMap fun v => c.get? v := List.mem_filterMap.mpr ⟨r, hqr, ha⟩
      rw [← hb] at hm
      exact firstFree_not_mem _ hm
    · exact hc r q hrq hqr hne a a ha hb rfl

/-! ## Groups -/

theorem values_set_append (d : Dict Nat (List Nat)) (k r : Nat) (G : List Nat)
    (h : d.get? k = some G) :
    (d.set k (G ++ [r])).values.flatten.Perm (d.values.flatten ++ [r]) := by
  induction d with
  | nil => cases h
  | cons kv d ih =>
    obtain ⟨k', G'⟩ := kv
    simp only [Dict.get?] at h
    simp only [Dict.set]
    split at h
    · next e =>
      injection h with h
      subst h
      rw [if_pos e]
      simp only [Dict.values, List.map_cons, List.flatten_cons, List.append_assoc]
      exact List.Perm.append_left _ List.perm_append_comm
    · next e =>
      rw [if_neg e]
      simp only [Dict.values, List.map_cons, List.flatten_cons, List.append_assoc]
      exact (ih h).append_left _

/-- What the groups contain after some nodes were distributed. -/
structure Grouped (l : List (Nat × Nat)) (d : Dict Nat (List Nat)) : Prop where
  perm : d.values.flatten.Perm (l.map Prod.fst)
  nodup : d.keys.Nodup
  colour : ∀ k G, (k, G) ∈ d → G ≠ [] ∧ ∀ r ∈ G, (r, k) ∈ l
  all : ∀ r k, (r, k) ∈ l → ∃ G, (k, G) ∈ d ∧ r ∈ G

theorem grouped_add {l : List (Nat × Nat)} {d : Dict Nat (List Nat)} (h : Grouped l d) (rc : Nat × Nat) :
    Grouped (l ++ [rc]) (addToGroup d rc) := by
  obtain ⟨r, c⟩ := rc
  by_cases hc : c ∈ d.keys
  · have hh : d.has c = true := (Dict.has_iff d c).mpr hc
    obtain ⟨G, hG⟩ : ∃ G, d.get? c = some G := by
      cases hg : d.get? c with
      | none => exact absurd hc ((Dict.get?_eq_none_iff d c).mp hg)
      | some G => exact ⟨G, rfl⟩
    have e : addToGroup d (r, c) = d.set c (G ++ [r]) := by
      simp [addToGroup, hh, hG]
    have hk : (d.set c (G ++ [r])).keys = d.keys := by rw [Dict.keys_set, if_pos hc]
    rw [e]
    refine ⟨?_, hk ▸ h.nodup, ?_, ?_⟩
    · rw [List.map_append]
      exact (values_set_append d c r G hG).trans (h.perm.append_right _)
    · intro k H hm
      have := get?_of_mem (hk ▸ h.nodup) hm
      rw [Dict.get?_set] at this
      split at this
      · next e =>
        subst e
        injection this with this
        subst this
        refine ⟨by simp, fun q hq => ?_⟩
        rcases List.mem_append.mp hq with hq | hq
        · exact List.mem_append_left _ ((h.colour k G (mem_of_get? hG)).2 q hq)
        · simp only [List.mem_singleton] at hq
          subst hq
          simp
      · obtain ⟨a, b⟩ := h.colour k H (mem_of_get? this)
        exact ⟨a, fun q hq => List.mem_append_left _ (b q hq)⟩
    · intro q k hq
      rcases List.mem_append.mp hq with hq | hq
      · obtain ⟨H, hm, hqH⟩ := h.all q k hq
        by_cases e : k = c
        · subst e
          have : H = G := by
            have := get?_of_mem h.nodup hm
            rw [hG] at this
            injection this with this
            exact this.symm
          subst this
          exact ⟨H ++ [r], mem_of_get? (by rw [Dict.get?_set, if_pos rfl]), by simp [hqH]⟩
        · exact ⟨H, mem_of_get? (by rw [Dict.get?_set, if_neg e]; exact get?_of_mem h.nodup hm), hqH⟩
      · simp only [List.mem_singleton, Prod.mk.injEq] at hq
        obtain ⟨rfl, rfl⟩ := hq
        exact ⟨G ++ [q], mem_of_get? (by rw [Dict.get?_set, if_pos rfl]), by simp⟩
  · have hh : d.has c = false := (Dict.has_eq_false_iff d c).mpr hc
    have hn : d.get? c = none := (Dict.get?_eq_none_iff d c).mpr hc
    have hset : ∀ v, d.set c v = d ++ [(c, v)] := fun v => Dict.set_new d c v hc
    have e : addToGroup d (r, c) = d ++ [(c, [r])] := by
      simp only [addToGroup, hh, Bool.false_eq_true, if_false]
      rw [Dict.get?_set, if_pos rfl, hset]
      simp only [Option.getD_some, List.nil_append]
      clear hset hh h hn
      induction d with
      | nil => simp [Dict.set]
      | cons kv d ih =>
        simp only [Dict.keys, List.map_cons, List.mem_cons, not_or] at hc
        simp only [List.cons_append, Dict.set, if_neg hc.1]
        rw [ih hc.2]
    rw [e]
    refine ⟨?_, ?_, ?_, ?_⟩
    · simp only [Dict.values, List.map_append, List.map_cons, List.map_nil, List.flatten_append,
        List.flatten_cons, List.flatten_nil, List.append_nil]
      exact h.perm.append_right _
    · simp only [Dict.keys, List.map_append, List.map_cons, List.map_nil]
      rw [List.nodup_append]
      refine ⟨h.nodup, by simp, fun a ha b hb => ?_⟩
      simp only [List.mem_singleton] at hb
      subst hb
      rintro rfl
      exact hc ha
    · intro k H hm
      rcases List.mem_append.mp hm with hm | hm
      · obtain ⟨a, b⟩ := h.colour k H hm
        exact ⟨a, fun q hq => List.mem_append_left _ (b q hq)⟩
      · simp only [List.mem_singleton, Prod.mk.injEq] at hm
        obtain ⟨rfl, rfl⟩ := hm
        refine ⟨by simp, fun q hq => ?_⟩
        simp only [List.mem_singleton] at hq
        subst hq
        simp
    · intro q k hq
      rcases List.mem_append.mp hq with hq | hq
      · obtain ⟨H, hm, hqH⟩ := h.all q k hq
        exact ⟨H, List.mem_append_left _ hm, hqH⟩
      · simp only [List.mem_singleton, Prod.mk.injEq] at hq
        obtain ⟨rfl, rfl⟩ := hq
        exact ⟨[q], List.mem_append_right _ (by simp), by simp⟩

theorem grouped_fold (l l' : List (Nat × Nat)) (d : Dict Nat (List Nat)) (h : Grouped l d) :
    Grouped (l ++ l') (l'.foldl addToGroup d) := by
  induction l' generalizing l d with
  | nil => simpa using h
  | cons rc l' ih =>
    have := ih (l ++ [rc]) (addToGroup d rc) (grouped_add h rc)
    simpa using this

theorem grouped_groups (c : Dict Nat Nat) : Grouped c (c.foldl addToGroup []) := by
  have := grouped_fold [] c [] ⟨by simp [Dict.values], by simp [Dict.keys], by simp, by simp⟩
  simpa using this

/-! ## Runs -/

theorem flatten_runs (l : List (Nat × Nat)) :
    (Dict.values (groupRuns l)).flatten = l.map Prod.fst := by
  induction l with
  | nil => rfl
  | cons rc l ih =>
    obtain ⟨r, c⟩ := rc
    simp only [groupRuns]
    split
    · next h =>
      rw [h] at ih
      simp only [List.map_cons]
      rw [← ih]
      rfl
    · next c' rs g h =>
      rw [h] at ih
      simp only [List.map_cons]
      rw [← ih]
      split <;> simp [Dict.values]

theorem colour_runs (l : List (Nat × Nat)) : ∀ k G, (k, G) ∈ groupRuns l → ∀ r ∈ G, (r, k) ∈ l := by
  induction l with
  | nil => intro k G h; cases h
  | cons rc l ih =>
    obtain ⟨r, c⟩ := rc
    intro k G hm q hq
    simp only [groupRuns] at hm
    split at hm
    · simp only [List.mem_singleton, Prod.mk.injEq] at hm
      obtain ⟨rfl, rfl⟩ := hm
      simp only [List.mem_singleton] at hq
      subst hq
      simp
    · next c' rs g h =>
      rw [h] at ih
      split at hm
      · next e =>
        subst e
        rcases List.mem_cons.mp hm with hm | hm
        · simp only [Prod.mk.injEq] at hm
          obtain ⟨rfl, rfl⟩ := hm
          rcases List.mem_cons.mp hq with rfl | hq
          · simp
          · exact List.mem_cons_of_mem _ (ih k rs (by simp) q hq)
        · exact List.mem_cons_of_mem _ (ih k G (by simp [hm]) q hq)
      · rcases List.mem_cons.mp hm with hm | hm
        · simp only [Prod.mk.injEq] at hm
          obtain ⟨rfl, rfl⟩ := hm
          simp only [List.mem_singleton] at hq
          subst hq
          simp
        · exact List.mem_cons_of_mem _ (ih k G hm q hq)

theorem update_nodup (d kvs : Dict Nat (List Nat)) (h : (Dict.keys (d ++ kvs)).Nodup) :
    Dict.update d kvs = d ++ kvs := by
  induction kvs generalizing d with
  | nil => simp [Dict.update]
  | cons kv kvs ih =>
    obtain ⟨k, v⟩ := kv
    have hk : k ∉ d.keys := by
      simp only [Dict.keys, List.map_append, List.map_cons] at h
      exact fun hm => (List.nodup_append.mp h).2.2 k hm k (by simp) rfl
    have : Dict.update d ((k, v) :: kvs) = Dict.update (d ++ [(k, v)]) kvs := by
      simp only [Dict.update, List.foldl_cons, Dict.set_new d k v hk]
    rw [this, ih _ (by simpa using h)]
    simp

theorem firstFree_nil : firstFree [] = 0 := rfl

/-- When every neighbour comes later in the order, all colours are 0. -/
theorem colour_zero (adj : Nat → List Nat) (order : List Nat) (c : Dict Nat Nat)
    (hn : (c.keys ++ order).Nodup) (hc : ∀ kv ∈ c, kv.2 = 0)
    (ha : ∀ (i : Nat) (r : Nat), order[i]? = some r → ∀ v ∈ adj r, v ∉ c.keys ∧ v ∉ order.take i) :
    order.foldl (colourNode adj) c = c ++ order.map fun r => (r, 0) := by
  induction order generalizing c with
  | nil => simp
  | cons r l ih =>
    have hr : r ∉ c.keys := fun h => (List.nodup_append.mp hn).2.2 r h r (by simp) rfl
    have hf : ((adj r).filterMap fun v => c.get? v) = [] := by
      rw [List.filterMap_eq_nil_iff]
      intro v hv
      exact (Dict.get?_eq_none_iff c v).mpr (ha 0 r (by simp) v hv).1
    have hs : colourNode adj c r = c ++ [(r, 0)] := by
      rw [colourNode, hf, firstFree_nil, Dict.set_new c r 0 hr]
    rw [List.foldl_cons, hs, ih]
    · simp
    · simp only [Dict.keys, List.map_append, List.map_cons, List.map_nil, List.append_assoc,
        List.singleton_append]
      exact hn
    · intro kv hkv
      rcases List.mem_append.mp hkv with hkv | hkv
      · exact hc kv hkv
      · simp only [List.mem_singleton] at hkv
        rw [hkv]
    · intro i q hq v hv
      obtain ⟨h1, h2⟩ := ha (i + 1) q (by simpa using hq) v hv
      simp only [List.take_succ_cons, List.mem_cons, not_or] at h2
      refine ⟨?_, h2.2⟩
      simp only [Dict.keys, List.map_append, List.map_cons, List.map_nil, List.mem_append,
        List.mem_singleton, not_or]
      exact ⟨h1, h2.1⟩

theorem runs_zero (l : List Nat) (h : l ≠ []) : groupRuns (l.map fun r => (r, 0)) = [(0, l)] := by
  induction l with
  | nil => exact absurd rfl h
  | cons r l ih =>
    cases l with
    | nil => rfl
    | cons q l =>
      rw [List.map_cons, groupRuns, ih (by simp)]
      simp

end Net
end Verif
