import Verif.Model.Dict
import Mathlib.Data.List.Basic
import Mathlib.Data.List.Nodup
import Mathlib.Data.List.Induction
/-! Lemmas on dictionaries. -/
namespace Verif.Dict

variable {κ : Type u} {α : Type v} [DecidableEq κ]

theorem has_iff (d : Dict κ α) (k : κ) : d.has k = true ↔ k ∈ d.keys := by
  simp [has, keys]

theorem has_eq_false_iff (d : Dict κ α) (k : κ) : d.has k = false ↔ k ∉ d.keys := by
  rw [← has_iff]; simp

theorem get?_eq_none_iff (d : Dict κ α) (k : κ) : d.get? k = none ↔ k ∉ d.keys := by
  induction d with
  | nil => simp [get?, keys]
  | cons kv d ih =>
    obtain ⟨k', v⟩ := kv
    by_cases h : k = k'
    · simp [get?, keys, h]
    · simp only [get?, if_neg h, ih]; simp [keys, h]

theorem keys_set (d : Dict κ α) (k : κ) (v : α) :
    (d.set k v).keys = if k ∈ d.keys then d.keys else d.keys ++ [k] := by
  induction d with
  | nil => simp [set, keys]
  | cons kv d ih =>
    obtain ⟨k', v'⟩ := kv
    by_cases h : k = k'
    · simp [set, keys, h]
    · simp only [set, if_neg h]
      simp only [keys, List.map_cons] at ih ⊢
      rw [ih]
      by_cases hk : k ∈ d.map (·.1)
      · simp [hk]
      · simp [hk, h]

theorem set_new (d : Dict κ α) (k : κ) (v : α) (h : k ∉ d.keys) : d.set k v = d ++ [(k, v)] := by
  induction d with
  | nil => rfl
  | cons kv d ih =>
    obtain ⟨k', v'⟩ := kv
    simp only [keys, List.map_cons, List.mem_cons, not_or] at h
    simp [set, h.1, ih h.2]

theorem get?_set (d : Dict κ α) (k k' : κ) (v : α) :
    (d.set k v).get? k' = if k' = k then some v else d.get? k' := by
  induction d with
  | nil => simp [set, get?]
  | cons kv d ih =>
    obtain ⟨k₁, v₁⟩ := kv
    by_cases h : k = k₁
    · subst h
      by_cases h' : k' = k <;> simp [set, get?, h']
    · by_cases h' : k' = k₁
      · subst h'
        have : k' ≠ k := fun hh => h hh.symm
        simp [set, get?, h, this]
      · simp [set, get?, h, h', ih]

theorem keys_del (d : Dict κ α) (k : κ) : (d.del k).keys = d.keys.filter fun k' => decide (k' ≠ k) := by
  simp only [del, keys, List.filter_map]
  rfl

theorem get?_del (d : Dict κ α) (k k' : κ) (h : k' ≠ k) : (d.del k).get? k' = d.get? k' := by
  induction d with
  | nil => rfl
  | cons kv d ih =>
    obtain ⟨k₁, v₁⟩ := kv
    simp only [del, ne_eq, decide_not] at ih
    by_cases h₁ : k₁ = k
    · subst h₁; simp [del, get?, h, ih]
    · by_cases h₂ : k' = k₁
      · subst h₂; simp [del, get?, h₁]
      · simp [del, get?, h₁, h₂, ih]

theorem keys_update_of_mem (d : Dict κ α) (kvs : List (κ × α)) (h : ∀ kv ∈ kvs, kv.1 ∈ d.keys) :
    (d.update kvs).keys = d.keys := by
  induction kvs generalizing d with
  | nil => rfl
  | cons kv kvs ih =>
    have hk : (d.set kv.1 kv.2).keys = d.keys := by
      rw [keys_set, if_pos (h kv (by simp))]
    simp only [update, List.foldl_cons]
    have := ih (d.set kv.1 kv.2) (by intro a ha; rw [hk]; exact h a (by simp [ha]))
    rw [update] at this
    rw [this, hk]

theorem update_append (d : Dict κ α) (a b : List (κ × α)) :
    d.update (a ++ b) = (d.update a).update b := by simp [update]

/-- The value after an update is the last one given for the key, or the old one. -/
theorem get?_update (d : Dict κ α) (kvs : List (κ × α)) (k : κ) :
    (d.update kvs).get? k =
      match (kvs.filter fun kv => decide (kv.1 = k)).getLast? with
      | some kv => some kv.2
      | none => d.get? k := by
  induction kvs using List.reverseRecOn with
  | nil => rfl
  | append_singleton kvs kv ih =>
    rw [update_append, List.filter_append]
    change (Dict.set (d.update kvs) kv.1 kv.2).get? k = _
    rw [get?_set]
    by_cases h : kv.1 = k
    · subst h; simp
    · have h' : k ≠ kv.1 := fun hh => h hh.symm
      simp [h, h', ih]

omit [DecidableEq κ] in
theorem keys_map_snd (d : Dict κ α) (f : κ × α → α) :
    Dict.keys (d.map fun kv => (kv.1, f kv)) = d.keys := by
  simp [keys, Function.comp_def]

theorem get?_map_snd (d : Dict κ α) (f : α → α) (k : κ) :
    Dict.get? (d.map fun kv => (kv.1, f kv.2)) k = (d.get? k).map f := by
  induction d with
  | nil => rfl
  | cons kv d ih =>
    obtain ⟨k', v⟩ := kv
    by_cases h : k = k' <;> simp [get?, h, ih]

theorem get?_append (d d' : Dict κ α) (k : κ) :
    Dict.get? (d ++ d') k = match Dict.get? d k with | some v => some v | none => Dict.get? d' k := by
  induction d with
  | nil => rfl
  | cons kv d ih =>
    obtain ⟨k', v⟩ := kv
    by_cases h : k = k' <;> simp [get?, h, ih]

/-- With distinct keys the `i`-th entry is what the `i`-th key maps to. -/
theorem get?_of_getElem (d : Dict κ α) (hn : d.keys.Nodup) (i : Nat) (k : κ) (v : α)
    (h : d[i]? = some (k, v)) : d.get? k = some v := by
  induction d generalizing i with
  | nil => simp at h
  | cons kv d ih =>
    obtain ⟨k', v'⟩ := kv
    simp only [keys, List.map_cons, List.nodup_cons] at hn
    cases i with
    | zero => simp only [List.getElem?_cons_zero, Option.some.injEq, Prod.mk.injEq] at h; simp [get?, h]
    | succ i =>
      simp only [List.getElem?_cons_succ] at h
      have hk : k ∈ d.map (·.1) := List.mem_map.mpr ⟨(k, v), List.mem_of_getElem? h, rfl⟩
      have hne : k ≠ k' := fun hh => hn.1 (hh ▸ hk)
      simp only [get?, if_neg hne]
      exact ih hn.2 i h

end Verif.Dict
