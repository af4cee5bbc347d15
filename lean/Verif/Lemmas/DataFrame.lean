import Verif.Spec.DataFrame
import Mathlib.Algebra.BigOperators.Group.List.Basic
import Mathlib.Data.List.Dedup
/-! # Lemmas on data frames -/
namespace Verif.Frame
open Spec

theorem mem_union {ts : List Rat} {t : Rat} : t ∈ union ts ↔ t ∈ ts := by
  unfold union
  rw [List.mem_insertionSort, List.mem_dedup]

theorem union_nodup (ts : List Rat) : (union ts).Nodup :=
  (List.perm_insertionSort _ _).nodup_iff.mpr (List.nodup_dedup ts)

theorem union_sorted (ts : List Rat) : (union ts).Pairwise (· ≤ ·) :=
  List.pairwise_insertionSort _ _

theorem mem_atTime {f : Frame} {t : Rat} {v : List (Option Rat)} : v ∈ f.atTime t ↔ (t, v) ∈ f.rows := by
  unfold atTime
  simp only [List.mem_map, List.mem_filter, decide_eq_true_eq, Prod.exists]
  constructor
  · rintro ⟨a, b, ⟨h, rfl⟩, rfl⟩; exact h
  · intro h; exact ⟨t, v, ⟨h, rfl⟩, rfl⟩

theorem atTime_eq_nil {f : Frame} {t : Rat} : f.atTime t = [] ↔ ¬ Recorded t f := by
  rw [List.eq_nil_iff_forall_not_mem]
  unfold Recorded
  simp only [mem_atTime, not_exists]

theorem filter_flatMap_time {g : Rat → List (Rat × List (Option Rat))} (hg : ∀ t, ∀ r ∈ g t, r.1 = t)
    (ts : List Rat) (hn : ts.Nodup) (t : Rat) :
    (ts.flatMap g).filter (fun r => decide (r.1 = t)) = if t ∈ ts then g t else [] := by
  induction ts with
  | nil => simp
  | cons a ts ih =>
    obtain ⟨ha, hn⟩ := List.nodup_cons.mp hn
    rw [List.flatMap_cons, List.filter_append, ih hn]
    by_cases h : t = a
    · subst h
      rw [if_neg ha, if_pos (by simp), List.append_nil, List.filter_eq_self]
      intro r hr
      simpa using hg t r hr
    · have : (g a).filter (fun r => decide (r.1 = t)) = [] := by
        rw [List.filter_eq_nil_iff]
        intro r hr
        have := hg a r hr
        simp only [decide_eq_true_eq]
        exact fun h' => h (h'.symm.trans this)
      rw [this, List.nil_append]
      simp [h]

theorem pairs_time (f g : Frame) (t : Rat) : ∀ r ∈ pairs f g t, r.1 = t := by
  intro r hr
  unfold pairs at hr
  simp only [List.mem_flatMap, List.mem_map] at hr
  obtain ⟨a, -, b, -, rfl⟩ := hr
  rfl

theorem recorded_times {f : Frame} {t : Rat} : t ∈ f.rows.map Prod.fst ↔ Recorded t f := by
  unfold Recorded
  simp

theorem atTime_merge (f g : Frame) (t : Rat) (h : Recorded t f ∨ Recorded t g) :
    (f.merge g).atTime t = (f.orMissing t).flatMap fun a => (g.orMissing t).map fun b => a ++ b := by
  unfold atTime merge
  simp only
  rw [filter_flatMap_time (pairs_time f g) _ (union_nodup _), if_pos]
  · unfold pairs
    simp only [List.map_flatMap, List.map_map]
    rfl
  · rw [mem_union, List.mem_append, recorded_times, recorded_times]
    exact h

theorem recorded_merge (f g : Frame) (t : Rat) :
    Recorded t (f.merge g) ↔ Recorded t f ∨ Recorded t g := by
  constructor
  · rintro ⟨v, hv⟩
    unfold merge at hv
    simp only [List.mem_flatMap] at hv
    obtain ⟨t', ht', hv⟩ := hv
    obtain rfl : t = t' := pairs_time f g t' _ hv
    rw [mem_union, List.mem_append, recorded_times, recorded_times] at ht'
    exact ht'
  · intro h
    by_contra hn
    rw [← atTime_eq_nil, atTime_merge f g t h] at hn
    have hne : ∀ f : Frame, f.orMissing t ≠ [] := by
      intro f
      unfold orMissing
      split
      · simp
      · assumption
    obtain ⟨a, ha⟩ := List.exists_mem_of_ne_nil _ (hne f)
    obtain ⟨b, hb⟩ := List.exists_mem_of_ne_nil _ (hne g)
    have : a ++ b ∈ (f.orMissing t).flatMap fun a => (g.orMissing t).map fun b => a ++ b := by
      simp only [List.mem_flatMap, List.mem_map]
      exact ⟨a, ha, b, hb, rfl⟩
    rw [hn] at this
    cases this

theorem mem_orMissing {f : Frame} {t : Rat} {v : List (Option Rat)} : v ∈ f.orMissing t ↔
    (t, v) ∈ f.rows ∨ (∀ w, (t, w) ∉ f.rows) ∧ v = List.replicate f.columns.length none := by
  unfold orMissing
  split
  · rename_i h
    have h' : ∀ w, (t, w) ∉ f.rows := not_exists.mp (atTime_eq_nil.mp h)
    rw [List.mem_singleton]
    constructor
    · exact fun hv => .inr ⟨h', hv⟩
    · rintro (hv | ⟨-, hv⟩)
      · exact absurd hv (h' v)
      · exact hv
  · rename_i h
    rw [mem_atTime]
    constructor
    · exact .inl
    · rintro (hv | ⟨hv, -⟩)
      · exact hv
      · exact absurd (atTime_eq_nil.mpr (not_exists.mpr hv)) h

theorem sideBySide_cons {t : Rat} {f : Frame} {fs : List Frame} {cells : List (Option Rat)} :
    SideBySide t (f :: fs) cells ↔ ∃ v rest, v ∈ f.orMissing t ∧ SideBySide t fs rest ∧ cells = v ++ rest := by
  constructor
  · intro h
    cases h with
    | row h rest => exact ⟨_, _, mem_orMissing.mpr (.inl h), rest, rfl⟩
    | missing h rest => exact ⟨_, _, mem_orMissing.mpr (.inr ⟨h, rfl⟩), rest, rfl⟩
  · rintro ⟨v, rest, hv, hr, rfl⟩
    rcases mem_orMissing.mp hv with h | ⟨h, rfl⟩
    · exact .row h hr
    · exact .missing h hr

theorem mem_orMissing_merge {f g : Frame} {t : Rat} {v : List (Option Rat)} :
    v ∈ (f.merge g).orMissing t ↔ ∃ a ∈ f.orMissing t, ∃ b ∈ g.orMissing t, v = a ++ b := by
  by_cases h : Recorded t f ∨ Recorded t g
  · have h' := (recorded_merge f g t).mpr h
    have : (f.merge g).orMissing t = (f.merge g).atTime t := by
      unfold orMissing
      rw [if_neg (by rw [atTime_eq_nil]; exact not_not.mpr h')]
    rw [this, atTime_merge f g t h]
    simp only [List.mem_flatMap, List.mem_map, eq_comm]
  · have h' := (recorded_merge f g t).not.mpr h
    rw [not_or] at h
    have hm : ∀ f : Frame, ¬ Recorded t f → f.orMissing t = [List.replicate f.columns.length none] := by
      intro f hf
      unfold orMissing
      rw [if_pos (atTime_eq_nil.mpr hf)]
    rw [hm _ h', hm f h.1, hm g h.2]
    simp [merge]

/-- The frames merged one after the other from a first one. -/
theorem foldl_mergeNext (fs : List Frame) (g : Frame) : ∃ r, fs.foldl mergeNext (some g) = some r ∧
    r.columns = g.columns ++ fs.flatMap Frame.columns ∧
    (∀ t, Recorded t r ↔ ∃ f ∈ g :: fs, Recorded t f) ∧
    ∀ t v, v ∈ r.orMissing t ↔ SideBySide t (g :: fs) v := by
  induction fs generalizing g with
  | nil =>
    refine ⟨g, rfl, by simp, by simp, fun t v => ?_⟩
    rw [sideBySide_cons]
    constructor
    · exact fun h => ⟨v, [], h, .nil, by simp⟩
    · rintro ⟨v', rest, h, hr, rfl⟩
      cases hr
      simpa using h
  | cons f fs ih =>
    obtain ⟨r, h₁, h₂, h₃, h₄⟩ := ih (g.merge f)
    refine ⟨r, h₁, ?_, ?_, ?_⟩
    · rw [h₂]
      simp [merge]
    · intro t
      rw [h₃]
      simp only [List.mem_cons, exists_eq_or_imp, recorded_merge, or_assoc]
    · intro t v
      rw [h₄, sideBySide_cons, sideBySide_cons]
      simp only [mem_orMissing_merge, sideBySide_cons]
      constructor
      · rintro ⟨_, rest, ⟨a, ha, b, hb, rfl⟩, hr, rfl⟩
        exact ⟨a, b ++ rest, ha, ⟨b, rest, hb, hr, rfl⟩, by simp⟩
      · rintro ⟨a, _, ha, ⟨b, rest, hb, hr, rfl⟩, rfl⟩
        exact ⟨a ++ b, rest, ⟨a, ha, b, hb, rfl⟩, hr, by simp⟩

theorem rowCount_eq (t : Rat) (f : Frame) : rowCount t f = (f.atTime t).length := by
  unfold rowCount atTime
  rw [List.length_map]

theorem orMissing_length (t : Rat) (f : Frame) : (f.orMissing t).length = max 1 (rowCount t f) := by
  rw [rowCount_eq]
  unfold orMissing
  split
  · rename_i h; simp [h]
  · rename_i h
    have := List.length_pos_of_ne_nil h
    omega

theorem rowCount_zero {t : Rat} {f : Frame} : rowCount t f = 0 ↔ ¬ Recorded t f := by
  rw [rowCount_eq, List.length_eq_zero_iff, atTime_eq_nil]

theorem rowCount_merge (f g : Frame) (t : Rat) :
    max 1 (rowCount t (f.merge g)) = max 1 (rowCount t f) * max 1 (rowCount t g) := by
  by_cases h : Recorded t f ∨ Recorded t g
  · have h₁ : rowCount t (f.merge g) = max 1 (rowCount t f) * max 1 (rowCount t g) := by
      rw [rowCount_eq, atTime_merge f g t h, List.length_flatMap]
      simp only [List.length_map, List.map_const', List.sum_replicate, orMissing_length]
      rfl
    rw [h₁]
    have : 1 ≤ max 1 (rowCount t f) * max 1 (rowCount t g) :=
      Nat.mul_pos (by omega) (by omega)
    omega
  · have h' := (recorded_merge f g t).not.mpr h
    rw [not_or] at h
    rw [rowCount_zero.mpr h', rowCount_zero.mpr h.1, rowCount_zero.mpr h.2]
    rfl

theorem rowCount_foldl (fs : List Frame) (g r : Frame) (h : fs.foldl mergeNext (some g) = some r) (t : Rat) :
    max 1 (rowCount t r) = ((g :: fs).map fun f => max 1 (rowCount t f)).prod := by
  induction fs generalizing g with
  | nil =>
    cases h
    simp
  | cons f fs ih =>
    rw [ih (g.merge f) h]
    simp [rowCount_merge, mul_assoc]

theorem sorted_foldl (fs : List Frame) (g r : Frame) (h : fs.foldl mergeNext (some g) = some r)
    (hs : fs = [] → (g.rows.map Prod.fst).Pairwise (· ≤ ·)) : (r.rows.map Prod.fst).Pairwise (· ≤ ·) := by
  induction fs generalizing g with
  | nil => cases h; exact hs rfl
  | cons f fs ih =>
    refine ih (g.merge f) h fun _ => ?_
    unfold merge
    simp only
    have := union_sorted (g.rows.map Prod.fst ++ f.rows.map Prod.fst)
    generalize union (g.rows.map Prod.fst ++ f.rows.map Prod.fst) = ts at this
    rw [List.map_flatMap]
    induction ts with
    | nil => simp
    | cons a ts ih' =>
      rw [List.pairwise_cons] at this
      rw [List.flatMap_cons, List.pairwise_append]
      refine ⟨?_, ih' this.2, ?_⟩
      · refine List.pairwise_of_forall_mem_list fun x hx y hy => ?_
        obtain ⟨r₁, h₁, rfl⟩ := List.mem_map.mp hx
        obtain ⟨r₂, h₂, rfl⟩ := List.mem_map.mp hy
        rw [pairs_time _ _ _ _ h₁, pairs_time _ _ _ _ h₂]
      · intro x hx y hy
        obtain ⟨r₁, h₁, rfl⟩ := List.mem_map.mp hx
        obtain ⟨b, hb, hy⟩ := List.mem_flatMap.mp hy
        obtain ⟨r₂, h₂, rfl⟩ := List.mem_map.mp hy
        rw [pairs_time _ _ _ _ h₁, pairs_time _ _ _ _ h₂]
        exact this.1 b hb

end Verif.Frame
