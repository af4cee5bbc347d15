import Verif.Model.Util
import Mathlib.Data.List.Nodup
import Mathlib.Data.List.Range
import Mathlib.Tactic.Linarith
/-! Helper lemmas about index lists. -/
namespace Verif

theorem zipIdx_filterMap_eq_range {α β : Type*} (f : α → Nat → Option β) (l : List α) :
    (l.zipIdx.filterMap fun p => f p.1 p.2)
      = (List.range l.length).filterMap fun i => (l[i]?).bind fun a => f a i := by
  have h : l.zipIdx.map some = (List.range l.length).map fun i => (l[i]?).map fun a => (a, i) := by
    apply List.ext_getElem?
    intro n
    by_cases hn : n < l.length
    · simp [hn]
    · simp [hn]
  have h1 : (l.zipIdx.filterMap fun p => f p.1 p.2)
      = (l.zipIdx.map some).filterMap fun o => o.bind fun p => f p.1 p.2 := by
    rw [List.filterMap_map]; congr 1
  rw [h1, h, List.filterMap_map]
  congr 1
  funext i
  cases h : l[i]? <;> simp [h]

theorem foldl_max_ge (l : List Int) (a : Int) : a ≤ l.foldl max a ∧ ∀ x ∈ l, x ≤ l.foldl max a := by
  induction l generalizing a with
  | nil => simp
  | cons b bs ih =>
      have := ih (max a b)
      refine ⟨le_trans (le_max_left _ _) this.1, ?_⟩
      intro x hx
      rcases List.mem_cons.1 hx with rfl | hx
      · exact le_trans (le_max_right _ _) this.1
      · exact this.2 x hx

theorem foldl_max_mem (l : List Int) (a : Int) : l.foldl max a = a ∨ l.foldl max a ∈ l := by
  induction l generalizing a with
  | nil => simp
  | cons b bs ih =>
      rcases ih (max a b) with h | h
      · rcases max_choice a b with h' | h'
        · left; simpa [h'] using h
        · right; simp only [List.foldl_cons]; rw [h, h']; simp
      · right; simp only [List.foldl_cons]; exact List.mem_cons_of_mem _ h

theorem foldl_min_le (l : List Int) (a : Int) : l.foldl min a ≤ a ∧ ∀ x ∈ l, l.foldl min a ≤ x := by
  induction l generalizing a with
  | nil => simp
  | cons b bs ih =>
      have := ih (min a b)
      refine ⟨le_trans this.1 (min_le_left _ _), ?_⟩
      intro x hx
      rcases List.mem_cons.1 hx with rfl | hx
      · exact le_trans this.1 (min_le_right _ _)
      · exact this.2 x hx

theorem foldl_min_mem (l : List Int) (a : Int) : l.foldl min a = a ∨ l.foldl min a ∈ l := by
  induction l generalizing a with
  | nil => simp
  | cons b bs ih =>
      rcases ih (min a b) with h | h
      · rcases min_choice a b with h' | h'
        · left; simpa [h'] using h
        · right; simp only [List.foldl_cons]; rw [h, h']; simp
      · right; simp only [List.foldl_cons]; exact List.mem_cons_of_mem _ h

/-- The two range checks of `removeByIndices` in one condition. -/
theorem removeByIndices_eq {α : Type*} (js : List Int) (l : List α) :
    removeByIndices js l
      = if ∃ j ∈ js, j > (l.length : Int) ∨ j < -(l.length : Int) then .error .valueError
        else .ok (keepUnlisted js l) := by
  cases js with
  | nil => simp [removeByIndices, listMax, listMin]
  | cons a as =>
      simp only [removeByIndices, listMax, listMin]
      have hM := foldl_max_ge as a
      have hm := foldl_min_le as a
      by_cases h1 : as.foldl max a > (l.length : Int)
      · have : ∃ j ∈ a :: as, j > (l.length : Int) ∨ j < -(l.length : Int) := by
          refine ⟨as.foldl max a, ?_, Or.inl h1⟩
          rcases foldl_max_mem as a with h | h
          · rw [h]; simp
          · exact List.mem_cons_of_mem _ h
        rw [if_pos h1, if_pos this]
      · rw [if_neg h1]
        by_cases h2 : as.foldl min a < -(l.length : Int)
        · have : ∃ j ∈ a :: as, j > (l.length : Int) ∨ j < -(l.length : Int) := by
            refine ⟨as.foldl min a, ?_, Or.inr h2⟩
            rcases foldl_min_mem as a with h | h
            · rw [h]; simp
            · exact List.mem_cons_of_mem _ h
          rw [if_pos h2, if_pos this]
        · rw [if_neg h2, if_neg]
          rintro ⟨j, hj, hj'⟩
          rcases List.mem_cons.1 hj with rfl | hj
          · rcases hj' with hj' | hj'
            · exact h1 (lt_of_lt_of_le hj' hM.1)
            · exact h2 (lt_of_le_of_lt hm.1 hj')
          · rcases hj' with hj' | hj'
            · exact h1 (lt_of_lt_of_le hj' (hM.2 j hj))
            · exact h2 (lt_of_le_of_lt (hm.2 j hj) hj')

theorem filterMap_if {α β : Type*} (p : α → Prop) [DecidablePred p] (f : α → Option β) (l : List α) :
    (l.filterMap fun a => if p a then f a else none) = (l.filter fun a => decide (p a)).filterMap f := by
  induction l with
  | nil => rfl
  | cons a as ih =>
      by_cases h : p a
      · simp [List.filterMap_cons, h, ih]
      · simp [h, ih]

theorem keepUnlisted_eq_range {α : Type*} (js : List Int) (l : List α) :
    keepUnlisted js l
      = ((List.range l.length).filter fun i : Nat => decide ((i : Int) ∉ js)).filterMap fun i => l[i]? := by
  unfold keepUnlisted
  rw [zipIdx_filterMap_eq_range (fun a i => if js.contains (i : Int) then none else some a) l,
    ← filterMap_if (fun i : Nat => (i : Int) ∉ js)]
  congr 1
  funext i
  by_cases h : (i : Int) ∈ js
  · cases hl : l[i]? <;> simp [h]
  · cases hl : l[i]? <;> simp [h]

theorem mem_findIndices {α : Type*} [DecidableEq α] {var vector : List α} {i : Nat} :
    i ∈ findIndices var vector ↔ ∃ v ∈ var, vector[i]? = some v := by
  unfold findIndices
  simp only [List.mem_flatMap, List.mem_filterMap, Prod.exists, List.mem_zipIdx_iff_getElem?]
  constructor
  · rintro ⟨v, hv, a, j, haj, h⟩
    by_cases hav : a = v
    · subst hav
      simp only [beq_self_eq_true, if_true, Option.some.injEq] at h
      subst h
      exact ⟨a, hv, haj⟩
    · simp [hav] at h
  · rintro ⟨v, hv, h⟩
    exact ⟨v, hv, v, i, h, by simp⟩

/-- Filtering by membership of the element = filtering by membership of the position among the
found positions. -/
theorem keepUnlisted_findIndices {α : Type*} [DecidableEq α] (var l : List α) :
    keepUnlisted ((findIndices var l).map Int.ofNat) l = l.filter fun a => decide (a ∉ var) := by
  unfold keepUnlisted
  have h : ∀ p ∈ l.zipIdx,
      (if ((findIndices var l).map Int.ofNat).contains (p.2 : Int) then none else some p.1)
        = (if p.1 ∈ var then none else some p.1) := by
    rintro ⟨a, i⟩ hp
    rw [List.mem_zipIdx_iff_getElem?] at hp
    simp only at hp
    have hiff : ((findIndices var l).map Int.ofNat).contains (i : Int) = true ↔ a ∈ var := by
      rw [List.contains_iff_mem, List.mem_map]
      constructor
      · rintro ⟨j, hj, hji⟩
        have : j = i := by simpa using hji
        subst this
        obtain ⟨v, hv, hv'⟩ := mem_findIndices.1 hj
        rw [hp] at hv'
        cases hv'
        exact hv
      · intro ha
        exact ⟨i, mem_findIndices.2 ⟨a, ha, hp⟩, rfl⟩
    by_cases ha : a ∈ var
    · simp only [hiff.2 ha, if_true, ha]
    · have : ((findIndices var l).map Int.ofNat).contains (i : Int) = false := by
        by_contra hc
        exact ha (hiff.1 (by simpa using hc))
      simp only [this, ha, if_false, Bool.false_eq_true]
  rw [List.filterMap_congr h]
  have : ∀ (l : List α) (k : Nat), ((l.zipIdx k).filterMap fun p => if p.1 ∈ var then none else some p.1)
      = l.filter fun a => decide (a ∉ var) := by
    intro l
    induction l with
    | nil => intro k; rfl
    | cons a as ih =>
        intro k
        by_cases ha : a ∈ var
        · simp [ha, ih]
        · simp [ha, ih]
  exact this l 0

theorem findIndices_lt {α : Type*} [DecidableEq α] {var l : List α} {i : Nat}
    (h : i ∈ findIndices var l) : i < l.length := by
  obtain ⟨v, _, hv⟩ := mem_findIndices.1 h
  exact (List.getElem?_eq_some_iff.1 hv).1

theorem removeVars_eq {α : Type*} [DecidableEq α] (var l : List α) :
    removeVars var l
      = if ∃ v ∈ var, v ∈ l then .ok (l.filter fun a => decide (a ∉ var)) else .error .valueError := by
  unfold removeVars
  have hempty : (findIndices var l).length = 0 ↔ ¬ ∃ v ∈ var, v ∈ l := by
    rw [List.length_eq_zero_iff]
    constructor
    · rintro h ⟨v, hv, hl⟩
      obtain ⟨i, hi⟩ := List.mem_iff_getElem?.1 hl
      have : i ∈ findIndices var l := mem_findIndices.2 ⟨v, hv, hi⟩
      rw [h] at this
      simp at this
    · intro h
      rw [List.eq_nil_iff_forall_not_mem]
      intro i hi
      obtain ⟨v, hv, hv'⟩ := mem_findIndices.1 hi
      exact h ⟨v, hv, List.mem_iff_getElem?.2 ⟨i, hv'⟩⟩
  by_cases h : ∃ v ∈ var, v ∈ l
  · have h0 : ¬ (findIndices var l).length = 0 := fun hc => (hempty.1 hc) h
    simp only [h0, if_false, h, if_true]
    rw [removeByIndices_eq, if_neg, keepUnlisted_findIndices]
    rintro ⟨j, hj, hj'⟩
    obtain ⟨i, hi, rfl⟩ := List.mem_map.1 hj
    have := findIndices_lt hi
    simp only [Int.ofNat_eq_natCast] at hj'
    omega
  · simp only [hempty.2 h, if_true, h, if_false]

end Verif
