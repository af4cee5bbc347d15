import Verif.Spec.NetDescent
import Verif.Lemmas.DistSolve
import Mathlib.Algebra.Order.BigOperators.Group.List
import Mathlib.Algebra.Order.Field.Basic
import Mathlib.Tactic.Linarith
import Mathlib.Tactic.LinearCombination
/-! Facts about the augmented Lagrangian of a network. -/
namespace Verif.DistAL
open Verif Spec

variable {N R S K : Type} [DecidableEq N] [Field K] [LinearOrder K] [IsStrictOrderedRing K]

omit [Field K] [LinearOrder K] [IsStrictOrderedRing K] in
theorem withResult_self (z : N → R) (n : N) : withResult z n (z n) = z := by
  funext m
  unfold withResult
  split
  · next h => rw [h]
  · rfl

omit [LinearOrder K] [IsStrictOrderedRing K] in
theorem own_change (f : NetCost N R K) (nodes : List N) (hn : nodes.Nodup) (z : N → R) (n : N) (r : R) :
    (nodes.map fun m => f.own m (withResult z n r m)).sum - (if n ∈ nodes then f.own n r else 0) =
      (nodes.map fun m => f.own m (z m)).sum - (if n ∈ nodes then f.own n (z n) else 0) := by
  induction nodes with
  | nil => simp
  | cons a nodes ih =>
    obtain ⟨h₁, h₂⟩ := List.nodup_cons.mp hn
    have := ih h₂
    by_cases ha : n = a
    · subst ha
      rw [if_neg h₁, if_neg h₁] at this
      simp only [List.map_cons, List.sum_cons, List.mem_cons, true_or, if_true]
      have hw : withResult z n r n = r := by simp [withResult]
      rw [hw]
      linear_combination this
    · have hw : withResult z n r a = z a := by
        unfold withResult
        rw [if_neg fun h => ha h.symm]
      simp only [List.map_cons, List.sum_cons, List.mem_cons, ha, false_or, hw]
      linear_combination this

omit [LinearOrder K] [IsStrictOrderedRing K] in
theorem edges_change (edges : List (NetEdge N R K)) (z : N → R) (n : N) (r : R) :
    (edges.map fun e => e.cost (withResult z n r e.source) (withResult z n r e.target)).sum -
      ((edges.filter fun e => decide (e.source = n ∨ e.target = n)).map fun e =>
        e.cost (withResult z n r e.source) (withResult z n r e.target)).sum =
    (edges.map fun e => e.cost (z e.source) (z e.target)).sum -
      ((edges.filter fun e => decide (e.source = n ∨ e.target = n)).map fun e =>
        e.cost (z e.source) (z e.target)).sum := by
  induction edges with
  | nil => simp
  | cons e edges ih =>
    by_cases h : e.source = n ∨ e.target = n
    · rw [List.filter_cons_of_pos (by simpa using h)]
      simp only [List.map_cons, List.sum_cons]
      linear_combination ih
    · rw [List.filter_cons_of_neg (by simpa using h)]
      simp only [List.map_cons, List.sum_cons]
      have h1 : withResult z n r e.source = z e.source := if_neg fun hh => h (.inl hh)
      have h2 : withResult z n r e.target = z e.target := if_neg fun hh => h (.inr hh)
      rw [h1, h2]
      linear_combination ih

omit [LinearOrder K] [IsStrictOrderedRing K] in
/-- The network and the node see the same change when the result of the node is replaced. -/
theorem value_change (f : NetCost N R K) (nodes : List N) (hn : nodes.Nodup) (z : N → R) (n : N)
    (hm : n ∈ nodes) (r : R) :
    f.value nodes (withResult z n r) - f.value nodes z = f.nodeCost z n r - f.nodeCost z n (z n) := by
  have h₁ := own_change f nodes hn z n r
  have h₂ := edges_change f.edges z n r
  rw [if_pos hm, if_pos hm] at h₁
  unfold NetCost.value NetCost.nodeCost
  rw [withResult_self]
  linear_combination h₁ + h₂

/-- One node is solved. -/
theorem descent_store (f : NetCost N R K) (nodes : List N) (hn : nodes.Nodup) (feasible : N → R → Prop)
    (solver : NodeSolver N R) (he : ExactSolver f nodes feasible solver) (n : N) (hm : n ∈ nodes)
    (last : N → Option R) (z : N → R) (hz : AllSolved nodes last z) (hf : ∀ m ∈ nodes, feasible m (z m)) :
    ∃ z', AllSolved nodes (store last n (solver n last)) z' ∧ (∀ m ∈ nodes, feasible m (z' m)) ∧
      f.value nodes z' ≤ f.value nodes z := by
  cases hs : solver n last with
  | none =>
    refine ⟨z, fun m hm' => ?_, hf, le_refl _⟩
    unfold store
    split
    · rw [Option.orElse_none]; exact hz m hm'
    · exact hz m hm'
  | some r =>
    obtain ⟨h₁, h₂⟩ := he n hm last z hz r hs
    refine ⟨withResult z n r, fun m hm' => ?_, fun m hm' => ?_, ?_⟩
    · unfold store withResult
      split
      · rfl
      · exact hz m hm'
    · unfold withResult
      split
      · next h => rw [h]; exact h₁
      · exact hf m hm'
    · have := value_change f nodes hn z n hm r
      have := h₂ (z n) (hf n hm)
      linarith

/-- Nodes are solved one after the other. -/
theorem descent_serial (f : NetCost N R K) (nodes : List N) (hn : nodes.Nodup) (feasible : N → R → Prop)
    (solver : NodeSolver N R) (he : ExactSolver f nodes feasible solver) (visited : List N)
    (hv : ∀ n ∈ visited, n ∈ nodes) : ∀ (last : N → Option R) (z : N → R), AllSolved nodes last z →
    (∀ m ∈ nodes, feasible m (z m)) →
    ∃ z', AllSolved nodes (visited.foldl (fun last n => store last n (solver n last)) last) z' ∧
      (∀ m ∈ nodes, feasible m (z' m)) ∧ f.value nodes z' ≤ f.value nodes z := by
  induction visited with
  | nil => exact fun last z hz hf => ⟨z, hz, hf, le_refl _⟩
  | cons n visited ih =>
    intro last z hz hf
    obtain ⟨z₁, h₁, h₂, h₃⟩ := descent_store f nodes hn feasible solver he n (hv n (by simp)) last z hz hf
    obtain ⟨z₂, h₄, h₅, h₆⟩ := ih (fun m hm => hv m (by simp [hm])) _ z₁ h₁ h₂
    exact ⟨z₂, h₄, h₅, h₆.trans h₃⟩

omit [LinearOrder K] [IsStrictOrderedRing K] in
/-- The cost of a node depends on the results of its neighbours only. -/
theorem nodeCost_congr (f : NetCost N R K) (z z' : N → R) (n : N)
    (h : ∀ e ∈ f.edges, (e.source = n → e.target ≠ n → z e.target = z' e.target) ∧ (e.target = n → e.source ≠ n → z e.source = z' e.source))
    (r : R) : f.nodeCost z n r = f.nodeCost z' n r := by
  unfold NetCost.nodeCost
  congr 2
  apply List.map_congr_left
  intro e he
  obtain ⟨h₁, h₂⟩ := List.mem_filter.mp he
  have h₂ := of_decide_eq_true h₂
  have key : ∀ m, (m = n ∨ z m = z' m) → withResult z n r m = withResult z' n r m := by
    intro m hm
    unfold withResult
    split
    · rfl
    · next h => exact hm.resolve_left h
  have e1 : e.source = n ∨ z e.source = z' e.source := by
    by_cases ha : e.source = n
    · exact .inl ha
    · exact .inr ((h e h₁).2 (h₂.resolve_left ha) ha)
  have e2 : e.target = n ∨ z e.target = z' e.target := by
    by_cases ha : e.target = n
    · exact .inl ha
    · exact .inr ((h e h₁).1 (h₂.resolve_right ha) ha)
  rw [key _ e1, key _ e2]

/-- Nodes are solved at the same time, and no two of them are connected. -/
theorem descent_parallel (f : NetCost N R K) (nodes : List N) (hn : nodes.Nodup)
    (feasible : N → R → Prop) (solver : NodeSolver N R) (he : ExactSolver f nodes feasible solver)
    (last : N → Option R) (z₀ : N → R) (hz₀ : AllSolved nodes last z₀) (all : List N)
    (ha : f.Apart all) (visited : List N) (hsub : ∀ n ∈ visited, n ∈ all)
    (hv : ∀ n ∈ visited, n ∈ nodes) : ∀ (new : N → Option R) (z : N → R), AllSolved nodes new z →
    (∀ m ∈ nodes, feasible m (z m)) → (∀ m, m ∉ all → z m = z₀ m) →
    ∃ z', AllSolved nodes (visited.foldl (fun new n => store new n (solver n last)) new) z' ∧
      (∀ m ∈ nodes, feasible m (z' m)) ∧ f.value nodes z' ≤ f.value nodes z := by
  induction visited with
  | nil => exact fun new z hz hf _ => ⟨z, hz, hf, le_refl _⟩
  | cons n visited ih =>
    intro new z hz hf ho
    have hm := hv n (by simp)
    have hna := hsub n (by simp)
    have hsame : ∀ r, f.nodeCost z₀ n r = f.nodeCost z n r := by
      refine nodeCost_congr f z₀ z n fun e hee => ⟨fun h1 h2 => (ho _ fun hin => ?_).symm,
        fun h1 h2 => (ho _ fun hin => ?_).symm⟩
      · exact h2 ((ha e hee (h1 ▸ hna) hin).symm.trans h1)
      · exact h2 ((ha e hee hin (h1 ▸ hna)).trans h1)
    cases hs : solver n last with
    | none =>
      have : store new n none = new := by
        funext m
        unfold store
        split
        · rw [Option.orElse_none]
        · rfl
      simp only [List.foldl_cons, hs, this]
      exact ih (fun m hm => hsub m (by simp [hm])) (fun m hm => hv m (by simp [hm])) new z hz hf ho
    | some r =>
      obtain ⟨h₁, h₂⟩ := he n hm last z₀ hz₀ r hs
      have hle : f.value nodes (withResult z n r) ≤ f.value nodes z := by
        have := value_change f nodes hn z n hm r
        have := h₂ (z n) (hf n hm)
        rw [hsame, hsame] at this
        linarith
      simp only [List.foldl_cons, hs]
      obtain ⟨z₂, h₄, h₅, h₆⟩ := ih (fun m hm => hsub m (by simp [hm])) (fun m hm => hv m (by simp [hm]))
        (store new n (some r)) (withResult z n r) (fun m hm' => by
          unfold store withResult
          split
          · rfl
          · exact hz m hm') (fun m hm' => by
          unfold withResult
          split
          · next h => rw [h]; exact h₁
          · exact hf m hm') (fun m hm' => by
          have hne : m ≠ n := fun h => hm' (h.symm ▸ hna)
          unfold withResult
          rw [if_neg hne]
          exact ho m hm')
      exact ⟨z₂, h₄, h₅, h₆.trans hle⟩

end Verif.DistAL
