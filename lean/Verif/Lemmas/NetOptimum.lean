import Verif.Spec.NetOptimum
import Verif.Lemmas.NetDescent
import Mathlib.Tactic.Ring
import Mathlib.Tactic.FieldSimp
import Mathlib.Tactic.Positivity
/-! A result of a convex network that is optimal for every node is optimal for the network. -/
namespace Verif.DistAL
open Verif Spec

variable {N E K : Type} [DecidableEq N] [Field K] [LinearOrder K] [IsStrictOrderedRing K]
  [AddCommGroup E] [Module K E]

omit [DecidableEq N] in
/-- A slope that is nowhere negative enough. -/
theorem nonneg_of_quadratic (a c : K) (hc : 0 ≤ c) (h : ∀ t : K, 0 < t → t ≤ 1 → 0 ≤ t * a + t * t * c) :
    0 ≤ a := by
  by_contra hneg
  have hneg : a < 0 := not_le.mp hneg
  have hc1 : 0 < c + 1 := by linarith
  rcases le_total 1 (-a / (c + 1)) with h1 | h1
  · have := h 1 one_pos le_rfl
    have : (c + 1) ≤ -a := by rwa [le_div_iff₀ hc1, one_mul] at h1
    linarith
  · have ht : 0 < -a / (c + 1) := div_pos (by linarith) hc1
    have h2 := h _ ht h1
    have h3 : -a / (c + 1) * a + -a / (c + 1) * (-a / (c + 1)) * c =
        -a / (c + 1) * (a / (c + 1)) := by
      field_simp
      ring
    rw [h3] at h2
    have h4 : a / (c + 1) < 0 := div_neg_of_neg_of_pos hneg hc1
    have := mul_neg_of_pos_of_neg ht h4
    linarith

omit [DecidableEq N] [LinearOrder K] [IsStrictOrderedRing K] [AddCommGroup E] [Module K E] in
theorem sum_map_add_map (l : List N) (g h : N → K) :
    (l.map fun n => g n + h n).sum = (l.map g).sum + (l.map h).sum := by
  induction l with
  | nil => simp
  | cons a l ih => simp only [List.map_cons, List.sum_cons, ih]; ring

omit [LinearOrder K] [IsStrictOrderedRing K] [AddCommGroup E] [Module K E] in
theorem sum_single (l : List N) (hn : l.Nodup) (a : N) (g : N → K) :
    (l.map fun n => if a = n then g n else 0).sum = if a ∈ l then g a else 0 := by
  induction l with
  | nil => simp
  | cons b l ih =>
    obtain ⟨h₁, h₂⟩ := List.nodup_cons.mp hn
    simp only [List.map_cons, List.sum_cons, ih h₂, List.mem_cons]
    by_cases h : a = b
    · subst h
      simp [h₁]
    · simp [h]

/-- The part of the change of a coupling error that a node causes. -/
def part (z w : N → E) (c : CouplingCondition N E K) (n : N) : K :=
  (if c.target = n then c.input (w n - z n) else 0) - (if c.source = n then c.output (w n - z n) else 0)

omit [LinearOrder K] [IsStrictOrderedRing K] in
theorem sum_part (nodes : List N) (hn : nodes.Nodup) (z w : N → E) (c : CouplingCondition N E K)
    (hs : c.source ∈ nodes) (ht : c.target ∈ nodes) :
    (nodes.map fun n => part z w c n).sum = c.error w - c.error z := by
  have h₁ := sum_single nodes hn c.target fun n => c.input (w n - z n)
  have h₂ := sum_single nodes hn c.source fun n => c.output (w n - z n)
  rw [if_pos ht] at h₁
  rw [if_pos hs] at h₂
  have key : (nodes.map fun n => part z w c n).sum +
      (nodes.map fun n => if c.source = n then c.output (w n - z n) else 0).sum =
      (nodes.map fun n => if c.target = n then c.input (w n - z n) else 0).sum := by
    rw [← sum_map_add_map]
    congr 1
    apply List.map_congr_left
    intro n _
    unfold part
    ring
  rw [h₁, h₂] at key
  unfold CouplingCondition.error
  simp only [map_sub] at key
  linear_combination key

omit [LinearOrder K] [IsStrictOrderedRing K] in
/-- The error after one node has moved. -/
theorem error_moved (z w : N → E) (c : CouplingCondition N E K) (n : N) (t : K) :
    c.error (withResult z n (z n + t • (w n - z n))) = c.error z + t * part z w c n := by
  unfold CouplingCondition.error part withResult
  by_cases h₁ : c.target = n <;> by_cases h₂ : c.source = n <;>
    simp only [h₁, h₂, if_true, if_false, map_add, map_smul, smul_eq_mul] <;> ring

/-- What a coupling condition contributes to the Lagrangian. -/
def term (z : N → E) (c : CouplingCondition N E K) : K :=
  c.nu * c.error z + c.mu / 2 * (c.error z * c.error z)

omit [IsStrictOrderedRing K] in
theorem lagrangian_value (p : CoupledCosts N E K) (nodes : List N) (z : N → E) :
    p.lagrangian.value nodes z = p.cost nodes z + (p.conditions.map (term z)).sum := by
  unfold NetCost.value CoupledCosts.cost CoupledCosts.lagrangian
  simp only [List.map_map]
  rfl

omit [LinearOrder K] [IsStrictOrderedRing K] in
theorem sum_term_moved [CharZero K] (conds : List (CouplingCondition N E K)) (z w : N → E) (n : N) (t : K) :
    (conds.map (term (withResult z n (z n + t • (w n - z n))))).sum = (conds.map (term z)).sum +
      t * (conds.map fun c => (c.nu + c.mu * c.error z) * part z w c n).sum +
      t * t * (conds.map fun c => c.mu / 2 * (part z w c n * part z w c n)).sum := by
  induction conds with
  | nil => simp
  | cons c conds ih =>
    simp only [List.map_cons, List.sum_cons, ih]
    have : term (withResult z n (z n + t • (w n - z n))) c = term z c +
        t * ((c.nu + c.mu * c.error z) * part z w c n) +
        t * t * (c.mu / 2 * (part z w c n * part z w c n)) := by
      unfold term
      rw [error_moved]
      ring
    rw [this]
    ring

/-- The condition that optimality of a node gives. -/
theorem node_slope (p : CoupledCosts N E K) (nodes : List N) (hn : nodes.Nodup)
    (feasible : N → E → Prop) (hp : p.Convex nodes feasible) (z w : N → E) (n : N) (hm : n ∈ nodes)
    (hz : feasible n (z n)) (hw : feasible n (w n))
    (ho : ∀ r', feasible n r' → p.lagrangian.nodeCost z n (z n) ≤ p.lagrangian.nodeCost z n r') :
    0 ≤ p.own n (w n) - p.own n (z n) +
      (p.conditions.map fun c => (c.nu + c.mu * c.error z) * part z w c n).sum := by
  apply nonneg_of_quadratic _
    (p.conditions.map fun c => c.mu / 2 * (part z w c n * part z w c n)).sum
  · apply List.sum_nonneg
    intro x hx
    obtain ⟨c, hc, rfl⟩ := List.mem_map.mp hx
    exact mul_nonneg (div_nonneg (hp.penalties c hc) zero_le_two) (mul_self_nonneg _)
  · intro t h0 h1
    have h₁ := value_change p.lagrangian nodes hn z n hm (z n + t • (w n - z n))
    have h₂ := ho _ (hp.sets n hm _ _ hz hw t h0.le h1)
    have h₃ := hp.costs n hm _ _ hz hw t h0.le h1
    have h₄ := own_change p.lagrangian nodes hn z n (z n + t • (w n - z n))
    rw [if_pos hm, if_pos hm] at h₄
    have h₅ := sum_term_moved p.conditions z w n t
    rw [lagrangian_value, lagrangian_value, h₅] at h₁
    have h₆ : p.cost nodes (withResult z n (z n + t • (w n - z n))) - p.own n (z n + t • (w n - z n)) =
        p.cost nodes z - p.own n (z n) := h₄
    linarith

omit [DecidableEq N] [LinearOrder K] [IsStrictOrderedRing K] [AddCommGroup E] [Module K E] in
theorem sum_swap {C : Type} (l : List N) (conds : List C) (g : C → K) (q : C → N → K) :
    (l.map fun n => (conds.map fun c => g c * q c n).sum).sum =
      (conds.map fun c => g c * (l.map fun n => q c n).sum).sum := by
  induction l with
  | nil => simp
  | cons a l ih =>
    simp only [List.map_cons, List.sum_cons, ih]
    rw [← sum_map_add_map]
    congr 1
    apply List.map_congr_left
    intro c _
    ring

/-- Optimal for every node is optimal for the network. -/
theorem network_optimal (p : CoupledCosts N E K) (nodes : List N) (hn : nodes.Nodup)
    (feasible : N → E → Prop) (hp : p.Convex nodes feasible) (z w : N → E)
    (hz : ∀ n ∈ nodes, feasible n (z n)) (hw : ∀ n ∈ nodes, feasible n (w n))
    (ho : ∀ n ∈ nodes, ∀ r', feasible n r' →
      p.lagrangian.nodeCost z n (z n) ≤ p.lagrangian.nodeCost z n r') :
    p.lagrangian.value nodes z ≤ p.lagrangian.value nodes w := by
  have h₁ : 0 ≤ (nodes.map fun n => (p.own n (w n) - p.own n (z n)) +
      (p.conditions.map fun c => (c.nu + c.mu * c.error z) * part z w c n).sum).sum := by
    apply List.sum_nonneg
    intro x hx
    obtain ⟨n, hm, rfl⟩ := List.mem_map.mp hx
    exact node_slope p nodes hn feasible hp z w n hm (hz n hm) (hw n hm) (ho n hm)
  rw [sum_map_add_map, sum_swap] at h₁
  have h₂ : (nodes.map fun n => p.own n (w n) - p.own n (z n)).sum = p.cost nodes w - p.cost nodes z := by
    unfold CoupledCosts.cost
    rw [eq_sub_iff_add_eq, ← sum_map_add_map]
    simp only [sub_add_cancel]
  have h₃ : (p.conditions.map fun c => (c.nu + c.mu * c.error z) *
      (nodes.map fun n => part z w c n).sum).sum ≤
      (p.conditions.map (term w)).sum - (p.conditions.map (term z)).sum := by
    have hpen := hp.penalties
    have hin := hp.within
    generalize p.conditions = conds at hpen hin
    induction conds with
    | nil => simp
    | cons c conds ih =>
      have := ih (fun c hc => hpen c (by simp [hc])) (fun c hc => hin c (by simp [hc]))
      obtain ⟨ha, hb⟩ := hin c (by simp)
      simp only [List.map_cons, List.sum_cons]
      rw [sum_part nodes hn z w c ha hb]
      have hmu := hpen c (by simp)
      have hsq := mul_nonneg hmu (mul_self_nonneg (c.error w - c.error z))
      have : (c.nu + c.mu * c.error z) * (c.error w - c.error z) ≤ term w c - term z c := by
        unfold term
        have : c.nu * c.error w + c.mu / 2 * (c.error w * c.error w) -
            (c.nu * c.error z + c.mu / 2 * (c.error z * c.error z)) -
            (c.nu + c.mu * c.error z) * (c.error w - c.error z) =
            c.mu * ((c.error w - c.error z) * (c.error w - c.error z)) / 2 := by ring
        have := div_nonneg hsq (zero_le_two (α := K))
        linarith
      linarith
  rw [lagrangian_value, lagrangian_value]
  linarith

end Verif.DistAL
