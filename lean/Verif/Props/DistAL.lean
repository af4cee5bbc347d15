import Verif.Lemmas.DistAL
import Mathlib.Algebra.Order.Archimedean.Basic
import Mathlib.Tactic.FieldSimp
/-!
# Distributed augmented Lagrangian (C71-C73, C114-C116)
-/
namespace Verif
open Verif.Spec Verif.DistAL

set_option linter.unusedSectionVars false

/-! ### Exchanged trajectories -/

namespace Example

/-- The neighbour has three algebraic variables, two of which are connected. -/
def link : Link Rat := ⟨[12, 10], [10, 11, 12], fun i el j => 100 * i + 10 * el + j⟩

/-- A second neighbour. -/
def link₂ : Link Rat := ⟨[21], [20, 21], fun i el j => 1000 + 100 * i + 10 * el + j⟩

/-- A connected state is not among the algebraic variables. -/
def stateLink : Link Rat := ⟨[9, 10], [10, 11, 12], fun i el j => 100 * i + 10 * el + j⟩

end Example

/-- C71: the approximation of a neighbour's variable is, at each collocation point, the neighbour's
last value of that variable at that point. For algebraic outputs and inputs. -/
theorem C71_layout_partial {K : Type} [Field K] (roots : List K) (degree el : Nat)
    (links : List (Link K)) (h : ∀ l ∈ links, Found l) (hl : roots.length = degree)
    (hn : roots.Nodup) (a k j : Nat) (l : Link K) (v : Sym) (ha : links[a]? = some l)
    (hk : l.vars[k]? = some v) (hj : j < degree) :
    approximation roots degree links (nodeTheta degree links el) a k (roots[j]?.getD 0) =
      some (neighbourValue l v el j) := by
  unfold approximation
  rw [poly_at_root roots degree 1 hl hn _ j hj,
    nodeTheta_getElem degree el links h a k j l v ha hk hj]
  simp

/-- C71: fails for an output that is a state: its values are left out, and the vector of values is
shorter than the vector of parameters. -/
theorem C71_state_fails {K : Type} (degree el : Nat) (links : List (Link K)) (l : Link K) (v : Sym)
    (hd : 0 < degree) (hn : ∀ l ∈ links, l.vector.Nodup) (hl : l ∈ links) (hv : v ∈ l.vars)
    (hs : v ∉ l.vector) :
    (nodeTheta degree links el).length <
      (links.map fun l => l.vars.length).sum * degree := by
  have hle : ∀ l ∈ links, (linkTheta degree el l).length ≤ l.vars.length * degree := by
    intro l hl
    rw [linkTheta_length, findIndices_length (hn l hl)]
    exact Nat.mul_le_mul_right _ (List.length_filter_le ..)
  have hlt : (linkTheta degree el l).length < l.vars.length * degree := by
    rw [linkTheta_length, findIndices_length (hn l hl)]
    apply Nat.mul_lt_mul_of_pos_right _ hd
    exact List.length_filter_lt_length_iff_exists.2 ⟨v, hv, by simpa using hs⟩
  clear hn
  unfold nodeTheta
  rw [List.length_flatMap]
  induction links with
  | nil => simp at hl
  | cons x links ih =>
    simp only [List.map_cons, List.sum_cons, Nat.add_mul]
    have hx := hle x (by simp)
    have hrest : ∀ l ∈ links, (linkTheta degree el l).length ≤ l.vars.length * degree :=
      fun l h => hle l (by simp [h])
    have hsum : (links.map fun l => (linkTheta degree el l).length).sum ≤
        (links.map fun l => l.vars.length).sum * degree := by
      clear ih hl hle hx
      induction links with
      | nil => simp
      | cons y links ih =>
        simp only [List.map_cons, List.sum_cons, Nat.add_mul]
        have := hrest y (by simp)
        have := ih fun l h => hrest l (by simp [h])
        omega
    rcases List.mem_cons.1 hl with rfl | hl
    · omega
    · have := ih hl hrest
      omega

example : ∀ l ∈ [Example.link, Example.link₂], Found l := by
  intro l hl
  simp only [List.mem_cons, List.not_mem_nil, or_false] at hl
  rcases hl with rfl | rfl
  · exact ⟨by decide, by decide⟩
  · exact ⟨by decide, by decide⟩

example : nodeTheta 3 [Example.link, Example.link₂] 1 =
    [210, 211, 212, 10, 11, 12, 1110, 1111, 1112] := by decide +kernel

example : (9 : Sym) ∈ Example.stateLink.vars ∧ (9 : Sym) ∉ Example.stateLink.vector ∧
    nodeTheta 2 [Example.stateLink] 0 = [0, 1] := by decide +kernel

/-- C71, bipartite method: the same, for connections of one variable or degree one. -/
theorem C71_bipartite_partial {K : Type} [Field K] (roots : List K) (degree el : Nat)
    (links : List (Link K)) (h : ∀ l ∈ links, Found l) (hl : roots.length = degree)
    (hn : roots.Nodup) (a k j : Nat) (l : Link K) (v : Sym) (ha : links[a]? = some l)
    (hk : l.vars[k]? = some v) (hj : j < degree) (h1 : l.vars.length = 1 ∨ degree = 1) :
    approximationBipartite roots degree links (nodeTheta degree links el) a k (roots[j]?.getD 0) =
      some (neighbourValue l v el j) := by
  have hlt := (List.getElem?_eq_some_iff.1 hk).1
  unfold approximationBipartite
  simp only [ha, Option.map_some, Option.getD_some]
  rw [poly_at_root roots degree l.vars.length hl hn _ j hj]
  have hidx : offset links a * degree + (j * l.vars.length + k) =
      (offset links a + k) * degree + j := by
    rcases h1 with h1 | h1
    · have : k = 0 := by omega
      subst this
      rw [h1]; ring
    · have : j = 0 := by omega
      subst this
      rw [h1]; ring
  simp only [List.getElem?_map, List.getElem?_range hlt, Option.map_some]
  rw [hidx, nodeTheta_getElem degree el links h a k j l v ha hk hj]
  rfl

/-- C71, bipartite method: fails for connections of several variables and degree above one: the second
variable gets, at the first point, the value of the first variable at the second point. -/
theorem C71_bipartite_fails {K : Type} [Field K] (roots : List K) (degree el : Nat)
    (links : List (Link K)) (h : ∀ l ∈ links, Found l) (hl : roots.length = degree)
    (hn : roots.Nodup) (a : Nat) (l : Link K) (v w : Sym) (ha : links[a]? = some l)
    (hv : l.vars[0]? = some v) (hw : l.vars[1]? = some w) (hd : 1 < degree) :
    approximationBipartite roots degree links (nodeTheta degree links el) a 1 (roots[0]?.getD 0) =
      some (neighbourValue l v el 1) := by
  have hlt := (List.getElem?_eq_some_iff.1 hw).1
  unfold approximationBipartite
  simp only [ha, Option.map_some, Option.getD_some]
  rw [poly_at_root roots degree l.vars.length hl hn _ 0 (by omega)]
  have hidx : offset links a * degree + (0 * l.vars.length + 1) =
      (offset links a + 0) * degree + 1 := by ring
  simp only [List.getElem?_map, List.getElem?_range hlt, Option.map_some]
  rw [hidx, nodeTheta_getElem degree el links h a 0 1 l v ha hv hd]
  rfl

example : approximationBipartite [1 / 3, 1] 2 [Example.link] (nodeTheta 2 [Example.link] 0) 0 1 (1 / 3)
    = some 201 ∧ neighbourValue Example.link 10 0 0 = 0 := by decide +kernel

/-! ### Inner iterations -/

variable {K : Type} [Field K] [LinearOrder K]

/-- C72: there is at least one and at most the configured number of inner iterations. -/
theorem C72_limits (maxInner : Nat) (first : Option Nat) (tol : K) (outer : Nat)
    (objective : Nat → K) (h : 0 < maxInner) :
    1 ≤ innerIterations maxInner first tol outer objective ∧
    innerIterations maxInner first tol outer objective ≤
      (if outer = 0 then max maxInner (first.getD 0) else maxInner) := by
  have hlim : innerLimit maxInner first outer =
      if outer = 0 then max maxInner (first.getD 0) else maxInner := by
    unfold innerLimit
    cases first <;> simp
  obtain ⟨h1, h2, h3, -, -⟩ := innerLoop_spec tol objective (innerLimit maxInner first outer) 0 none
  rw [Nat.zero_add, hlim] at h2
  have : 0 < innerLimit maxInner first outer := by
    rw [hlim]; split
    · exact lt_of_lt_of_le h (le_max_left _ _)
    · exact h
  refine ⟨h3 this, ?_⟩
  unfold innerIterations
  rwa [hlim]

/-- C72: for objectives that are not negative, the loop ends at the first iteration whose objective
is not improved by the relative tolerance, if there is one within the limit. -/
theorem C72_first_partial [IsStrictOrderedRing K] (maxInner : Nat) (first : Option Nat) (tol : K)
    (outer : Nat) (objective : Nat → K) (ht : tol ≤ 1) (h0 : ∀ k, 0 ≤ objective k) :
    (∀ i, i + 2 < innerIterations maxInner first tol outer objective →
      ImprovedBy tol (objective i) (objective (i + 1))) ∧
    (innerIterations maxInner first tol outer objective < innerLimit maxInner first outer →
      ∃ i, innerIterations maxInner first tol outer objective = i + 2 ∧
        ¬ ImprovedBy tol (objective i) (objective (i + 1))) := by
  obtain ⟨-, -, -, h4, h5⟩ := innerLoop_spec tol objective (innerLimit maxInner first outer) 0 none
  have hiff : ∀ i, innerStop tol (some (objective i)) (objective (i + 1)) = true ↔
      ¬ ImprovedBy tol (objective i) (objective (i + 1)) := by
    intro i
    simp only [innerStop, decide_eq_true_eq, ImprovedBy, abs_of_nonneg (h0 i), not_le]
    constructor <;> intro h <;> linarith
  constructor
  · intro i hi
    have := h4 (i + 1) (by omega) (by unfold innerIterations at hi; omega)
    rw [if_neg (by omega), Nat.add_sub_cancel] at this
    by_contra hc
    rw [(hiff i).2 hc] at this
    cases this
  · intro hlt
    obtain ⟨i, hi, hst⟩ := h5 (by unfold innerIterations at hlt; omega)
    cases i with
    | zero =>
      simp only [if_true, innerStop, decide_eq_true_eq] at hst
      exact absurd hst (not_lt.2 ht)
    | succ i =>
      rw [if_neg (by omega), Nat.add_sub_cancel] at hst
      exact ⟨i, hi, (hiff i).1 hst⟩

/-- C72: fails for negative objectives: an objective that never changes is never an improvement, but
the loop goes on up to the limit. -/
theorem C72_negative_fails [IsStrictOrderedRing K] (maxInner : Nat) (first : Option Nat) (tol c : K)
    (outer : Nat) (ht : 0 < tol) (ht1 : tol ≤ 1) (hc : c < 0) :
    innerIterations maxInner first tol outer (fun _ => c) = innerLimit maxInner first outer ∧
      ¬ ImprovedBy tol c c := by
  constructor
  · obtain ⟨-, h2, -, -, h5⟩ :=
      innerLoop_spec tol (fun _ => c) (innerLimit maxInner first outer) 0 none
    by_contra hne
    obtain ⟨i, -, hst⟩ := h5 (by unfold innerIterations at hne; omega)
    split at hst
    · simp only [innerStop, decide_eq_true_eq] at hst
      exact absurd hst (not_lt.2 ht1)
    · simp only [innerStop, decide_eq_true_eq] at hst
      nlinarith
  · simp only [ImprovedBy, sub_self, not_le]
    exact mul_pos ht (abs_pos.2 hc.ne)

example : innerIterations 10 none (1 / 100 : Rat) 3 (fun k => 1 + 1 / 10 ^ k) = 4 := by decide +kernel

/-! ### Primal-dual penalties -/

/-- C73: with equal penalties at all nodes (at least two) the new penalty is the old one times `beta`
exactly when the largest primal residual is more than `gamma` times the largest dual one, divided by
`beta_decrease` exactly when the dual one is more than `gamma` times the primal one, and the old one
otherwise. It stays positive. -/
theorem C73_balance_partial [IsStrictOrderedRing K] (beta betaDecrease gamma mu : K) (mus rs : List K)
    (ss : List (WithBot K)) (hb : 1 < beta) (hbd : 1 < betaDecrease) (hg : 1 ≤ gamma) (hm : 0 < mu)
    (hmus : mus ≠ [] ∧ ∀ m ∈ mus, m = mu) (hr : 2 ≤ rs.length) (hs : 2 ≤ ss.length)
    (hr0 : ∀ r ∈ rs, 0 ≤ r) :
    ∃ mu' r s, updatePrimalDual beta betaDecrease gamma mus rs ss = .ok mu' ∧
      LargestResiduals rs ss r s ∧ 0 < mu' ∧
      (mu' = beta * mu ↔ scale gamma s < (r : WithBot K)) ∧
      (mu' = mu / betaDecrease ↔ ((gamma * r : K) : WithBot K) < s) ∧
      (mu' = mu ↔ ¬ scale gamma s < (r : WithBot K) ∧ ¬ ((gamma * r : K) : WithBot K) < s) := by
  have hdd : mus.dedup = [mu] := by
    have hmem : ∀ m ∈ mus.dedup, m = mu := fun m h => hmus.2 m (List.mem_dedup.1 h)
    have hne : mus.dedup ≠ [] := by
      obtain ⟨x, hx⟩ := List.exists_mem_of_ne_nil _ hmus.1
      exact List.ne_nil_of_mem (List.mem_dedup.2 hx)
    have hnd := List.nodup_dedup mus
    match hd : mus.dedup with
    | [] => exact absurd hd hne
    | [x] => rw [hmem x (by rw [hd]; simp)]
    | x :: y :: l =>
      rw [hd] at hnd
      exfalso
      have e1 := hmem x (by rw [hd]; simp)
      have e2 := hmem y (by rw [hd]; simp)
      simp [e1, e2] at hnd
  obtain ⟨r, hr1, hr2⟩ := maxStar_ok rs hr
  obtain ⟨s, hs1, hs2⟩ := maxStar_ok ss hs
  refine ⟨balance beta betaDecrease gamma mu r s, r, s, ?_, ⟨hr2, hs2⟩, ?_⟩
  · simp [updatePrimalDual, hdd, primalDualMu, hr1, hs1, bind, Except.bind]
  have hmul : beta * mu ≠ mu := by intro h; nlinarith
  have hdiv : mu / betaDecrease ≠ mu := by
    intro h
    rw [div_eq_iff (by positivity)] at h
    nlinarith
  have hlt : mu / betaDecrease < beta * mu := by
    rw [div_lt_iff₀ (by positivity)]
    have : mu < beta * mu := by nlinarith
    nlinarith [mul_pos hm (show (0 : K) < beta by linarith)]
  have hr0' : 0 ≤ r := hr0 r hr2.1
  have hexcl : ((gamma * r : K) : WithBot K) < s → ¬ scale gamma s < (r : WithBot K) := by
    intro h1 h2
    cases s with
    | bot => exact absurd h1 (by simp)
    | coe s =>
      simp only [scale, WithBot.map_coe, WithBot.coe_lt_coe] at h1 h2
      have h3 : r ≤ gamma * r := le_mul_of_one_le_left hr0' hg
      have h4 : s ≤ gamma * s := le_mul_of_one_le_left (by linarith) hg
      linarith
  unfold balance
  by_cases h1 : scale gamma s < (r : WithBot K)
  · have h2 : ¬ ((gamma * r : K) : WithBot K) < s := fun h => hexcl h h1
    rw [if_pos h1]
    exact ⟨by positivity, iff_of_true rfl h1, iff_of_false hlt.ne' h2,
      iff_of_false hmul fun h => h.1 h1⟩
  · rw [if_neg h1]
    by_cases h2 : ((gamma * r : K) : WithBot K) < s
    · rw [if_pos h2, ← div_eq_inv_mul]
      exact ⟨by positivity, iff_of_false hlt.ne h1, iff_of_true rfl h2,
        iff_of_false hdiv fun h => h.2 h2⟩
    · rw [if_neg h2]
      exact ⟨hm, iff_of_false hmul.symm h1, iff_of_false hdiv.symm h2, iff_of_true rfl ⟨h1, h2⟩⟩

/-- C73: fails for the cap: there is none. As long as the primal residual dominates, the penalty
exceeds any bound. -/
theorem C73_cap_fails [IsStrictOrderedRing K] [Archimedean K] (beta betaDecrease gamma mu0 r : K)
    (s : WithBot K) (hb : 1 < beta) (hm : 0 < mu0) (hd : scale gamma s < (r : WithBot K))
    (muMax : K) : ∃ k, muMax < (fun mu => balance beta betaDecrease gamma mu r s)^[k] mu0 := by
  have hk : ∀ k, (fun mu => balance beta betaDecrease gamma mu r s)^[k] mu0 = beta ^ k * mu0 := by
    intro k
    induction k with
    | zero => simp
    | succ k ih =>
      rw [Function.iterate_succ_apply', ih]
      simp only [balance, if_pos hd]
      ring
  obtain ⟨k, hk'⟩ := pow_unbounded_of_one_lt (muMax / mu0) hb
  refine ⟨k, ?_⟩
  rw [hk k]
  rwa [div_lt_iff₀ hm] at hk'

/-- C73: penalties that differ between nodes are rejected. -/
theorem C73_unequal (beta betaDecrease gamma : K) (mus rs : List K) (ss : List (WithBot K)) (a b : K)
    (ha : a ∈ mus) (hb : b ∈ mus) (hne : a ≠ b) :
    updatePrimalDual beta betaDecrease gamma mus rs ss = .error .valueError := by
  unfold updatePrimalDual
  have h1 := List.mem_dedup.2 ha
  have h2 := List.mem_dedup.2 hb
  match hd : mus.dedup with
  | [] => rw [hd] at h1; simp at h1
  | [x] =>
    rw [hd] at h1 h2
    simp only [List.mem_singleton] at h1 h2
    exact absurd (h1.trans h2.symm) hne
  | x :: y :: l => rfl

/-- C73: the dual residual of a node is the largest change of its inputs from the same or later
blocks: it is within `c` exactly when all these changes are. -/
theorem C73_dual [IsStrictOrderedRing K] (own : Nat) (ins : List (Exogenous K)) (c : K) (hc : 0 ≤ c) :
    dualResidual own ins ≤ (c : WithBot K) ↔
      ∀ d ∈ ins, own ≤ d.block → ∀ x ∈ List.zipWith (· - ·) d.data d.previous, |x| ≤ c := by
  unfold dualResidual
  rw [foldl_dual_le _ _ _ hc]
  simp

example : updatePrimalDual (4 : Rat) 3 (6 / 5) [2, 2] [1, 5] [(1 : Rat), (3 : Rat)] = .ok 8 := by
  decide +kernel

/-! ### Serial and distributed execution -/

/-- C114: solving the nodes in separate processes gives the same results as solving them one after the
other, when no two nodes that are solved are connected. -/
theorem C114_same_partial {N R : Type} [DecidableEq N] (connected : N → N → Prop)
    (solve : NodeSolver N R) (hr : ReadsNeighbours connected solve) (blocks : List (List N))
    (last : N → Option R) (hi : Independent connected blocks.flatten) :
    solveDistributed solve blocks last = solveSerial solve blocks last :=
  (serial_independent connected solve hr blocks.flatten hi last last fun _ _ _ _ => rfl).symm

namespace Example

/-- Two connected nodes; each solution is the sum of one and the last result of the other node. -/
def pairSolver : NodeSolver Bool Rat := fun n last => some (1 + (last (!n)).getD 0)

end Example

/-- C114: fails for two connected nodes in different blocks: separate processes do not see the results
of earlier blocks. -/
theorem C114_blocks_fails :
    ReadsNeighbours (fun a b : Bool => a ≠ b) Example.pairSolver ∧
    Independent (fun a b : Bool => a ≠ b) [false] ∧ Independent (fun a b : Bool => a ≠ b) [true] ∧
    solveSerial Example.pairSolver [[false], [true]] (fun _ => none) true = some 2 ∧
    solveDistributed Example.pairSolver [[false], [true]] (fun _ => none) true = some 1 := by
  refine ⟨?_, by simp [Independent], by simp [Independent], by decide +kernel, by decide +kernel⟩
  intro n last last' h
  simp only [Example.pairSolver]
  rw [h (!n) (.inr (by cases n <;> simp))]

/-- C115: the order of the nodes inside the blocks does not matter, when no two nodes of a block are
connected. -/
theorem C115_order {N R : Type} [DecidableEq N] (connected : N → N → Prop)
    (solve : NodeSolver N R) (hr : ReadsNeighbours connected solve) (blocks blocks' : List (List N))
    (last : N → Option R) (hi : ∀ b ∈ blocks, Independent connected b)
    (hp : List.Forall₂ List.Perm blocks blocks') :
    solveSerial solve blocks last = solveSerial solve blocks' last := by
  induction hp generalizing last with
  | nil => rfl
  | @cons b b' bs bs' hb hbs ih =>
    have hi' : Independent connected b' := by
      refine hb.pairwise (hi b (by simp)) ?_
      intro x y h
      exact ⟨h.1.symm, h.2.2, h.2.1⟩
    unfold solveSerial
    simp only [List.flatten_cons, List.foldl_append]
    have : b.foldl (fun last n => store last n (solve n last)) last =
        b'.foldl (fun last n => store last n (solve n last)) last := by
      funext m
      rw [serial_block connected solve hr b (hi b (by simp)),
        serial_block connected solve hr b' hi']
      simp [hb.mem_iff]
    rw [this]
    exact ih _ fun b h => hi b (by simp [h])

/-- C116: an inner iteration solves every node of the blocks exactly once, with cyclic blocks and with
blocks in a random order. -/
theorem C116_every_node_partial {N : Type} (method : String) (blocks choices sample it : List (List N))
    (hs : sample.Perm blocks) (hm : method = "cyclic" ∨ method = "sample")
    (h : blockIterator method blocks choices sample = .ok it) : it.flatten.Perm blocks.flatten := by
  unfold blockIterator at h
  rcases hm with rfl | rfl
  · simp at h; subst h; exact List.Perm.refl _
  · simp at h; subst h; exact hs.flatten

/-- C116: fails with random choices: a block can be chosen twice and another one never. -/
theorem C116_choices_fails :
    ∃ it, blockIterator "choices" [[0], [1]] [[0], [0]] [[0], [1]] = .ok it ∧
      1 ∈ [[0], [1]].flatten ∧ 1 ∉ it.flatten := ⟨[[0], [0]], by decide⟩

/-- C116: an unknown method raises. -/
theorem C116_unknown {N : Type} (method : String) (blocks choices sample : List (List N))
    (h : method ∉ ["cyclic", "choices", "sample"]) :
    blockIterator method blocks choices sample = .error .valueError := by
  simp only [List.mem_cons, List.not_mem_nil, or_false, not_or] at h
  simp [blockIterator, h]

example : solveSerial Example.pairSolver [[false], [true]] (fun _ => none) false = some 1 := by
  decide +kernel

/-! ### Updating the parameters of all nodes -/

/-- C142: in separate processes the nodes get the errors and multipliers of the serial update, and all
their penalties become the largest penalty of the serial update. -/
theorem C142_largest (nodes : List (Py (AugLag.St K) (List K) × AugLag.St K))
    (r : List (List K × AugLag.St K)) (h : updateSerial nodes = .ok r) (hr : r ≠ [])
    (hm : ∀ n ∈ r, n.2.mu ≠ []) :
    ∃ top r', LargestPenalty (r.map fun n => n.2.mu) top ∧ updateDistributed nodes = .ok r' ∧
      r'.map (·.1) = r.map (·.1) ∧
      r'.map (fun n => n.2.nu) = r.map (fun n => n.2.nu) ∧
      r'.map (fun n => n.2.nuTilde) = r.map (fun n => n.2.nuTilde) ∧
      r'.map (fun n => n.2.mu) = r.map fun n => List.replicate n.2.mu.length top := by
  obtain ⟨top, h1, h2⟩ := updateDistributed_eq nodes r h hr hm
  refine ⟨top, _, h1, h2, ?_, ?_, ?_, ?_⟩ <;> simp [levelled, Function.comp_def]

/-- Levelling equal penalties changes nothing. -/
theorem levelled_same (top : K) (n : List K × AugLag.St K) (h : ∀ m ∈ n.2.mu, m = top) :
    levelled top n = n := by
  have : n.2.mu.map (fun _ => top) = n.2.mu := by
    conv_rhs => rw [← List.map_id n.2.mu]
    exact List.map_congr_left fun m hm => (h m hm).symm
  unfold levelled
  rw [this]

/-- C142: with the constant or the bounded-increase rule, and equal penalties before the update, the
update in separate processes is the serial one. -/
theorem C142_same_partial (nodes : List (AugLag.Opts K × List (List (List K)) × AugLag.St K))
    (rule : String) (hrule : rule = "constant" ∨ rule = "bounded-increase") (skip : Bool)
    (muMax beta mu : K) (hn : nodes ≠ [])
    (ho : ∀ n ∈ nodes, n.1.rule = rule ∧ n.1.skipUpdateMu = skip ∧ n.1.muMax = muMax ∧
      n.1.beta = beta)
    (hm : ∀ n ∈ nodes, n.2.2.mu ≠ [] ∧ ∀ m ∈ n.2.2.mu, m = mu) :
    updateDistributed (nodes.map fun n => (AugLag.updateParameters n.1 n.2.1, n.2.2)) =
      updateSerial (nodes.map fun n => (AugLag.updateParameters n.1 n.2.1, n.2.2)) := by
  rcases hs : updateSerial (nodes.map fun n => (AugLag.updateParameters n.1 n.2.1, n.2.2)) with
    e | r
  · simp [updateDistributed, hs, bind, Except.bind]
  · -- every node after the update
    have key : ∀ n ∈ r, n.2.mu ≠ [] ∧ ∀ m ∈ n.2.mu,
        m = if skip = true ∨ rule = "constant" then mu else min muMax (mu * beta) := by
      clear hn
      induction nodes generalizing r with
      | nil =>
        simp only [updateSerial, List.map_nil, List.mapM_nil] at hs
        cases hs
        simp
      | cons n nodes ih =>
        simp only [updateSerial, List.map_cons, List.mapM_cons] at hs
        rcases h1 : runUpdate (AugLag.updateParameters n.1 n.2.1, n.2.2) with e | q
        · rw [h1] at hs; cases hs
        · rw [h1] at hs
          rcases h2 : (nodes.map fun n => (AugLag.updateParameters n.1 n.2.1, n.2.2)).mapM
            runUpdate with e | qs
          · simp [h2, bind, Except.bind] at hs
          · simp only [h2, bind, Except.bind, pure, Except.pure, Except.ok.injEq] at hs
            subst hs
            intro k hk
            rw [List.mem_cons] at hk
            rcases hk with rfl | hk
            · obtain ⟨o1, o2, o3, o4⟩ := ho n (by simp)
              obtain ⟨m1, m2⟩ := hm n (by simp)
              rcases hu : AugLag.updateParameters n.1 n.2.1 n.2.2 with ⟨e | e, s'⟩
              · simp [runUpdate, hu] at h1
              · simp only [runUpdate, hu, Except.ok.injEq] at h1
                subst h1
                have := updateParameters_mu n.1 n.2.1 n.2.2 s' e (by rw [o1]; exact hrule) hu
                simp only [this, o1, o2, o3, o4]
                refine ⟨by simpa using m1, fun m hm' => ?_⟩
                obtain ⟨a, ha, rfl⟩ := List.mem_map.1 hm'
                rw [m2 a ha]
            · exact ih (fun n hn => ho n (by simp [hn])) (fun n hn => hm n (by simp [hn])) qs h2 k hk
    have hr : r ≠ [] := by
      rintro rfl
      obtain ⟨n, l, hl⟩ := List.exists_cons_of_ne_nil hn
      rw [hl] at hs
      simp only [updateSerial, List.map_cons, List.mapM_cons, bind, Except.bind, pure,
        Except.pure] at hs
      split at hs
      · cases hs
      · split at hs <;> cases hs
    obtain ⟨top, ⟨⟨m, hmem, htop⟩, -⟩, h2⟩ := updateDistributed_eq _ r hs hr fun n hn => (key n hn).1
    rw [h2, hs]
    refine congrArg Except.ok ?_
    obtain ⟨q, hq, rfl⟩ := List.mem_map.1 hmem
    have ht := (key q hq).2 top htop
    conv_rhs => rw [← List.map_id r]
    exact List.map_congr_left fun n hn => levelled_same top n fun m hm' => by
      rw [(key n hn).2 m hm', ht]

/-- C142: fails whenever the serial update leaves different penalties, as the primal rule does when
some constraints improve and others do not. -/
theorem C142_different_fails (nodes : List (Py (AugLag.St K) (List K) × AugLag.St K))
    (r : List (List K × AugLag.St K)) (h : updateSerial nodes = .ok r)
    (hm : ∀ n ∈ r, n.2.mu ≠ []) (n n' : List K × AugLag.St K) (hn : n ∈ r) (hn' : n' ∈ r)
    (a b : K) (ha : a ∈ n.2.mu) (hb : b ∈ n'.2.mu) (hab : a ≠ b) :
    ∃ r', updateDistributed nodes = .ok r' ∧ r' ≠ r := by
  obtain ⟨top, h1, h2⟩ := updateDistributed_eq nodes r h (List.ne_nil_of_mem hn) hm
  refine ⟨_, h2, fun heq => hab ?_⟩
  have key : ∀ q ∈ r, ∀ m ∈ q.2.mu, m = top := by
    intro q hq m hm'
    rw [← heq] at hq
    obtain ⟨q', -, rfl⟩ := List.mem_map.1 hq
    obtain ⟨_, -, rfl⟩ := List.mem_map.1 hm'
    rfl
  rw [key n hn a ha, key n' hn' b hb]

/-- C142: fails when a node has nothing relaxed, for example because it is not connected: the serial
update of the others goes on, the one in separate processes raises. -/
theorem C142_isolated_fails (nodes : List (Py (AugLag.St K) (List K) × AugLag.St K))
    (r : List (List K × AugLag.St K)) (h : updateSerial nodes = .ok r) (n : List K × AugLag.St K)
    (hn : n ∈ r) (hm : n.2.mu = []) : updateDistributed nodes = .error .valueError := by
  have key : r.mapM (fun n => largest n.2.mu) = .error .valueError := by
    clear h
    induction r with
    | nil => simp at hn
    | cons q r ih =>
      rw [List.mapM_cons]
      rcases hq : q.2.mu with _ | ⟨m, l⟩
      · simp [largest, bind, Except.bind]
      · rw [List.mem_cons] at hn
        rcases hn with rfl | hn
        · rw [hm] at hq; cases hq
        · simp only [largest, bind, Except.bind] at ih ⊢
          rw [ih hn]
  simp only [updateDistributed, h, key, bind, Except.bind]

namespace Example

/-- Options of nodes with two relaxed constraints, three collocation points and two elements. -/
def nodeOpts : AugLag.Opts Rat :=
  { roots := fun _ => [1 / 3, 2 / 3, 1], t0 := 0, tf := 4, nRelax := 2, nuDegree := 3, degree := 3,
    elements := 2, maxIter := 5, tol := 1 / 100, muMax := 100, beta := 4, minDecrease := 1 / 2 }

/-- The first constraint is violated by 1, the second one by 1/2, everywhere. -/
def nodeViol : List (List (List Rat)) := List.replicate 2 (List.replicate 3 [1, 1 / 2])

/-- Two nodes with two relaxed constraints each and the primal rule, after a first update. The first
constraint of the first node does not improve. -/
def primalNodes : List (Py (AugLag.St Rat) (List Rat) × AugLag.St Rat) :=
  [(AugLag.updateParameters { nodeOpts with rule := "primal" } nodeViol,
    { AugLag.start nodeOpts 1 with lastError := some [1, 4] }),
   (AugLag.updateParameters { nodeOpts with rule := "primal" } nodeViol,
    { AugLag.start nodeOpts 1 with lastError := some [4, 4] })]

/-- The penalties after an update. -/
def penaltiesOf (r : Except Err (List (List Rat × AugLag.St Rat))) : List (List Rat) :=
  match r with
  | .ok r => r.map fun n => n.2.mu
  | .error _ => []

end Example

example : Example.penaltiesOf (updateSerial Example.primalNodes) = [[4, 1], [1, 1]] ∧
    Example.penaltiesOf (updateDistributed Example.primalNodes) = [[4, 4], [4, 4]] := by
  decide +kernel

example : ∃ r, updateSerial [((AugLag.updateParameters { Example.nodeOpts with nRelax := 0 }
    (List.replicate 2 (List.replicate 3 []))), AugLag.start { Example.nodeOpts with nRelax := 0 } 1)]
    = .ok [r] ∧ r.2.mu = [] := ⟨([], { AugLag.start { Example.nodeOpts with nRelax := 0 } 1 with
      nuTilde := some [[], []], lastError := some [] }), by decide +kernel, by decide +kernel⟩

end Verif
