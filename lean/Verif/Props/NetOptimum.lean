import Verif.Lemmas.NetOptimum
import Verif.Props.NetDescent
import Mathlib.Algebra.Module.LinearMap.Basic
/-!
# Solutions of a network and the optimum of the network
-/
namespace Verif
open DistAL Spec

variable {N E S K : Type} [DecidableEq N] [Field K] [LinearOrder K] [IsStrictOrderedRing K]
  [AddCommGroup E] [Module K E]

omit [Field K] [LinearOrder K] [IsStrictOrderedRing K] [AddCommGroup E] [Module K E] in
private theorem store_other (last : N → Option E) (n m : N) (h : m ≠ n) (r : Option E) :
    store last n r m = last m := by
  unfold store
  rw [if_neg h]

omit [Field K] [LinearOrder K] [IsStrictOrderedRing K] [AddCommGroup E] [Module K E] in
private theorem serial_other (solver : NodeSolver N E) (visited : List N) (n : N) (h : n ∉ visited) :
    ∀ last : N → Option E,
      visited.foldl (fun last n => store last n (solver n last)) last n = last n := by
  induction visited with
  | nil => exact fun _ => rfl
  | cons m visited ih =>
    intro last
    rw [List.foldl_cons, ih (fun hh => h (by simp [hh])), store_other]
    exact fun hh => h (by simp [hh])

omit [Field K] [LinearOrder K] [IsStrictOrderedRing K] [AddCommGroup E] [Module K E] in
private theorem parallel_other (solver : NodeSolver N E) (old : N → Option E) (visited : List N) (n : N)
    (h : n ∉ visited) : ∀ last : N → Option E,
      visited.foldl (fun last n => store last n (solver n old)) last n = last n := by
  induction visited with
  | nil => exact fun _ => rfl
  | cons m visited ih =>
    intro last
    rw [List.foldl_cons, ih (fun hh => h (by simp [hh])), store_other]
    exact fun hh => h (by simp [hh])

omit [Field K] [LinearOrder K] [IsStrictOrderedRing K] [AddCommGroup E] [Module K E] in
private theorem serial_fixed (solver : NodeSolver N E) (nodes : List N) (z : N → E)
    (hs : ∀ n ∈ nodes, ∀ last, AllSolved nodes last z → (solver n last).isSome) (visited : List N)
    (hn : visited.Nodup) (hv : ∀ n ∈ visited, n ∈ nodes) : ∀ last : N → Option E,
    AllSolved nodes last z →
    AllSolved nodes (visited.foldl (fun last n => store last n (solver n last)) last) z →
    ∀ n ∈ visited, ∃ last, AllSolved nodes last z ∧ solver n last = some (z n) := by
  induction visited with
  | nil => intro _ _ _ n h; cases h
  | cons m visited ih =>
    intro last hz hz' n hmem
    obtain ⟨h₁, h₂⟩ := List.nodup_cons.mp hn
    obtain ⟨r, hr⟩ := Option.isSome_iff_exists.mp (hs m (hv m (by simp)) last hz)
    have hm := hz' m (hv m (by simp))
    rw [List.foldl_cons, serial_other solver visited m h₁, hr] at hm
    have hrz : r = z m := by
      unfold store at hm
      rw [if_pos rfl] at hm
      exact Option.some.inj hm
    subst hrz
    rcases List.mem_cons.mp hmem with rfl | hmem
    · exact ⟨last, hz, hr⟩
    · refine ih h₂ (fun x hx => hv x (by simp [hx])) (store last m (solver m last)) (fun x hx => ?_) hz' n hmem
      by_cases hxm : x = m
      · subst hxm
        unfold store
        rw [if_pos rfl, hr]
        rfl
      · rw [store_other last m x hxm]
        exact hz x hx

omit [Field K] [LinearOrder K] [IsStrictOrderedRing K] [AddCommGroup E] [Module K E] in
private theorem parallel_fixed (solver : NodeSolver N E) (nodes : List N) (z : N → E)
    (old : N → Option E) (hs : ∀ n ∈ nodes, (solver n old).isSome) (visited : List N)
    (hn : visited.Nodup) (hv : ∀ n ∈ visited, n ∈ nodes) : ∀ last : N → Option E,
    AllSolved nodes (visited.foldl (fun last n => store last n (solver n old)) last) z →
    ∀ n ∈ visited, solver n old = some (z n) := by
  induction visited with
  | nil => intro _ _ n h; cases h
  | cons m visited ih =>
    intro last hz' n hmem
    obtain ⟨h₁, h₂⟩ := List.nodup_cons.mp hn
    obtain ⟨r, hr⟩ := Option.isSome_iff_exists.mp (hs m (hv m (by simp)))
    have hm := hz' m (hv m (by simp))
    rw [List.foldl_cons, parallel_other solver old visited m h₁, hr] at hm
    have hrz : r = z m := by
      unfold store at hm
      rw [if_pos rfl] at hm
      exact Option.some.inj hm
    subst hrz
    rcases List.mem_cons.mp hmem with rfl | hmem
    · exact hr
    · exact ih h₂ (fun x hx => hv x (by simp [hx])) _ hz' n hmem

/-- An iteration over all nodes that changes no result: every node solved its problem for the results. -/
private theorem fixed_solved (c : Setup N E S K) (k : Nat) (hm : c.method = "cyclic")
    (hb : BlocksWithin c.nodes c.blocks) (hnd : c.blocks.flatten.Nodup)
    (hall : ∀ n ∈ c.nodes, n ∈ c.blocks.flatten) (l l' : Loop N E S K) (z : N → E)
    (hs : ∀ n ∈ c.nodes, ∀ last, AllSolved c.nodes last z → (c.solver l.methods n last).isSome)
    (h : c.innerStep k l = .ok l') (hz : AllSolved c.nodes l.last z) (hz' : AllSolved c.nodes l'.last z) :
    ∀ n ∈ c.nodes, ∃ last, AllSolved c.nodes last z ∧ c.solver l.methods n last = some (z n) := by
  have hv : ∀ n ∈ c.blocks.flatten, n ∈ c.nodes := fun n hn => by
    obtain ⟨b, h₁, h₂⟩ := List.mem_flatten.mp hn
    exact hb b h₁ n h₂
  unfold Setup.innerStep blockIterator at h
  rw [if_pos hm] at h
  simp only [bind, Except.bind, Except.ok.injEq] at h
  subst h
  intro n hn
  simp only [Setup.solveNodes] at hz'
  split at hz'
  · exact ⟨l.last, hz, parallel_fixed (c.solver l.methods) c.nodes z l.last
      (fun m hm => hs m hm l.last hz) _ hnd hv l.last hz' n (hall n hn)⟩
  · exact serial_fixed (c.solver l.methods) c.nodes z hs _ hnd hv l.last hz hz' n (hall n hn)

/-- C173: when an inner iteration over all nodes changes no result, with or without processes, the results
minimise the augmented Lagrangian of a convex network over all admissible results of the nodes. -/
theorem C173_lagrangian (c : Setup N E S K) (p : CoupledCosts N E K) (feasible : N → E → Prop)
    (hn : c.nodes.Nodup) (hp : p.Convex c.nodes feasible) (hm : c.method = "cyclic")
    (hb : BlocksWithin c.nodes c.blocks) (hnd : c.blocks.flatten.Nodup)
    (hall : ∀ n ∈ c.nodes, n ∈ c.blocks.flatten) (k : Nat) (l l' : Loop N E S K) (z : N → E)
    (he : ExactSolver p.lagrangian c.nodes feasible (c.solver l.methods))
    (hs : ∀ n ∈ c.nodes, ∀ last, AllSolved c.nodes last z → (c.solver l.methods n last).isSome)
    (h : c.innerStep k l = .ok l') (hz : AllSolved c.nodes l.last z) (hz' : AllSolved c.nodes l'.last z)
    (w : N → E) (hw : ∀ n ∈ c.nodes, feasible n (w n)) :
    p.lagrangian.value c.nodes z ≤ p.lagrangian.value c.nodes w := by
  have hf := fixed_solved c k hm hb hnd hall l l' z hs h hz hz'
  refine network_optimal p c.nodes hn feasible hp z w (fun n hn => ?_) hw (fun n hn => ?_)
  · obtain ⟨last, h₁, h₂⟩ := hf n hn
    exact (he n hn last z h₁ _ h₂).1
  · obtain ⟨last, h₁, h₂⟩ := hf n hn
    exact (he n hn last z h₁ _ h₂).2

/-- C173: the costs of such results exceed those of any admissible solution of the network problem at
most by the multipliers times the coupling errors that are left. -/
theorem C173_bound (c : Setup N E S K) (p : CoupledCosts N E K) (feasible : N → E → Prop)
    (hn : c.nodes.Nodup) (hp : p.Convex c.nodes feasible) (hm : c.method = "cyclic")
    (hb : BlocksWithin c.nodes c.blocks) (hnd : c.blocks.flatten.Nodup)
    (hall : ∀ n ∈ c.nodes, n ∈ c.blocks.flatten) (k : Nat) (l l' : Loop N E S K) (z : N → E)
    (he : ExactSolver p.lagrangian c.nodes feasible (c.solver l.methods))
    (hs : ∀ n ∈ c.nodes, ∀ last, AllSolved c.nodes last z → (c.solver l.methods n last).isSome)
    (h : c.innerStep k l = .ok l') (hz : AllSolved c.nodes l.last z) (hz' : AllSolved c.nodes l'.last z)
    (w : N → E) (hw : p.Admissible c.nodes feasible w) :
    p.cost c.nodes z ≤ p.cost c.nodes w + (p.conditions.map fun q => |q.nu| * |q.error z|).sum := by
  have h₁ := C173_lagrangian c p feasible hn hp hm hb hnd hall k l l' z he hs h hz hz' w hw.nodes
  rw [lagrangian_value, lagrangian_value] at h₁
  have h₂ : (p.conditions.map (term w)).sum = 0 := by
    apply List.sum_eq_zero
    intro x hx
    obtain ⟨q, hq, rfl⟩ := List.mem_map.mp hx
    unfold term
    rw [hw.agree q hq]
    ring
  have h₃ : -(p.conditions.map fun q => |q.nu| * |q.error z|).sum ≤ (p.conditions.map (term z)).sum := by
    have hpen := hp.penalties
    generalize p.conditions = conds at hpen
    induction conds with
    | nil => simp
    | cons q conds ih =>
      have := ih fun c hc => hpen c (by simp [hc])
      simp only [List.map_cons, List.sum_cons]
      have hsq := mul_nonneg (div_nonneg (hpen q (by simp)) (zero_le_two (α := K)))
        (mul_self_nonneg (q.error z))
      have hab := neg_abs_le (q.nu * q.error z)
      rw [abs_mul] at hab
      have : -(|q.nu| * |q.error z|) ≤ term z q := by
        unfold term
        linarith
      linarith
  linarith

/-- C173: when moreover the coupling errors are zero, the results are an optimal solution of the problem
of the network. -/
theorem C173_optimal (c : Setup N E S K) (p : CoupledCosts N E K) (feasible : N → E → Prop)
    (hn : c.nodes.Nodup) (hp : p.Convex c.nodes feasible) (hm : c.method = "cyclic")
    (hb : BlocksWithin c.nodes c.blocks) (hnd : c.blocks.flatten.Nodup)
    (hall : ∀ n ∈ c.nodes, n ∈ c.blocks.flatten) (k : Nat) (l l' : Loop N E S K) (z : N → E)
    (he : ExactSolver p.lagrangian c.nodes feasible (c.solver l.methods))
    (hs : ∀ n ∈ c.nodes, ∀ last, AllSolved c.nodes last z → (c.solver l.methods n last).isSome)
    (h : c.innerStep k l = .ok l') (hz : AllSolved c.nodes l.last z) (hz' : AllSolved c.nodes l'.last z)
    (herr : ∀ q ∈ p.conditions, q.error z = 0) :
    p.Admissible c.nodes feasible z ∧
      ∀ w, p.Admissible c.nodes feasible w → p.cost c.nodes z ≤ p.cost c.nodes w := by
  refine ⟨⟨fun n hn => ?_, herr⟩, fun w hw => ?_⟩
  · obtain ⟨last, h₁, h₂⟩ := fixed_solved c k hm hb hnd hall l l' z hs h hz hz' n hn
    exact (he n hn last z h₁ _ h₂).1
  · have := C173_bound c p feasible hn hp hm hb hnd hall k l l' z he hs h hz hz' w hw
    have h₀ : (p.conditions.map fun q => |q.nu| * |q.error z|).sum = 0 := by
      apply List.sum_eq_zero
      intro x hx
      obtain ⟨q, hq, rfl⟩ := List.mem_map.mp hx
      rw [herr q hq, abs_zero, mul_zero]
    rwa [h₀, add_zero] at this

namespace Example

/-- Two nodes that have to agree, with the costs `x²` and `(y - 1)²`. -/
def agreeing (nu : Rat) : CoupledCosts Nat Rat Rat where
  own n x := if n = 0 then x * x else (x - 1) * (x - 1)
  conditions := [⟨0, 1, LinearMap.id, LinearMap.id, nu, 2⟩]

def agreeingValue (guess : Rat) (last : Nat → Option Rat) (n : Nat) : Rat := (last n).getD guess

/-- The minimisers of the nodes: of `x² - nu x + (y - x)²` and of `(y - 1)² + nu y + (y - x)²`. A node
without a result counts with the guess. -/
def agreeingSolver (nu guess : Rat) : NodeSolver Nat Rat := fun n last =>
  if n = 0 then some ((2 * agreeingValue guess last 1 + nu) / 4)
  else some ((2 * agreeingValue guess last 0 + 2 - nu) / 4)

theorem agreeing_exact (nu guess : Rat) :
    ExactSolver (agreeing nu).lagrangian [0, 1] (fun _ _ => True) (agreeingSolver nu guess) := by
  intro n hn last z hz r hr
  have h0 := hz 0 (by simp)
  have h1 := hz 1 (by simp)
  refine ⟨trivial, fun r' _ => ?_⟩
  simp only [List.mem_cons, List.not_mem_nil, or_false] at hn
  rcases hn with rfl | rfl <;>
    simp [agreeingSolver, agreeingValue, h0, h1] at hr <;>
    simp [NetCost.nodeCost, CoupledCosts.lagrangian, agreeing, withResult] <;>
    subst hr
  · nlinarith [sq_nonneg (r' - (2 * z 1 + nu) / 4)]
  · nlinarith [sq_nonneg (r' - (2 * z 0 + 2 - nu) / 4)]

theorem agreeing_convex (nu : Rat) : (agreeing nu).Convex [0, 1] fun _ _ => True where
  sets _ _ _ _ _ _ _ _ _ := trivial
  costs n hn x y _ _ t h0 h1 := by
    simp only [List.mem_cons, List.not_mem_nil, or_false] at hn
    have : 0 ≤ t * (1 - t) * ((y - x) * (y - x)) :=
      mul_nonneg (mul_nonneg h0 (by linarith)) (mul_self_nonneg _)
    rcases hn with rfl | rfl <;> simp [agreeing] <;> nlinarith
  penalties q hq := by
    simp only [agreeing, List.mem_cons, List.not_mem_nil, or_false] at hq
    subst hq
    norm_num
  within q hq := by
    simp only [agreeing, List.mem_cons, List.not_mem_nil, or_false] at hq
    subst hq
    simp

/-- `_update_parameters` returns the error of the condition for both nodes; the multiplier is left as it is. -/
def agreeingSetup (nu guess : Rat) (processes : Bool) : Setup Nat Rat Unit Rat where
  nodes := [0, 1]
  blocks := [[0], [1]]
  method := "cyclic"
  choices _ := []
  sample _ := []
  distributed := processes
  solver _ := agreeingSolver nu guess
  objective := id
  update _ last := .ok ([(0, [|agreeingValue guess last 1 - agreeingValue guess last 0|]),
    (1, [|agreeingValue guess last 0 - agreeingValue guess last 1|])], ())
  maxOuter := 5
  maxInner := 1
  maxInnerFirst := none
  innerTol := 0
  absTol := 1 / 1000000

/-- With the multiplier `1` the results `1/2` and `1/2` are not changed: all hypotheses of `C173_optimal`
hold. -/
example (processes : Bool) : ∀ w, (agreeing 1).Admissible [0, 1] (fun _ _ => True) w →
    (agreeing 1).cost [0, 1] (fun _ => 1 / 2) ≤ (agreeing 1).cost [0, 1] w :=
  (C173_optimal (agreeingSetup 1 0 processes) (agreeing 1) (fun _ _ => True)
    (by decide +revert) (agreeing_convex 1) rfl (by intro b hb n hn; revert b n; decide +revert)
    (by decide +revert) (by decide +revert) 0
    { methods := (), last := fun _ => some (1 / 2) } _ (fun _ => 1 / 2) (agreeing_exact 1 0)
    (fun n hn last _ => by
      show ((if n = 0 then some _ else some _ : Option Rat)).isSome
      split <;> rfl)
    rfl (fun _ _ => rfl)
    (by cases processes <;> (intro m hm; revert m; decide +kernel))
    (by
      intro q hq
      simp only [agreeing, List.mem_cons, List.not_mem_nil, or_false] at hq
      subst hq
      simp [CouplingCondition.error])).2

end Example

/-- C173: that the coupling errors are small does not make a solution optimal. Here `solve` returns results
that agree exactly, every node was solved exactly, the network is convex, and the cost is twice that of
the optimum: the stopping test of the outer iterations does not look at how far the inner iterations
were. -/
theorem C173_solve_fails : ∃ (c : Setup Nat Rat Unit Rat) (p : CoupledCosts Nat Rat Rat)
    (s : Solution Nat Rat Rat) (z w : Nat → Rat), c.nodes.Nodup ∧ p.Convex c.nodes (fun _ _ => True) ∧
      ExactSolver p.lagrangian c.nodes (fun _ _ => True) (c.solver ()) ∧
      (∀ n last, (c.solver () n last).isSome) ∧
      c.solve () = .ok s ∧ s.outer + 1 < c.maxOuter ∧ s.violations = [[0], [0]] ∧
      AllSolved c.nodes s.results z ∧ (∀ q ∈ p.conditions, q.error z = 0) ∧
      p.Admissible c.nodes (fun _ _ => True) w ∧ p.cost c.nodes z = 2 * p.cost c.nodes w ∧
      0 < p.cost c.nodes w := by
  have hsolve : ((Example.agreeingSetup 0 2 false).solve ()).toOption.map
      (fun s => (s.outer, s.violations, s.results 0, s.results 1)) = some (0, [[0], [0]], some 1, some 1) := by
    decide +kernel
  cases hs : (Example.agreeingSetup 0 2 false).solve () with
  | error e => rw [hs] at hsolve; cases hsolve
  | ok s =>
  rw [hs] at hsolve
  simp only [Except.toOption, Option.map_some, Option.some.injEq, Prod.mk.injEq] at hsolve
  obtain ⟨h₁, h₂, h₃, h₄⟩ := hsolve
  refine ⟨Example.agreeingSetup 0 2 false, Example.agreeing 0, s, fun _ => 1, fun _ => 1 / 2, by decide,
    Example.agreeing_convex 0, Example.agreeing_exact 0 2, ?_, hs, by rw [h₁]; decide, h₂, ?_, ?_, ⟨?_, ?_⟩,
    ?_, ?_⟩
  · intro n last
    show ((if n = 0 then some _ else some _ : Option Rat)).isSome
    split <;> rfl
  · intro m hm
    have : m = 0 ∨ m = 1 := by simpa [Example.agreeingSetup] using hm
    rcases this with rfl | rfl
    · exact h₃
    · exact h₄
  · intro q hq
    simp only [Example.agreeing, List.mem_cons, List.not_mem_nil, or_false] at hq
    subst hq
    simp [CouplingCondition.error]
  · exact fun _ _ => trivial
  · intro q hq
    simp only [Example.agreeing, List.mem_cons, List.not_mem_nil, or_false] at hq
    subst hq
    simp [CouplingCondition.error]
  · decide +kernel
  · decide +kernel

end Verif
