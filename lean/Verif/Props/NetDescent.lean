import Verif.Lemmas.NetDescent
import Mathlib.Tactic.NormNum
import Mathlib.Tactic.IntervalCases
import Mathlib.Algebra.Order.Ring.Rat
import Mathlib.Algebra.Field.Rat
/-!
# The inner iterations of the distributed method
-/
namespace Verif
open DistAL Spec

variable {N R S K : Type} [DecidableEq N] [Field K] [LinearOrder K] [IsStrictOrderedRing K]

/-- The iterations that are solved one node after the other visit these blocks. -/
private theorem visited_within (c : Setup N R S K) (k : Nat) (hb : BlocksWithin c.nodes c.blocks)
    (hc : BlocksWithin c.nodes (c.choices k)) (hs : BlocksWithin c.nodes (c.sample k))
    (it : List (List N)) (h : blockIterator c.method c.blocks (c.choices k) (c.sample k) = .ok it) :
    ∀ n ∈ it.flatten, n ∈ c.nodes := by
  have : BlocksWithin c.nodes it := by
    unfold blockIterator at h
    split at h
    · cases h; exact hb
    · split at h
      · cases h; exact hc
      · split at h
        · cases h; exact hs
        · cases h
  intro n hn
  obtain ⟨b, h₁, h₂⟩ := List.mem_flatten.mp hn
  exact this b h₁ n h₂

/-- C172: an inner iteration without processes does not increase the augmented Lagrangian of the
network, for every choice of the blocks, also when the solver of some node fails. -/
theorem C172_iteration (c : Setup N R S K) (f : NetCost N R K) (feasible : N → R → Prop)
    (hd : c.distributed = false) (hn : c.nodes.Nodup) (hb : BlocksWithin c.nodes c.blocks)
    (hc : ∀ k, BlocksWithin c.nodes (c.choices k)) (hs : ∀ k, BlocksWithin c.nodes (c.sample k))
    (k : Nat) (l l' : Loop N R S K) (he : ExactSolver f c.nodes feasible (c.solver l.methods))
    (h : c.innerStep k l = .ok l') (z : N → R) (hz : AllSolved c.nodes l.last z)
    (hf : ∀ m ∈ c.nodes, feasible m (z m)) :
    ∃ z', AllSolved c.nodes l'.last z' ∧ (∀ m ∈ c.nodes, feasible m (z' m)) ∧
      f.value c.nodes z' ≤ f.value c.nodes z := by
  unfold Setup.innerStep at h
  cases hi : blockIterator c.method c.blocks (c.choices l.total) (c.sample l.total) with
  | error e => rw [hi] at h; cases h
  | ok it =>
    rw [hi] at h
    simp only [bind, Except.bind, Except.ok.injEq] at h
    subst h
    simp only [Setup.solveNodes, hd, Bool.false_eq_true, if_false, solveSerial]
    exact descent_serial f c.nodes hn feasible _ he it.flatten
      (visited_within c l.total hb (hc _) (hs _) it hi) l.last z hz hf

private theorem innerStep_methods (c : Setup N R S K) (k : Nat) (l l' : Loop N R S K)
    (h : c.innerStep k l = .ok l') : l'.methods = l.methods := by
  unfold Setup.innerStep at h
  cases hi : blockIterator c.method c.blocks (c.choices l.total) (c.sample l.total) with
  | error e => rw [hi] at h; cases h
  | ok it =>
    rw [hi] at h
    simp only [bind, Except.bind, Except.ok.injEq] at h
    subst h
    rfl

/-- C172: all inner iterations of an outer iteration together do not increase it. -/
theorem C172_inner (c : Setup N R S K) (f : NetCost N R K) (feasible : N → R → Prop)
    (hd : c.distributed = false) (hn : c.nodes.Nodup) (hb : BlocksWithin c.nodes c.blocks)
    (hc : ∀ k, BlocksWithin c.nodes (c.choices k)) (hs : ∀ k, BlocksWithin c.nodes (c.sample k))
    (n : Nat) : ∀ (k : Nat) (o : Option K) (l l' : Loop N R S K),
    ExactSolver f c.nodes feasible (c.solver l.methods) → c.inner n k o l = .ok l' →
    ∀ z : N → R, AllSolved c.nodes l.last z → (∀ m ∈ c.nodes, feasible m (z m)) →
    ∃ z', AllSolved c.nodes l'.last z' ∧ (∀ m ∈ c.nodes, feasible m (z' m)) ∧
      f.value c.nodes z' ≤ f.value c.nodes z := by
  induction n with
  | zero =>
    intro k o l l' _ h z hz hf
    simp only [Setup.inner, Except.ok.injEq] at h
    subst h
    exact ⟨z, hz, hf, le_refl _⟩
  | succ n ih =>
    intro k o l l' he h z hz hf
    unfold Setup.inner at h
    cases hi : c.innerStep k l with
    | error e => rw [hi] at h; cases h
    | ok l₁ =>
      rw [hi] at h
      simp only [bind, Except.bind] at h
      obtain ⟨z₁, h₁, h₂, h₃⟩ := C172_iteration c f feasible hd hn hb hc hs k l l₁ he hi z hz hf
      split at h
      · simp only [Except.ok.injEq] at h
        subst h
        exact ⟨z₁, h₁, h₂, h₃⟩
      · obtain ⟨z₂, h₄, h₅, h₆⟩ := ih _ _ l₁ l' (by rw [innerStep_methods c k l l₁ hi]; exact he) h z₁ h₁ h₂
        exact ⟨z₂, h₄, h₅, h₆.trans h₃⟩

/-- C172: with processes, all visited nodes start from the results before the iteration; then it holds
when no two of them are connected. -/
theorem C172_processes_partial (f : NetCost N R K) (nodes : List N) (hn : nodes.Nodup)
    (feasible : N → R → Prop) (solver : NodeSolver N R) (he : ExactSolver f nodes feasible solver)
    (blocks : List (List N)) (hb : BlocksWithin nodes blocks) (ha : f.Apart blocks.flatten)
    (last : N → Option R) (z : N → R) (hz : AllSolved nodes last z)
    (hf : ∀ m ∈ nodes, feasible m (z m)) :
    ∃ z', AllSolved nodes (solveDistributed solver blocks last) z' ∧ (∀ m ∈ nodes, feasible m (z' m)) ∧
      f.value nodes z' ≤ f.value nodes z :=
  descent_parallel f nodes hn feasible solver he last z hz blocks.flatten ha blocks.flatten (fun _ h => h)
    (fun n h => by
      obtain ⟨b, h₁, h₂⟩ := List.mem_flatten.mp h
      exact hb b h₁ n h₂) last z hz hf fun _ _ => rfl

namespace Example

def triangleEdge (x y : Rat) : Rat := (x + y) * (x + y)

/-- Three nodes, each connected with the two others: `x` costs `-x²/2`, a connection `(x + y)²`. -/
def triangle : NetCost Nat Rat Rat where
  own _ x := -(x * x) / 2
  edges := [⟨0, 1, triangleEdge⟩, ⟨1, 2, triangleEdge⟩, ⟨2, 0, triangleEdge⟩]

def triangleValue (last : Nat → Option Rat) (n : Nat) : Rat := (last n).getD 0

/-- The minimiser of a node of `triangle`. -/
def triangleSolver : NodeSolver Nat Rat := fun n last =>
  some (-2 / 3 * (triangleValue last ((n + 1) % 3) + triangleValue last ((n + 2) % 3)))

/-- Every node is in its own block, as for any colouring of this network. -/
def triangleSetup (processes : Bool) : Setup Nat Rat Unit Rat where
  nodes := [0, 1, 2]
  blocks := [[0], [1], [2]]
  method := "cyclic"
  choices _ := []
  sample _ := []
  distributed := processes
  solver _ := triangleSolver
  objective := id
  update _ _ := .ok ([], ())
  maxOuter := 1
  maxInner := 1
  maxInnerFirst := none
  innerTol := 0
  absTol := 0

def triangleStart : Loop Nat Rat Unit Rat := { methods := (), last := fun _ => some 1 }

theorem triangle_exact : ExactSolver triangle [0, 1, 2] (fun _ _ => True) triangleSolver := by
  intro n hn last z hz r hr
  have h0 := hz 0 (by simp)
  have h1 := hz 1 (by simp)
  have h2 := hz 2 (by simp)
  refine ⟨trivial, fun r' _ => ?_⟩
  simp only [List.mem_cons, List.not_mem_nil, or_false] at hn
  rcases hn with rfl | rfl | rfl <;>
    simp [triangleSolver, triangleValue, h0, h1, h2] at hr <;>
    simp [NetCost.nodeCost, triangle, triangleEdge, withResult] <;>
    subst hr
  · nlinarith [sq_nonneg (r' - -(2 / 3 * (z 1 + z 2)))]
  · nlinarith [sq_nonneg (r' - -(2 / 3 * (z 2 + z 0)))]
  · nlinarith [sq_nonneg (r' - -(2 / 3 * (z 0 + z 1)))]

/-- All hypotheses of `C172_inner` are met by `triangle` without processes; the value falls from `21/2`. -/
example : ∃ z', AllSolved [0, 1, 2] (solveSerial triangleSolver [[0], [1], [2]] (fun _ => some 1)) z' ∧
    triangle.value [0, 1, 2] z' < triangle.value [0, 1, 2] (fun _ => 1) := by
  refine ⟨fun n => if n = 0 then -4 / 3 else if n = 1 then 2 / 9 else 20 / 27, ?_, ?_⟩
  · intro m hm
    simp only [List.mem_cons, List.not_mem_nil, or_false] at hm
    rcases hm with rfl | rfl | rfl <;> decide +kernel
  · simp [NetCost.value, triangle, triangleEdge]
    norm_num

example : ∃ l', (triangleSetup false).inner 5 0 none triangleStart = .ok l' ∧ ∃ z',
    AllSolved [0, 1, 2] l'.last z' ∧ triangle.value [0, 1, 2] z' ≤ triangle.value [0, 1, 2] fun _ => 1 := by
  have h : ((triangleSetup false).inner 5 0 none triangleStart).toOption.isSome := by decide +kernel
  cases hi : (triangleSetup false).inner 5 0 none triangleStart with
  | error e => rw [hi] at h; cases h
  | ok l' =>
    obtain ⟨z', h₁, _, h₃⟩ := C172_inner (triangleSetup false) triangle (fun _ _ => True) rfl (by decide)
      (by intro b hb n hn; revert b n; decide) (fun _ b hb => by cases hb) (fun _ b hb => by cases hb) 5 0
      none triangleStart l' triangle_exact hi (fun _ => 1) (fun _ _ => rfl) fun _ _ => trivial
    exact ⟨l', rfl, z', h₁, h₃⟩

end Example

/-- C172: false with processes. Although connected nodes are in different blocks, the blocks are solved
at the same time, and an iteration with exact solutions of all nodes increases the augmented
Lagrangian. -/
theorem C172_processes_fails : ∃ (c : Setup Nat Rat Unit Rat) (f : NetCost Nat Rat Rat)
    (l l' : Loop Nat Rat Unit Rat) (z z' : Nat → Rat),
    c.distributed = true ∧ c.nodes.Nodup ∧ BlocksWithin c.nodes c.blocks ∧ c.method = "cyclic" ∧
      (∀ b ∈ c.blocks, f.Apart b) ∧
      ExactSolver f c.nodes (fun _ _ => True) (c.solver l.methods) ∧
      AllSolved c.nodes l.last z ∧ c.innerStep 0 l = .ok l' ∧ AllSolved c.nodes l'.last z' ∧
      f.value c.nodes z < f.value c.nodes z' := by
  refine ⟨Example.triangleSetup true, Example.triangle, Example.triangleStart, _, fun _ => 1,
    fun _ => -4 / 3, rfl, by decide, ?_, rfl, ?_, Example.triangle_exact, fun _ _ => rfl, rfl, ?_, ?_⟩
  · intro b hb n hn
    revert b n
    decide
  · intro b hb
    unfold NetCost.Apart
    revert b
    decide
  · intro m hm
    revert m
    decide +kernel
  · simp [NetCost.value, Example.triangle, Example.triangleEdge, Example.triangleSetup]
    norm_num

namespace Example

/-- Two connected nodes: `3x²`, `(y - 1)²` and `(x - y)²`. A result is a value with the objective of the
problem of the node. -/
def pairCost : NetCost Nat (Rat × Rat) Rat where
  own n r := if n = 0 then 3 * (r.1 * r.1) else (r.1 - 1) * (r.1 - 1)
  edges := [⟨0, 1, fun r q => (r.1 - q.1) * (r.1 - q.1)⟩]

def pairValue (last : Nat → Option (Rat × Rat)) (n : Nat) : Rat := ((last n).map Prod.fst).getD 0

def pairObjective (n : Nat) (other x : Rat) : Rat :=
  (if n = 0 then 3 * (x * x) else (x - 1) * (x - 1)) + (x - other) * (x - other)

def pairNodeSolver : NodeSolver Nat (Rat × Rat) := fun n last =>
  if n = 0 then some (pairValue last 1 / 4, pairObjective 0 (pairValue last 1) (pairValue last 1 / 4))
  else some ((pairValue last 0 + 1) / 2,
    pairObjective 1 (pairValue last 0) ((pairValue last 0 + 1) / 2))

def pairSetup : Setup Nat (Rat × Rat) Unit Rat where
  nodes := [0, 1]
  blocks := [[0], [1]]
  method := "cyclic"
  choices _ := []
  sample _ := []
  distributed := false
  solver _ := pairNodeSolver
  objective := Prod.snd
  update _ _ := .ok ([], ())
  maxOuter := 1
  maxInner := 10
  maxInnerFirst := none
  innerTol := 0
  absTol := 0

def pairStart : Loop Nat (Rat × Rat) Unit Rat := { methods := (), last := fun _ => some (0, 0) }

theorem pair_exact : ExactSolver pairCost [0, 1] (fun _ _ => True) pairNodeSolver := by
  intro n hn last z hz r hr
  have h0 := hz 0 (by simp)
  have h1 := hz 1 (by simp)
  refine ⟨trivial, fun r' _ => ?_⟩
  simp only [List.mem_cons, List.not_mem_nil, or_false] at hn
  rcases hn with rfl | rfl <;>
    simp [pairNodeSolver, pairValue, h0, h1] at hr <;>
    simp [NetCost.nodeCost, pairCost, withResult] <;>
    subst hr
  · nlinarith [sq_nonneg (4 * r'.1 - (z 1).1)]
  · nlinarith [sq_nonneg (2 * r'.1 - ((z 0).1 + 1))]

/-- The variables after inner iterations. -/
def pairAfter : Nat → Loop Nat (Rat × Rat) Unit Rat
  | 0 => pairStart
  | k + 1 =>
    { pairAfter k with
      last := solveSerial pairNodeSolver [[0], [1]] (pairAfter k).last
      innerIt := k
      total := (pairAfter k).total + 1
      blockIterations := (pairAfter k).blockIterations + 2 }

theorem pair_step (k : Nat) : pairSetup.innerStep k (pairAfter k) = .ok (pairAfter (k + 1)) := rfl

theorem inner_step (c : Setup Nat (Rat × Rat) Unit Rat) (n k : Nat) (o : Option Rat)
    (l l₁ : Loop Nat (Rat × Rat) Unit Rat) (h : c.innerStep k l = .ok l₁) : c.inner (n + 1) k o l =
      if innerStop c.innerTol o (c.total l₁.last) then .ok l₁
      else c.inner n (k + 1) (some (c.total l₁.last)) l₁ := by
  rw [Setup.inner, h]
  rfl

theorem pair_inner : pairSetup.inner 10 0 none pairStart = .ok (pairAfter 2) := by
  have h₁ : innerStop pairSetup.innerTol none (pairSetup.total (pairAfter 1).last) = false := by
    decide +kernel
  have h₂ : innerStop pairSetup.innerTol (some (pairSetup.total (pairAfter 1).last))
      (pairSetup.total (pairAfter 2).last) = true := by decide +kernel
  have e₁ := inner_step pairSetup 9 0 none (pairAfter 0) (pairAfter 1) (pair_step 0)
  rw [h₁, if_neg (by decide)] at e₁
  have e₂ := inner_step pairSetup 8 1 (some (pairSetup.total (pairAfter 1).last)) (pairAfter 1)
    (pairAfter 2) (pair_step 1)
  rw [h₂, if_pos rfl] at e₂
  exact e₁.trans e₂

/-- The objective that the solver of a node gives is the cost of the node. -/
theorem pair_objective (n : Nat) (hn : n ∈ [0, 1]) (last : Nat → Option (Rat × Rat))
    (z : Nat → Rat × Rat) (hz : AllSolved [0, 1] last z) (r : Rat × Rat)
    (hr : pairNodeSolver n last = some r) : pairSetup.objective r = pairCost.nodeCost z n r := by
  have h0 := hz 0 (by simp)
  have h1 := hz 1 (by simp)
  simp only [List.mem_cons, List.not_mem_nil, or_false] at hn
  rcases hn with rfl | rfl <;>
    simp [pairNodeSolver, pairValue, h0, h1] at hr <;>
    subst hr <;>
    simp [NetCost.nodeCost, pairCost, withResult, pairSetup, pairObjective]
  ring

end Example

/-- C172: the iterations do not stop where the augmented Lagrangian stops decreasing. The test compares
the sum of the objectives of the nodes, which counts every connection twice and with old results of the
neighbours: here, with tolerance zero, the loop stops after two of ten iterations, where the Lagrangian
has decreased in the second one and would decrease in the third. -/
theorem C172_stop_fails : ∃ (c : Setup Nat (Rat × Rat) Unit Rat) (f : NetCost Nat (Rat × Rat) Rat)
    (l l₁ l₂ l₃ : Loop Nat (Rat × Rat) Unit Rat) (z₁ z₂ z₃ : Nat → Rat × Rat),
    c.distributed = false ∧ c.innerTol = 0 ∧
      ExactSolver f c.nodes (fun _ _ => True) (c.solver l.methods) ∧
      (∀ n ∈ c.nodes, ∀ last z, AllSolved c.nodes last z → ∀ r, c.solver l.methods n last = some r →
        c.objective r = f.nodeCost z n r) ∧
      c.innerStep 0 l = .ok l₁ ∧ c.innerStep 1 l₁ = .ok l₂ ∧ c.innerStep 2 l₂ = .ok l₃ ∧
      AllSolved c.nodes l₁.last z₁ ∧ AllSolved c.nodes l₂.last z₂ ∧ AllSolved c.nodes l₃.last z₃ ∧
      f.value c.nodes z₂ < f.value c.nodes z₁ ∧ f.value c.nodes z₃ < f.value c.nodes z₂ ∧
      c.inner 10 0 none l = .ok l₂ := by
  refine ⟨Example.pairSetup, Example.pairCost, Example.pairAfter 0, Example.pairAfter 1,
    Example.pairAfter 2, Example.pairAfter 3, fun n => if n = 0 then (0, 0) else (1 / 2, 1 / 2),
    fun n => if n = 0 then (1 / 8, 3 / 16) else (9 / 16, 49 / 128),
    fun n => if n = 0 then (9 / 64, 243 / 1024) else (73 / 128, 3025 / 8192), rfl, rfl, Example.pair_exact,
    Example.pair_objective, rfl, rfl, rfl, ?_, ?_, ?_, ?_, ?_, Example.pair_inner⟩
  · intro m hm
    revert m
    decide +kernel
  · intro m hm
    revert m
    decide +kernel
  · intro m hm
    revert m
    decide +kernel
  · decide +kernel
  · decide +kernel

end Verif
