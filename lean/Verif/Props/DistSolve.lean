import Verif.Lemmas.DistSolve
import Mathlib.Algebra.Order.Ring.Rat
/-!
# C145: the solution of a network by outer and inner iterations
-/
namespace Verif
open Spec DistAL

variable {N R S K : Type} [DecidableEq N] [Field K] [LinearOrder K]

/-- A returned solution comes from a sequence of at most `max_iter_outer` outer iterations, at least
one. No iteration but the last met the tolerance. Fewer than `max_iter_outer` iterations are made only
when the last one met it. The reported results, violations and number are those of the last
iteration. -/
theorem C145_stops (c : Setup N R S K) (s : S) (sol : Solution N R K) (h : c.solve s = .ok sol) :
    ∃ k x e, Iterations c s k x e ∧ 0 < k ∧ k ≤ c.maxOuter ∧
      (∀ i, i + 1 < k → c.absTol ≤ e i) ∧ (k < c.maxOuter → e (k - 1) < c.absTol) ∧
      LargestEntry sol.violations (e (k - 1)) ∧
      sol.results = (x k).last ∧ sol.violations = (x k).errors.map Prod.snd ∧
      sol.blockIterations = (x k).blockIterations ∧ sol.inner = (x k).innerIt ∧
      sol.outer + 1 = k ∧ sol.objective = sumOfObjectives c.nodes sol.results c.objective := by
  simp only [Setup.solve, bind, Except.bind] at h
  cases h₁ : c.outer c.maxOuter 0 { methods := s, last := fun _ => none } with
  | error e => rw [h₁] at h; cases h
  | ok l =>
    rw [h₁] at h
    simp only [Setup.finish] at h
    split at h
    · cases h
    rename_i hne
    cases h
    obtain ⟨k, hk, x, e, x₀, hs, ht, hl, rfl⟩ := outer_ok h₁
    have hk₀ : 0 < k := by
      by_contra hk₀
      have : k = 0 := by omega
      subst this
      rw [x₀] at hne
      exact hne rfl
    obtain ⟨j, rfl⟩ : ∃ j, k = j + 1 := ⟨k - 1, by omega⟩
    have hj := hs j (by omega)
    rw [Nat.zero_add] at hj
    obtain ⟨l₁, s', hin, -, hx, hlarge⟩ := outerStep_ok hj
    refine ⟨j + 1, x, e, ⟨x₀, fun i hi => by simpa using hs i hi⟩, hk₀, hk, ht, ?_, hlarge, rfl, rfl, rfl,
      rfl, ?_, total_eq _ _⟩
    · intro hlt
      rcases hl with h | h
      · omega
      · exact h.2
    · show (x (j + 1)).outerIt + 1 = _
      rw [hx, (inner_ok hin).2.2.1]
      simp

/-- When fewer than `max_iter_outer` outer iterations are reported to be enough, every reported
violation is below `abs_tol`. -/
theorem C145_tolerance (c : Setup N R S K) (s : S) (sol : Solution N R K) (h : c.solve s = .ok sol)
    (ho : sol.outer + 1 < c.maxOuter) : ∀ r ∈ sol.violations, ∀ v ∈ r, v < c.absTol := by
  obtain ⟨k, x, e, -, -, -, -, hk, hl, -, -, -, -, hout, -⟩ := C145_stops c s sol h
  intro r hr v hv
  exact lt_of_le_of_lt (hl.2 r hr v hv) (hk (by omega))

/-- Every reported result was given by the solver for that node. -/
theorem C145_results (c : Setup N R S K) (s : S) (sol : Solution N R K) (h : c.solve s = .ok sol)
    (n : N) (r : R) (hr : sol.results n = some r) : SolvedBy c n r := by
  obtain ⟨k, x, e, hi, -, -, -, -, -, hres, -⟩ := C145_stops c s sol h
  have key : ∀ i ≤ k, ∀ n r, (x i).last n = some r → SolvedBy c n r := by
    intro i
    induction i with
    | zero => intro _ n r hx; rw [hi.first] at hx; cases hx
    | succ i ih =>
      intro hik
      obtain ⟨l₁, s', hin, -, hx, -⟩ := outerStep_ok (hi.step i (by omega))
      have := inner_results (fun last => ∀ n r, last n = some r → SolvedBy c n r)
        (fun s it last => solveNodes_solved c s it last) hin (ih (by omega))
      rw [hx]
      exact this
  rw [hres] at hr
  exact key k le_rfl n r hr

/-- With the blocks taken in their order and at least one inner iteration, a node of the blocks that can
always be solved has a result. -/
theorem C145_complete (c : Setup N R S K) (s : S) (sol : Solution N R K) (h : c.solve s = .ok sol)
    (hm : c.method = "cyclic") (hin : 0 < innerLimit c.maxInner c.maxInnerFirst 0) (n : N)
    (hn : n ∈ c.blocks.flatten) (hs : ∀ s last, (c.solver s n last).isSome) :
    (sol.results n).isSome := by
  obtain ⟨k, x, e, hi, hk, -, -, -, -, hres, -⟩ := C145_stops c s sol h
  have first : ((x 1).last n).isSome := by
    obtain ⟨l₁, s', hinner, -, hx, -⟩ := outerStep_ok (hi.step 0 hk)
    rw [hx]
    obtain ⟨m, hlim⟩ : ∃ m, innerLimit c.maxInner c.maxInnerFirst 0 = m + 1 := ⟨innerLimit c.maxInner c.maxInnerFirst 0 - 1, by omega⟩
    rw [hlim] at hinner
    simp only [Setup.inner, Setup.innerStep, hm, blockIterator, bind, Except.bind, if_true] at hinner
    have hsome := solveNodes_all c (x 0).methods c.blocks (x 0).last n hn hs
    split at hinner
    · cases hinner
      exact hsome
    · have := inner_results (fun last => (last n).isSome)
        (fun s it last hl => solveNodes_keeps c s it last n hl) hinner
      exact this hsome
  have key : ∀ i, 1 ≤ i → i ≤ k → ((x i).last n).isSome := by
    intro i h1
    induction i, h1 using Nat.le_induction with
    | base => intro _; exact first
    | succ i h1 ih =>
      intro hik
      obtain ⟨l₁, s', hinner, -, hx, -⟩ := outerStep_ok (hi.step i (by omega))
      have := inner_results (fun last => (last n).isSome)
        (fun s it last hl => solveNodes_keeps c s it last n hl) hinner (ih (by omega))
      rw [hx]
      exact this
  rw [hres]
  exact key k hk le_rfl

/-- The reported number of block iterations is the number of blocks times a number of inner iterations,
which is between the number of outer iterations and what the limits allow. -/
theorem C145_blockIterations (c : Setup N R S K) (s : S) (sol : Solution N R K)
    (h : c.solve s = .ok sol) : ∃ t : Nat, sol.blockIterations = c.blocks.length * t ∧
      (t : Int) ≤ (sol.outer + 1) * max c.maxInner (c.maxInnerFirst.getD 0) ∧
      (0 < c.maxInner → sol.outer + 1 ≤ t) := by
  obtain ⟨k, x, e, hi, hk, -, -, -, -, -, -, hb, -, hout, -⟩ := C145_stops c s sol h
  have key : ∀ i ≤ k, (x i).blockIterations = c.blocks.length * (x i).total ∧
      (x i).total ≤ i * max c.maxInner (c.maxInnerFirst.getD 0) ∧
      (0 < c.maxInner → i ≤ (x i).total) := by
    intro i
    induction i with
    | zero => intro _; rw [hi.first]; simp
    | succ i ih =>
      intro hik
      obtain ⟨l₁, s', hinner, -, hx, -⟩ := outerStep_ok (hi.step i (by omega))
      obtain ⟨-, -, -, j, hj, hj₁, hj₂, hj₃, -⟩ := inner_ok hinner
      obtain ⟨i₁, i₂, i₃⟩ := ih (by omega)
      have e₁ : (x (i + 1)).total = (x i).total + j := by rw [hx]; exact hj₁
      have e₂ : (x (i + 1)).blockIterations = (x i).blockIterations + c.blocks.length * j := by
        rw [hx]; exact hj₂
      have hlim : innerLimit c.maxInner c.maxInnerFirst i ≤
          max c.maxInner (c.maxInnerFirst.getD 0) := by
        unfold innerLimit
        cases c.maxInnerFirst <;> simp
        split <;> omega
      refine ⟨?_, ?_, ?_⟩
      · rw [e₁, e₂, i₁, Nat.mul_add]
      · rw [e₁, Nat.succ_mul]; omega
      · intro h₁
        have hpos : 0 < innerLimit c.maxInner c.maxInnerFirst i := by
          unfold innerLimit
          cases hf : c.maxInnerFirst with
          | none => simpa using h₁
          | some f =>
            simp only
            split <;> omega
        have := hj₃ hpos
        have := i₃ h₁
        omega
  obtain ⟨k₁, k₂, k₃⟩ := key k le_rfl
  refine ⟨(x k).total, by rw [hb, k₁], ?_, ?_⟩
  · rw [hout]; exact_mod_cast k₂
  · intro h₁; rw [hout]; exact_mod_cast k₃ h₁

/-- The reported numbers of iterations are the last indices, one less than the counts: one outer
iteration is reported as zero, and the inner number counts the last outer iteration only. -/
theorem C145_counts_fails (c : Setup N R S K) (s : S) (sol : Solution N R K)
    (h : c.solve s = .ok sol) (ho : c.maxOuter = 1) (hi : c.maxInner = 1)
    (hf : c.maxInnerFirst = none) : sol.outer = 0 ∧ sol.inner = 0 := by
  obtain ⟨k, x, e, hit, hk, hk', -, -, -, -, -, -, hin, hout, -⟩ := C145_stops c s sol h
  have : k = 1 := by omega
  subst this
  refine ⟨by simpa using hout, ?_⟩
  obtain ⟨l₁, s', hinner, -, hx, -⟩ := outerStep_ok (hit.step 0 hk)
  obtain ⟨-, -, -, j, hj, -, -, hj₃, hj₄⟩ := inner_ok hinner
  have hlim : innerLimit c.maxInner c.maxInnerFirst 0 = 1 := by rw [hf, hi]; rfl
  rw [hlim] at hj hj₃
  have hj₁ := hj₃ (by omega)
  have : j = 1 := by omega
  subst this
  rw [hin, hx]
  exact hj₄ (by omega)

/-- With no outer iteration allowed no solution is returned: `ValueError`. -/
theorem C145_none_fails (c : Setup N R S K) (s : S) (h : c.maxOuter = 0) :
    c.solve s = .error .valueError := by
  simp [Setup.solve, h, Setup.outer, Setup.finish, bind, Except.bind]

/-- An unknown `block_choice_method` is only noticed in the first inner iteration. -/
theorem C145_method (c : Setup N R S K) (s : S) (ho : 0 < c.maxOuter)
    (hi : 0 < innerLimit c.maxInner c.maxInnerFirst 0) (h₁ : c.method ≠ "cyclic")
    (h₂ : c.method ≠ "choices") (h₃ : c.method ≠ "sample") : c.solve s = .error .valueError := by
  obtain ⟨n, hn⟩ : ∃ n, c.maxOuter = n + 1 := ⟨c.maxOuter - 1, by omega⟩
  obtain ⟨m, hm⟩ : ∃ m, innerLimit c.maxInner c.maxInnerFirst 0 = m + 1 :=
    ⟨innerLimit c.maxInner c.maxInnerFirst 0 - 1, by omega⟩
  simp [Setup.solve, hn, Setup.outer, Setup.outerStep, hm, Setup.inner, Setup.innerStep,
    blockIterator, h₁, h₂, h₃, bind, Except.bind]

/-- When the update of the multipliers gives one error only, the loop stops with an exception even if
that error is zero: `max` is called with the single value. -/
theorem C145_single_fails (c : Setup N R S K) (s : S) (hm : c.method = "cyclic") (ho : 0 < c.maxOuter)
    (hu : ∀ s last, ∃ n e s', c.update s last = .ok ([(n, [e])], s')) :
    c.solve s = .error .exception := by
  obtain ⟨n, hn⟩ : ∃ n, c.maxOuter = n + 1 := ⟨c.maxOuter - 1, by omega⟩
  have hinner : ∀ n k o l, ∃ l', c.inner n k o l = .ok l' := by
    intro n
    induction n with
    | zero => intro k o l; exact ⟨l, rfl⟩
    | succ n ih =>
      intro k o l
      simp only [Setup.inner, Setup.innerStep, blockIterator, hm, if_true, bind, Except.bind]
      split
      · exact ⟨_, rfl⟩
      · exact ih _ _ _
  obtain ⟨l', hl'⟩ := hinner (innerLimit c.maxInner c.maxInnerFirst 0) 0 none
    { methods := s, last := fun _ => none, outerIt := (0 : Nat) }
  obtain ⟨m, e, s', hu'⟩ := hu l'.methods l'.last
  simp only [Setup.solve, hn, Setup.outer, Setup.outerStep, hl', hu', maxStar, bind, Except.bind,
    List.flatMap_cons, List.flatMap_nil, List.append_nil]

namespace DistAL
/-- Two nodes: the problem of the first has the objective 2, the errors after the first update are 1,
then 0. The second node can be solved or not. -/
def exampleSetup (second : Bool) (maxOuter : Nat) : Setup Nat Nat Nat Rat where
  nodes := [0, 1]
  blocks := [[0], [1]]
  method := "cyclic"
  choices := fun _ => []
  sample := fun _ => []
  distributed := false
  solver := fun s n _ => if n = 0 then some (2 + s) else if second then some 5 else none
  objective := fun r => r
  update := fun s last => .ok (([0, 1].filter fun n => (last n).isSome).map fun n =>
    (n, if s = 0 then [1, 1/2] else [0, 0]), s + 1)
  maxOuter := maxOuter
  maxInner := 1
  maxInnerFirst := some 3
  innerTol := 1/10
  absTol := 1/100

/-- What of a solution can be compared. -/
def Solution.summary (sol : Solution Nat Nat Rat) :
    List (Option Nat) × Rat × Int × Int × Nat × List (List Rat) :=
  ([0, 1].map sol.results, sol.objective, sol.inner, sol.outer, sol.blockIterations, sol.violations)

end DistAL

set_option synthInstance.maxSize 512

/-- A node without a result is not noticed: the solution is returned with the tolerance met although
the second node was never solved, and its objective is missing in the sum. -/
theorem C145_missing_fails : ∃ (c : Setup Nat Nat Nat Rat) (s : Nat) (sol : Solution Nat Nat Rat),
    c.solve s = .ok sol ∧ sol.outer + 1 < c.maxOuter ∧ 1 ∈ c.nodes ∧ sol.results 1 = none ∧
      sol.objective = 3 := by
  have h : ((exampleSetup false 5).solve 0).toOption.map Solution.summary =
      some ([some 3, none], 3, 0, 1, 6, [[0, 0]]) := by decide +kernel
  cases hs : (exampleSetup false 5).solve 0 with
  | error e => rw [hs] at h; cases h
  | ok sol =>
    rw [hs] at h
    simp only [Except.toOption, Option.map_some, Option.some.injEq, Solution.summary, List.map_cons, List.map_nil,
      Prod.mk.injEq, List.cons.injEq, and_true] at h
    exact ⟨exampleSetup false 5, 0, sol, hs, by rw [h.2.2.2.1]; decide, by decide, h.1.2, h.2.1⟩

/-- Two outer iterations for a solvable network: reported as 1. -/
example : ((exampleSetup true 5).solve 0).toOption.map Solution.summary =
    some ([some 3, some 5], 8, 0, 1, 6, [[0, 0], [0, 0]]) := by decide +kernel

/-- The limit of iterations is reached: the violations are those of the last iteration. -/
example : ((exampleSetup true 1).solve 0).toOption.map Solution.summary =
    some ([some 2, some 5], 7, 1, 0, 4, [[1, 1/2], [1, 1/2]]) := by decide +kernel

example : 0 < innerLimit (exampleSetup true 5).maxInner (exampleSetup true 5).maxInnerFirst 0 ∧
    (∀ s last, ((exampleSetup true 5).solver s 1 last).isSome) := ⟨by decide, fun _ _ => rfl⟩

example : ((({ exampleSetup true 1 with maxInner := 1, maxInnerFirst := none }).solve 0).toOption.map
    Solution.summary) = some ([some 2, some 5], 7, 0, 0, 2, [[1, 1/2], [1, 1/2]]) := by decide +kernel

example : ({ exampleSetup true 3 with update := fun s _ => .ok ([(0, [0])], s) } :
    Setup Nat Nat Nat Rat).solve 0 = .error .exception :=
  C145_single_fails _ _ rfl (by decide) fun s _ => ⟨0, 0, s, rfl⟩

example : ({ exampleSetup true 3 with method := "random" } : Setup Nat Nat Nat Rat).solve 0 =
    .error .valueError := C145_method _ _ (by decide) (by decide) (by decide) (by decide) (by decide)

end Verif
