import Verif.Lemmas.AugLagConvex
import Mathlib.Algebra.Order.Archimedean.Basic
/-!
# C190: for convex problems the augmented Lagrangian meets its tolerance
-/
namespace Verif
open Spec AugLag

variable {K : Type} [Field K] [LinearOrder K] [IsStrictOrderedRing K]

/-- The loop, from any state with positive penalties: if the relaxed problems of a convex problem are
solved and the problem has a solution with multipliers, there is a number of iterations (the distance of
the multipliers from those of the solution, divided by what every iteration takes off it) within which
the violations are below the tolerance. The cost is then close to the smallest one, and how close depends
on the tolerance, the multipliers of the solution and the distance at the start only. -/
theorem C190_loop (P : RelaxedProgram K) (o : Opts K) (w : Nat → K) (solve : Solver K)
    (lam : Nat → Nat → Nat → K) (best : P.Point) (w0 m0 V : K) (s : St K)
    (h : Converging o) (hc : P.Convex o) (hw0 : 0 < w0) (hw : ∀ j < o.degree, w0 ≤ w j)
    (hsolve : OptimalSolver P o w solve) (hb : SolutionWith P o w lam best)
    (hm0 : 0 < m0) (hcount : s.mu.length = o.nRelax) (hmu : ∀ m ∈ s.mu, m0 ≤ m ∧ m ≤ o.muMax)
    (hV : multiplierGap o w lam (s.nuTilde.getD s.nu) s.mu ≤ V)
    (hn : V < o.maxIter * (w0 * (m0 * o.tol ^ 2))) :
    ∃ viol s' e x, callSolver o false solve s = (.ok viol, s') ∧ s'.lastError = some e ∧ Met o e ∧
      P.feasible x ∧
      (∀ el < o.elements, ∀ j < o.degree, ∀ i < o.nRelax,
        violation viol el j i = some (P.residual x el j i) ∧ |P.residual x el j i| < o.tol) ∧
      P.cost best ≤ P.cost x + o.tol * (total o fun el j i => w j * |lam el j i|) ∧
      ∀ B, 0 ≤ B → V * o.muMax ≤ w0 * B ^ 2 →
        P.cost x ≤ P.cost best + o.tol * total o fun el j i => w j * (|lam el j i| + B) := by
  have hg : Going o m0 s := ⟨hcount, fun v hv => ⟨hm0.trans_le (hmu v hv).1, (hmu v hv).2⟩, fun i hi => by
    rw [List.getD_eq_getElem?_getD, List.getElem?_eq_getElem (by omega), Option.getD_some]
    exact (hmu _ (List.getElem_mem _)).1⟩
  obtain ⟨viol, s', hrun, ⟨⟨e, he, rfl, hmet⟩, nu, mu, x, hl, hmu', hs, hgap⟩⟩ := iterations_end h hc hw0 hm0 hw
    hsolve hb o.maxIter s 0 none V hg hV hn
  have hsmall := hs.residual_lt hmet
  obtain ⟨hlow, hhigh⟩ := hs.cost_near hw0 hw hl hmu' hb h.tol hsmall hgap
  exact ⟨viol, s', _, x, by unfold callSolver; rw [Py.bind_ok hrun]; rfl, he, hmet, hs.feasible,
    fun el hel j hj i hi => ⟨hs.shows el hel j hj i hi, hsmall el hel j hj i hi⟩, hlow, hhigh⟩

/-- A new object: some number of iterations is enough, and so is every larger one. -/
theorem C190_enough [Archimedean K] (P : RelaxedProgram K) (o : Opts K) (w : Nat → K) (solve : Solver K)
    (lam : Nat → Nat → Nat → K) (best : P.Point) (w0 mu0 : K)
    (h : Converging o) (hc : P.Convex o) (hw0 : 0 < w0) (hw : ∀ j < o.degree, w0 ≤ w j)
    (hsolve : OptimalSolver P o w solve) (hb : SolutionWith P o w lam best)
    (hmu0 : 0 < mu0) (hmax : mu0 ≤ o.muMax) :
    ∃ N : Nat, ∀ n ≥ N, ∃ viol s' e, callSolver { o with maxIter := n } false solve (start o mu0) = (.ok viol, s') ∧
      s'.lastError = some e ∧ Met o e := by
  have hstep : 0 < w0 * (mu0 * o.tol ^ 2) := by have := h.tol; positivity
  obtain ⟨N, hN⟩ := Archimedean.arch (multiplierGap o w lam (start o mu0).nu (start o mu0).mu) hstep
  refine ⟨N + 1, fun n hn => ?_⟩
  obtain ⟨viol, s', e, x, h₁, h₂, h₃, -⟩ := C190_loop P { o with maxIter := n } w solve lam best w0 mu0
    (multiplierGap o w lam (start o mu0).nu (start o mu0).mu) (start o mu0)
    ⟨⟨h.discretised.1, h.discretised.2, h.discretised.3, h.discretised.4, h.discretised.5⟩, h.computes,
      h.updates, h.always, h.rule, h.beta, h.tol⟩ hc hw0 hw
    (fun nu mu k hl hm => by
      obtain ⟨viol, x, e₁, e₂⟩ := hsolve nu mu k hl hm
      exact ⟨viol, x, e₁, e₂.1, e₂.2, e₂.3, e₂.4⟩) ⟨hb.1, hb.2, hb.3⟩ hmu0 (by simp [start])
    (by
      intro m hm
      obtain rfl := List.eq_of_mem_replicate hm
      exact ⟨le_rfl, hmax⟩) le_rfl (by
      show _ < (n : K) * _
      rw [nsmul_eq_mul] at hN
      have hc : (N : K) + 1 ≤ (n : K) := by exact_mod_cast hn
      have := mul_le_mul_of_nonneg_right hc hstep.le
      linarith)
  exact ⟨viol, s', e, h₁, h₂, h₃⟩

/-! ## Example: the distance from 1, with an equation that wants 0 -/

namespace Example

/-- Two Radau points, one element, one equation. -/
def tugOpts : Opts Rat where
  roots := fun _ => [1 / 3, 1]
  t0 := 0
  tf := 1
  nRelax := 1
  nuDegree := 2
  degree := 2
  elements := 1
  maxIter := 100
  tol := 1 / 2
  muMax := 10
  beta := 2
  minDecrease := 1 / 2

/-- The weights of the points. -/
def tugWeight (j : Nat) : Rat := if j = 0 then 3 / 4 else 1 / 4

/-- A value at every point, the cost is the square of its distance from 1, and it should be 0. -/
def tug : RelaxedProgram Rat where
  Point := Nat → Rat
  feasible := fun _ => True
  cost := fun x => 3 / 4 * (x 0 - 1) ^ 2 + 1 / 4 * (x 1 - 1) ^ 2
  residual := fun x _ j _ => x j

theorem tug_convex : tug.Convex tugOpts := by
  intro t x y h0 h1 _ _
  refine ⟨fun j => (1 - t) * x j + t * y j, trivial, ?_, fun _ _ _ _ _ _ => rfl⟩
  show 3 / 4 * ((1 - t) * x 0 + t * y 0 - 1) ^ 2 + 1 / 4 * ((1 - t) * x 1 + t * y 1 - 1) ^ 2 ≤
    (1 - t) * (3 / 4 * (x 0 - 1) ^ 2 + 1 / 4 * (x 1 - 1) ^ 2) +
      t * (3 / 4 * (y 0 - 1) ^ 2 + 1 / 4 * (y 1 - 1) ^ 2)
  have h₁ : 0 ≤ t * (1 - t) := mul_nonneg h0 (by linarith)
  have h₂ := mul_nonneg h₁ (sq_nonneg (x 0 - y 0))
  have h₃ := mul_nonneg h₁ (sq_nonneg (x 1 - y 1))
  linarith

theorem tug_converging : Converging tugOpts where
  discretised := ⟨rfl, rfl, by decide +kernel, by decide, by decide +kernel⟩
  computes := rfl
  updates := rfl
  always := rfl
  rule := .inr (by decide)
  beta := by decide +kernel
  tol := by decide +kernel

theorem tug_total (F : Nat → Nat → Nat → Rat) : total tugOpts F = F 0 0 0 + F 0 1 0 := by
  unfold total
  rw [Finset.sum_product]
  simp [tugOpts, Finset.sum_product, Finset.sum_range_succ]

/-- The solution of the relaxed problem at a point. -/
def tugValue (nu : List (List Rat)) (mu : List Rat) (j : Nat) : Rat :=
  (2 - multiplierAt tugOpts nu 0 j 0) / (2 + mu.getD 0 0)

/-- The solver. -/
def tugSolver : Solver Rat := fun nu mu _ => .ok [[[tugValue nu mu 0], [tugValue nu mu 1]]]

/-- A quadratic function and its minimum. -/
theorem tug_least (m v y : Rat) (hm : 0 < m) :
    ((2 - v) / (2 + m) - 1) ^ 2 + (v * ((2 - v) / (2 + m)) + m * ((2 - v) / (2 + m)) ^ 2 / 2) ≤
      (y - 1) ^ 2 + (v * y + m * y ^ 2 / 2) := by
  have hx : (2 + m) * ((2 - v) / (2 + m)) = 2 - v := by
    field_simp
  generalize (2 - v) / (2 + m) = x at hx
  have := mul_nonneg (show (0 : Rat) ≤ 1 + m / 2 by linarith) (sq_nonneg (y - x))
  have h₂ : v = 2 - (2 + m) * x := by linarith
  subst h₂
  linarith

theorem tug_solves : OptimalSolver tug tugOpts tugWeight tugSolver := by
  intro nu mu k hl hmu
  obtain ⟨m, rfl⟩ := List.length_eq_one_iff.1 hl
  have hm : 0 < m := hmu m (by simp)
  refine ⟨_, tugValue nu [m], rfl, trivial, ?_, ?_, ?_⟩
  · intro el hel j hj
    have hel' : el < 1 := hel
    have hj' : j < 2 := hj
    obtain rfl : el = 0 := by omega
    match j, hj' with
    | 0, _ => exact ⟨_, _, rfl, rfl, rfl⟩
    | 1, _ => exact ⟨_, _, rfl, rfl, rfl⟩
  · intro el hel j hj i hi
    have hel' : el < 1 := hel
    have hj' : j < 2 := hj
    have hi' : i < 1 := hi
    obtain rfl : el = 0 := by omega
    obtain rfl : i = 0 := by omega
    match j, hj' with
    | 0, _ => rfl
    | 1, _ => rfl
  · intro y _
    unfold augmentedCost
    rw [tug_total, tug_total]
    have h₁ := tug_least m (multiplierAt tugOpts nu 0 0 0) (y 0) hm
    have h₂ := tug_least m (multiplierAt tugOpts nu 0 1 0) (y 1) hm
    simp only [tug, tugWeight, tugValue, List.getD_cons_zero, if_true, one_ne_zero, if_false]
    linarith

theorem tug_solution : SolutionWith tug tugOpts tugWeight (fun _ _ _ => 2) (fun _ => 0) where
  feasible := trivial
  exact := fun _ _ _ _ _ _ => rfl
  least := by
    intro y _
    rw [tug_total]
    simp only [tug, tugWeight, if_true, one_ne_zero, if_false]
    have h₁ := sq_nonneg (y 0)
    have h₂ := sq_nonneg (y 1)
    linarith

theorem tug_gap : multiplierGap tugOpts tugWeight (fun _ _ _ => 2) (start tugOpts (1 : Rat)).nu
    (start tugOpts (1 : Rat)).mu = 4 := by
  unfold multiplierGap
  rw [tug_total]
  decide +kernel

end Example

/-- A hundred iterations are enough for the example. -/
example : ∃ viol s' e, callSolver Example.tugOpts false Example.tugSolver (start Example.tugOpts 1) = (.ok viol, s') ∧
    s'.lastError = some e ∧ Met Example.tugOpts e := by
  obtain ⟨viol, s', e, -, h₁, h₂, h₃, -⟩ := C190_loop Example.tug Example.tugOpts Example.tugWeight
    Example.tugSolver (fun _ _ _ => 2) (fun _ => 0) (1 / 4) (1 : Rat) 4 (start Example.tugOpts 1)
    Example.tug_converging Example.tug_convex (by norm_num) (by decide +kernel) Example.tug_solves
    Example.tug_solution (by norm_num) rfl (by decide +kernel) Example.tug_gap.le (by norm_num [Example.tugOpts])
  exact ⟨viol, s', e, h₁, h₂, h₃⟩

example : ∃ N : Nat, ∀ n ≥ N, ∃ viol s' e,
    callSolver { Example.tugOpts with maxIter := n } false Example.tugSolver (start Example.tugOpts 1) =
      (.ok viol, s') ∧ s'.lastError = some e ∧ Met Example.tugOpts e :=
  C190_enough Example.tug Example.tugOpts Example.tugWeight Example.tugSolver (fun _ _ _ => 2) (fun _ => 0)
    (1 / 4) 1 Example.tug_converging Example.tug_convex (by norm_num) (by decide +kernel) Example.tug_solves
    Example.tug_solution (by norm_num) (by decide +kernel)

end Verif
