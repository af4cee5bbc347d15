import Verif.Spec.AugLag
import Mathlib.Data.Finset.Prod
import Mathlib.Algebra.BigOperators.Group.Finset.Basic
/-!
# Convex problems for the augmented Lagrangian method

What is left of a problem when the relaxed equations are taken away: a set of points, a cost and the
residuals of the relaxed equations at the collocation points.
-/
namespace Verif.Spec
open Verif.AugLag

variable {K : Type} [Field K] [LinearOrder K]

/-- The points that satisfy the constraints that are not relaxed, the cost of a point, and the residual of
relaxed equation `i` at collocation point `j` of element `el`. -/
structure RelaxedProgram (K : Type) where
  Point : Type
  feasible : Point → Prop
  cost : Point → K
  residual : Point → Nat → Nat → Nat → K

/-- Convex: at a part `t` of the way from one feasible point to another there is a feasible point. It
costs at most the part of the way from one cost to the other, and its residuals are that part of the way
from the residuals of the one to those of the other. -/
def RelaxedProgram.Convex (P : RelaxedProgram K) (o : Opts K) : Prop :=
  ∀ t x y, 0 ≤ t → t ≤ 1 → P.feasible x → P.feasible y → ∃ z, P.feasible z ∧
    P.cost z ≤ (1 - t) * P.cost x + t * P.cost y ∧
    ∀ el < o.elements, ∀ j < o.degree, ∀ i < o.nRelax,
      P.residual z el j i = (1 - t) * P.residual x el j i + t * P.residual y el j i

/-- The sum over all elements, collocation points and relaxed equations. -/
def total (o : Opts K) (F : Nat → Nat → Nat → K) : K :=
  ∑ q ∈ Finset.range o.elements ×ˢ Finset.range o.degree ×ˢ Finset.range o.nRelax, F q.1 q.2.1 q.2.2

/-- The value of a multiplier at a collocation point. -/
def multiplierAt (o : Opts K) (nu : List (List K)) (el j i : Nat) : K :=
  (multiplier o nu el (pointTime o el j) i).getD 0

/-- The cost of the relaxed problem: `w j` are the weights of the integral over an element. -/
def augmentedCost (P : RelaxedProgram K) (o : Opts K) (w : Nat → K) (nu : List (List K)) (mu : List K)
    (x : P.Point) : K :=
  P.cost x + total o fun el j i => w j * (multiplierAt o nu el j i * P.residual x el j i +
    mu.getD i 0 * P.residual x el j i ^ 2 / 2)

/-- `viol` are the violations at a solution `x` of the relaxed problem. -/
structure SolvesRelaxed (P : RelaxedProgram K) (o : Opts K) (w : Nat → K) (nu : List (List K)) (mu : List K)
    (viol : List (List (List K))) (x : P.Point) : Prop where
  feasible : P.feasible x
  violations : Violations o viol
  shows : ∀ el < o.elements, ∀ j < o.degree, ∀ i < o.nRelax,
    violation viol el j i = some (P.residual x el j i)
  optimal : ∀ y, P.feasible y → augmentedCost P o w nu mu x ≤ augmentedCost P o w nu mu y

/-- The solver of the relaxed problem always finds a solution if the penalties are positive. -/
def OptimalSolver (P : RelaxedProgram K) (o : Opts K) (w : Nat → K) (solve : Solver K) : Prop :=
  ∀ nu mu k, mu.length = o.nRelax → (∀ m ∈ mu, 0 < m) →
    ∃ viol x, solve nu mu k = .ok viol ∧ SolvesRelaxed P o w nu mu viol x

/-- `best` is a solution of the problem and `lam` are multipliers for it: it satisfies the relaxed
equations, and taking them away with these prices makes nothing cheaper. -/
structure SolutionWith (P : RelaxedProgram K) (o : Opts K) (w : Nat → K) (lam : Nat → Nat → Nat → K)
    (best : P.Point) : Prop where
  feasible : P.feasible best
  exact : ∀ el < o.elements, ∀ j < o.degree, ∀ i < o.nRelax, P.residual best el j i = 0
  least : ∀ y, P.feasible y →
    P.cost best ≤ P.cost y + total o fun el j i => w j * (lam el j i * P.residual y el j i)

/-- How far multipliers are from those of the solution. -/
def multiplierGap (o : Opts K) (w : Nat → K) (lam : Nat → Nat → Nat → K) (nu : List (List K))
    (mu : List K) : K :=
  total o fun el j i => w j * ((multiplierAt o nu el j i - lam el j i) ^ 2 / mu.getD i 0)

/-- The method computes the violations and updates the multipliers, the penalties do not decrease. -/
structure Converging (o : Opts K) : Prop where
  discretised : Discretised o
  computes : o.skipCompute = false
  updates : o.skipUpdateNu = false
  always : o.onlyImprove = false
  rule : o.skipUpdateMu = true ∨ o.rule ∈ ["constant", "primal", "primal-dual", "bounded-increase"]
  beta : 1 ≤ o.beta
  tol : 0 < o.tol

end Verif.Spec
