import Verif.Spec.AugLagConvex
import Verif.Spec.SolveAugLag
/-!
# The relaxed program of a direct method
-/
namespace Verif.Spec
open SolveDirect

variable {K : Type} [Field K] [LinearOrder K]

/-- The weights of the quadrature of the collocation points, for an element of length one. -/
def QuadratureWeights (M : Mesh) (w : Nat → K) : Prop :=
  ∀ f : Polynomial K, f.natDegree ≤ M.roots.length → f.eval 1 = f.eval 0 +
    ∑ j ∈ Finset.range M.roots.length, w j * f.derivative.eval ((inField M.roots).getD j 0)

/-- What the augmented Lagrangian leaves of the user's problem: the decisions that satisfy everything but
the relaxed equations, with the freed variables as smooth as controls, the cost of the user, and the
residuals of the relaxed equations. -/
noncomputable def relaxedProgram (ops : Expr.Ops K) (o : Ocp) (a : Relax.Args) (M : Mesh) (x0 p : List K)
    (theta : List (List K)) : RelaxedProgram K where
  Point := Blocks K × (Nat → K → Sym → K)
  feasible := fun x => Decision ops (withoutEquations o (a.alg o)) M x0 p theta none x.1 x.2 ∧
    ControlLike M (a.algVar o) x.1
  cost := fun x => directCost ops o M x.1 x.2
  residual := fun x el j i => ((entriesAt o.model.alg (a.alg o)).map
    (Expr.eval ops (x.2 el ((inField M.roots).getD j 0)))).getD i 0

/-- Every relaxed problem with positive penalties has a solution. -/
def RelaxedSolvable (P : RelaxedProgram K) (al : AugLag.Opts K) (w : Nat → K) : Prop :=
  ∀ nu mu, mu.length = al.nRelax → (∀ m ∈ mu, 0 < m) →
    ∃ x, P.feasible x ∧ ∀ y, P.feasible y → augmentedCost P al w nu mu x ≤ augmentedCost P al w nu mu y

end Verif.Spec
