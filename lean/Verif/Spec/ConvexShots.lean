import Verif.Spec.ConvexLocal
import Verif.Spec.SolveShooting
/-!
# Convex problems for multiple shooting
-/
namespace Verif.Spec
open SolveDirect Set

/-- The running cost is continuous along every trajectory that is composed of two trajectories. -/
def SteadyCost (ops : Expr.Ops ℝ) (o : Ocp) (M : Mesh) (x0 p : List ℝ) (theta : List (List ℝ)) : Prop :=
  ∀ el < M.elements, ∀ b₁ b₂ X₁ X₂, ElementPath ops o M b₁ x0 p theta el X₁ →
    ElementPath ops o M b₂ x0 p theta el X₂ → ∀ t : ℝ,
      ContinuousOn (fun r => o.L.eval ops (partWay t (X₁ r) (X₂ r))) (Icc (nodeTime o M el) (nodeTime o M (el + 1)))

/-- A decision such that no decision near it costs less. -/
structure LocallyBestShots (ops : Expr.Ops ℝ) (o : Ocp) (M : Mesh) (x0 p : List ℝ) (theta : List (List ℝ))
    (lastU : Option (List ℝ)) (sum : Bool) (b : Blocks ℝ) (X : Nat → ℝ → Sym → ℝ) : Prop extends
    ShotDecision ops o M x0 p theta lastU sum b X where
  local_best : ∃ eps, 0 < eps ∧ ∀ b' X', ShotDecision ops o M x0 p theta lastU sum b' X' →
    Near eps (Layout.stacked b') (Layout.stacked b) → shotCost ops o M sum X ≤ shotCost ops o M sum X'

end Verif.Spec
