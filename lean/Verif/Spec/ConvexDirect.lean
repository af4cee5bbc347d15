import Verif.Spec.SolveDirect
/-!
# Convex problems for direct methods
-/
namespace Verif.Spec
open SolveDirect

variable {K : Type} [Field K]

/-- Values that agree on what is given: the time, the parameters and the initial state. -/
def SameGiven (o : Ocp) (ρ₁ ρ₂ : Sym → K) : Prop :=
  ∀ s ∈ [o.model.t, o.model.tau] ++ o.model.p ++ o.model.theta ++ o.model.x0, ρ₁ s = ρ₂ s

/-- The values at a part `t` of the way from `ρ₁` to `ρ₂`. -/
def partWay (t : K) (ρ₁ ρ₂ : Sym → K) : Sym → K := fun s => (1 - t) * ρ₁ s + t * ρ₂ s

variable [LinearOrder K]

/-- The expression is affine in what is not given. -/
def AffineExpr (ops : Expr.Ops K) (o : Ocp) (e : Expr) : Prop :=
  ∀ t ρ₁ ρ₂, 0 ≤ t → t ≤ 1 → SameGiven o ρ₁ ρ₂ →
    e.eval ops (partWay t ρ₁ ρ₂) = (1 - t) * e.eval ops ρ₁ + t * e.eval ops ρ₂

/-- The expression is a convex function of what is not given. -/
def ConvexExpr (ops : Expr.Ops K) (o : Ocp) (e : Expr) : Prop :=
  ∀ t ρ₁ ρ₂, 0 ≤ t → t ≤ 1 → SameGiven o ρ₁ ρ₂ →
    e.eval ops (partWay t ρ₁ ρ₂) ≤ (1 - t) * e.eval ops ρ₁ + t * e.eval ops ρ₂

/-- A convex problem: the equations are affine, the inequalities and the costs are convex. -/
structure ConvexExprs (ops : Expr.Ops K) (o : Ocp) : Prop where
  affine : ∀ e ∈ o.model.odeVec ++ o.model.alg ++ o.gEq ++ o.hInitial ++ o.hFinal ++ o.h, AffineExpr ops o e
  convex : ∀ e ∈ o.gIneq ++ [o.L, o.S, o.V], ConvexExpr ops o e

end Verif.Spec
