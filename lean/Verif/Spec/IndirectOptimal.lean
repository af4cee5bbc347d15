import Verif.Spec.Indirect
import Verif.Spec.Diff
/-!
# Hamiltonians that are quadratic in the controls
-/
namespace Verif
open Spec

/-- What the theorem asks of the Hamiltonian `H` at a point: as a function of the controls it is the
quadratic function with coefficients `c`, `g`, `A`, and it and its first derivatives have derivatives
there. -/
structure Spec.QuadraticInControls (ops : Expr.Ops ℝ) (D : Expr.DiffTable) (H : Expr) (u : List Sym)
    (ρ : Sym → ℝ) (c : ℝ) (g : Fin u.length → ℝ)
    (A : Matrix (Fin u.length) (Fin u.length) ℝ) : Prop where
  value : ∀ w, H.eval ops (assign u w ρ) = quadratic c g A w
  smooth : ∀ w, H.SmoothAt ops D (assign u w ρ)
  smooth' : ∀ w, ∀ s ∈ u, (Expr.diff D s H).SmoothAt ops D (assign u w ρ)

/-- Control `i` has a bound. -/
def Spec.HasBound (o : Ocp) (i : Nat) : Prop := o.uMin[i]? ≠ some ⊥ ∨ o.uMax[i]? ≠ some ⊤

/-- The matrix `A` (the Hessian) does not couple a control that has a bound with another control. In
particular it does not if it is diagonal, or if there are no bounds. -/
def Spec.BoundsUncoupled (o : Ocp)
    (A : Matrix (Fin o.model.u.length) (Fin o.model.u.length) ℝ) : Prop :=
  ∀ i j : Fin o.model.u.length, i ≠ j → HasBound o i → A i j = 0

end Verif
