import Verif.Model.Diff
import Mathlib.Analysis.Calculus.Deriv.Basic
/-!
# Where an expression is differentiable
-/
namespace Verif.Expr

/-- The table lists the derivatives of the operators on an expression at a point, and the expression
divides by nothing that vanishes there: what is needed for its derivative to exist. -/
def SmoothAt (ops : Ops ℝ) (D : DiffTable) (ρ : Sym → ℝ) : Expr → Prop
  | const _ => True
  | sym _ => True
  | neg a => SmoothAt ops D ρ a
  | add a b => SmoothAt ops D ρ a ∧ SmoothAt ops D ρ b
  | sub a b => SmoothAt ops D ρ a ∧ SmoothAt ops D ρ b
  | mul a b => SmoothAt ops D ρ a ∧ SmoothAt ops D ρ b
  | div a b => SmoothAt ops D ρ a ∧ SmoothAt ops D ρ b ∧ b.eval ops ρ ≠ 0
  | un o a => SmoothAt ops D ρ a ∧
      HasDerivAt (ops.un o) ((D.un o a).eval ops ρ) (a.eval ops ρ)
  | bin o a b => SmoothAt ops D ρ a ∧ SmoothAt ops D ρ b ∧
      ∀ f g : ℝ → ℝ, ∀ f' g' t : ℝ, f t = a.eval ops ρ → g t = b.eval ops ρ →
        HasDerivAt f f' t → HasDerivAt g g' t →
        HasDerivAt (fun τ => ops.bin o (f τ) (g τ))
          ((D.bin₁ o a b).eval ops ρ * f' + (D.bin₂ o a b).eval ops ρ * g') t

end Verif.Expr
