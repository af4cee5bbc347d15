import Verif.Spec.Diff
import Verif.Lemmas.Expr
import Mathlib.Analysis.Calculus.Deriv.Mul
import Mathlib.Analysis.Calculus.Deriv.Inv
import Mathlib.Analysis.Calculus.Deriv.Add
/-! Correctness of the symbolic derivative over the reals. -/
namespace Verif.Expr

/-- The derivative of an expression along a curve through `ρ` that moves one symbol only. -/
theorem hasDerivAt_diff (ops : Ops ℝ) (D : DiffTable) (ρ : Sym → ℝ) (s : Sym) (e : Expr)
    (h : SmoothAt ops D ρ e) :
    HasDerivAt (fun v => e.eval ops (Function.update ρ s v)) ((diff D s e).eval ops ρ) (ρ s) := by
  have hat : ∀ a : Expr, a.eval ops (Function.update ρ s (ρ s)) = a.eval ops ρ := by simp
  induction e with
  | const q => simpa [eval, diff] using hasDerivAt_const (ρ s) (q : ℝ)
  | sym r =>
    by_cases hr : r = s
    · subst hr; simpa [eval, diff] using hasDerivAt_id' (ρ r)
    · simpa [eval, diff, hr, Function.update_of_ne] using hasDerivAt_const (ρ s) (ρ r)
  | neg a ih => simpa [eval, diff] using (ih h).fun_neg
  | add a b iha ihb => simpa [eval, diff] using (iha h.1).fun_add (ihb h.2)
  | sub a b iha ihb => simpa [eval, diff] using (iha h.1).fun_sub (ihb h.2)
  | mul a b iha ihb =>
    have := (iha h.1).fun_mul (ihb h.2)
    simpa [eval, diff] using this
  | div a b iha ihb =>
    have := (iha h.1).fun_div (ihb h.2.1) (by rw [hat]; exact h.2.2)
    simpa [eval, diff, pow_two] using this
  | un o a ih =>
    have h2 : HasDerivAt (ops.un o) ((D.un o a).eval ops ρ)
        (a.eval ops (Function.update ρ s (ρ s))) := by rw [hat]; exact h.2
    have := h2.comp (ρ s) (ih h.1)
    simpa [eval, diff, Function.comp_def] using this
  | bin o a b iha ihb =>
    have := h.2.2 _ _ _ _ _ (hat a) (hat b) (iha h.1) (ihb h.2.1)
    simpa [eval, diff] using this

theorem gradient_length (D : DiffTable) (v : List Sym) (e : Expr) :
    (gradient D v e).length = v.length := by simp [gradient]

end Verif.Expr
