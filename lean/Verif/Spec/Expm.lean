import Mathlib.Analysis.Calculus.Deriv.Basic
/-!
# Specification of exact integration
-/
namespace Verif.Spec

/-- `x` solves `x' = f x` on the interval from `0` to `tf`. -/
def Solves {n : Nat} (f : (Fin n → ℝ) → Fin n → ℝ) (tf : ℝ) (x : ℝ → Fin n → ℝ) : Prop :=
  ∀ t ∈ Set.Icc 0 tf, HasDerivWithinAt x (f (x t)) (Set.Icc 0 tf) t

/-- An integrator without error: whenever the equation has a solution from the initial state, the result is
the final value of a solution. -/
def ExactIntegrator {n : Nat}
    (integ : (List ℝ → (Fin n → ℝ) → Fin n → ℝ) → ℝ → (Fin n → ℝ) → List ℝ → Fin n → ℝ) : Prop :=
  ∀ f tf x₀ p, (∃ x, x 0 = x₀ ∧ Solves (f p) tf x) →
    ∃ x, x 0 = x₀ ∧ Solves (f p) tf x ∧ integ f tf x₀ p = x tf

end Verif.Spec
