import Mathlib.Algebra.Order.Field.Basic
import Mathlib.Algebra.BigOperators.Group.Finset.Basic
import Mathlib.Algebra.BigOperators.Ring.Finset
/-!
# Specification of the update of a Cholesky factor
-/
namespace Verif
namespace Spec
open Finset
variable {K : Type} [Field K] [LinearOrder K]

/-- A square root of positive numbers. -/
def IsSqrt (sqrt : K → K) : Prop := ∀ a, 0 < a → 0 < sqrt a ∧ sqrt a * sqrt a = a

/-- The entry `i`, `j` of `RᵀR` for a matrix with `p` rows. -/
def gram (p : Nat) (R : Nat → Nat → K) (i j : Nat) : K := ∑ m ∈ range p, R m i * R m j

/-- An upper triangular matrix with `p` rows and nonzero entries on the diagonal. -/
structure IsFactor (p : Nat) (R : Nat → Nat → K) : Prop where
  lower : ∀ i < p, ∀ j < i, R i j = 0
  diagonal : ∀ i < p, R i i ≠ 0

/-- `vᵀ A v` is positive for every vector of size `p` that is not zero. -/
def IsPositive (p : Nat) (A : Nat → Nat → K) : Prop :=
  ∀ v : Nat → K, (∃ i < p, v i ≠ 0) → 0 < ∑ i ∈ range p, ∑ j ∈ range p, v i * A i j * v j

/-- `R'` is upper triangular with a positive diagonal, `R'ᵀR' = RᵀR + σ x xᵀ`, and nothing but the
upper triangle of the first `p` rows and columns differs. -/
structure IsUpdated (σ : K) (p : Nat) (R : Nat → Nat → K) (x : Nat → K) (R' : Nat → Nat → K) : Prop where
  factor : IsFactor p R'
  positive : ∀ i < p, 0 < R' i i
  product : ∀ i < p, ∀ j < p, gram p R' i j = gram p R i j + σ * (x i * x j)
  outside : ∀ i j, p ≤ i ∨ p ≤ j ∨ j < i → R' i j = R i j

end Spec
end Verif
