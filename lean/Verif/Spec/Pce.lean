import Mathlib.Algebra.Field.Defs
import Mathlib.Algebra.Order.Ring.Defs
import Mathlib.Data.Matrix.Mul
import Mathlib.Algebra.BigOperators.Group.Finset.Basic
/-!
# What a polynomial chaos expansion is
-/
namespace Verif.Spec
open scoped BigOperators

variable {K : Type} [Field K]

/-- The probabilists' Hermite polynomials. -/
def He : Nat → K → K
  | 0, _ => 1
  | 1, x => x
  | k + 2, x => x * He (k + 1) x - (k + 1 : K) * He k x

/-- The basis polynomial of a multi-index, at a point. -/
def basisPolynomial (e : List Nat) (x : List K) : K :=
  (List.zipWith (fun k v => He k v) e x).prod

/-- `‖psi c - v‖² + lamb ‖c‖²`: the squared error of the expansion with coefficients `c` for the
sampled values `v`, regularised. -/
def squaredError {m p : Nat} (psi : Matrix (Fin m) (Fin p) K) (lamb : K) (v : Fin m → K)
    (c : Fin p → K) : K :=
  dotProduct (psi.mulVec c - v) (psi.mulVec c - v) + lamb * dotProduct c c

/-- The values of an expansion at the samples determine its coefficients. -/
def FullRank {m p : Nat} (psi : Matrix (Fin m) (Fin p) K) : Prop :=
  ∀ c : Fin p → K, psi.mulVec c = 0 → c = 0

/-- Points with weights: mean of a quantity. -/
def weightedMean {S : Type} [Fintype S] (w : S → K) (f : S → K) : K := ∑ s, w s * f s

/-- Points with weights: mean vector. -/
def HasMean {S : Type} [Fintype S] {n : Nat} (w : S → K) (x : S → Fin n → K) (m : Fin n → K) : Prop :=
  ∀ i, weightedMean w (fun s => x s i) = m i

/-- Points with weights: covariance matrix. -/
def HasCovariance {S : Type} [Fintype S] {n : Nat} (w : S → K) (x : S → Fin n → K)
    (c : Matrix (Fin n) (Fin n) K) : Prop :=
  ∃ m, HasMean w x m ∧ ∀ i j, weightedMean w (fun s => (x s i - m i) * (x s j - m j)) = c i j

end Verif.Spec
