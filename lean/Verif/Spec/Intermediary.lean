import Mathlib.Algebra.Field.Defs
import Mathlib.Order.Defs.LinearOrder
import Mathlib.Algebra.Order.Group.Unbundled.Abs
/-!
# What an intermediary node should compute
-/
namespace Verif.Spec

variable {K : Type} [Field K] [LinearOrder K]

/-- The augmented Lagrangian of an intermediary node at one point, for the value `z` of its variable:
`z` must equal the output `y1` of the first neighbour (multiplier `nu1`, penalty `mu1`) and the input
`u2` of the second neighbour (multiplier `nu2`, penalty `mu2`). -/
def intermediaryCost (mu1 mu2 y1 u2 nu1 nu2 z : K) : K :=
  nu1 * (z - y1) + mu1 / 2 * (z - y1) ^ 2 + nu2 * (u2 - z) + mu2 / 2 * (u2 - z) ^ 2

/-- `z` is the only minimiser of `f`. -/
def UniqueMinimiser (f : K → K) (z : K) : Prop := ∀ w, w ≠ z → f z < f w

/-- Values `f el j` of all points, in the order in which `theta` holds them: for every element first
those of `f`, then those of `g`. -/
def pairRows {K : Type} (elements degree : Nat) (f g : Nat → Nat → K) : List (List K) :=
  (List.range elements).map fun el => (List.range degree).map (f el) ++ (List.range degree).map (g el)

/-- `e` is the largest distance between `f` and `g` over all elements and points. -/
def LargestDifference (elements degree : Nat) (f g : Nat → Nat → K) (e : K) : Prop :=
  0 ≤ e ∧ (∀ el < elements, ∀ j < degree, |f el j - g el j| ≤ e) ∧
  (e ≠ 0 → ∃ el < elements, ∃ j < degree, |f el j - g el j| = e)

end Verif.Spec
