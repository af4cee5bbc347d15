import Verif.Model.NuUpdate
import Verif.Spec.AugLag
import Verif.Spec.Export
/-!
# What the violation error of the augmented Lagrangian should be
-/
namespace Verif.Spec
open AugLag

variable {K : Type} [Field K] [LinearOrder K]

/-- The values of all relaxed constraints: the algebraic equations, then the equality constraints. -/
def relaxedAt (r : Relaxed K) (el : Nat) (pt : Point K) : List K := r.alg el pt ++ r.eq el pt

/-- The method and its solver use the same grid. -/
structure SameGrid (o : Opts K) (m : Transcription K) : Prop where
  degree : o.degree = m.dims.degree
  elements : o.elements = m.dims.elements
  start : o.t0 = m.t0
  final : o.tf = m.tf
  points : (o.roots o.degree).length = o.degree

/-- The collocation points of the method: increasing and after the start of the element. -/
def IncreasingPoints (o : Opts K) : Prop := (0 :: o.roots o.degree).Pairwise (· < ·)

/-- `e` is the largest absolute value of constraint `i` over all elements and collocation points, when
`pt el tau` is everything at the position `tau` of an element. -/
def LargestOver (n : Nat) (taus : List K) (value : Nat → Point K → List K) (pt : Nat → K → Point K)
    (i : Nat) (e : K) : Prop :=
  (∀ el < n, ∀ tau ∈ taus, |(value el (pt el tau)).getD i 0| ≤ e) ∧
    ((∃ el < n, ∃ tau ∈ taus, |(value el (pt el tau)).getD i 0| = e) ∨ n = 0 ∨ taus = [])

end Verif.Spec
