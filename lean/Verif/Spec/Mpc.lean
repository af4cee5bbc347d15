import Verif.Model.Mpc
import Verif.Spec.Layout
import Verif.Spec.Plant
/-!
# What the controller should do
-/
namespace Verif
namespace Spec
open Mpc

/-- The call repeated `n` times; the first exception ends it. -/
def times {σ : Type} : Nat → Py σ Unit → Py σ Unit
  | 0, _ => Py.pure ()
  | n + 1, m => Py.bind m fun _ => times n m

/-- Where the warm start should take the values of element `k` from, of `n` elements: the next
element, and the last one for itself. -/
def nextElement (n k : Nat) : Nat := min (k + 1) (n - 1)

/-- The factor applied to all values. -/
def scaled (l : List (List Rat)) : List (List Rat) := l.map (List.map fun a => a * (11 / 10))

/-- The value position `i` of a parameter vector should have: that of the last assignment to that
position, or the user's. -/
def assigned (p0 : List Rat) (assignments : List (Nat × Rat)) (i : Nat) : Option Rat :=
  match assignments.reverse.find? fun ia => decide (ia.1 = i) with
  | some ia => some ia.2
  | none => p0[i]?

/-- The assignments a controller makes to the parameter vector for an estimate: the configured
entries of the mean, then those of the covariance. -/
def assignments {W : Type} (c : Config W) (x cov : List Rat) : List (Nat × Rat) :=
  (if c.meanAsParameter then c.meanIndices.map fun ij => (ij.2, x.getD ij.1 0) else []) ++
  (if c.covarianceAsParameter then c.covIndices.map fun ij => (ij.2, cov.getD ij.1 0) else [])

/-- Configured positions exist in a parameter vector of `n` entries and in the estimates. -/
structure ParametersFit {W : Type} (c : Config W) (n : Nat) (x cov : List Rat) : Prop where
  mean : c.meanAsParameter = true → ∀ ij ∈ c.meanIndices, ij.1 < x.length ∧ ij.2 < n
  covariance : c.covarianceAsParameter = true → ∀ ij ∈ c.covIndices, ij.1 < cov.length ∧ ij.2 < n

/-- The control polynomial of one element: the value at `tau` of the polynomial through the given
points, as the solution methods define it. -/
def controlAt (roots : List Rat) (nU degree : Nat) (points : Nat → Nat → Rat) (tau : Rat) :
    Except Err (List Rat) := polyApproxMethod roots nU degree false points tau

end Spec
end Verif
