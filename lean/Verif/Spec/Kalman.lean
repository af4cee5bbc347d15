import Mathlib.LinearAlgebra.Matrix.Trace
import Mathlib.Data.Matrix.Mul
import Mathlib.Algebra.Order.Ring.Defs
import Mathlib.Algebra.Field.Defs
/-!
# Specification of Kalman filters
-/
namespace Verif.Spec

variable {ι κ K : Type} [Fintype ι] [Fintype κ] [DecidableEq ι] [Field K]

/-- A covariance matrix: symmetric and positive semidefinite. -/
def IsCovariance [LE K] (m : Matrix ι ι K) : Prop :=
  m.transpose = m ∧ ∀ v : ι → K, 0 ≤ dotProduct v (m.mulVec v)

/-- A covariance matrix of noise in every direction: symmetric and positive definite. -/
def PositiveCovariance [LT K] (m : Matrix ι ι K) : Prop :=
  m.transpose = m ∧ ∀ v : ι → K, v ≠ 0 → 0 < dotProduct v (m.mulVec v)

/-- The covariance of the error after a correction with gain `k` of a prediction with error covariance
`p`, for measurements `h x` with independent noise of covariance `r`: the error is
`(1 - k h) (prediction error) - k (noise)`. -/
def errorCovariance (p : Matrix ι ι K) (h : Matrix κ ι K) (r : Matrix κ κ K) (k : Matrix ι κ K) :
    Matrix ι ι K :=
  (1 - k * h) * p * (1 - k * h).transpose + k * r * k.transpose

/-- `x`, `p` are the Kalman correction of the prediction `x0`, `p0` with the measurement `y` of
`h x + d`, noise covariance `r`. -/
def IsKalmanUpdate (h : Matrix κ ι K) (d : κ → K) (r : Matrix κ κ K) (x0 : ι → K) (p0 : Matrix ι ι K)
    (y : κ → K) (x : ι → K) (p : Matrix ι ι K) : Prop :=
  ∃ k : Matrix ι κ K, k * (h * p0 * h.transpose + r) = p0 * h.transpose ∧
    x = x0 + k.mulVec (y - (h.mulVec x0 + d)) ∧ p = errorCovariance p0 h r k

end Verif.Spec
