import Verif.Model.Py
import Mathlib.Algebra.Field.Defs
/-!
# `cholupdate` of the unscented Kalman filter (estimation/unscented_kalman_filter.py)

The matrix and the vector are numpy arrays of floats, the vector with one axis. Numbers are those of a field with
a function for the square root.
-/
namespace Verif
namespace Chol

/-- The two arguments of `cholupdate` that are written to. The entries outside of the arrays are not
used. -/
structure St (K : Type) where
  r : Nat → Nat → K
  x : Nat → K

variable {K : Type} [Field K]

/-- `a + b` or `a - b`. -/
def withSign (plus : Bool) (a b : K) : K := if plus then a + b else a - b

/-- The new diagonal entry, unscented_kalman_filter.py:266-269. -/
def newDiagonal (sqrt : K → K) (plus : Bool) (k : Nat) (s : St K) : K :=
  sqrt (withSign plus (s.r k k * s.r k k) (s.x k * s.x k))

/-- Row `k` of the matrix after step `k`, unscented_kalman_filter.py:274-280. -/
def newRow (sqrt : K → K) (plus : Bool) (p k : Nat) (s : St K) (j : Nat) : K :=
  let c := newDiagonal sqrt plus k s / s.r k k
  if j = k then newDiagonal sqrt plus k s
  else if k < j ∧ j < p then withSign plus (s.r k j) (s.x k / s.r k k * s.x j) / c
  else s.r k j

/-- The vector after step `k`, unscented_kalman_filter.py:281. -/
def newVector (sqrt : K → K) (plus : Bool) (p k : Nat) (s : St K) (j : Nat) : K :=
  let c := newDiagonal sqrt plus k s / s.r k k
  if k < j ∧ j < p then c * s.x j - s.x k / s.r k k * newRow sqrt plus p k s j else s.x j

/-- One step, unscented_kalman_filter.py:266-281: both arrays are written to. -/
def step (sqrt : K → K) (plus : Bool) (p k : Nat) (s : St K) : St K where
  r i j := if i = k then newRow sqrt plus p k s j else s.r i j
  x := newVector sqrt plus p k s

/-- The body of the loop: the sign is looked at in each step, unscented_kalman_filter.py:266-273. -/
def body (sqrt : K → K) (sign : String) (p k : Nat) : Py (St K) Unit := fun s =>
  if sign = "+" then (.ok (), step sqrt true p k s)
  else if sign = "-" then (.ok (), step sqrt false p k s)
  else (.error .valueError, s)

/-- `cholupdate(r_matrix, x, sign)`, unscented_kalman_filter.py:259-282, for a vector of size `p` and a
matrix with at least `p` rows and columns; the result is the array given. -/
def cholupdate (sqrt : K → K) (sign : String) (p : Nat) : Py (St K) Unit :=
  Py.forEach (List.range p) (body sqrt sign p)

end Chol
end Verif
