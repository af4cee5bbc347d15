import Verif.Model.Py
import Mathlib.Data.Nat.Factorial.Basic
import Mathlib.LinearAlgebra.Matrix.Defs
import Mathlib.Data.Matrix.Mul
import Mathlib.Data.Matrix.Diagonal
import Mathlib.Algebra.Field.Defs
import Mathlib.Algebra.Order.Ring.Defs
/-!
# Polynomial chaos expansions

pce.py: the basis, the least-squares factor, and the mean, variance and chance constraints computed from
an expansion. External: the quasi-random and random samples, the Cholesky factorisation, the solution of
linear systems and the square root.
-/
namespace Verif.Pce
open Verif

/-! ## The basis -/

/-- `n_pol_parameters`, pce.py:62-68 and 522-527. Simplification: exact division; Python divides
floating-point numbers, which is exact below 2^53. -/
def nPol (n order : Nat) : Nat :=
  Nat.factorial (n + order) / (Nat.factorial n * Nat.factorial order)

/-- `itertools.product(range(m), repeat=n)`. -/
def productRange (m : Nat) : Nat → List (List Nat)
  | 0 => [[]]
  | n + 1 => (List.range m).flatMap fun a => (productRange m n).map (a :: ·)

/-- `exps` before `next`, pce.py:514-518. -/
def exponents (n order : Nat) : List (List Nat) :=
  (productRange (order + 1) n).filter fun p => p.sum ≤ order

/-- `exps`, pce.py:519-520: `next` skips the first one, and raises when there is none. -/
def laterExponents (n order : Nat) : Except Err (List (List Nat)) :=
  match exponents n order with
  | [] => .error .runtimeError
  | _ :: rest => .ok rest

variable {K : Type} [Field K]

/-- `helist[k](x)`, pce.py:478-510. -/
def helist (k : Nat) (x : K) : Except Err K :=
  match k with
  | 0 => .ok 1
  | 1 => .ok x
  | 2 => .ok (x ^ 2 - 1)
  | 3 => .ok (x ^ 3 - 3 * x)
  | 4 => .ok (x ^ 4 - 6 * x ^ 2 + 3)
  | 5 => .ok (x ^ 5 - 10 * x ^ 3 + 15 * x)
  | 6 => .ok (x ^ 6 - 15 * x ^ 4 + 45 * x ^ 2 - 15)
  | 7 => .ok (x ^ 7 - 21 * x ^ 5 + 105 * x ^ 3 - 105 * x)
  | 8 => .ok (x ^ 8 - 28 * x ^ 6 + 210 * x ^ 4 - 420 * x ^ 2 + 105)
  | 9 => .ok (x ^ 9 - 36 * x ^ 7 + 378 * x ^ 5 - 1260 * x ^ 3 + 945 * x)
  | 10 => .ok (x ^ 10 - 45 * x ^ 8 + 640 * x ^ 6 - 3150 * x ^ 4 + 4725 * x ^ 2 - 945)
  | _ => .error .indexError

/-- `psi[i + 1] *= helist[exps[i][j]](xu[j])` for all `j`, pce.py:529-530, from `j` on. -/
def timesHe (xu : List K) : List Nat → Nat → K → Except Err K
  | [], _, acc => .ok acc
  | e :: es, j, acc => do
    let v ← helist e (xu[j]?.getD 0)
    timesHe xu es (j + 1) (acc * v)

/-- The loop over the exponents, pce.py:528-530: entry `i + 1` of `psi` is replaced, for which it has to
exist. -/
def fillPsi (xu : List K) : List (List Nat) → Nat → List K → Except Err (List K)
  | [], _, psi => .ok psi
  | e :: es, i, psi => do
    let old ← (psi[i + 1]?.elim (.error .indexError) .ok : Except Err K)
    let v ← timesHe xu e 0 old
    fillPsi xu es (i + 1) (psi.set (i + 1) v)

/-- `psi_fcn(xu)`, pce.py:513-531. -/
def psi (n order : Nat) (xu : List K) : Except Err (List K) := do
  let exps ← laterExponents n order
  fillPsi xu exps 0 (List.replicate (nPol n order) 1)

/-! ## The least-squares factor -/

/-- CasADi's dense linear algebra: `chol(a)` and `solve(a, b)`. -/
structure Linear (p : Nat) (K : Type) where
  chol : Matrix (Fin p) (Fin p) K → Matrix (Fin p) (Fin p) K
  solve : Matrix (Fin p) (Fin p) K → Matrix (Fin p) (Fin p) K → Matrix (Fin p) (Fin p) K

/-- `psi_t_psi`, pce.py:540. -/
def normal {m p : Nat} (psiMatrix : Matrix (Fin m) (Fin p) K) (lamb : K) :
    Matrix (Fin p) (Fin p) K :=
  psiMatrix.transpose * psiMatrix + Matrix.diagonal fun _ => lamb

/-- `ls_factor`, pce.py:540-546. -/
def lsFactor {m p : Nat} (lin : Linear p K) (psiMatrix : Matrix (Fin m) (Fin p) K) (lamb : K) :
    Matrix (Fin p) (Fin m) K :=
  let r := lin.chol (normal psiMatrix lamb)
  let inv := lin.solve r 1
  inv * inv.transpose * psiMatrix.transpose

/-! ## Samples of the uncertain parameters -/

/-- One sample of `sample_parameter_normal_distribution_with_sobol`, stochastic/util.py:30-35, and of
`_sample_parameters`, pce.py:106-114, from a point `eps` of the standard design (the same design as the
one of the least-squares factor, pce.py:470-475). -/
def affineSample {n : Nat} (chol : Matrix (Fin n) (Fin n) K → Matrix (Fin n) (Fin n) K)
    (mean : Fin n → K) (covariance : Matrix (Fin n) (Fin n) K) (eps : Fin n → K) : Fin n → K :=
  mean + (chol covariance).transpose.mulVec eps

/-- One sample of `sample_parameter_log_normal_distribution_with_sobol`, stochastic/util.py:46-54. -/
def logNormalSample {n : Nat} (log exp : K → K)
    (chol : Matrix (Fin n) (Fin n) K → Matrix (Fin n) (Fin n) K)
    (mean : Fin n → K) (covariance : Matrix (Fin n) (Fin n) K) (eps : Fin n → K) : Fin n → K :=
  fun i => exp (affineSample chol (fun i => log (mean i)) covariance eps i)

/-- `covariance` and the distributions of `_sample_parameters`, pce.py:78-104: which of the two
covariances are used (for the parameters, for the initial conditions). -/
def usedCovariances (nParameters nInitial : Nat) (distributions : List String) :
    Except Err (Bool × Bool) := do
  let used ←
    if 0 < nParameters ∧ 0 < nInitial then .ok (true, true)
    else if 0 < nParameters then .ok (true, false)
    else if 0 < nInitial then .ok (false, true)
    else .error .valueError
  if distributions.all (· == "normal") then .ok used else .error .notImplementedError

/-! ## Statistics of an expansion -/

/-- `expectation_vector`, pce.py:548-556: the mean of the squares of the basis polynomials over random
samples; `psis` holds the values of the basis at each sample. -/
def expectationVector (p : Nat) (psis : List (List K)) : List K :=
  (List.range p).map fun i =>
    (psis.map fun v => (v[i]?.getD 0) ^ 2).sum / (psis.length : K)

/-- `stochastic_var_par[0]`, pce.py:233 and 254. -/
def mean (par : List K) : K := par[0]?.getD 0

/-- `mtimes((par[1:] ** 2).T, exp_phi[1:])`, pce.py:235-239 and 251-253. -/
def variance (par expPhi : List K) : K :=
  (List.zipWith (fun c e => c ^ 2 * e) par.tail expPhi.tail).sum

/-- The left side of the chance constraint `… ≤ 0`, pce.py:199-210. -/
def chance [LinearOrder K] (sqrt : K → K) (prob mean var rhs : K) : K :=
  sqrt (prob / (1 - prob)) * sqrt (max (1 / 1000000) var) + mean - rhs

end Verif.Pce
