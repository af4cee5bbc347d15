import Verif.Model.Pce
import Verif.Model.DataSet
import Mathlib.Data.Matrix.Block
import Mathlib.Data.Matrix.ColumnRowPartitioned
import Mathlib.Data.Rat.Cast.Defs
/-!
# Kalman filters (estimation/)

The extended, the unscented and the polynomial chaos Kalman filter. Vectors and matrices are indexed by
`Fin n`; the vector of states and algebraic variables is indexed by `Fin nx ⊕ Fin ny`. External: the
simulation of the model, its Jacobians, the matrix exponential, inverses, solutions of linear systems and
Cholesky factors. The mean, the covariances and the noise covariances are matrices of the right size
(a scalar given for one of them, and a missing mean or covariance, are not modelled). Printed output is
left out.
-/
namespace Verif.Kalman
open Verif

/-- The vector `vertcat(x, y)`. -/
abbrev Aug (nx ny : Nat) (K : Type) := Fin nx ⊕ Fin ny → K

/-- Square matrices of the augmented size. -/
abbrev AugMatrix (nx ny : Nat) (K : Type) := Matrix (Fin nx ⊕ Fin ny) (Fin nx ⊕ Fin ny) K

/-- `vertcat(x, y)`. -/
def vert {nx ny : Nat} {K : Type} (x : Fin nx → K) (y : Fin ny → K) : Aug nx ny K := Sum.elim x y

/-- `v[:n_x]`. -/
def states {nx ny : Nat} {K : Type} (v : Aug nx ny K) : Fin nx → K := fun i => v (.inl i)

/-- `v[n_x:]`. -/
def algebraics {nx ny : Nat} {K : Type} (v : Aug nx ny K) : Fin ny → K := fun i => v (.inr i)

/-- `p[:n_x, :n_x]`. -/
def statesBlock {nx ny : Nat} {K : Type} (p : AugMatrix nx ny K) : Matrix (Fin nx) (Fin nx) K :=
  fun i j => p (.inl i) (.inl j)

/-- A column vector as the list of its entries. -/
def flat {nx ny : Nat} {K : Type} (v : Aug nx ny K) : List K :=
  List.ofFn (states v) ++ List.ofFn (algebraics v)

/-- What the filter knows about the measurements: `h_function` with its Jacobian with respect to the
states and algebraic variables, or `c_matrix` and possibly `d_matrix`, or nothing. -/
inductive Meas (nx ny nu nm : Nat) (K : Type)
  | function (h : (Fin nx → K) → (Fin ny → K) → (Fin nu → K) → Fin nm → K)
      (dh : (Fin nx → K) → (Fin ny → K) → (Fin nu → K) → Matrix (Fin nm) (Fin nx ⊕ Fin ny) K)
  | matrix (c : Matrix (Fin nm) (Fin nx ⊕ Fin ny) K) (d : Option (Matrix (Fin nm) (Fin nu) K))
  | missing

section
variable {nx ny nu nm : Nat} {K : Type}

/-- `n_meas`, extended_kalman_filter.py:102-117, unscented_kalman_filter.py:99-114. -/
def nMeas : Meas nx ny nu nm K → Except Err Nat
  | .function _ _ => .ok nm
  | .matrix _ _ => .ok nm
  | .missing => .error .exception

/-- `c * [x; y]`, plus `d * u` if there is a `d_matrix`. -/
def linearMeas [Semiring K] (c : Matrix (Fin nm) (Fin nx ⊕ Fin ny) K)
    (v : Aug nx ny K) (u : Fin nu → K) : Option (Matrix (Fin nm) (Fin nu) K) → Fin nm → K
  | none => c.mulVec v
  | some d => c.mulVec v + d.mulVec u

/-- `_get_measurement_from_prediction`, extended_kalman_filter.py:311-324,
unscented_kalman_filter.py:315-328, pce_kalman_filter.py:147-160. -/
def measure [Semiring K] (m : Meas nx ny nu nm K) (x : Fin nx → K) (y : Fin ny → K)
    (u : Fin nu → K) : Except Err (Fin nm → K) :=
  match m with
  | .function h _ => .ok (h x y u)
  | .matrix c d => .ok (linearMeas c (vert x y) u d)
  | .missing => .error .valueError

/-- The Jacobian of the measurement, extended_kalman_filter.py:179-192. -/
def measureJacobian (m : Meas nx ny nu nm K) (x : Fin nx → K) (y : Fin ny → K)
    (u : Fin nu → K) : Except Err (Matrix (Fin nm) (Fin nx ⊕ Fin ny) K) :=
  match m with
  | .function _ dh => .ok (dh x y u)
  | .matrix c _ => .ok c
  | .missing => .error .valueError

/-- Attributes of a filter that `estimate` changes, and its clock. -/
structure State (nx ny : Nat) (K : Type) where
  t : K
  xMean : Fin nx → K
  pK : Matrix (Fin nx) (Fin nx) K
  xAug : Aug nx ny K
  pAug : AugMatrix nx ny K

/-- Attributes of a filter that stay. -/
structure Config (nx nm : Nat) (K : Type) where
  tS : K
  rV : Matrix (Fin nx) (Fin nx) K
  rN : Matrix (Fin nm) (Fin nm) K

/-- What `estimate` returns: the mean as a column, and the number of rows and columns of the
covariance. -/
structure Output (K : Type) where
  x : List K
  covRows : Nat
  covCols : Nat
  deriving DecidableEq, Repr

/-- `self.dataset.insert_data("P_y", t_k, p[n_x:, n_x:])` at the end of `estimate`,
extended_kalman_filter.py:232, unscented_kalman_filter.py:250-252: one time against `n_y` columns of
values, see `DataSet.insertData`. The other four insertions have one column each. The entries are assumed
to exist. -/
def savePy (ny : Nat) {σ : Type} : Py σ Unit := Py.raiseIf (decide (ny ≠ 1)) .valueError

/-! ## Construction -/

/-- `self.dataset.data[entry]["size"] = ...`: the lookup, then the item assignment, which an `Entry`
(a data class, dataset.py:19-29) does not support. -/
def setSize (entry : String) : Py DataSet Unit := do
  let _ ← DataSet.entry entry
  Py.throw .typeError

/-- Construction of `ExtendedKalmanFilter`, extended_kalman_filter.py:51-100: the check of `y_guess`, the
augmented model (`augmented`: whether building it raises), a new data set and its sizes. -/
def newEkf (ny : Nat) (yGuess : Bool) (augmented : Except Err Unit) (meas : Meas nx ny nu nm K) :
    Except Err Unit := do
  if 0 < ny ∧ yGuess = false then throw .valueError
  augmented
  ((Py.forEach ["x", "y", "P", "P_y"] setSize) []).1
  let _ ← nMeas meas

/-- Construction of `UnscentedKalmanFilter`, unscented_kalman_filter.py:60-91. -/
def newUkf (meas : Meas nx ny nu nm K) : Except Err Unit := do
  ((Py.forEach ["x", "y", "P", "P_y"] setSize) []).1
  let _ ← nMeas meas

/-- `n_samples` of the polynomial chaos filter, pce_kalman_filter.py:57-60. -/
def pceSamples (nUncertain order : Nat) (nSamples : Option Nat) : Nat :=
  nSamples.getD (Pce.nPol nUncertain order)

/-- The check of the number of samples, pce_kalman_filter.py:62-68. -/
def pceCheck (nUncertain order nSamples : Nat) : Except Err Unit :=
  if nSamples < Pce.nPol nUncertain order then .error .valueError else .ok ()

/-- Construction of `PCEKalmanFilter`, pce_kalman_filter.py:49-85; `lsFactor`: whether the computation of
the least-squares factor raises. -/
def newPceKf (nUncertain order : Nat) (nSamples : Option Nat) (lsFactor : Except Err Unit) :
    Except Err Unit := do
  pceCheck nUncertain order (pceSamples nUncertain order nSamples)
  lsFactor
  ((Py.forEach ["x", "P"] setSize) []).1

/-! ## Extended Kalman filter -/

/-- What `ExtendedKalmanFilter.estimate` calls. `simulate t0 tf x0 u` gives the final state, algebraic
variables and control; the Jacobians are functions of time, state, algebraic variables and control
(`all_sym`; the parameters of the model are constants, and the control is not parametrised). -/
structure EkfEnv (nx ny nu nm : Nat) (K : Type) where
  simulate : K → K → (Fin nx → K) → (Fin nu → K) → (Fin nx → K) × (Fin ny → K) × (Fin nu → K)
  odeX : K → (Fin nx → K) → (Fin ny → K) → (Fin nu → K) → Matrix (Fin nx) (Fin nx) K
  odeY : K → (Fin nx → K) → (Fin ny → K) → (Fin nu → K) → Matrix (Fin nx) (Fin ny) K
  algX : K → (Fin nx → K) → (Fin ny → K) → (Fin nu → K) → Matrix (Fin ny) (Fin nx) K
  algY : K → (Fin nx → K) → (Fin ny → K) → (Fin nu → K) → Matrix (Fin ny) (Fin ny) K
  solve : Matrix (Fin ny) (Fin ny) K → Matrix (Fin ny) (Fin nx) K → Matrix (Fin ny) (Fin nx) K
  expm : AugMatrix nx ny K → AugMatrix nx ny K
  inv : Matrix (Fin nm) (Fin nm) K → Matrix (Fin nm) (Fin nm) K
  meas : Meas nx ny nu nm K

/-- The filter after construction, extended_kalman_filter.py:51-63. -/
def ekfStart [Zero K] [One K] (t : K) (xMean : Fin nx → K) (pK : Matrix (Fin nx) (Fin nx) K)
    (yGuess : Fin ny → K) : State nx ny K :=
  { t, xMean, pK, xAug := vert xMean yGuess, pAug := Matrix.fromBlocks pK 0 0 1 }

variable [Field K]

/-- `a_aug_matrix`, extended_kalman_filter.py:276-282. -/
def augMatrix (a : Matrix (Fin nx) (Fin nx) K) (b : Matrix (Fin nx) (Fin ny) K)
    (dc : Matrix (Fin ny) (Fin nx) K) : AugMatrix nx ny K :=
  Matrix.fromBlocks a b (-dc * a) (-dc * b)

/-- `gamma`, extended_kalman_filter.py:288. -/
def gammaMatrix (dc : Matrix (Fin ny) (Fin nx) K) : Matrix (Fin nx ⊕ Fin ny) (Fin nx) K :=
  Matrix.fromRows 1 (-dc)

/-- `p_kpp`, extended_kalman_filter.py:297-299. -/
def predictCov (trans p : AugMatrix nx ny K) (gamma : Matrix (Fin nx ⊕ Fin ny) (Fin nx) K)
    (q : Matrix (Fin nx) (Fin nx) K) : AugMatrix nx ny K :=
  trans * (p * trans.transpose) + gamma * (q * gamma.transpose)

/-- The prediction of the covariance, extended_kalman_filter.py:166-177. The values of the model's symbols
are those of `put_values_in_all_sym_format`, system_model.py:430-450: no value is given for the controls,
and an empty argument of a CasADi function stands for zeros. -/
def ekfPredict (env : EkfEnv nx ny nu nm K) (cfg : Config nx nm K) (s : State nx ny K)
    (x : Fin nx → K) (y : Fin ny → K) : AugMatrix nx ny K :=
  let dc := env.solve (env.algY s.t x y 0) (env.algX s.t x y 0)
  let a := augMatrix (env.odeX s.t x y 0) (env.odeY s.t x y 0) dc
  predictCov (env.expm (cfg.tS • a)) s.pAug (gammaMatrix dc) cfg.rV

/-- `k_gain`, extended_kalman_filter.py:195-198. -/
def ekfGain (inv : Matrix (Fin nm) (Fin nm) K → Matrix (Fin nm) (Fin nm) K)
    (rN : Matrix (Fin nm) (Fin nm) K) (p : AugMatrix nx ny K)
    (g : Matrix (Fin nm) (Fin nx ⊕ Fin ny) K) : Matrix (Fin nx ⊕ Fin ny) (Fin nm) K :=
  p * g.transpose * inv (g * (p * g.transpose) + rN)

/-- The correction, extended_kalman_filter.py:204 and 217-219. -/
def ekfCorrect (k : Matrix (Fin nx ⊕ Fin ny) (Fin nm) K) (g : Matrix (Fin nm) (Fin nx ⊕ Fin ny) K)
    (v : Aug nx ny K) (p : AugMatrix nx ny K) (innovation : Fin nm → K) :
    Aug nx ny K × AugMatrix nx ny K :=
  (v + k.mulVec innovation, (1 - k * g) * p)

/-- `estimate(t_k, y_k, u_k)`, extended_kalman_filter.py:143-234. -/
def ekfEstimate (env : EkfEnv nx ny nu nm K) (cfg : Config nx nm K) (yK : Fin nm → K)
    (uK : Fin nu → K) : Py (State nx ny K) (Output K) := do
  let s ← Py.get
  let (x, y, uF) := env.simulate s.t (s.t + cfg.tS) s.xMean uK
  let p := ekfPredict env cfg s x y
  let g ← Py.lift (measureJacobian env.meas x y uF)
  let k := ekfGain env.inv cfg.rN p g
  let m ← Py.lift (measure env.meas x y uF)
  let r := ekfCorrect k g (vert x y) p (yK - m)
  Py.modify fun s =>
    { s with xAug := r.1, xMean := states r.1, pAug := r.2, pK := statesBlock r.2 }
  savePy ny
  return { x := List.ofFn (states r.1), covRows := nx, covCols := nx }

/-! ## Unscented Kalman filter -/

/-- What `UnscentedKalmanFilter.estimate` calls. -/
structure UkfEnv (nx ny nu nm : Nat) (K : Type) where
  simulate : K → K → (Fin nx → K) → (Fin nu → K) → (Fin nx → K) × (Fin ny → K)
  chol : Matrix (Fin nx) (Fin nx) K → Matrix (Fin nx) (Fin nx) K
  solve : Matrix (Fin nm) (Fin nm) K → Matrix (Fin nm) (Fin nx ⊕ Fin ny) K →
    Matrix (Fin nm) (Fin nx ⊕ Fin ny) K
  meas : Meas nx ny nu nm K

/-- `alpha`, unscented_kalman_filter.py:293. -/
def alpha : K := 1 / 1000

/-- `kappa`, unscented_kalman_filter.py:294. -/
def kappa : K := 0

/-- `beta`, unscented_kalman_filter.py:295. -/
def beta : K := 2

/-- `lamb`, unscented_kalman_filter.py:296. -/
def lamb (ell : Nat) : K := alpha ^ 2 * ((ell : K) + kappa)

/-- `sqr_root_matrix[:, ind]` with `ind = i % ell`, unscented_kalman_filter.py:302-304; without states
there is no `i`. -/
def column (root : Matrix (Fin nx) (Fin nx) K) (i : Nat) : Fin nx → K :=
  if h : 0 < nx then fun r => root r ⟨i % nx, Nat.mod_lt i h⟩ else 0

/-- `sigma_points`, unscented_kalman_filter.py:298-304. -/
def sigmaPoints (chol : Matrix (Fin nx) (Fin nx) K → Matrix (Fin nx) (Fin nx) K)
    (xMean : Fin nx → K) (xCov : Matrix (Fin nx) (Fin nx) K) : List (Fin nx → K) :=
  let root := (chol (((nx : K) + lamb nx) • xCov)).transpose
  xMean :: (List.range (2 * nx)).map fun i =>
    xMean + (if i < nx then (1 : K) else -1) • column root i

/-- `weights_m`, unscented_kalman_filter.py:307-310. -/
def weightsMean (K : Type) [Field K] (ell : Nat) : List K :=
  lamb ell / ((ell : K) + lamb ell) ::
    (List.range (2 * ell)).map fun _ => 1 / (2 * ((ell : K) + lamb ell))

/-- `weights_c`, unscented_kalman_filter.py:308-311. -/
def weightsCov (K : Type) [Field K] (ell : Nat) : List K :=
  (lamb ell / ((ell : K) + lamb ell) + (1 - alpha ^ 2 + beta)) ::
    (List.range (2 * ell)).map fun _ => 1 / (2 * ((ell : K) + lamb ell))

/-- `sum(weights[i] * points[i] for i in range(n))`. -/
def weightedSum {ι : Type} (w : List K) (points : List (ι → K)) : ι → K :=
  (List.zipWith (fun w p => w • p) w points).sum

/-- `mtimes(a, b.T)` for columns. -/
def outer {ι κ : Type} (a : ι → K) (b : κ → K) : Matrix ι κ K := fun i j => a i * b j

/-- `sum(weights[i] * mtimes((a[i] - aMean), (b[i] - bMean).T) for i in range(n))`. -/
def weightedOuter {ι κ : Type} (w : List K) (a : List (ι → K)) (aMean : ι → K)
    (b : List (κ → K)) (bMean : κ → K) : Matrix ι κ K :=
  (List.zipWith (fun w (ab : (ι → K) × (κ → K)) => w • outer (ab.1 - aMean) (ab.2 - bMean)) w
    (a.zip b)).sum

/-- `cov[:n_x, :n_x] += r_v`. -/
def addStates (p : AugMatrix nx ny K) (rV : Matrix (Fin nx) (Fin nx) K) : AugMatrix nx ny K :=
  p + Matrix.fromBlocks rV 0 0 0

/-- The predictions of the unscented filter: the mean, the predicted measurement, and the covariances
(augmented state, measurement, and between them). -/
structure Predicted (nx ny nm : Nat) (K : Type) where
  x : Aug nx ny K
  meas : Fin nm → K
  cov : AugMatrix nx ny K
  covMeas : Matrix (Fin nm) (Fin nm) K
  cross : Matrix (Fin nx ⊕ Fin ny) (Fin nm) K

/-- The means and covariances, unscented_kalman_filter.py:185-216, from the simulated points and their
measurements. -/
def ukfPredicted (cfg : Config nx nm K) (augs : List (Aug nx ny K)) (ms : List (Fin nm → K)) :
    Predicted nx ny nm K :=
  let x := weightedSum (weightsMean K nx) augs
  let m := weightedSum (weightsMean K nx) ms
  { x := x
    meas := m
    cov := addStates (weightedOuter (weightsCov K nx) augs x augs x) cfg.rV
    covMeas := weightedOuter (weightsCov K nx) ms m ms m + cfg.rN
    cross := weightedOuter (weightsCov K nx) augs x ms m }

/-- The points simulated from the sigma points, unscented_kalman_filter.py:165-179. -/
def ukfSimulated (env : UkfEnv nx ny nu nm K) (cfg : Config nx nm K) (s : State nx ny K)
    (uK : Fin nu → K) : List (Aug nx ny K) :=
  (sigmaPoints env.chol s.xMean s.pK).map fun x0 =>
    let f := env.simulate s.t (s.t + cfg.tS) x0 uK
    vert f.1 f.2

/-- Their measurements, unscented_kalman_filter.py:181-183. -/
def ukfMeasured (meas : Meas nx ny nu nm K) (uK : Fin nu → K) (augs : List (Aug nx ny K)) :
    Except Err (List (Fin nm → K)) :=
  augs.mapM fun v => measure meas (states v) (algebraics v) uK

/-- The gain and the correction, unscented_kalman_filter.py:219-222 and 234. -/
def ukfCorrect (solve : Matrix (Fin nm) (Fin nm) K → Matrix (Fin nm) (Fin nx ⊕ Fin ny) K →
      Matrix (Fin nm) (Fin nx ⊕ Fin ny) K) (q : Predicted nx ny nm K) (yK : Fin nm → K) :
    Aug nx ny K × AugMatrix nx ny K :=
  let k := (solve q.covMeas.transpose q.cross.transpose).transpose
  (q.x + k.mulVec (yK - q.meas), q.cov - k * (q.covMeas * k.transpose))

/-- `_estimate_standard_ukf(t_k, y_k, u_k)`, unscented_kalman_filter.py:143-254. The corrected mean and
covariance returned are those of the states and the algebraic variables. -/
def ukfEstimate (env : UkfEnv nx ny nu nm K) (cfg : Config nx nm K) (yK : Fin nm → K)
    (uK : Fin nu → K) : Py (State nx ny K) (Output K) := do
  let s ← Py.get
  let augs := ukfSimulated env cfg s uK
  let ms ← Py.lift (ukfMeasured env.meas uK augs)
  let q := ukfPredicted cfg augs ms
  let r := ukfCorrect env.solve q yK
  let _ ← Py.lift (measure env.meas (states r.1) (algebraics r.1) uK)
  Py.modify fun s =>
    { s with xAug := r.1, xMean := states r.1, pAug := q.cov, pK := statesBlock r.2 }
  savePy ny
  return { x := flat r.1, covRows := nx + ny, covCols := nx + ny }

/-! ## Polynomial chaos Kalman filter -/

/-- `a[k]` of a column; CasADi raises `RuntimeError` out of bounds. -/
def coefficient (a : List K) (k : Nat) : Except Err K :=
  match a[k]? with
  | some v => .ok v
  | none => .error .runtimeError

/-- `sum([a[k] * b[k] for k in range(1, n_samples)])`, pce_kalman_filter.py:206, 238-240 and
247-249. -/
def covEntry (nSamples : Nat) (a b : List K) : Except Err K := do
  let terms ← (List.range' 1 (nSamples - 1)).mapM fun k => do
    let x ← coefficient a k
    let y ← coefficient b k
    return x * y
  return terms.sum

/-- A matrix of covariances, pce_kalman_filter.py:202-208, 235-240 and 244-249. -/
def covMatrix {a b : Nat} (nSamples : Nat) (rows : Fin a → List K) (cols : Fin b → List K) :
    Except Err (Matrix (Fin a) (Fin b) K) :=
  if ∀ i j, (covEntry nSamples (rows i) (cols j)).isOk = true then
    .ok fun i j => ((covEntry nSamples (rows i) (cols j)).toOption).getD 0
  else .error .runtimeError

/-- What `PCEKalmanFilter.estimate` calls: the standard design and the least-squares factor for it, the
Cholesky factor, simulations and solutions of linear systems. -/
structure PceEnv (nx ny nu nm pol samples : Nat) (K : Type) where
  design : Fin samples → Fin nx → K
  lsFactor : Matrix (Fin pol) (Fin samples) K
  simulate : K → K → (Fin nx → K) → (Fin nu → K) → (Fin nx → K) × (Fin ny → K)
  chol : Matrix (Fin nx) (Fin nx) K → Matrix (Fin nx) (Fin nx) K
  solve : Matrix (Fin nm) (Fin nm) K → Matrix (Fin nm) (Fin nx) K → Matrix (Fin nm) (Fin nx) K
  meas : (Fin nx → K) → (Fin ny → K) → (Fin nu → K) → Fin nm → K

/-- The first coefficients: the prior mean, pce_kalman_filter.py:196-199 and 229-232. -/
def pceMean {a pol : Nat} (h : 0 < pol) (coefs : Fin a → Fin pol → K) : Fin a → K :=
  fun i => coefs i ⟨0, h⟩

/-- `estimate(t_k, y_k, u_k)`, pce_kalman_filter.py:117-145, with `_priori_update`,
pce_kalman_filter.py:162-254: the new mean and covariance (`self.x_mean`, `self.p_k`). The measurement
information is assumed to be there. -/
def pceEstimate {pol samples : Nat} (hp : 0 < pol) (env : PceEnv nx ny nu nm pol samples K)
    (cfg : Config nx nm K) (t : K) (xMean : Fin nx → K) (pK : Matrix (Fin nx) (Fin nx) K)
    (yK : Fin nm → K) (uK : Fin nu → K) :
    Except Err ((Fin nx → K) × Matrix (Fin nx) (Fin nx) K) := do
  let finals := fun s => env.simulate t (t + cfg.tS) (Pce.affineSample env.chol xMean pK (env.design s)) uK
  let ax := fun i => env.lsFactor.mulVec fun s => (finals s).1 i
  let am := fun i => env.lsFactor.mulVec fun s => env.meas (finals s).1 (finals s).2 uK i
  let pMinus ← covMatrix samples (fun i => List.ofFn (ax i)) (fun i => List.ofFn (ax i))
  let pYY ← covMatrix samples (fun i => List.ofFn (am i)) (fun i => List.ofFn (am i))
  let pXY ← covMatrix samples (fun i => List.ofFn (ax i)) (fun i => List.ofFn (am i))
  let k := (env.solve (pYY + cfg.rN).transpose pXY.transpose).transpose
  return (pceMean hp ax + k.mulVec (yK - pceMean hp am),
    pMinus + cfg.rV - k * ((pYY + cfg.rN) * k.transpose))

end

end Verif.Kalman
