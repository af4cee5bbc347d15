import Verif.Model.DataSet
/-!
# Simulated plant (mpc/plant.py) and ideal estimator (estimation/ideal_estimator.py)

Numbers are rationals, column vectors are lists. `model.simulate` is a parameter: it takes the
initial state, the initial and final times and the control and gives the final condition or an
exception. The parameters `p`, `theta` and the options of the integrator do not change during the
histories considered and belong to that parameter. The random numbers are given streams indexed by
the number of draws.
-/
namespace Verif
namespace Plant

/-- What stays fixed in a plant, plant.py:30-107. -/
structure Env where
  nX : Nat
  nY : Nat
  nU : Nat
  nUPar : Nat
  tS : Rat
  yGuess : List Rat
  /-- `sampling_points` -/
  points : List Rat
  /-- rows of `c_matrix`; `cCols` is its number of columns -/
  cRows : List (List Rat)
  cCols : Nat
  hasNoise : Bool
  /-- `sim_result.final_condition().values()`, plant.py:162-173 -/
  simulate : List Rat → Rat → Rat → List Rat → Except Err (List Rat × List Rat × List Rat)
  /-- `_process_noise()`, plant.py:189-190, by number of draws -/
  processNoise : Nat → List Rat
  /-- `n_rand`, plant.py:195-197, by number of draws -/
  measurementNoise : Nat → List Rat

/-- What changes, plant.py:60-107. -/
structure State where
  t : Rat
  x : List Rat
  measurement : List Rat
  u : List Rat
  uFunction : Option (Rat → List Rat)
  draws : Nat
  data : DataSet

/-- Default sampling points `[1.0 / s * (i + 1) for i in range(s)]`, plant.py:90-94. -/
def evenPoints (s : Nat) : List Rat :=
  (List.range s).map fun i : Nat => 1 / (s : Rat) * ((i : Rat) + 1)

/-- `DM.eye(n)`, the default `c_matrix`, plant.py:68-72. -/
def eyeRows (n : Nat) : List (List Rat) :=
  (List.range n).map fun i => (List.range n).map fun j => if i = j then 1 else 0

/-- Inner product. -/
def dot (a b : List Rat) : Rat := (List.zipWith (· * ·) a b).sum

/-- `mtimes(c_matrix, v)`, `RuntimeError` for sizes that do not match. -/
def mulVec (rows : List (List Rat)) (cols : Nat) (v : List Rat) : Except Err (List Rat) :=
  if cols = v.length then .ok (rows.map fun r => dot r v) else .error .runtimeError

/-- `a + b` of two columns of the same size; other sizes are a `RuntimeError` (simplification: a
scalar summand, which CasADi repeats, is not modelled). -/
def addVec (a b : List Rat) : Except Err (List Rat) :=
  if a.length = b.length then .ok (List.zipWith (· + ·) a b) else .error .runtimeError

/-- A column as a matrix. -/
def column (v : List Rat) : Mat := ⟨v.length, [v]⟩

/-- Work on the data set of the plant. -/
def onData {α : Type} (m : Py DataSet α) : Py State α := fun s =>
  match m s.data with
  | (r, d) => (r, { s with data := d })

/-- `insert_data(name, self.t, v)`. -/
def record (name : String) (v : List Rat) : Py State Unit := do
  let s ← Py.get
  onData (DataSet.insertData name (.number s.t) (column v))

/-- Next random vector. -/
def draw (stream : Nat → List Rat) : Py State (List Rat) := fun s =>
  (.ok (stream s.draws), { s with draws := s.draws + 1 })

/-- `v + noise if has_noise else v`. -/
def addNoise (hasNoise : Bool) (stream : Nat → List Rat) (v : List Rat) : Py State (List Rat) :=
  if hasNoise then do
    let n ← draw stream
    Py.lift (addVec v n)
  else Py.pure v

/-- `_measure(x, y)`, plant.py:192-205: measurement and measurement without noise. -/
def measure (env : Env) (x y : List Rat) : Py State (List Rat × List Rat) := do
  let clean ← Py.lift (mulVec env.cRows env.cCols (x ++ y))
  let noisy ← addNoise env.hasNoise env.measurementNoise clean
  Py.pure (noisy, clean)

/-- `_save_data(x, y, u)`, plant.py:207-210. -/
def saveData (x y u : List Rat) : Py State Unit := do
  record "x" x
  record "y" y
  record "u" u

/-- The measured values in the data set, plant.py:183-186 and 212-216. -/
def saveMeasurement (m : List Rat × List Rat) : Py State Unit := do
  record "meas" m.1
  record "meas_wo_noise" m.2

/-- `if self.u_function is not None: self.u = self.u_function(self.t)`, plant.py:158-159. -/
def refreshControl : Py State Unit := Py.modify fun s =>
  match s.uFunction with
  | none => s
  | some f => { s with u := f s.t }

/-- `self.model.simulate(...)`, plant.py:161-173. -/
def simulateTo (env : Env) (tF : Rat) : Py State (List Rat × List Rat × List Rat) := do
  let s ← Py.get
  Py.lift (env.simulate s.x s.t tF s.u)

/-- Loop body of `_advance`, plant.py:155-181. -/
def advanceTo (env : Env) (tF : Rat) : Py State (List Rat × List Rat) := do
  refreshControl
  let r ← simulateTo env tF
  let x ← addNoise env.hasNoise env.processNoise r.1
  Py.modify fun s => { s with t := tF, x := x }
  saveData x r.2.1 r.2.2
  Py.pure (x, r.2.1)

/-- The loop of `_advance`; the value is what `x` and `y` are bound to. -/
def advanceLoop (env : Env) (tStart : Rat) :
    List Rat → Option (List Rat × List Rat) → Py State (Option (List Rat × List Rat))
  | [], last => Py.pure last
  | d :: ds, _ => do
    let xy ← advanceTo env (tStart + d * env.tS)
    advanceLoop env tStart ds (some xy)

/-- Use of the local variables `x`, `y`, which a loop without rounds leaves unbound. -/
def bound : Option (List Rat × List Rat) → Py State (List Rat × List Rat)
  | none => Py.throw .unboundLocalError
  | some xy => Py.pure xy

/-- `_advance()`, plant.py:153-187. -/
def advance (env : Env) : Py State Unit := do
  let s ← Py.get
  let last ← advanceLoop env s.t env.points none
  let xy ← bound last
  let m ← measure env xy.1 xy.2
  saveMeasurement m
  Py.modify fun s => { s with measurement := m.1 }

/-- `set_control(u)`, plant.py:129-151; printing is left out. -/
def setControl (env : Env) (u : List Rat) : Py State Unit := do
  Py.raiseIf (decide (u.length ≠ env.nUPar)) .valueError
  Py.modify fun s => { s with u := u }
  advance env

/-- `set_control_function(u_func)`, plant.py:119-127. -/
def setControlFunction (env : Env) (f : Rat → List Rat) : Py State Unit := do
  Py.modify fun s => { s with uFunction := some f }
  advance env

/-- `get_measurement()`, plant.py:109-117. -/
def getMeasurement : Py State (Rat × List Rat × List Rat) := fun s =>
  (.ok (s.t, s.measurement, s.u), s)

/-- `_initialize_dataset()`, plant.py:218-246; the names of the rows are those of the model and are
given. -/
def initialData (env : Env) (names : String → List String) : Py DataSet Unit := do
  DataSet.createEntry "x" env.nX (some (names "x"))
  DataSet.createEntry "y" env.nY (some (names "y"))
  DataSet.createEntry "u" env.nU (some (names "u")) "step"
  DataSet.createEntry "meas_wo_noise" env.nX (some (names "meas_wo_noise"))
  DataSet.createEntry "meas" env.nX (some (names "meas"))

/-- The attributes before the data set is filled, plant.py:56-97. -/
def blank (t0 : Rat) (x0 u0 : List Rat) (f : Option (Rat → List Rat)) : State where
  t := t0
  x := x0
  measurement := x0
  u := u0
  uFunction := f
  draws := 0
  data := []

/-- The last part of the constructor, plant.py:99-107. `has_noise` is `False` while it runs, and
`self.measurement` is not assigned. -/
def fillData (env : Env) (names : String → List String) : Py State Unit := do
  onData (initialData env names)
  let s ← Py.get
  let clean ← Py.lift (mulVec env.cRows env.cCols (s.x ++ env.yGuess))
  saveData s.x env.yGuess s.u
  saveMeasurement (clean, clean)

/-- `PlantSimulation(model, x_0, u_0, y_guess, t_0, ...)`, plant.py:30-107. -/
def new (env : Env) (names : String → List String) (t0 : Rat) (x0 u0 : List Rat)
    (f : Option (Rat → List Rat)) : Except Err State :=
  match fillData env names (blank t0 x0 u0 f) with
  | (.ok _, s) => .ok s
  | (.error e, _) => .error e

/-- The calls that change a plant. -/
inductive Call
  | control (u : List Rat)
  | function (f : Rat → List Rat)

/-- Execute one call. -/
def Call.run (env : Env) : Call → Py State Unit
  | .control u => setControl env u
  | .function f => setControlFunction env f

/-- State after a call, whether or not it raised. -/
def after (env : Env) (c : Call) (s : State) : State := (c.run env s).2

/-- `IdealEstimator.estimate(t_k, y_k, u_k)`, ideal_estimator.py:14-25: the state and the covariance
(a column of zeros with the shape of the state, as a matrix by columns). -/
def idealEstimate (nX : Nat) (y : List Rat) : List Rat × Mat :=
  let x := y.take nX
  (x, column (x.map fun _ => 0))

end Plant
end Verif
