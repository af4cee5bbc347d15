import Verif.Model.Plant
import Verif.Model.Layout
import Verif.Model.Poly
/-!
# Model predictive control (mpc/mpc.py)

The estimator, the solution method and the optional rearrangement of states are parameters; the
first two may keep a state of their own (`W`, arbitrary). Numbers are rationals, covariances are
given column by column. Printing and timing are left out; entering the interactive debugger is
counted.
-/
namespace Verif
namespace Mpc

/-! ## Warm start -/

/-- `l.pop(0)`. -/
def popFirst {α : Type} : List α → Except Err (List α)
  | [] => .error .indexError
  | _ :: l => .ok l

/-- `l.pop()`. -/
def popLast {α : Type} : List α → Except Err (List α)
  | [] => .error .indexError
  | a :: l => .ok (a :: l).dropLast

/-- `l[-1]`. -/
def lastOf {α : Type} (l : List α) : Except Err α :=
  match l.getLast? with
  | some a => .ok a
  | none => .error .indexError

/-- `l.pop(0); l.append(l[-1])`, mpc.py:317-321. -/
def shiftOne {α : Type} (l : List α) : Except Err (List α) := do
  let l ← popFirst l
  let a ← lastOf l
  return l ++ [a]

/-- The shift of the states, mpc.py:312-315. -/
def shiftStates {α : Type} (x : List (List α)) : Except Err (List (List α)) := do
  let x ← popFirst x
  let x ← popLast x
  let el ← lastOf x
  let a ← lastOf el
  return x ++ [el] ++ [[a]]

/-- `MPC.step(decision_variables)`, mpc.py:298-329; the factor `1 + 0.0 * (...)` is one. -/
def step (d : Dims) (v : List Rat) : Except Err (List Rat) := do
  let b ← Layout.collocationBlocks d v
  let x ← shiftStates b.x
  let y ← shiftOne b.y
  let u ← shiftOne b.u
  let next := Layout.repack { b with x := x, y := y, u := u }
  if v.length = next.length then return next.map fun a => a * (11 / 10)
  else .error .assertionError

/-! ## The control sent to the plant -/

/-- `substitute(u_pol, u_par, control_parameters)` where `u_par = vec(points)`: the values must be
as many as the parameters; a single value is repeated (CasADi). Gives the matrix of values. -/
def controlPoints (nU degree : Nat) (values : List Rat) : Except Err (Nat → Nat → Rat) :=
  if values.length = nU * degree then .ok fun i j => values.getD (i + j * nU) 0
  else if values.length = 1 then .ok fun _ _ => values.getD 0 0
  else .error .runtimeError

/-- `_make_control_function(control_parameters)`, mpc.py:150-169, with
`create_polynomial_approximation` of util.py and `convert_expr_from_tau_to_time`, util.py:191-204.
`degree` is `solution_method.degree`. -/
def makeControlFunction (roots : List Rat) (nU degree : Nat) (values : List Rat) (t tS : Rat) :
    Except Err (Rat → List Rat) := do
  let points ← controlPoints nU degree values
  return fun s => polyApproxUtil roots nU degree false points ((s - t) / (t + tS - t))

/-! ## The controller -/

/-- What is used of an `OptimizationResult`: `raw_decision_variables` and `u_data["values"]`. -/
structure Solution where
  raw : List Rat
  uValues : List (List (List Rat))

/-- `first_control_parameters()`, optimizationresult.py:100-102. -/
def Solution.firstControlParameters (s : Solution) : Except Err (List (List Rat)) :=
  match s.uValues with
  | [] => .error .indexError
  | u :: _ => .ok u

/-- `first_control()`, optimizationresult.py:93-98. -/
def Solution.firstControl (s : Solution) : Except Err (List Rat) := do
  let u ← s.firstControlParameters
  match u with
  | [] => .error .indexError
  | a :: _ => return a

/-- What stays fixed in a controller, mpc.py:21-95. -/
structure Config (W : Type) where
  plant : Plant.Env
  dims : Dims
  roots : List Rat
  /-- `solution_method.degree` -/
  degree : Nat
  /-- `estimator.estimate(t, y, u)` -/
  estimate : Rat → List Rat → List Rat → Py W (List Rat × List Rat)
  /-- `solution_method.solve(x_0, initial_guess, p, last_u)` -/
  solve : List Rat → Option (List Rat) → Option (List Rat) → List Rat → Py W Solution
  includeCost : Bool
  meanAsParameter : Bool
  meanIndices : List (Nat × Nat)
  covarianceAsParameter : Bool
  covIndices : List (Nat × Nat)
  rearrange : Option (List Rat → Except Err (List Rat))

/-- What changes. `p` is the parameter vector the user gave (the controller keeps the user's
object). -/
structure State (W : Type) where
  plant : Plant.State
  world : W
  initialGuess : Option (List Rat)
  lastSolutions : Option (List Solution)
  iteration : Nat
  p : Option (List Rat)
  /-- how many times the interactive debugger was entered -/
  debuggerStops : Nat

variable {W : Type}

/-- Work on the plant. -/
def onPlant {α : Type} (m : Py Plant.State α) : Py (State W) α := fun s =>
  match m s.plant with
  | (r, q) => (r, { s with plant := q })

/-- Work on the estimator or the solution method. -/
def onWorld {α : Type} (m : Py W α) : Py (State W) α := fun s =>
  match m s.world with
  | (r, w) => (r, { s with world := w })

/-- `get_measurement()`, mpc.py:94-101. -/
def getMeasurement : Py (State W) (Rat × List Rat × List Rat) := onPlant Plant.getMeasurement

/-- `get_states(t_k, y_k, u_k)`, mpc.py:103-117. -/
def getStates (c : Config W) (m : Rat × List Rat × List Rat) :
    Py (State W) (List Rat × List Rat) := do
  let r ← onWorld (c.estimate m.1 m.2.1 m.2.2)
  Py.pure (if c.includeCost then r.1 ++ [0] else r.1, r.2)

/-- `v[i]` of a column. -/
def entryOf (v : List Rat) (i : Nat) : Except Err Rat :=
  match v[i]? with
  | some a => .ok a
  | none => .error .runtimeError

/-- `p[p_index] = a` on the vector the user gave; `None` has no items (`TypeError`). -/
def writeParameter (i : Nat) (a : Rat) : Py (State W) Unit := fun s =>
  match s.p with
  | none => (.error .typeError, s)
  | some v =>
    if i < v.length then (.ok (), { s with p := some (v.set i a) }) else (.error .runtimeError, s)

/-- `for index, p_index in indices: p[p_index] = v[index]`, mpc.py:335-339. -/
def writeParameters (v : List Rat) (indices : List (Nat × Nat)) : Py (State W) Unit :=
  Py.forEach indices fun ij => do
    let a ← Py.lift (entryOf v ij.1)
    writeParameter ij.2 a

/-- `if c: m`. -/
def whenTrue {σ : Type} (c : Bool) (m : Py σ Unit) : Py σ Unit := if c then m else Py.pure ()

/-- `_get_parameter(x_k, p_k)`, mpc.py:331-341: the vector given by the user is changed and
returned. -/
def getParameter (c : Config W) (x cov : List Rat) : Py (State W) (Option (List Rat)) := do
  whenTrue c.meanAsParameter (writeParameters x c.meanIndices)
  whenTrue c.covarianceAsParameter (writeParameters cov c.covIndices)
  let s ← Py.get
  Py.pure s.p

/-- `get_new_control(x_k, u_k, p)`, mpc.py:119-148. The solution is not a list, it has
`raw_decision_variables`. -/
def getNewControl (c : Config W) (x u : List Rat) (p : Option (List Rat)) :
    Py (State W) (List Rat) := do
  Py.modify fun s => { s with debuggerStops := s.debuggerStops + 1 }
  let s ← Py.get
  let solution ← onWorld (c.solve x s.initialGuess p u)
  let guess ← Py.lift (step c.dims solution.raw)
  Py.modify fun s => { s with initialGuess := some guess }
  Py.modify fun s => { s with lastSolutions := some [solution] }
  Py.lift solution.firstControl

/-- `self.last_solutions[0].first_control_parameters()`, mpc.py:178-183: `None[0]` is a
`TypeError`. -/
def lastControlParameters (last : Option (List Solution)) : Except Err (List (List Rat)) :=
  match last with
  | none => .error .typeError
  | some [] => .error .indexError
  | some (s :: _) => s.firstControlParameters

/-- `_get_solution_parameters(parameters)`, mpc.py:198-199; `vertcat()` of nothing raises
`NotImplementedError`. -/
def solutionParameters (values : List (List Rat)) : Except Err (List Rat) :=
  match values with
  | [] => .error .notImplementedError
  | v :: vs => .ok (v :: vs).flatten

/-- `send_control(u)`, mpc.py:171-184: the argument is not used. -/
def sendControl (c : Config W) (_u : List Rat) : Py (State W) Unit := do
  let s ← Py.get
  let values ← Py.lift (lastControlParameters s.lastSolutions)
  let par ← Py.lift (solutionParameters values)
  let f ← Py.lift (makeControlFunction c.roots c.plant.nU c.degree par s.plant.t c.plant.tS)
  onPlant (Plant.setControlFunction c.plant f)

/-- `x_k_ocp`, mpc.py:222-224. -/
def rearranged (c : Config W) (x : List Rat) : Except Err (List Rat) :=
  match c.rearrange with
  | none => .ok x
  | some f => f x

/-- Loop body of `run`, mpc.py:207-240. -/
def cycle (c : Config W) : Py (State W) Unit := do
  Py.modify fun s => { s with iteration := s.iteration + 1 }
  let m ← getMeasurement
  let xp ← getStates c m
  let p ← getParameter c xp.1 xp.2
  let x ← Py.lift (rearranged c xp.1)
  let u ← getNewControl c x m.2.2 p
  sendControl c u

/-- `for k in itertools.count(k): body; if k >= iterations - 1: break`, mpc.py:207 and 242-244. -/
def countLoop {σ : Type} (body : Py σ Unit) (iterations : Int) (k : Nat) : Py σ Unit :=
  Py.bind body fun _ =>
    if (k : Int) ≥ iterations - 1 then Py.pure () else countLoop body iterations (k + 1)
termination_by (iterations - k).toNat
decreasing_by omega

/-- `run(iterations)`, mpc.py:201-244. -/
def run (c : Config W) (iterations : Int) : Py (State W) Unit := countLoop (cycle c) iterations 0

/-- Loop body of `run_fixed_control`, mpc.py:256-268. -/
def fixedCycle (c : Config W) (u : List Rat) : Py (State W) Unit := do
  Py.modify fun s => { s with iteration := s.iteration + 1 }
  let _ ← getMeasurement
  sendControl c u

/-- `run_fixed_control(u, iterations)`, mpc.py:246-268. -/
def runFixedControl (c : Config W) (u : List Rat) (iterations : Nat) : Py (State W) Unit :=
  Py.forEach (List.range iterations) fun _ => fixedCycle c u

/-- Loop body of `run_fixed_control_with_estimator`, mpc.py:280-295. -/
def estimatorCycle (c : Config W) (u : List Rat) : Py (State W) Unit := do
  Py.modify fun s => { s with iteration := s.iteration + 1 }
  let m ← getMeasurement
  let _ ← getStates c m
  sendControl c u

/-- `run_fixed_control_with_estimator(u, iterations)`, mpc.py:270-295. -/
def runFixedControlWithEstimator (c : Config W) (u : List Rat) (iterations : Nat) :
    Py (State W) Unit :=
  Py.forEach (List.range iterations) fun _ => estimatorCycle c u

end Mpc
end Verif
