import Verif.Model.MpcDirect
import Verif.Model.SolveIndirect
import Verif.Model.SolveShooting
/-!
# A controller with any solution method

mpc/mpc.py, where the discretiser of the solution method may be either scheme, and where the solution
method is a direct method with multiple shooting or an indirect method.
-/
namespace Verif
namespace MpcMethods
open Mpc

/-- The discretisers, methods/classic/collocationscheme.py and methods/classic/multipleshooting.py. -/
inductive Scheme
  | collocation
  | shooting
deriving DecidableEq

/-- `MPC.step(decision_variables)`, mpc.py:298-329: `MultipleShootingScheme` has
`unpack_decision_variables`, multipleshooting.py:89-132, but no `repack_decision_variables`
(`AttributeError`). -/
def warmStart (scheme : Scheme) (d : Dims) (v : List Rat) : Except Err (List Rat) :=
  match scheme with
  | .collocation => step d v
  | .shooting => do
    let _ ← Layout.shootingBlocks d v
    .error .attributeError

variable {W : Type}

/-- `get_new_control(x_k, u_k, p)`, mpc.py:119-148. -/
def getNewControl (scheme : Scheme) (c : Config W) (x u : List Rat) (p : Option (List Rat)) :
    Py (State W) (List Rat) := do
  Py.modify fun s => { s with debuggerStops := s.debuggerStops + 1 }
  let s ← Py.get
  let solution ← onWorld (c.solve x s.initialGuess p u)
  let guess ← Py.lift (warmStart scheme c.dims solution.raw)
  Py.modify fun s => { s with initialGuess := some guess }
  Py.modify fun s => { s with lastSolutions := some [solution] }
  Py.lift solution.firstControl

/-- Loop body of `run`, mpc.py:207-240. -/
def cycle (scheme : Scheme) (c : Config W) : Py (State W) Unit := do
  Py.modify fun s => { s with iteration := s.iteration + 1 }
  let m ← getMeasurement
  let xp ← getStates c m
  let p ← getParameter c xp.1 xp.2
  let x ← Py.lift (rearranged c xp.1)
  let u ← getNewControl scheme c x m.2.2 p
  sendControl c u

/-- `run(iterations)`, mpc.py:201-244. -/
def run (scheme : Scheme) (c : Config W) (iterations : Int) : Py (State W) Unit :=
  countLoop (cycle scheme c) iterations 0

variable {E S : Type}

/-- A controller, mpc.py:21-91, whose solution method has attributes `S` and the given `solve`,
mpc.py:135-137; the estimator keeps a state of its own. -/
def controller (plant : Plant.Env) (dims : Dims) (roots : List Rat)
    (solve : SolveArgs Rat → Py S (SolveDirect.Result Rat))
    (estimator : Rat → List Rat → List Rat → Py E (List Rat × List Rat)) (includeCost : Bool)
    (meanAsParameter : Bool := false) (meanIndices : List (Nat × Nat) := [])
    (covarianceAsParameter : Bool := false) (covIndices : List (Nat × Nat) := []) : Config (E × S) where
  plant := plant
  dims := dims
  roots := roots
  degree := roots.length
  estimate := fun t y u w => ((estimator t y u w.1).1, ((estimator t y u w.1).2, w.2))
  solve := fun x guess p u w =>
    ((solve (MpcDirect.solveArgs x guess p u) w.2).1.map MpcDirect.solutionOf,
      (w.1, (solve (MpcDirect.solveArgs x guess p u) w.2).2))
  includeCost := includeCost
  meanAsParameter := meanAsParameter
  meanIndices := meanIndices
  covarianceAsParameter := covarianceAsParameter
  covIndices := covIndices
  rearrange := none

end MpcMethods
end Verif
