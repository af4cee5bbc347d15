import Verif.Model.Shooting
import Verif.Model.Util
/-!
# Storing a solution in the result

`set_data_to_optimization_result_from_raw_data` of both schemes (collocationscheme.py:748-818,
multipleshooting.py:609-692) and `create_optimization_result` (solutionmethodsbase.py:461-519). The vectors
`p` and `theta` of the result are copies here; that they are the caller's objects is in
Model/OptResult.
-/
namespace Verif

/-- What the solver returns and the result keeps: `raw_solution_dict`. -/
structure RawSolution (K : Type) where
  x : List K
  f : K
  g : List K
  success : Bool

/-- The controls: `solution_class == "direct"`, CasADi's `collocation_points(degree_control)`, and the value
of `u_expr` in an element (with `tau` replaced) at given values of the model's symbols. -/
structure ControlLaw (K : Type) where
  direct : Bool
  roots : List K
  value : Nat → Point K → List K

/-- The data of the result set by the two functions. -/
structure Report (K : Type) where
  xValues : List (List (List K))
  xTime : List (List K)
  yValues : List (List (List K))
  yTime : List (List K)
  uValues : List (List (List K))
  uTime : List (List K)
  eta : List K
  pOpt : List K
  thetaOpt : List (List K)
  p : List K
  theta : List (List K)
  objective : K
  constraints : List K
  raw : List K
  success : Bool

namespace Transcription

variable {K : Type} [Field K] [LinearOrder K]

/-- `time_interpolation_controls[el]`, discretizationschemebase.py:77-89. -/
def controlTimes (m : Transcription K) (c : ControlLaw K) (el : Nat) : List K :=
  (if m.dims.degreeControl = 1 then [0] else c.roots).map fun tau =>
    m.breakpoint el + m.deltaT * tau

/-- `set(times)` as a sorted list, collocationscheme.py:501-508, multipleshooting.py:343-350. -/
def sortedTimes (ts : List K) : List K := ts.dedup.insertionSort (fun a b => a ≤ b)

/-- The value of the control at a time, collocationscheme.py:511-523. Without `u_par` the argument is
`DM()`. -/
def controlAt (m : Transcription K) (c : ControlLaw K) (b : Blocks K) (p theta : List K) (el : Nat)
    (t : K) : Except Err (List K) := do
  let x ← m.stateAt b el t
  let y ← m.algebraicAt b el t
  pure (c.value el ⟨t, x, y, p, theta, if c.direct then vectorize (b.u.getD el []) else []⟩)

/-- `get_system_at_given_times(...)[el]["u"]` for the times of the controls,
collocationscheme.py:424-560 as called in 779-805. -/
def controlValues (m : Transcription K) (c : ControlLaw K) (b : Blocks K) (p : List K)
    (theta : List (List K)) (el : Nat) : Except Err (List (List K)) :=
  (sortedTimes (m.controlTimes c el)).mapM (m.controlAt c b p (theta.getD el []) el)

/-- The controls reported, collocationscheme.py:777-805 and multipleshooting.py:640-666: those of the
decision vector, or computed ones (`computed`) when the first element has none. -/
def reportedControls (m : Transcription K) (b : Blocks K)
    (computed : Nat → Except Err (List (List K))) : Except Err (List (List (List K))) := do
  let first ← itemAt b.u 0
  if first.length = 0 then (List.range m.dims.elements).mapM computed else pure b.u

/-- `CollocationScheme.set_data_to_optimization_result_from_raw_data`, collocationscheme.py:748-818. -/
def report (m : Transcription K) (c : ControlLaw K) (p : List K) (theta : List (List K))
    (s : RawSolution K) : Except Err (Report K) := do
  let b ← Layout.collocationBlocks m.dims s.x
  let p := m.fullP b p
  let theta := m.fullTheta b theta
  let u ← m.reportedControls b (m.controlValues c b p theta)
  pure {
    xValues := b.x
    xTime := (List.range m.dims.elements).map m.stateTimes
    yValues := b.y
    yTime := (List.range m.dims.elements).map m.algebraicTimes
    uValues := u
    uTime := (List.range m.dims.elements).map (m.controlTimes c)
    eta := b.eta
    pOpt := b.pOpt
    thetaOpt := b.thetaOpt
    p := p
    theta := theta
    objective := s.f
    constraints := s.g
    raw := s.x
    success := s.success }

end Transcription

namespace ShootingMethod

variable {K : Type} [Field K] [LinearOrder K]

open Transcription

/-- The control asked for at the start of an element, multipleshooting.py:357-361. -/
def startControl (m : ShootingMethod K) (c : ControlLaw K) (b : Blocks K) (p theta xInit : List K)
    (el : Nat) : Except Err (List (List K)) :=
  if m.breakpoint el ∈ m.controlTimes c el then
    if c.direct then pure [c.value el ⟨m.breakpoint el, xInit, [], p, theta, vectorize (b.u.getD el [])⟩]
    else .error .notImplementedError
  else pure []

/-- `get_system_at_given_times(...)[el]["u"]` for the times of the controls, multipleshooting.py:286-431 as
called in 642-666. With no control parameter `vertcat(p, theta[el], u)` is `vertcat(p, theta[el])`. -/
def controlValues (m : ShootingMethod K) (c : ControlLaw K) (b : Blocks K) (p : List K)
    (theta : List (List K)) (el : Nat) : Except Err (List (List K)) := do
  let xs ← itemAt b.x el
  let xInit ← itemAt xs 0
  let start ← m.startControl c b p (theta.getD el []) xInit el
  let samples := m.simulateAll b p (theta.getD el []) el (m.breakpoint el) xInit
    ((sortedTimes (m.controlTimes c el)).erase (m.breakpoint el))
  pure (start ++ samples.map (c.value el))

/-- `u_data["time"]`, multipleshooting.py:680-692. -/
def reportedControlTimes (m : ShootingMethod K) (c : ControlLaw K) : List (List K) :=
  (List.range m.dims.elements).map fun el =>
    if m.dims.degreeControl = 1 then [m.breakpoint el]
    else c.roots.map fun col => m.breakpoint el + m.deltaT * col

/-- `MultipleShootingScheme.set_data_to_optimization_result_from_raw_data`, multipleshooting.py:609-692. -/
def report (m : ShootingMethod K) (c : ControlLaw K) (p : List K) (theta : List (List K))
    (s : RawSolution K) : Except Err (Report K) := do
  let b ← Layout.shootingBlocks m.dims s.x
  let p := m.fullP b p
  let theta := m.fullTheta b theta
  let u ← m.reportedControls b (m.controlValues c b p theta)
  pure {
    xValues := b.x
    xTime := (List.range (m.dims.elements + 1)).map fun k => [m.breakpoint k]
    yValues := b.y
    yTime := (List.range m.dims.elements).map fun el => [m.breakpoint (el + 1)]
    uValues := u
    uTime := m.reportedControlTimes c
    eta := b.eta
    pOpt := b.pOpt
    thetaOpt := b.thetaOpt
    p := p
    theta := theta
    objective := s.f
    constraints := s.g
    raw := s.x
    success := s.success }

end ShootingMethod

/-- `x_c_final` of `create_optimization_result`, solutionmethodsbase.py:509-517:
`x_data["values"][-1][-1][x_c_index]`; `None` without a cost state. -/
def finalCostState {K : Type} (xCost : Option Sym) (x : List Sym) (xValues : List (List (List K))) :
    Except Err (Option (List K)) :=
  match xCost with
  | none => .ok none
  | some c => do
    let el ← lastItem xValues
    let v ← lastItem el
    let r ← (findIndices [c] x).mapM (entryOf v)
    .ok (some r)

end Verif
