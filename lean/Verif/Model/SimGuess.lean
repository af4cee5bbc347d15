import Verif.Model.Shooting
import Verif.Model.Layout
/-!
# The initial guess by simulation (`create_initial_guess_with_simulation` of both schemes)

The simulation of a step, `dae_sys.simulate(**args)` with the transforms of its arguments and result and
with the algebraic guess of the problem, is a parameter; it may raise. The model simulated is taken to
have the sizes of the problem's model.
-/
namespace Verif

/-- `step el t_init t x_0 p_el`: the states and algebraics at `t`. -/
abbrev Step (K : Type) := Nat → K → K → List K → List K → Except Err (List K × List K)

namespace SimGuess

variable {K : Type} [Field K] [LinearOrder K]

/-- The control used, collocationscheme.py:677-683 and multipleshooting.py:541-547. -/
def control (d : Dims) (u uGuess lastU : Option (List K)) : List K :=
  match u with
  | some u => u
  | none => match uGuess with
    | some u => u
    | none => match lastU with
      | some u => u
      | none => List.replicate d.nU 0

/-- The control parameters of an element, collocationscheme.py:685-688 and multipleshooting.py:551. -/
def controlParameters (d : Dims) (u : List K) : List K :=
  if d.nUPar > 0 then Layout.repmat u d.degreeControl else []

/-- `theta[el]`; `None` has no items. -/
def elementTheta (theta : Option (Dict Nat (List K))) (el : Nat) : Except Err (List K) :=
  match theta with
  | none => .error .typeError
  | some th => Layout.thetaAt th el

/-- `vertcat(p, theta[el], u)`, collocationscheme.py:706 and multipleshooting.py:567; `vertcat` does not
take `None`. -/
def elementParameters (p : Option (List K)) (theta : Option (Dict Nat (List K))) (u : List K) (el : Nat) :
    Except Err (List K) := do
  let th ← elementTheta theta el
  match p with
  | none => .error .notImplementedError
  | some p => .ok (p ++ th ++ u)

/-- The loop over the times of an element, collocationscheme.py:707-721 and multipleshooting.py:568-582. -/
def runTimes (step : Step K) (el : Nat) (pEl : List K) :
    K → List K → List K → Except Err (List (List K × List K))
  | _, _, [] => .ok []
  | tInit, x, t :: ts => do
    let r ← step el tInit t x pEl
    let rest ← runTimes step el pEl t r.1 ts
    .ok (r :: rest)

/-- `x_0` after the loop over the times of an element. -/
def endState (x0 : List K) (samples : List (List K × List K)) : List K :=
  (samples.getLast?.map Prod.fst).getD x0

/-- The loop over the elements, collocationscheme.py:693-725 and multipleshooting.py:555-586: the state
each element starts with, and what its simulations gave. -/
def runElements (step : Step K) (parameters : Nat → Except Err (List K)) (start : Nat → K)
    (times : Nat → List K) :
    List Nat → List K → Except Err (List (List K × List (List K × List K)))
  | [], _ => .ok []
  | el :: els, x0 => do
    let pEl ← parameters el
    let r ← runTimes step el pEl (start el) x0 (times el)
    let rest ← runElements step parameters start times els (endState x0 r)
    .ok ((x0, r) :: rest)

/-- The vector returned, collocationscheme.py:727-746 and multipleshooting.py:588-607. -/
def assemble (d : Dims) (g : Layout.GuessInfo K) (p : Option (List K))
    (theta : Option (Dict Nat (List K))) (u : List K) (x y : List (List (List K))) :
    Except Err (List K) := do
  let xInit := x.flatten.flatten
  let yInit := y.flatten.flatten
  let uInit := Layout.repmat u d.elements
  let etaInit := List.replicate d.nEta 0
  let pInit ← Layout.pOptInit 0 d g.pOptIndices p
  let thetaInit ← Layout.thetaOptInit 0 d g.thetaOptIndices theta
  .ok (xInit ++ yInit ++ uInit ++ etaInit ++ pInit ++ thetaInit)

/-- `CollocationScheme.create_initial_guess_with_simulation(u, p, theta, ...)`,
collocationscheme.py:642-746. -/
def collocation (m : Transcription K) (step : Step K) (g : Layout.GuessInfo K)
    (lastU u p : Option (List K)) (theta : Option (Dict Nat (List K))) : Except Err (List K) := do
  let par := controlParameters m.dims (control m.dims u g.uGuess lastU)
  let els ← runElements step (elementParameters p theta par) (fun el => (m.stateTimes el).headD 0)
    (fun el => (m.stateTimes el).tail) (List.range m.dims.elements) g.x0
  assemble m.dims g p theta par (els.map fun e => e.1 :: e.2.map Prod.fst)
    (els.map fun e => e.2.map Prod.snd)

/-- `p` when none is given, multipleshooting.py:548-549. -/
def parametersOrNone (p : Option (List K)) : List K := p.getD []

/-- `MultipleShootingScheme.create_initial_guess_with_simulation(u, p, theta, ...)`,
multipleshooting.py:506-607. -/
def shooting (m : Transcription K) (step : Step K) (g : Layout.GuessInfo K)
    (lastU u p : Option (List K)) (theta : Option (Dict Nat (List K))) : Except Err (List K) := do
  let par := controlParameters m.dims (control m.dims u g.uGuess lastU)
  let els ← runElements step (elementParameters (some (parametersOrNone p)) theta par) m.breakpoint
    (fun el => [m.breakpoint (el + 1)]) (List.range m.dims.elements) g.x0
  assemble m.dims g (some (parametersOrNone p)) theta par
    ([[g.x0]] ++ els.map fun e => e.2.map Prod.fst) (els.map fun e => e.2.map Prod.snd)

end SimGuess
end Verif
