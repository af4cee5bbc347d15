import Verif.Model.Collocation
/-!
# The multiple-shooting scheme

methods/classic/multipleshooting.py:134-461 for direct methods, on the data of `Transcription`. The
simulation of an element, `dae_sys.simulate`, is a parameter.
-/
namespace Verif

/-- A transcription with the integrator and the option `cost_as_a_sum`: `simulate el t_init t x_init
p theta u_par` gives the states and algebraics at `t`. -/
structure ShootingMethod (K : Type) extends Transcription K where
  simulate : Nat → K → K → List K → List K → List K → List K → List K × List K
  costAsSum : Bool

namespace ShootingMethod

variable {K : Type} [Field K] [LinearOrder K]

open Transcription

/-- The times of a path constraint, multipleshooting.py:445-459. -/
def pathTimes (m : ShootingMethod K) (el : Nat) (tag : String) : Option (List K) :=
  if tag = "start" then some [m.breakpoint el]
  else if tag = "end" then some [m.breakpoint (el + 1)]
  else if tag = "default" then some [m.breakpoint (el + 1)]
  else none

/-- `_create_time_dict_for_multiple_shooting()[el]`, multipleshooting.py:433-461. -/
def timeDict (m : ShootingMethod K) (el : Nat) : Key → Option (List K)
  | .x => some [m.breakpoint (el + 1)]
  | .y => some [m.breakpoint (el + 1)]
  | .ode => none
  | .alg => none
  | .sCost => some [m.breakpoint (el + 1)]
  | .ineq i => (m.gIneq[i]?).bind fun g => m.pathTimes el g.time
  | .eq i => (m.gEq[i]?).bind fun g => m.pathTimes el g.time

/-- The keys of `functions`, multipleshooting.py:185-199. -/
def functionKeys (m : ShootingMethod K) : List Key :=
  (List.range m.gIneq.length).map .ineq ++ (List.range m.gEq.length).map .eq ++ [.sCost]

/-- The times at which an element is evaluated, multipleshooting.py:343-350. -/
def evalTimes (m : ShootingMethod K) (el : Nat) : List K :=
  ((([Key.x, Key.y] ++ m.functionKeys).flatMap fun k => (m.timeDict el k).getD []).dedup).insertionSort
    (fun a b => a ≤ b)

/-- `if t_0 in time_dict[el][f_name]: raise NotImplementedError`, multipleshooting.py:362-364. -/
def checkStart (m : ShootingMethod K) (el : Nat) (k : Key) : Except Err Unit :=
  match m.timeDict el k with
  | none => .error .keyError
  | some ts => if m.breakpoint el ∈ ts then .error .notImplementedError else .ok ()

/-- The value of a variable asked for at the start of the element, multipleshooting.py:353-356: the
state is known, the algebraics are not. -/
def startState (m : ShootingMethod K) (el : Nat) : Except Err Unit :=
  if m.breakpoint el ∈ (m.timeDict el .y).getD [] then .error .notImplementedError else .ok ()

/-- The loop over the times of an element, multipleshooting.py:366-430: each simulation starts where
the one before ended. -/
def simulateAll (m : ShootingMethod K) (b : Blocks K) (p theta : List K) (el : Nat) :
    K → List K → List K → List (Point K)
  | _, _, [] => []
  | tInit, xInit, t :: ts =>
    let u := vectorize (b.u.getD el [])
    let r := m.simulate el tInit t xInit p theta u
    ⟨t, r.1, r.2, p, theta, u⟩ :: simulateAll m b p theta el t r.1 ts

/-- `results[el][key]`, multipleshooting.py:353-354 and 391-425. -/
def collectKey (m : ShootingMethod K) (el : Nat) (xInit : List K) (samples : List (Point K))
    (k : Key) : List (List K) :=
  (if k = .x ∧ m.breakpoint el ∈ (m.timeDict el .x).getD [] then [xInit] else []) ++
  (samples.filter fun pt => decide (pt.t ∈ (m.timeDict el k).getD [])).map fun pt =>
    m.valueOf el pt k

/-- `get_system_at_given_times(...)[el]`, multipleshooting.py:286-431. -/
def element (m : ShootingMethod K) (b : Blocks K) (p : List K) (theta : List (List K)) (el : Nat) :
    Except Err (Key → List (List K)) := do
  let xs ← itemAt b.x el
  let xInit ← itemAt xs 0
  m.startState el
  let _ ← m.functionKeys.mapM (m.checkStart el)
  let samples := m.simulateAll b p (theta.getD el []) el (m.breakpoint el) xInit
    ((m.evalTimes el).erase (m.breakpoint el))
  pure (m.collectKey el xInit samples)

/-- The cost state is restarted in every element, multipleshooting.py:212-219:
`x_at_el_p_1[-1] = 0`. (Without any state the code raises; the model adds an entry.) -/
def restartCost (m : ShootingMethod K) (x : List K) : List K :=
  if m.costAsSum then x.dropLast ++ [0] else x

/-- The constraints of one element, multipleshooting.py:208-261. -/
def elementCons (m : ShootingMethod K) (b : Blocks K) (lastU : Option (List K))
    (here : Key → List (List K)) (el : Nat) : Except Err (List (Con K)) := do
  let xEnd ← itemAt (here .x) 0
  let yEnd ← itemAt (here .y) 0
  let xs ← itemAt b.x (el + 1)
  let xNext ← itemAt xs 0
  let c ← subColumns (m.restartCost xEnd) xNext
  let ys ← itemAt b.y el
  let yHere ← itemAt ys 0
  let d ← subColumns yEnd yHere
  let rate ← m.rates b lastU el
  let ineq ← (List.range m.gIneq.length).mapM fun i => itemAt (here (.ineq i)) 0
  let eq ← (List.range m.gEq.length).mapM fun i => itemAt (here (.eq i)) 0
  pure ([Con.equality c, Con.equality d] ++ rate ++ ineq.map Con.nonpositive ++
    eq.map Con.equality)

/-- The constraints of element `el` out of the results of all. -/
def consOf (m : ShootingMethod K) (b : Blocks K) (lastU : Option (List K))
    (results : List (Key → List (List K))) (el : Nat) : Except Err (List (Con K)) :=
  m.elementCons b lastU (resultOf results el) el

/-- The cost an element adds with `cost_as_a_sum`, multipleshooting.py:220. -/
def elementSum (here : Key → List (List K)) : Except Err K := do
  let x ← itemAt (here .x) 0
  match x.getLast? with
  | some c => pure c
  | none => .error .runtimeError

/-- The cost without the part `s_cost`, multipleshooting.py:212-220 and 275-281. -/
def mainCost (m : ShootingMethod K) (p : List K) (xf : List K)
    (results : List (Key → List (List K))) : Except Err K :=
  if m.costAsSum then do
    let cs ← results.mapM elementSum
    pure cs.sum
  else pure (m.vCost xf p)

/-- `MultipleShootingScheme.discretize(x_0, p, theta, last_u)`, multipleshooting.py:134-284. -/
def discretize (m : ShootingMethod K) (b : Blocks K) (x0 p : List K) (theta : List (List K))
    (lastU : Option (List K)) : Except Err (List (Con K) × K) := do
  let p := m.fullP b p
  let theta := m.fullTheta b theta
  let xs ← itemAt b.x 0
  let first ← itemAt xs 0
  let results ← (List.range m.dims.elements).mapM (m.element b p theta)
  let body ← (List.range m.dims.elements).mapM (m.consOf b lastU results)
  let costs ← results.mapM elementCost
  let xl ← lastItem b.x
  let xf ← itemAt xl 0
  let cost ← m.mainCost p xf results
  pure ([Con.equality (m.hInitial first x0)] ++ body.flatten ++
    [Con.equality (m.hFinal xf b.eta p), Con.equality (m.h p)], cost + costs.sum)

end ShootingMethod
end Verif
