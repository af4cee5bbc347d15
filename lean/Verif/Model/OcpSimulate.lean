import Verif.Model.Ocp
import Verif.Model.Simulate
/-!
# `OptimalControlProblem.simulate` (modelling/ocp.py)
-/
namespace Verif

/-- The `t_f` argument: absent, a number or a list of times. -/
inductive TfArg
  | absent
  | num (t : Rat)
  | list (ts : List Rat)
  deriving DecidableEq

namespace Ocp

/-- The list of times that is simulated, ocp.py:1042-1050 and system_model.py:614-615 (a number is
made a list of one element there). Dividing by zero elements raises (`ZeroDivisionError`, here
`.exception`). -/
def simulationTimes (o : Ocp) (tf : TfArg) (t0 : Option Rat) (n : Option Nat) :
    Except Err (List Rat) :=
  let start := t0.getD o.t0
  let grid (t : Rat) : Except Err (List Rat) :=
    match n with
    | none => .ok [t]
    | some 0 => .error .exception
    | some (n + 1) => .ok ((List.range' 1 n).map fun k : Nat =>
        (t - start) / ((n + 1 : Nat) : Rat) * (k : Rat))
  match tf with
  | .list ts => .ok ts
  | .num t => grid t
  | .absent => grid o.tf

/-- `simulate(x_0, t_f, t_0, finite_elements, u, p, theta, y_0, integrator_type)`,
ocp.py:1027-1064. The model is simulated from the problem's `t_0`. -/
def simulate (o : Ocp) (integ : Plugin → Integrator) (ty : Option String) (fu : ControlFn)
    (x0 : Option Vec) (tf : TfArg) (t0 : Option Rat) (n : Option Nat) (u : Option UArg)
    (p : Vec) (theta : Option (Dict Nat Vec)) (y0 : Option Vec) : Except Err SimOut := do
  o.preSolveCheck
  let ts ← o.simulationTimes tf t0 n
  o.model.simulate integ ty fu (x0.getD o.x0) ts o.t0
    (u.getD (.const (o.uGuess.getD []))) p theta (y0.or o.yGuess)

end Ocp
end Verif
