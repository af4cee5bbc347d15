import Verif.Model.TranscribeShooting
import Verif.Model.TranscribeIndirect
/-!
# What multiple shooting discretises for an indirect method, and the controls it reports

methods/classic/multipleshooting.py:134-431 and 609-692 with `solution_class == "indirect"`
(methods/classic/indirectmethod.py).
-/
namespace Verif
namespace Ocp

/-- What multiple shooting discretises for an indirect method, multipleshooting.py:174-284: the same
functions as for a direct method besides that of the final cost (275-281), and the control law of each
element (333-339); the parameters of the integrators have no control parameters (374), and the
objective is zero. The degree of the control is that of the states (indirectmethod.py:37-39).
Simplification: the law is made after the other functions; every failure to make a function is the
same exception, and nothing else happens in between. -/
def indirectShooting {K : Type} [Field K] (ops : Expr.Ops K) (integ : DaeIntegrator K) (o : Ocp)
    (elements degree : Nat) : Except Err (ShootingMethod K) := do
  let m ← { o with V := .const 0 }.shooting ops integ elements degree degree false
  let _ ← (List.range elements).mapM (o.lawFunction elements)
  .ok { m with
    simulate := fun el t t' x p theta _ => m.simulate el t t' x p theta []
    sCost := fun _ _ => 0
    vCost := fun _ _ => 0 }

/-- The positions of `time_interpolation_controls`, discretizationschemebase.py:76-88. -/
def controlPositions {K : Type} [Field K] (roots : List Rat) : List K :=
  if roots.length = 1 then [0] else roots.map fun r : Rat => (r : K)

/-- `time_interpolation_controls[el]`, discretizationschemebase.py:85-88. The times count from 0, as
`time_breakpoints` does. -/
def controlTimes {K : Type} [Field K] (o : Ocp) (roots : List Rat) (elements el : Nat) : List K :=
  (controlPositions roots).map fun tau => (o.timeBreakpoint elements el : K) +
    ((o.tf : K) - (o.t0 : K)) / (elements : K) * tau

/-- The loop over the times of an element, multipleshooting.py:370-430, with the values of the control
law (399-411): each simulation starts where the one before ended. -/
def lawAlong {K : Type} [Field K] (ops : Expr.Ops K) (integ : DaeIntegrator K) (d : Dae) (law : Fun)
    (p theta : List K) : K → List K → List K → List (List K)
  | _, _, [] => []
  | tInit, xInit, t :: ts =>
    let r := integ d tInit t xInit (p ++ theta)
    law.callAt ops ⟨t, r.1, r.2, p, theta, []⟩ :: lawAlong ops integ d law p theta t r.1 ts

/-- The controls of an element, multipleshooting.py:321-431 with `time_dict[el] == {"u": ..}`: a control
at the start of the element is not implemented (357-361). -/
def elementControls {K : Type} [Field K] [LinearOrder K] (ops : Expr.Ops K) (integ : DaeIntegrator K)
    (o : Ocp) (roots : List Rat) (elements : Nat) (b : Blocks K) (p : List K) (theta : List (List K))
    (el : Nat) : Except Err (List (List K)) := do
  let xs ← itemAt b.x el
  let xInit ← itemAt xs 0
  let d ← o.elementDae elements el
  let law ← o.lawFunction elements el
  let start : K := o.timeBreakpoint elements el
  let times := (o.controlTimes roots elements el).dedup.insertionSort fun a b => a ≤ b
  if start ∈ times then .error .notImplementedError
  else .ok (lawAlong ops integ d law p (theta.getD el []) start xInit (times.erase start))

/-- `optimization_result.u_data["values"]` of an indirect method, multipleshooting.py:625-674: the
decision vector has no controls (641), so they are computed. `b`, `p` and `theta` are the unpacked
decision vector and the completed parameters. -/
def reportedControls {K : Type} [Field K] [LinearOrder K] (ops : Expr.Ops K) (integ : DaeIntegrator K)
    (o : Ocp) (roots : List Rat) (elements : Nat) (b : Blocks K) (p : List K) (theta : List (List K)) :
    Except Err (List (List (List K))) :=
  (List.range elements).mapM (o.elementControls ops integ roots elements b p theta)

end Ocp
end Verif
