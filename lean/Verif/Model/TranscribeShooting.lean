import Verif.Model.Shooting
import Verif.Model.Transcribe
/-!
# From the expressions of a problem to what multiple shooting discretises

methods/classic/multipleshooting.py:134-284 and 327-387: the CasADi functions, the differential
equations of every element and their integrator.
-/
namespace Verif

/-- An integrator of differential equations: the states and algebraics at `t_f`, from `t_0`, the states
at `t_0` and the parameters. It stands for `DAESystem.simulate`, dae_system.py:191-245, with the chosen
type and the guess of the algebraics. -/
abbrev DaeIntegrator (K : Type) := Dae → K → K → List K → List K → List K × List K

namespace Dae

/-- All symbols of the equations are handed to the integrator, dae_system.py:105-125. -/
def closed (d : Dae) : Bool :=
  (d.ode ++ d.alg).all fun e => e.syms.all fun s => d.inputs.contains s

/-- `casadi.integrator(name, plugin, dae, options)`, dae_system.py:275-280: free symbols are rejected. -/
def checked (d : Dae) : Except Err Dae := if d.closed then .ok d else .error .runtimeError

end Dae

namespace Ocp

/-- The equations of an element in terms of the time, multipleshooting.py:326-330. -/
def elementDae (o : Ocp) (elements el : Nat) : Except Err Dae := do
  let d ← o.model.getDae.convertFromTau (o.timeBreakpoint elements el)
    (o.timeBreakpoint elements (el + 1))
  d.checked

/-- The function of the final cost is created unless the cost is a sum,
multipleshooting.py:275-281. -/
def finalCost (o : Ocp) (costAsSum : Bool) : Except Err Fun :=
  if costAsSum then .ok ⟨[], []⟩ else Fun.make [o.model.x, o.model.p] [o.V]

/-- The equations of element `el`. -/
def daeAt (ds : List Dae) (el : Nat) : Dae := ds.getD el ⟨[], [], 0, [], [], [], none⟩

/-- What multiple shooting discretises, in the order of the code, multipleshooting.py:174-281. The
fields `ode`, `alg` and `roots` belong to collocation. -/
def shooting {K : Type} [Field K] (ops : Expr.Ops K) (integ : DaeIntegrator K) (o : Ocp)
    (elements degree degreeControl : Nat) (costAsSum : Bool) : Except Err (ShootingMethod K) := do
  let initial ← Fun.make [o.model.x, o.model.x0] o.hInitial
  let gIneq ← o.gIneq.mapM (o.elementFunctions elements)
  let gEq ← o.gEq.mapM (o.elementFunctions elements)
  let sCost ← o.elementFunctions elements o.S
  let daes ← (List.range elements).mapM (o.elementDae elements)
  let final ← Fun.make [o.model.x, o.eta, o.model.p] o.hFinal
  let timeless ← Fun.make [o.model.p] o.h
  let vCost ← o.finalCost costAsSum
  .ok {
    dims := o.dims elements degree degreeControl
    roots := []
    t0 := (o.t0 : K)
    tf := (o.tf : K)
    ode := fun _ _ => []
    alg := fun _ _ => []
    sCost := fun el pt => scalar ((funAt sCost el).callAt ops pt)
    gIneq := pathCons ops gIneq o.timeGIneq
    gEq := pathCons ops gEq o.timeGEq
    hInitial := fun x x0 => initial.call ops [x, x0]
    hFinal := fun x eta p => final.call ops [x, eta, p]
    h := fun p => timeless.call ops [p]
    vCost := fun x p => scalar (vCost.call ops [x, p])
    duMin := o.duMin.map boundValue
    duMax := o.duMax.map boundValue
    pOptIndices := o.pOptIndices
    thetaOptIndices := o.thetaOptIndices
    simulate := fun el t t' x p theta u => integ (daeAt daes el) t t' x (p ++ theta ++ u)
    costAsSum := costAsSum }

end Ocp
end Verif
