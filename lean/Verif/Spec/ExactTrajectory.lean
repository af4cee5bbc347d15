import Verif.Spec.SolveDirect
import Verif.Spec.CollocationExact
/-!
# Trajectories of the user's problem, before it is discretised, that collocation can represent

States, algebraic variables and the cost so far are polynomials in every element; equations, bounds and
path constraints hold at every position, from 0 to 1, not only at collocation points. The controls are
given by their values at the points of the controls.
-/
namespace Verif.Spec

variable {K : Type} [Field K]

/-- The values of the symbols of the user at the position `tau` of an element of the trajectory. The time
is the actual one. -/
structure TrajectoryValues (o : Ocp) (M : Mesh) (z : PolySolution K) (x0 p : List K)
    (theta : List (List K)) (el : Nat) (tau : K) (ρ : Sym → K) : Prop where
  time : ρ o.model.t = (o.t0 : K) + stepLength o M * ((el : K) + tau)
  position : ρ o.model.tau = tau
  states : ∀ (i : Nat) (s : Sym), o.model.x[i]? = some s → ρ s = (z.x el i).eval tau
  algebraics : ∀ (i : Nat) (s : Sym), o.model.y[i]? = some s → ρ s = (z.y el i).eval tau
  controls : ∀ (i : Nat) (s : Sym), o.model.u[i]? = some s →
    ρ s = (through (inField M.controlRoots) (z.u.getD el []) i).eval tau
  parameters : ∀ (i : Nat) (s : Sym), o.model.p[i]? = some s → s ∉ o.pOpt → ρ s = p.getD i 0
  optimised : ∀ (i : Nat) (s : Sym), o.pOpt[i]? = some s → ρ s = z.pOpt.getD i 0
  thetas : ∀ (i : Nat) (s : Sym), o.model.theta[i]? = some s → s ∉ o.thetaOpt →
    ρ s = (theta.getD el []).getD i 0
  optimisedThetas : ∀ (i : Nat) (s : Sym), o.thetaOpt[i]? = some s →
    ρ s = (z.thetaOpt.getD el []).getD i 0
  starts : ∀ (i : Nat) (s : Sym), o.model.x0[i]? = some s → ρ s = x0.getD i 0
  etas : ∀ (i : Nat) (s : Sym), o.eta[i]? = some s → ρ s = z.eta.getD i 0

/-- The values at the points of the mesh. -/
noncomputable def sampledAt (o : Ocp) (M : Mesh) (z : PolySolution K) : Blocks K where
  x := (List.range M.elements).map fun el => (0 :: inField M.roots).map fun tau =>
    (List.range (o.model.x.length + 1)).map fun i => (z.x el i).eval tau
  y := (List.range M.elements).map fun el => (inField M.roots).map fun tau =>
    (List.range o.model.y.length).map fun i => (z.y el i).eval tau
  u := z.u
  eta := z.eta
  pOpt := z.pOpt
  thetaOpt := z.thetaOpt

/-- The degrees the mesh can represent, and the sizes of the other values. -/
structure FitsMesh (o : Ocp) (M : Mesh) (z : PolySolution K) : Prop where
  x : ∀ el i, (z.x el i).natDegree ≤ M.roots.length
  y : ∀ el i, (z.y el i).natDegree < M.roots.length
  shared : SharedShape (directDims o M) (sampledAt o M z)

variable [LinearOrder K]

/-- The bounds hold everywhere; the cost so far is not negative if the objective is declared positive. -/
structure TrajectoryWithin (o : Ocp) (M : Mesh) (z : PolySolution K) : Prop where
  x : ∀ el < M.elements, ∀ tau, 0 ≤ tau → tau ≤ 1 →
    ColumnWithin (o.xMin ++ [if o.positiveObjective then XRat.fin 0 else ⊥]) (o.xMax ++ [⊤])
      ((List.range (o.model.x.length + 1)).map fun i => (z.x el i).eval tau)
  y : ∀ el < M.elements, ∀ tau, 0 ≤ tau → tau ≤ 1 → ColumnWithin o.yMin o.yMax
    ((List.range o.model.y.length).map fun i => (z.y el i).eval tau)
  u : ∀ el ∈ z.u, ∀ col ∈ el, ColumnWithin o.uMin o.uMax col
  pOpt : ColumnWithin o.pOptMin o.pOptMax z.pOpt
  thetaOpt : ∀ col ∈ z.thetaOpt, ColumnWithin o.thetaOptMin o.thetaOptMax col

/-- A trajectory of the user's problem. The polynomial after those of the states is the cost so far:
zero at the start, with the running cost as derivative. -/
structure ExactTrajectory (ops : Expr.Ops K) (o : Ocp) (M : Mesh) (x0 p : List K)
    (theta : List (List K)) (lastU : Option (List K)) (z : PolySolution K) (ρ : Nat → K → Sym → K) :
    Prop where
  fits : FitsMesh o M z
  values : ∀ el < M.elements, ∀ tau, TrajectoryValues o M z x0 p theta el tau (ρ el tau)
  within : TrajectoryWithin o M z
  initial : ∀ e ∈ o.hInitial, e.eval ops (ρ 0 0) = 0
  costStart : (z.x 0 o.model.x.length).eval 0 = 0
  continuous : ∀ el, el + 1 < M.elements → ∀ i ≤ o.model.x.length,
    (z.x el i).eval 1 = (z.x (el + 1) i).eval 0
  dynamics : ∀ el < M.elements, ∀ tau, 0 ≤ tau → tau ≤ 1 → ∀ (i : Nat) (s : Sym) (e : Expr),
    o.model.x[i]? = some s → o.model.ode.get? s = some (some e) →
    (z.x el i).derivative.eval tau = stepLength o M * e.eval ops (ρ el tau)
  running : ∀ el < M.elements, ∀ tau, 0 ≤ tau → tau ≤ 1 →
    (z.x el o.model.x.length).derivative.eval tau = stepLength o M * o.L.eval ops (ρ el tau)
  algebraic : ∀ el < M.elements, ∀ tau, 0 ≤ tau → tau ≤ 1 → ∀ e ∈ o.model.alg, e.eval ops (ρ el tau) = 0
  inequalities : ∀ el < M.elements, ∀ (i : Nat) (e : Expr) (tag : String), o.gIneq[i]? = some e →
    o.timeGIneq[i]? = some tag → ∀ tau, PathHoldsAt tag tau → e.eval ops (ρ el tau) ≤ 0
  equalities : ∀ el < M.elements, ∀ (i : Nat) (e : Expr) (tag : String), o.gEq[i]? = some e →
    o.timeGEq[i]? = some tag → ∀ tau, PathHoldsAt tag tau → e.eval ops (ρ el tau) = 0
  rates : ∀ el < M.elements, ∀ before now, controlBefore (sampledAt o M z) lastU el = some before →
    (z.u.getD el []).head? = some now → ∀ (i : Nat) (a c : K) (lo hi : XRat), now[i]? = some a →
    before[i]? = some c → o.duMin[i]? = some lo → o.duMax[i]? = some hi →
    (Ocp.boundValue lo : WithBot (WithTop K)) ≤ ((a - c : K) : WithTop K) ∧
      (((a - c : K) : WithTop K) : WithBot (WithTop K)) ≤ Ocp.boundValue hi
  final : ∀ e ∈ o.hFinal, e.eval ops (ρ (M.elements - 1) 1) = 0
  timeless : ∀ e ∈ o.h, e.eval ops (ρ (M.elements - 1) 1) = 0

/-- The cost of the user: final cost, the running cost over the horizon, and the cost at the end of each
element. -/
noncomputable def trajectoryCost (ops : Expr.Ops K) (o : Ocp) (M : Mesh) (z : PolySolution K)
    (ρ : Nat → K → Sym → K) : K :=
  o.V.eval ops (ρ (M.elements - 1) 1) + (z.x (M.elements - 1) o.model.x.length).eval 1 +
    ((List.range M.elements).map fun el => o.S.eval ops (ρ el 1)).sum

/-- The horizon starts at zero, or nothing along the trajectory depends on the time. -/
def ClockFree (o : Ocp) : Prop := o.t0 = 0 ∨ ∀ e ∈ alongPath o, o.model.t ∉ e.syms

end Verif.Spec
