import Verif.Model.Transcribe
import Verif.Spec.Collocation
import Verif.Spec.Scope
import Verif.Spec.Merge
/-!
# What a solution of the discretised problem is, in terms of the problem the user wrote

A direct method with collocation: the states are polynomials in every element, so are the controls,
and the expressions of the user are evaluated at the collocation points.
-/
namespace Verif.Spec

/-- The mesh of a direct method: finite elements, collocation points of the states and of the
controls (positions in an element, from 0 to 1). -/
structure Mesh where
  elements : Nat
  roots : List Rat
  controlRoots : List Rat

/-- Some elements, and points for the controls. -/
structure ControlMesh (M : Mesh) : Prop where
  elements : 0 < M.elements
  controls : 0 < M.controlRoots.length

/-- For collocation two points at least, increasing up to 1. -/
structure GoodMesh (M : Mesh) : Prop extends ControlMesh M where
  points : 1 < M.roots.length
  increasing : (0 :: M.roots).Pairwise (· < ·)
  last : M.roots.getLast? = some 1

/-- The symbols of a problem that have a value during a solution. -/
def problemSymbols (o : Ocp) : List Sym :=
  [o.model.t, o.model.tau] ++ o.model.x ++ o.model.y ++ o.model.u ++ o.model.p ++ o.model.theta ++
    o.model.x0 ++ o.eta

/-- The expressions that hold along the trajectory. -/
def alongPath (o : Ocp) : List Expr :=
  o.model.odeVec ++ o.model.alg ++ o.gIneq ++ o.gEq ++ [o.S, o.L]

/-- The symbols each kind of expression may use. -/
structure DirectScope (o : Ocp) : Prop where
  path : ∀ e ∈ alongPath o, ∀ s ∈ e.syms,
    s ∈ [o.model.t, o.model.tau] ++ o.model.x ++ o.model.y ++ o.model.u ++ o.model.p ++ o.model.theta
  initial : ∀ e ∈ o.hInitial, ∀ s ∈ e.syms, s ∈ o.model.x ++ o.model.x0
  final : ∀ e ∈ o.hFinal, ∀ s ∈ e.syms, s ∈ o.model.x ++ o.eta ++ o.model.p
  timeless : ∀ e ∈ o.h, ∀ s ∈ e.syms, s ∈ o.model.p
  cost : ∀ s ∈ o.V.syms, s ∈ o.model.x ++ o.model.p

/-- The symbols the functions of a prepared problem have as inputs: `InScope` are the time, the position
in the element, states, algebraic variables, parameters and control parameters. -/
structure FunctionScope (o : Ocp) : Prop where
  path : ∀ e ∈ o.model.odeVec ++ (if o.model.y = [] then [] else o.model.alg) ++ o.gIneq ++ o.gEq ++ [o.S],
    ∀ s ∈ e.syms, InScope o.model s
  initial : ∀ e ∈ o.hInitial, ∀ s ∈ e.syms, s ∈ o.model.x ++ o.model.x0
  final : ∀ e ∈ o.hFinal, ∀ s ∈ e.syms, s ∈ o.model.x ++ o.eta ++ o.model.p
  timeless : ∀ e ∈ o.h, ∀ s ∈ e.syms, s ∈ o.model.p
  cost : ∀ s ∈ o.V.syms, s ∈ o.model.x ++ o.model.p

/-- The control symbols are not used for anything else. -/
def ControlsApart (o : Ocp) : Prop :=
  ∀ s ∈ o.model.u, s ∉ [o.model.t, o.model.tau] ++ o.model.x ++ o.model.y ++ o.model.p ++
    o.model.theta ++ o.model.x0 ++ o.eta

/-- Symbols that are new for the problem: the cost state, its initial condition, and the points of the
controls, numbered from `base`. -/
structure NewSymbols (o : Ocp) (xc fresh base : Sym) : Prop where
  costState : xc ∉ problemSymbols o
  initial : fresh ∉ problemSymbols o
  different : xc ≠ fresh
  points : ∀ s ∈ xc :: fresh :: problemSymbols o, s < base

/-- A problem a direct method can discretise: a horizon, one right-hand side per state, different
controls, optimised parameters among those of the model, a known tag for each path constraint, and
algebraic equations only together with algebraic variables. -/
structure DirectProblem (o : Ocp) : Prop where
  horizon : o.t0 < o.tf
  complete : Complete o.model
  starts : o.model.x0.length = o.model.x.length
  controls : o.model.u.Nodup
  apart : ControlsApart o
  parameters : o.model.p.Nodup ∧ o.pOpt.Nodup ∧ ∀ s ∈ o.pOpt, s ∈ o.model.p
  thetas : o.model.theta.Nodup ∧ o.thetaOpt.Nodup ∧ ∀ s ∈ o.thetaOpt, s ∈ o.model.theta
  tags : ∀ tag ∈ o.timeGIneq ++ o.timeGEq, tag = "start" ∨ tag = "end" ∨ tag = "default"
  tagged : o.timeGIneq.length = o.gIneq.length ∧ o.timeGEq.length = o.gEq.length
  equations : o.model.y = [] → o.model.alg = []

/-- The sizes of the discretised problem: one more state, the cost state. -/
def directDims (o : Ocp) (M : Mesh) : Dims where
  elements := M.elements
  degree := M.roots.length
  degreeControl := M.controlRoots.length
  nX := o.model.x.length + 1
  nY := o.model.y.length
  nU := o.model.u.length
  nUPar := o.model.u.length * M.controlRoots.length
  nEta := o.eta.length
  nPOpt := o.pOpt.length
  nThetaOpt := o.thetaOpt.length

section
variable {K : Type} [Field K]

/-- Points as elements of the field. -/
def inField (l : List Rat) : List K := l.map (Rat.cast : Rat → K)

/-- The length of an element. -/
def stepLength (o : Ocp) (M : Mesh) : K := ((o.tf : K) - (o.t0 : K)) / (M.elements : K)

/-- The polynomial of the `i`-th state in an element; the last one is the cost state. -/
noncomputable def statePoly (M : Mesh) (b : Blocks K) (el i : Nat) : Polynomial K :=
  through (0 :: inField M.roots) (b.x.getD el []) i

/-- The polynomial of the `i`-th algebraic variable. -/
noncomputable def algebraicPoly (M : Mesh) (b : Blocks K) (el i : Nat) : Polynomial K :=
  through (inField M.roots) (b.y.getD el []) i

/-- The polynomial of the `i`-th control. -/
noncomputable def controlPoly (M : Mesh) (b : Blocks K) (el i : Nat) : Polynomial K :=
  through (inField M.controlRoots) (b.u.getD el []) i

/-- `ρ` gives the symbols of the problem, besides the states and algebraic variables, their values at
the position `tau` of element `el`: the time (from the start of the horizon), the polynomials of the
controls, the given or optimised parameters, the initial condition and the multipliers `eta`. -/
structure ReadsData (o : Ocp) (M : Mesh) (b : Blocks K) (x0 p : List K) (theta : List (List K))
    (el : Nat) (tau : K) (ρ : Sym → K) : Prop where
  time : ρ o.model.t = stepLength o M * ((el : K) + tau)
  position : ρ o.model.tau = tau
  controls : ∀ (i : Nat) (s : Sym), o.model.u[i]? = some s → ρ s = (controlPoly M b el i).eval tau
  parameters : ∀ (i : Nat) (s : Sym), o.model.p[i]? = some s → s ∉ o.pOpt → ρ s = p.getD i 0
  optimised : ∀ (i : Nat) (s : Sym), o.pOpt[i]? = some s → ρ s = b.pOpt.getD i 0
  thetas : ∀ (i : Nat) (s : Sym), o.model.theta[i]? = some s → s ∉ o.thetaOpt →
    ρ s = (theta.getD el []).getD i 0
  optimisedThetas : ∀ (i : Nat) (s : Sym), o.thetaOpt[i]? = some s →
    ρ s = (b.thetaOpt.getD el []).getD i 0
  starts : ∀ (i : Nat) (s : Sym), o.model.x0[i]? = some s → ρ s = x0.getD i 0
  etas : ∀ (i : Nat) (s : Sym), o.eta[i]? = some s → ρ s = b.eta.getD i 0

/-- All symbols: the states and algebraic variables are the polynomials of the collocation method. -/
structure Reads (o : Ocp) (M : Mesh) (b : Blocks K) (x0 p : List K) (theta : List (List K)) (el : Nat)
    (tau : K) (ρ : Sym → K) : Prop extends ReadsData o M b x0 p theta el tau ρ where
  states : ∀ (i : Nat) (s : Sym), o.model.x[i]? = some s → ρ s = (statePoly M b el i).eval tau
  algebraics : ∀ (i : Nat) (s : Sym), o.model.y[i]? = some s → ρ s = (algebraicPoly M b el i).eval tau

/-- The data given to the solver have the sizes of the problem. -/
structure DataFits (o : Ocp) (M : Mesh) (x0 p : List K) (theta : List (List K)) : Prop where
  x0 : x0.length = o.model.x.length
  p : p.length = o.model.p.length
  theta : ∀ el < M.elements, (theta.getD el []).length = o.model.theta.length

variable [LinearOrder K]

/-- The limits on the changes of the controls are usable. -/
structure LimitsFit (o : Ocp) (lastU : Option (List K)) : Prop where
  min : o.duMin.length = o.model.u.length
  max : o.duMax.length = o.model.u.length
  uncrossed : ∀ (i : Nat) (lo hi : XRat), o.duMin[i]? = some lo → o.duMax[i]? = some hi → lo ≤ hi
  last : ∀ u, lastU = some u → u.length = o.model.u.length

/-- The problem of the user, discretised: its expressions hold at the points of the mesh. `ρ el tau`
are the values of the symbols at a position of an element. -/
structure DirectSolution (ops : Expr.Ops K) (o : Ocp) (M : Mesh) (b : Blocks K)
    (lastU : Option (List K)) (ρ : Nat → K → Sym → K) : Prop where
  initial : ∀ e ∈ o.hInitial, e.eval ops (ρ 0 0) = 0
  costStart : (statePoly M b 0 o.model.x.length).eval 0 = 0
  continuous : ∀ el, el + 1 < M.elements → (b.x.getD el []).getLast? = (b.x.getD (el + 1) []).head?
  dynamics : ∀ el < M.elements, ∀ tau ∈ inField M.roots, ∀ (i : Nat) (s : Sym) (e : Expr),
    o.model.x[i]? = some s → o.model.ode.get? s = some (some e) →
    (statePoly M b el i).derivative.eval tau = stepLength o M * e.eval ops (ρ el tau)
  running : ∀ el < M.elements, ∀ tau ∈ inField M.roots,
    (statePoly M b el o.model.x.length).derivative.eval tau =
      stepLength o M * o.L.eval ops (ρ el tau)
  algebraic : ∀ el < M.elements, ∀ tau ∈ inField M.roots, ∀ e ∈ o.model.alg, e.eval ops (ρ el tau) = 0
  inequalities : ∀ el < M.elements, ∀ (i : Nat) (e : Expr) (tag : String), o.gIneq[i]? = some e →
    o.timeGIneq[i]? = some tag → ∀ taus, pathPositions (inField M.roots) tag = some taus →
    ∀ tau ∈ taus, e.eval ops (ρ el tau) ≤ 0
  equalities : ∀ el < M.elements, ∀ (i : Nat) (e : Expr) (tag : String), o.gEq[i]? = some e →
    o.timeGEq[i]? = some tag → ∀ taus, pathPositions (inField M.roots) tag = some taus →
    ∀ tau ∈ taus, e.eval ops (ρ el tau) = 0
  rates : ∀ el < M.elements, ∀ before now, controlBefore b lastU el = some before →
    (b.u.getD el []).head? = some now → ∀ (i : Nat) (a c : K) (lo hi : XRat), now[i]? = some a →
    before[i]? = some c → o.duMin[i]? = some lo → o.duMax[i]? = some hi →
    (Ocp.boundValue lo : WithBot (WithTop K)) ≤ ((a - c : K) : WithTop K) ∧
      (((a - c : K) : WithTop K) : WithBot (WithTop K)) ≤ Ocp.boundValue hi
  final : ∀ e ∈ o.hFinal, e.eval ops (ρ (M.elements - 1) 1) = 0
  timeless : ∀ e ∈ o.h, e.eval ops (ρ (M.elements - 1) 1) = 0

/-- The cost: the final cost, the cost state at the end, and the cost at the end of each element. -/
noncomputable def directCost (ops : Expr.Ops K) (o : Ocp) (M : Mesh) (b : Blocks K)
    (ρ : Nat → K → Sym → K) : K :=
  o.V.eval ops (ρ (M.elements - 1) 1) + (statePoly M b (M.elements - 1) o.model.x.length).eval 1 +
    ((List.range M.elements).map fun el => o.S.eval ops (ρ el 1)).sum

end
end Verif.Spec
