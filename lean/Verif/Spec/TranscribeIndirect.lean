import Verif.Spec.Transcribe
import Verif.Spec.IndirectOptimal
import Verif.Spec.Ocp
import Verif.Model.Indirect
import Mathlib.Analysis.Calculus.Deriv.Basic
/-!
# The conditions of Pontryagin at the collocation points

What a solution of the program of an indirect method is, in terms of the problem the user wrote: the
states and adjoints are polynomials in every element, so are the algebraic variables and their
multipliers, the controls minimise the Hamiltonian, and the conditions of optimality hold at the
points of the mesh.
-/
namespace Verif.Spec

/-- The symbols an indirect method adds to a problem: the adjoint states, the multipliers of the
algebraic equations and of the final constraints, and the initial values of the adjoints. -/
structure Added where
  lamb : List Sym
  nu : List Sym
  eta : List Sym
  starts : List Sym

/-- The symbols of the prepared problem `q` that the problem `o` did not have. -/
def addedTo (o q : Ocp) : Added where
  lamb := q.model.x.drop o.model.x.length
  nu := q.model.y.drop o.model.y.length
  eta := q.eta
  starts := q.model.x0.drop o.model.x0.length

/-- A problem an indirect method can discretise: a horizon, one right-hand side per state, different
controls that are not yet expressions, optimised parameters among those of the model, a known tag for
each path constraint, bounds of the right sizes, and no limit on the changes of the controls. -/
structure IndirectProblem (o : Ocp) : Prop where
  horizon : o.t0 < o.tf
  complete : Complete o.model
  starts : o.model.x0.length = o.model.x.length
  controls : o.model.u.Nodup
  free : o.model.uPar = o.model.u ∧ o.model.uExpr = o.model.u.map .sym
  parameters : o.model.p.Nodup ∧ o.pOpt.Nodup ∧ ∀ s ∈ o.pOpt, s ∈ o.model.p
  thetas : o.model.theta.Nodup ∧ o.thetaOpt.Nodup ∧ ∀ s ∈ o.thetaOpt, s ∈ o.model.theta
  tags : ∀ tag ∈ o.timeGIneq ++ o.timeGEq, tag = "start" ∨ tag = "end" ∨ tag = "default"
  tagged : o.timeGIneq.length = o.gIneq.length ∧ o.timeGEq.length = o.gEq.length
  sized : Sized o
  unlimited : o.duMin = List.replicate o.model.u.length ⊥ ∧
    o.duMax = List.replicate o.model.u.length ⊤

/-- The sizes of the discretised problem: twice the states and algebraic variables, no control
parameters, and a multiplier per final constraint. -/
def indirectDims (o : Ocp) (M : Mesh) : Dims where
  elements := M.elements
  degree := M.roots.length
  degreeControl := M.roots.length
  nX := o.model.x.length + o.model.x.length
  nY := o.model.y.length + o.model.y.length
  nU := o.model.u.length
  nUPar := 0
  nEta := o.hFinal.length
  nPOpt := o.pOpt.length
  nThetaOpt := o.thetaOpt.length

/-- The values given to the scheme: a start for every state and adjoint, and the parameters. -/
structure IndirectData (o : Ocp) (M : Mesh) (x0 p : List ℝ) (theta : List (List ℝ)) : Prop where
  x0 : x0.length = o.model.x.length + o.model.x.length
  p : p.length = o.model.p.length
  theta : ∀ el < M.elements, (theta.getD el []).length = o.model.theta.length

/-- The symbols that have a value during a solution. -/
def indirectSymbols (o : Ocp) (a : Added) : List Sym :=
  [o.model.t, o.model.tau] ++ (o.model.x ++ a.lamb) ++ (o.model.y ++ a.nu) ++ o.model.p ++
    o.model.theta ++ (o.model.x0 ++ a.starts) ++ a.eta ++ o.model.u

/-- `ρ` gives the symbols besides the controls their values at the position `tau` of element `el`: the
polynomials of the states followed by those of the adjoints, of the algebraic variables followed by
those of their multipliers, the given or optimised parameters, the initial values and the multipliers
of the final constraints. -/
structure ReadsIndirect (o : Ocp) (a : Added) (M : Mesh) (b : Blocks ℝ) (x0 p : List ℝ)
    (theta : List (List ℝ)) (el : Nat) (tau : ℝ) (ρ : Sym → ℝ) : Prop where
  time : ρ o.model.t = stepLength o M * ((el : ℝ) + tau)
  position : ρ o.model.tau = tau
  states : ∀ (i : Nat) (s : Sym), (o.model.x ++ a.lamb)[i]? = some s →
    ρ s = (statePoly M b el i).eval tau
  algebraics : ∀ (i : Nat) (s : Sym), (o.model.y ++ a.nu)[i]? = some s →
    ρ s = (algebraicPoly M b el i).eval tau
  parameters : ∀ (i : Nat) (s : Sym), o.model.p[i]? = some s → s ∉ o.pOpt → ρ s = p.getD i 0
  optimised : ∀ (i : Nat) (s : Sym), o.pOpt[i]? = some s → ρ s = b.pOpt.getD i 0
  thetas : ∀ (i : Nat) (s : Sym), o.model.theta[i]? = some s → s ∉ o.thetaOpt →
    ρ s = (theta.getD el []).getD i 0
  optimisedThetas : ∀ (i : Nat) (s : Sym), o.thetaOpt[i]? = some s →
    ρ s = (b.thetaOpt.getD el []).getD i 0
  starts : ∀ (i : Nat) (s : Sym), (o.model.x0 ++ a.starts)[i]? = some s → ρ s = x0.getD i 0
  etas : ∀ (i : Nat) (s : Sym), a.eta[i]? = some s → ρ s = b.eta.getD i 0

/-- The controls are within their bounds, and no controls within them have a smaller Hamiltonian. -/
structure MinimisesHamiltonian (ops : Expr.Ops ℝ) (o : Ocp) (a : Added) (ρ : Sym → ℝ) : Prop where
  within : InBounds o fun i => ρ o.model.u[i]
  least : ∀ w, InBounds o w →
    hamiltonianAt ops o a.lamb a.nu ρ ≤ hamiltonianAt ops o a.lamb a.nu (assign o.model.u w ρ)

/-- What the method needs of the Hamiltonian `H` at a point: it is a strictly convex quadratic function
of the controls whose Hessian does not couple controls that have bounds with others, and the symbolic
engine inverts this Hessian. -/
structure SolvableControls (ops : Expr.Ops ℝ) (B : Backend) (o : Ocp) (H : Expr) (ρ : Sym → ℝ) :
    Prop where
  size : (B.inv (Expr.hessian B.table o.model.u H)).length = o.model.u.length ∧
    ∀ row ∈ B.inv (Expr.hessian B.table o.model.u H), row.length = o.model.u.length
  inverse : matrixAt ops ρ o.model.u.length (B.inv (Expr.hessian B.table o.model.u H)) =
    (matrixAt ops ρ o.model.u.length (Expr.hessian B.table o.model.u H))⁻¹
  quadratic : ∃ c g A, QuadraticInControls ops B.table H o.model.u ρ c g A ∧ StrictlyConvex A ∧
    BoundsUncoupled o A

/-- The derivatives the table knows are those of the functions of the problem. -/
structure DerivativesKnown (ops : Expr.Ops ℝ) (D : Expr.DiffTable) (o : Ocp) (M : Mesh)
    (ρ : Nat → ℝ → Sym → ℝ) : Prop where
  path : ∀ el < M.elements, ∀ tau ∈ inField M.roots, ∀ e ∈ o.L :: (o.model.odeVec ++ o.model.alg),
    e.SmoothAt ops D (ρ el tau)
  final : ∀ e ∈ o.V :: o.hFinal, e.SmoothAt ops D (ρ (M.elements - 1) 1)

/-- The collocated conditions of optimality. `ρ el tau` are the values of the symbols at a position of
an element. -/
structure IndirectSolution (ops : Expr.Ops ℝ) (o : Ocp) (a : Added) (M : Mesh) (b : Blocks ℝ)
    (ρ : Nat → ℝ → Sym → ℝ) : Prop where
  initial : ∀ e ∈ o.hInitial, e.eval ops (ρ 0 0) = 0
  continuous : ∀ el, el + 1 < M.elements → (b.x.getD el []).getLast? = (b.x.getD (el + 1) []).head?
  dynamics : ∀ el < M.elements, ∀ tau ∈ inField M.roots, ∀ (i : Nat) (s : Sym) (e : Expr),
    o.model.x[i]? = some s → o.model.ode.get? s = some (some e) →
    (statePoly M b el i).derivative.eval tau = stepLength o M * e.eval ops (ρ el tau)
  costate : ∀ el < M.elements, ∀ tau ∈ inField M.roots, ∀ (i : Nat) (s : Sym),
    o.model.x[i]? = some s →
    (statePoly M b el (o.model.x.length + i)).derivative.eval tau =
      -(stepLength o M * deriv (fun v => hamiltonianAt ops o a.lamb a.nu
        (Function.update (ρ el tau) s v)) (ρ el tau s))
  algebraic : ∀ el < M.elements, ∀ tau ∈ inField M.roots, ∀ e ∈ o.model.alg, e.eval ops (ρ el tau) = 0
  stationary : ∀ el < M.elements, ∀ tau ∈ inField M.roots, ∀ s ∈ o.model.y,
    deriv (fun v => hamiltonianAt ops o a.lamb a.nu (Function.update (ρ el tau) s v))
      (ρ el tau s) = 0
  inequalities : ∀ el < M.elements, ∀ (i : Nat) (e : Expr) (tag : String), o.gIneq[i]? = some e →
    o.timeGIneq[i]? = some tag → ∀ taus, pathPositions (inField M.roots) tag = some taus →
    ∀ tau ∈ taus, e.eval ops (ρ el tau) ≤ 0
  equalities : ∀ el < M.elements, ∀ (i : Nat) (e : Expr) (tag : String), o.gEq[i]? = some e →
    o.timeGEq[i]? = some tag → ∀ taus, pathPositions (inField M.roots) tag = some taus →
    ∀ tau ∈ taus, e.eval ops (ρ el tau) = 0
  final : ∀ e ∈ o.hFinal, e.eval ops (ρ (M.elements - 1) 1) = 0
  transversality : ∀ (i : Nat) (s l : Sym), o.model.x[i]? = some s → a.lamb[i]? = some l →
    ρ (M.elements - 1) 1 l = deriv (fun v => finalAt ops o a.eta (ρ (M.elements - 1) 1)
      (Function.update (ρ (M.elements - 1) 1) s v)) (ρ (M.elements - 1) 1 s)
  timeless : ∀ e ∈ o.h, e.eval ops (ρ (M.elements - 1) 1) = 0

end Verif.Spec
