import Verif.Model.SolveShooting
import Verif.Spec.SolveDirect
import Verif.Spec.TranscribeShooting
/-!
# What solving an optimal control problem with multiple shooting should give
-/
namespace Verif.Spec
open SolveDirect

/-- The variables of the nonlinear program are new symbols of the sizes asked for. -/
structure NewShots (d : Dims) (var : Layout.Kind → Nat → Nat → List Sym) : Prop extends
    SymSizes d var where
  different : (Layout.stacked (variableBlocks d (d.elements + 1) 1 1 var)).Nodup

/-- A problem and options multiple shooting can work with: some elements, a problem in the form
`ShotProblem` with expressions in scope, bounds and limits of the right sizes, and the initial condition
as a parameter (the default). The symbols CasADi creates are new. -/
structure ShotDeclared (opts : Options) (names : NewNames) (o : Ocp) : Prop where
  mesh : ControlMesh (Spec.mesh opts)
  controlRoots : opts.controlRoots.Nodup
  problem : ShotProblem o
  scope : DirectScope o
  symbols : (problemSymbols o).Nodup
  controls : 0 < o.model.u.length
  bounds : BoundsFit o
  limits : LimitsFit o (lastOf (K := ℝ) o)
  new : NewSymbols o names.xc names.fresh names.base
  newVars : NewShots (directDims o (Spec.mesh opts)) names.var
  initial : opts.initialConditionAsParameter = true

/-- Moreover there is a last control if one is needed. -/
structure ShotWellPosed (opts : Options) (names : NewNames) (o : Ocp) : Prop extends
    ShotDeclared opts names o where
  last : LastFits o opts

/-- The integrator is exact for the equations of every element of the prepared problem `q`. -/
def ExactElements (ops : Expr.Ops ℝ) (integ : DaeIntegrator ℝ) (o q : Ocp) (M : Mesh) : Prop :=
  ∀ el < M.elements, ∀ d, q.elementDae M.elements el = .ok d →
    ExactShots ops integ d (nodeTime o M el) (nodeTime o M (el + 1))

/-- In every element, the trajectory that starts at the state of the decision vector. -/
def Paths (ops : Expr.Ops ℝ) (o : Ocp) (M : Mesh) (b : Blocks ℝ) (x0 p : List ℝ) (theta : List (List ℝ))
    (X : Nat → ℝ → Sym → ℝ) : Prop :=
  ∀ el < M.elements, ElementPath ops o M b x0 p theta el (X el)

/-- A decision of the user's problem with the control profile of the mesh: trajectories of the user's
differential equations that fit together, meet the conditions of the user, and respect the bounds at the
nodes. -/
structure ShotDecision (ops : Expr.Ops ℝ) (o : Ocp) (M : Mesh) (x0 p : List ℝ) (theta : List (List ℝ))
    (lastU : Option (List ℝ)) (sum : Bool) (b : Blocks ℝ) (X : Nat → ℝ → Sym → ℝ) : Prop where
  data : ShootingShape (directDims o M) b
  paths : Paths ops o M b x0 p theta X
  bounds : WithinBounds o b
  solution : ShotSolution ops o M b lastU sum X

/-- The cost that is minimised: the cost of the user, without the final cost if the cost is a sum. -/
noncomputable def shotCost (ops : Expr.Ops ℝ) (o : Ocp) (M : Mesh) (sum : Bool)
    (X : Nat → ℝ → Sym → ℝ) : ℝ :=
  if sum then pathCost ops o M X else userCost ops o M X

/-- A decision with the least cost. -/
structure BestShots (ops : Expr.Ops ℝ) (o : Ocp) (M : Mesh) (x0 p : List ℝ) (theta : List (List ℝ))
    (lastU : Option (List ℝ)) (sum : Bool) (b : Blocks ℝ) (X : Nat → ℝ → Sym → ℝ) : Prop extends
    ShotDecision ops o M x0 p theta lastU sum b X where
  best : ∀ b' X', ShotDecision ops o M x0 p theta lastU sum b' X' →
    shotCost ops o M sum X ≤ shotCost ops o M sum X'

/-- The result shows the decision vector `b`: the states at the nodes, the algebraics at the ends of the
elements, and the polynomials of the controls. -/
structure ShowsShots (o : Ocp) (M : Mesh) (b : Blocks ℝ) (r : Report ℝ) : Prop where
  xTime : r.xTime = (List.range (M.elements + 1)).map fun k => [nodeTime o M k]
  xValues : r.xValues = (List.range (M.elements + 1)).map fun k =>
    [(List.range (o.model.x.length + 1)).map (shotState b k)]
  yTime : r.yTime = (List.range M.elements).map fun el => [nodeTime o M (el + 1)]
  yValues : r.yValues = (List.range M.elements).map fun el =>
    [(List.range o.model.y.length).map (shotAlgebraic b el)]
  uTime : r.uTime = tableTimes o M (reportedPositions M)
  uValues : r.uValues = sampleTable M.elements o.model.u.length (reportedPositions M) (controlPoly M b)
  pOpt : r.pOpt = b.pOpt
  thetaOpt : r.thetaOpt = b.thetaOpt
  eta : r.eta = b.eta

end Verif.Spec
