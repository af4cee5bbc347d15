import Verif.Model.SolveShootIndirect
import Verif.Spec.SolveIndirect
import Verif.Spec.SolveShooting
import Verif.Spec.ShootIndirect
/-!
# What solving with an indirect method and multiple shooting should give
-/
namespace Verif.Spec
open SolveIndirect

/-- A problem and options an indirect method with multiple shooting can work with: there are elements,
path constraints hold at the ends of elements, the symbols CasADi creates are new, and the integrator is
exact between any two times of an element. -/
structure IndirectShotPosed (B : Backend) (ops : Expr.Ops ℝ) (integ : DaeIntegrator ℝ) (opts : Options)
    (names : NewNames) (o q : Ocp) : Prop extends IndirectDeclared B ops opts o q where
  elements : 0 < opts.elements
  ends : PathAtEnds o
  newVars : NewShots (indirectDims o (indirectMesh opts)) names.var
  exact : ∀ el < opts.elements, ∀ d, q.elementDae opts.elements el = .ok d → ∀ t t',
    nodeTime o (indirectMesh opts) el ≤ t → t < t' → t' ≤ nodeTime o (indirectMesh opts) (el + 1) →
    ExactShots ops integ d t t'

/-- In every element, an extremal that starts at the states and adjoints of the decision vector. -/
structure ExtremalPaths (B : Backend) (ops : Expr.Ops ℝ) (o : Ocp) (a : Added) (M : Mesh)
    (x0 p : List ℝ) (theta : List (List ℝ)) (b : Blocks ℝ) (X : Nat → ℝ → Sym → ℝ) : Prop where
  paths : ∀ el < M.elements, ExtremalPath ops o a M b x0 p theta el (X el)
  known : DerivativesAlong ops B.table o M X

/-- The result shows the decision vector `b`: the states and adjoints at the nodes, and the algebraic
variables and their multipliers at the ends of the elements. -/
structure ShowsNodes (o : Ocp) (M : Mesh) (b : Blocks ℝ) (r : Report ℝ) : Prop where
  xTime : r.xTime = (List.range (M.elements + 1)).map fun k => [nodeTime o M k]
  xValues : r.xValues = (List.range (M.elements + 1)).map fun k =>
    [(List.range (o.model.x.length + o.model.x.length)).map (shotState b k)]
  yTime : r.yTime = (List.range M.elements).map fun el => [nodeTime o M (el + 1)]
  yValues : r.yValues = (List.range M.elements).map fun el =>
    [(List.range (o.model.y.length + o.model.y.length)).map (shotAlgebraic b el)]
  uTime : r.uTime = (List.range M.elements).map (reportTimes o M)
  pOpt : r.pOpt = b.pOpt
  thetaOpt : r.thetaOpt = b.thetaOpt
  eta : r.eta = b.eta

/-- The controls of the result are those of the trajectories. -/
def ShowsControls (o : Ocp) (M : Mesh) (X : Nat → ℝ → Sym → ℝ) (r : Report ℝ) : Prop :=
  r.uValues = (List.range M.elements).map fun el =>
    (reportTimes o M el).map fun t => o.model.u.map (X el t)

end Verif.Spec
