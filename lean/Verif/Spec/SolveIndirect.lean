import Verif.Model.SolveIndirect
import Verif.Spec.SolveDirect
import Verif.Spec.TranscribeIndirect
/-!
# What solving an optimal control problem with an indirect method should give
-/
namespace Verif.Spec
open SolveIndirect

/-- The mesh of the method: the controls are reported at the collocation points. -/
def indirectMesh (opts : Options) : Mesh := ⟨opts.elements, opts.roots, opts.roots⟩

/-- A problem and options an indirect method can work with; `q` is the problem after it was prepared. A
problem in the form `IndirectProblem` with bounds of the right sizes, no cost state, the initial
condition as a parameter (the default), and a last control if one is asked for. At every point the
Hamiltonian is a strictly convex quadratic function of the controls whose Hessian does not couple a
control that has a bound with another one. -/
structure IndirectDeclared (B : Backend) (ops : Expr.Ops ℝ) (opts : Options) (o q : Ocp) : Prop where
  problem : IndirectProblem o
  bounds : BoundsFit o
  cost : opts.createCostState = false ∧ o.xCost = none
  initial : opts.initialConditionAsParameter = true
  last : opts.lastControlAsParameter = true → o.lastU ≠ none
  lastSize : ∀ u, o.lastU = some u → u.length = o.model.u.length
  solvable : ∀ H, o.hamiltonian (addedTo o q).lamb (addedTo o q).nu = .ok H →
    ∀ σ, SolvableControls ops B o H σ

/-- Moreover the mesh is usable, the bounds leave some controls, and the symbols CasADi creates are
new. -/
structure IndirectPosed (B : Backend) (ops : Expr.Ops ℝ) (opts : Options) (names : NewNames)
    (o q : Ocp) : Prop extends IndirectDeclared B ops opts o q where
  mesh : GoodMesh (indirectMesh opts)
  attainable : ∃ w, InBounds o w
  newVars : NewVariables (indirectDims o (indirectMesh opts)) names.var
  symbols : (indirectSymbols o (addedTo o q)).Nodup

/-- The arguments of `solve` say that the initial values are `x0` (of the user's states and, for the
sake of the size only, of the adjoints), the parameters are `p` and `theta`; no last control is given
unless neither the problem nor the options ask for one, and there is an initial guess. What is not
given: the initial state is that of the problem, and parameters that are all optimised are zero. -/
structure IndirectArgs (o : Ocp) (opts : Options) (a : SolveArgs ℝ)
    (fromProblem : List ℝ → Theta ℝ → Except Err (List ℝ)) (x0 p : List ℝ) (theta : List (List ℝ)) :
    Prop where
  x0 : a.x0 = some x0 ∨ a.x0 = none ∧ x0 = inField o.x0 ++ List.replicate o.model.x.length 0
  p : a.p = some p ∨ a.p = none ∧ o.pOpt.length = o.model.p.length ∧ p = List.replicate o.model.p.length 0
  theta : (∃ th, a.theta = some th ∧ ∀ el < opts.elements, th.get? el = some (theta.getD el [])) ∨
    a.theta = none ∧ o.thetaOpt.length = o.model.theta.length ∧
      theta = List.replicate opts.elements (List.replicate o.model.theta.length 0)
  lastU : a.lastU = none ∨ o.lastU = none ∧ opts.lastControlAsParameter = false
  guess : a.guessDict ≠ none ∨ a.initialGuess ≠ none ∨ ∀ p th, ∃ g, fromProblem p th = .ok g

/-- The states and algebraic variables of the user and the optimised parameters are within the bounds
of the problem. -/
structure WithinIndirect (o : Ocp) (b : Blocks ℝ) : Prop where
  x : ∀ el ∈ b.x, ∀ col ∈ el, ColumnWithin o.xMin o.xMax col
  y : ∀ el ∈ b.y, ∀ col ∈ el, ColumnWithin o.yMin o.yMax col
  pOpt : ColumnWithin o.pOptMin o.pOptMax b.pOpt
  thetaOpt : ∀ col ∈ b.thetaOpt, ColumnWithin o.thetaOptMin o.thetaOptMax col

/-- Values of all symbols at all positions, with the controls that minimise the Hamiltonian. -/
structure OptimalValues (ops : Expr.Ops ℝ) (o : Ocp) (a : Added) (M : Mesh) (x0 p : List ℝ)
    (theta : List (List ℝ)) (b : Blocks ℝ) (ρ : Nat → ℝ → Sym → ℝ) : Prop where
  reads : ∀ el < M.elements, ∀ tau, ReadsIndirect o a M b x0 p theta el tau (ρ el tau)
  controls : ∀ el < M.elements, ∀ tau, MinimisesHamiltonian ops o a (ρ el tau)

/-- The result shows the polynomials of the decision vector `b`, and the controls that minimise the
Hamiltonian at the collocation points. -/
structure ShowsIndirect (o : Ocp) (M : Mesh) (b : Blocks ℝ) (ρ : Nat → ℝ → Sym → ℝ) (r : Report ℝ) :
    Prop where
  xTime : r.xTime = tableTimes o M (0 :: inField M.roots)
  xValues : r.xValues = sampleTable M.elements (o.model.x.length + o.model.x.length)
      (0 :: inField M.roots) (statePoly M b) ++
    [[(List.range (o.model.x.length + o.model.x.length)).map fun i =>
      (statePoly M b (M.elements - 1) i).eval 1]]
  yTime : r.yTime = tableTimes o M (inField M.roots)
  yValues : r.yValues = sampleTable M.elements (o.model.y.length + o.model.y.length)
    (inField M.roots) (algebraicPoly M b)
  uTime : r.uTime = tableTimes o M (inField M.roots)
  uValues : r.uValues = (List.range M.elements).map fun el => (inField M.roots).map fun tau =>
    o.model.u.map (ρ el tau)
  pOpt : r.pOpt = b.pOpt
  thetaOpt : r.thetaOpt = b.thetaOpt
  eta : r.eta = b.eta

end Verif.Spec
