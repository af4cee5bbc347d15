import Verif.Model.SolveDirect
import Verif.Spec.Transcribe
import Verif.Spec.Layout
/-!
# What solving an optimal control problem with a direct method should give
-/
namespace Verif.Spec
open SolveDirect

/-- The mesh of the method. -/
def mesh (opts : Options) : Mesh := ⟨opts.elements, opts.roots, opts.controlRoots⟩

/-- The variables of the nonlinear program are new symbols of the sizes asked for. -/
structure NewVariables (d : Dims) (var : Layout.Kind → Nat → Nat → List Sym) : Prop extends
    SymSizes d var where
  different : (Layout.stacked (variableBlocks d d.elements (d.degree + 1) d.degree var)).Nodup

/-- A lower and an upper bound for each of `n` entries, not crossed. -/
structure PairFits (n : Nat) (lo hi : List XRat) : Prop where
  lower : lo.length = n
  upper : hi.length = n
  uncrossed : ∀ (i : Nat) (a b : XRat), lo[i]? = some a → hi[i]? = some b → a ≤ b

/-- The bounds of the problem. -/
structure BoundsFit (o : Ocp) : Prop where
  x : PairFits o.model.x.length o.xMin o.xMax
  y : PairFits o.model.y.length o.yMin o.yMax
  u : PairFits o.model.u.length o.uMin o.uMax
  pOpt : PairFits o.pOpt.length o.pOptMin o.pOptMax
  thetaOpt : PairFits o.thetaOpt.length o.thetaOptMin o.thetaOptMax

/-- No limit on the changes of the controls. -/
def NoRateLimits (o : Ocp) : Prop := (∀ a ∈ o.duMin, a = ⊥) ∧ ∀ a ∈ o.duMax, a = ⊤

section
variable {K : Type} [Field K] [LinearOrder K]

/-- The entries of a column lie between the bounds. -/
def ColumnWithin (lo hi : List XRat) (col : List K) : Prop :=
  ∀ (i : Nat) (a : K) (l h : XRat), col[i]? = some a → lo[i]? = some l → hi[i]? = some h →
    (extended l : WithBot (WithTop K)) ≤ finite a ∧ finite a ≤ extended h

/-- The values respect the bounds of the problem at every point; the cost state is not negative if the
objective is declared positive. -/
structure WithinBounds (o : Ocp) (b : Blocks K) : Prop where
  x : ∀ el ∈ b.x, ∀ col ∈ el, ColumnWithin (o.xMin ++ [if o.positiveObjective then XRat.fin 0 else ⊥])
    (o.xMax ++ [⊤]) col
  y : ∀ el ∈ b.y, ∀ col ∈ el, ColumnWithin o.yMin o.yMax col
  u : ∀ el ∈ b.u, ∀ col ∈ el, ColumnWithin o.uMin o.uMax col
  pOpt : ColumnWithin o.pOptMin o.pOptMax b.pOpt
  thetaOpt : ∀ col ∈ b.thetaOpt, ColumnWithin o.thetaOptMin o.thetaOptMax col

/-- A decision vector that satisfies the bounds and the constraints. -/
structure CallFeasible (ops : Expr.Ops K) (c : SolverCall K) (v : List K) : Prop where
  size : v.length = c.lb.length
  bounds : ∀ (i : Nat) (a : K) (l u : BVal), v[i]? = some a → c.lb[i]? = some l → c.ub[i]? = some u →
    Between ops (fun _ => 0) l u a
  constraints : ∃ cons f, c.value v = .ok (cons, f) ∧ ∀ g ∈ cons, g.Holds

/-- A solution of the nonlinear program: a feasible decision vector with its objective, and no feasible
decision vector has a smaller one. -/
structure CallMinimum (ops : Expr.Ops K) (c : SolverCall K) (raw : RawSolution K) : Prop where
  feasible : CallFeasible ops c raw.x
  objective : ∀ cons f, c.value raw.x = .ok (cons, f) → raw.f = f
  minimal : ∀ v, CallFeasible ops c v → ∀ cons f, c.value v = .ok (cons, f) → raw.f ≤ f

/-- A solver that returns a decision vector of the right size, and a solution of the nonlinear program
whenever it reports success. -/
def GoodSolver (ops : Expr.Ops K) (solver : SolverCall K → Except Err (RawSolution K)) : Prop :=
  ∀ c, ∃ raw, solver c = .ok raw ∧ raw.x.length = c.lb.length ∧
    (raw.success = true → CallMinimum ops c raw)

/-- A solver that finds a solution whenever there is one. -/
def CompleteSolver (ops : Expr.Ops K) (solver : SolverCall K → Except Err (RawSolution K)) : Prop :=
  ∀ c raw, CallMinimum ops c raw → ∃ raw', solver c = .ok raw' ∧ raw'.success = true

/-- The arguments of `solve` say that the initial state is `x0` (of the user's states), the parameters
are `p` and `theta`; no last control is given (it is the problem's) unless neither the problem nor the
options ask for one (then it is ignored), and there is an initial guess. What is not given: the initial
state is that of the problem, and parameters that are all optimised are zero. -/
structure ArgsFit (o : Ocp) (opts : Options) (a : SolveArgs K)
    (simulated fromProblem : List K → Theta K → Except Err (List K)) (x0 p : List K)
    (theta : List (List K)) : Prop where
  x0 : a.x0 = some (x0 ++ [0]) ∨ a.x0 = none ∧ x0 = inField o.x0
  p : a.p = some p ∨ a.p = none ∧ o.pOpt.length = o.model.p.length ∧ p = List.replicate o.model.p.length 0
  theta : (∃ th, a.theta = some th ∧ ∀ el < opts.elements, th.get? el = some (theta.getD el [])) ∨
    a.theta = none ∧ o.thetaOpt.length = o.model.theta.length ∧
      theta = List.replicate opts.elements (List.replicate o.model.theta.length 0)
  lastU : a.lastU = none ∨ o.lastU = none ∧ opts.lastControlAsParameter = false
  guess : a.guessDict ≠ none ∨ a.initialGuess ≠ none ∨
    (opts.heuristic = "simulation" ∧ ∀ p th, ∃ g, simulated p th = .ok g) ∨
    (opts.heuristic = "problem_info" ∧ ∀ p th, ∃ g, fromProblem p th = .ok g)

/-- The last control: the problem's. There must be one if it is asked for as a parameter, or if the
changes of the controls are limited. -/
structure LastFits (o : Ocp) (opts : Options) : Prop where
  asked : opts.lastControlAsParameter = true → o.lastU ≠ none
  limited : o.lastU ≠ none ∨ NoRateLimits o

/-- The last control of the problem. -/
def lastOf (o : Ocp) : Option (List K) := o.lastU.map inField

/-- A problem and options a direct method can work with: a usable mesh, a problem in the form
`DirectProblem` with expressions in scope, bounds and limits of the right sizes, and the initial
condition as a parameter (the default). The symbols CasADi creates are new. -/
structure Declared (K : Type) [Field K] [LinearOrder K] (opts : Options) (names : NewNames) (o : Ocp) :
    Prop where
  mesh : GoodMesh (Spec.mesh opts)
  controlRoots : opts.controlRoots.Nodup
  problem : DirectProblem o
  scope : DirectScope o
  symbols : (problemSymbols o).Nodup
  controls : 0 < o.model.u.length
  bounds : BoundsFit o
  limits : LimitsFit o (lastOf (K := K) o)
  new : NewSymbols o names.xc names.fresh names.base
  newVars : NewVariables (directDims o (Spec.mesh opts)) names.var
  initial : opts.initialConditionAsParameter = true

/-- Moreover there is a last control if one is needed. -/
structure WellPosed (K : Type) [Field K] [LinearOrder K] (opts : Options) (names : NewNames) (o : Ocp) :
    Prop extends Declared K opts names o where
  last : LastFits o opts

/-- Values of all symbols of the problem at all positions. -/
def ReadsAll (o : Ocp) (M : Mesh) (b : Blocks K) (x0 p : List K) (theta : List (List K))
    (ρ : Nat → K → Sym → K) : Prop :=
  ∀ el < M.elements, ∀ tau, Reads o M b x0 p theta el tau (ρ el tau)

/-- A decision of the user's discretised problem: trajectories within the bounds on which the
expressions of the user hold. -/
structure Decision (ops : Expr.Ops K) (o : Ocp) (M : Mesh) (x0 p : List K) (theta : List (List K))
    (lastU : Option (List K)) (b : Blocks K) (ρ : Nat → K → Sym → K) : Prop where
  data : CollocationData (directDims o M) b
  reads : ReadsAll o M b x0 p theta ρ
  bounds : WithinBounds o b
  solution : DirectSolution ops o M b lastU ρ

/-- A decision with the least cost. -/
structure BestDecision (ops : Expr.Ops K) (o : Ocp) (M : Mesh) (x0 p : List K) (theta : List (List K))
    (lastU : Option (List K)) (b : Blocks K) (ρ : Nat → K → Sym → K) : Prop extends
    Decision ops o M x0 p theta lastU b ρ where
  best : ∀ b' ρ', Decision ops o M x0 p theta lastU b' ρ' → directCost ops o M b ρ ≤ directCost ops o M b' ρ'

/-- A table of the values of polynomials at positions of the elements. -/
noncomputable def sampleTable (elements n : Nat) (positions : List K) (f : Nat → Nat → Polynomial K) :
    List (List (List K)) :=
  (List.range elements).map fun el => positions.map fun tau => (List.range n).map fun i =>
    (f el i).eval tau

/-- The times of these values. -/
def tableTimes (o : Ocp) (M : Mesh) (positions : List K) : List (List K) :=
  (List.range M.elements).map fun el : Nat => positions.map fun tau => stepLength o M * ((el : K) + tau)

/-- Where in an element the controls are reported. -/
def reportedPositions (M : Mesh) : List K := if M.controlRoots.length = 1 then [0] else inField M.controlRoots

/-- The result shows the polynomials of the decision vector `b`: at the start and the collocation
points of each element, and the states once more at the end of the horizon. -/
structure Shows (o : Ocp) (M : Mesh) (b : Blocks K) (r : Report K) : Prop where
  xTime : r.xTime = tableTimes o M (0 :: inField M.roots)
  xValues : r.xValues = sampleTable M.elements (o.model.x.length + 1) (0 :: inField M.roots) (statePoly M b) ++
    [[(List.range (o.model.x.length + 1)).map fun i => (statePoly M b (M.elements - 1) i).eval 1]]
  yTime : r.yTime = tableTimes o M (inField M.roots)
  yValues : r.yValues = sampleTable M.elements o.model.y.length (inField M.roots) (algebraicPoly M b)
  uTime : r.uTime = tableTimes o M (reportedPositions M)
  uValues : r.uValues = sampleTable M.elements o.model.u.length (reportedPositions M) (controlPoly M b)
  pOpt : r.pOpt = b.pOpt
  thetaOpt : r.thetaOpt = b.thetaOpt
  eta : r.eta = b.eta

end
end Verif.Spec
