import Verif.Model.SolveAugLag
import Verif.Spec.SolveDirect
import Verif.Spec.RelaxOptimal
/-!
# What solving with the augmented Lagrangian and a direct method should give
-/
namespace Verif.Spec
open SolveDirect

/-- The sizes of the discretised problem with `n` algebraic variables turned into controls. -/
def relaxedDims (o : Ocp) (M : Mesh) (n : Nat) : Dims where
  elements := M.elements
  degree := M.roots.length
  degreeControl := M.controlRoots.length
  nX := o.model.x.length + 1
  nY := o.model.y.length - n
  nU := o.model.u.length + n
  nUPar := (o.model.u.length + n) * M.controlRoots.length
  nEta := o.eta.length
  nPOpt := o.pOpt.length
  nThetaOpt := o.thetaOpt.length

/-- A problem, options and arguments the augmented Lagrangian can work with: what a direct method needs,
no last control and no limits on the changes of the controls, and algebraic equations to relax (nothing
else). The symbols CasADi creates are new: those of the constructor are numbered from `next`, a
multiplier, a penalty and one value per collocation point for each relaxed equation. -/
structure RelaxDeclared (K : Type) [Field K] [LinearOrder K] (opts : Options) (names : NewNames)
    (next : Sym) (o : Ocp) (a : Relax.Args) : Prop where
  mesh : GoodMesh (Spec.mesh opts)
  controlRoots : opts.controlRoots.Nodup
  initial : opts.initialConditionAsParameter = true
  problem : DirectProblem o
  scope : DirectScope o
  symbols : (problemSymbols o).Nodup
  bounds : BoundsFit o
  limits : LimitsFit o (none : Option (List K))
  last : o.lastU = none ∧ NoRateLimits o ∧ opts.lastControlAsParameter = false
  relaxable : Relaxable o (a.alg o) (a.algVar o)
  only : a.time = [] ∧ a.stateBounds = false
  below : ∀ s ∈ problemSymbols o, s < next
  later : ∀ s ∈ [names.xc, names.fresh],
    next + (a.alg o).length + (a.alg o).length + (a.alg o).length * opts.roots.length ≤ s
  different : names.xc ≠ names.fresh
  base : names.xc < names.base ∧ names.fresh < names.base
  newVars : NewVariables (relaxedDims o (Spec.mesh opts) (a.alg o).length) names.var

/-- The problem without some of its algebraic equations. -/
def withoutEquations (o : Ocp) (idx : List Nat) : Ocp :=
  { o with model := { o.model with alg := otherEntries o.model.alg idx } }

/-- The positions that are not listed. -/
def otherPositions (n : Nat) (ind : List Nat) : List Nat :=
  (List.range n).filter fun i => decide (i ∉ ind)

/-- The controls are polynomials through the collocation points, or constant in every element. -/
def ControlsMatch (M : Mesh) : Prop := M.controlRoots = M.roots ∨ M.controlRoots.length = 1

section
variable {K : Type} [Field K]

/-- A decision `b` of the user's problem and a decision `b'` of the problem in which the algebraic
variables at the positions `vidx` are controls describe the same trajectories: the freed variables are
the controls after those of the user. The cost states may differ. -/
structure SameTrajectory (o : Ocp) (M : Mesh) (vidx : List Nat) (b b' : Blocks K) : Prop where
  states : ∀ el < M.elements, ∀ i < o.model.x.length, statePoly M b' el i = statePoly M b el i
  controls : ∀ el < M.elements, ∀ i < o.model.u.length, controlPoly M b' el i = controlPoly M b el i
  freed : ∀ el < M.elements, ∀ k i : Nat, vidx[k]? = some i →
    controlPoly M b' el (o.model.u.length + k) = algebraicPoly M b el i
  kept : ∀ el < M.elements, ∀ k i : Nat, (otherPositions o.model.y.length vidx)[k]? = some i →
    algebraicPoly M b' el k = algebraicPoly M b el i
  eta : b'.eta = b.eta
  pOpt : b'.pOpt = b.pOpt
  thetaOpt : b'.thetaOpt = b.thetaOpt

/-- The freed variables are as smooth as controls. With `ControlsMatch` this excludes something only if
the controls are constant in every element. -/
def ControlLike (M : Mesh) (vidx : List Nat) (b : Blocks K) : Prop :=
  ∀ el < M.elements, ∀ i ∈ vidx, (algebraicPoly M b el i).natDegree < M.controlRoots.length

variable [LinearOrder K]

/-- A decision of the user's problem in which the equations at the positions `idx` hold up to `tol` at
the collocation points, and everything else holds. -/
structure NearDecision (ops : Expr.Ops K) (o : Ocp) (M : Mesh) (idx : List Nat) (tol : K) (x0 p : List K)
    (theta : List (List K)) (b : Blocks K) (ρ : Nat → K → Sym → K) : Prop where
  decision : Decision ops (withoutEquations o idx) M x0 p theta none b ρ
  near : ∀ el < M.elements, ∀ tau ∈ inField M.roots, ∀ e ∈ entriesAt o.model.alg idx,
    |e.eval ops (ρ el tau)| ≤ tol

/-- The quadrature of the collocation points has no negative weights: a polynomial that collocation can
represent and that does not fall at the collocation points is not smaller at the end. -/
def PositiveQuadrature (K : Type) [Field K] [LinearOrder K] (M : Mesh) : Prop :=
  ∀ f : Polynomial K, f.natDegree ≤ M.roots.length →
    (∀ tau ∈ (inField M.roots : List K), 0 ≤ f.derivative.eval tau) → f.eval 0 ≤ f.eval 1

/-- The options of the augmented Lagrangian and of its direct method agree, and the method knows the
relaxed equations. -/
structure Configured (M : SolveAugLag.Method K) (o : Ocp) (a : Relax.Args) : Prop where
  relaxedAlg : M.relaxedAlg = entriesAt o.model.alg (a.alg o)
  relaxedEq : M.relaxedEq = []
  count : M.al.nRelax = (a.alg o).length
  degree : M.al.degree = M.opts.roots.length ∧ M.al.nuDegree = M.opts.roots.length
  points : M.al.roots M.opts.roots.length = inField M.opts.roots
  elements : M.al.elements = M.opts.elements
  horizon : M.al.t0 = (o.t0 : K) ∧ M.al.tf = (o.tf : K)

/-- The options of the updates are usable: multipliers and penalties are not updated at all, or the
errors and the multipliers are computed in every iteration and the rule for the penalties is known. The
penalties do not become negative. -/
structure Updates (M : SolveAugLag.Method K) : Prop where
  plain : M.noUpdate = true ∨ M.al.skipCompute = false ∧ M.al.skipUpdateNu = false ∧
    M.al.onlyImprove = false ∧ (M.al.skipUpdateMu = true ∨
      M.al.rule ∈ ["constant", "primal", "primal-dual", "bounded-increase"])
  nonnegative : 0 ≤ M.al.beta ∧ 0 ≤ M.al.muMax

/-- The arguments of `solve` of the augmented Lagrangian say that the initial state is `x0`, the
parameters of the user are `p` and `theta`, and there is an initial guess. Parameters are left out only if
there are none; the parameters of the elements are given for all elements and no others. -/
structure RelaxArgsFit (o : Ocp) (opts : Options) (a : SolveArgs K)
    (simulated fromProblem : List K → Theta K → Except Err (List K)) (x0 p : List K)
    (theta : List (List K)) : Prop where
  x0 : a.x0 = some (x0 ++ [0]) ∨ a.x0 = none ∧ x0 = inField o.x0
  p : a.p = some p ∨ a.p = none ∧ o.model.p = []
  theta : (∃ th, a.theta = some th ∧ th.length = opts.elements ∧
      ∀ el < opts.elements, th.get? el = some (theta.getD el [])) ∨ a.theta = none ∧ o.model.theta = []
  guess : a.guessDict ≠ none ∨ a.initialGuess ≠ none ∨
    (opts.heuristic = "simulation" ∧ ∀ p th, ∃ g, simulated p th = .ok g) ∨
    (opts.heuristic = "problem_info" ∧ ∀ p th, ∃ g, fromProblem p th = .ok g)

/-- The parameters of the elements with the multipliers. -/
def elementData (elements : Nat) (theta nu : List (List K)) : List (List K) :=
  (List.range elements).map fun el => theta.getD el [] ++ nu.getD el []

/-- The problem the constructor of an augmented Lagrangian gives to its direct method. -/
def relaxedBy (opts : Options) (next : Sym) (mu0 : Rat) (a : Relax.Args) (o : Ocp) : Ocp :=
  (Relax.construct mu0 a opts.roots opts.roots.length (Relax.start o next)).2.problem

/-- The states of an augmented Lagrangian object whose relaxed problem is `q`: at first the initial
multipliers and penalties, then what any number of calls of `solve` leave. -/
inductive AugLagReached (ops : Expr.Ops K) (M : SolveAugLag.Method K) (o : Ocp) (mu0 : K) (q : Ocp) :
    SolveAugLag.State K → Prop
  | start : AugLagReached ops M o mu0 q ⟨⟨{ problem := q }, none⟩, AugLag.start M.al mu0⟩
  | call {st : SolveAugLag.State K} {x0 p : List K} {theta : List (List K)} {args : SolveArgs K}
      {simulated fromProblem : List K → Theta K → Except Err (List K)}
      {solver : SolverCall K → Except Err (RawSolution K)} (before : AugLagReached ops M o mu0 q st)
      (data : DataFits o (mesh M.opts) x0 p theta)
      (fits : RelaxArgsFit o M.opts args simulated fromProblem x0 p theta) (good : GoodSolver ops solver)
      (dual : Report K → List K × List K) :
      AugLagReached ops M o mu0 q (SolveAugLag.solve ops M simulated fromProblem solver dual args st).2

end

end Verif.Spec
