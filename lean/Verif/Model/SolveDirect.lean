import Verif.Model.Direct
import Verif.Model.Transcribe
import Verif.Model.SolverArgs
import Verif.Model.Export
import Verif.Model.Layout
/-!
# `DirectMethod(problem).solve(...)` with the collocation scheme

methods/base/solutionmethodsbase.py: `create_optimization_problem`, `call_solver`, `solve` and
`create_optimization_result`, with `CollocationScheme.discretize` and
`AbstractOptimizationProblem.solve`. The solver of the nonlinear program is a parameter.
-/
namespace Verif
namespace SolveDirect

/-- Options of the method, solutionmethodsbase.py:30-89; `roots` and `controlRoots` are what CasADi's
`collocation_points` returns for `degree` and `degree_control`. -/
structure Options where
  elements : Nat
  roots : List Rat
  controlRoots : List Rat
  initialConditionAsParameter : Bool := true
  lastControlAsParameter : Bool := false
  heuristic : String := "simulation"

/-- The symbols CasADi creates: the cost state, its initial condition, the points of the controls
(numbered from `base`), the variables of the nonlinear program. -/
structure NewNames where
  xc : Sym
  fresh : Sym
  base : Sym
  var : Layout.Kind → Nat → Nat → List Sym

/-- Numbers as a bound. Simplification: without structural zeros. -/
def numbers (l : List XRat) : BoundArg := .col (.dm (l.map .num))

/-- The bounds the variables are created with, collocationscheme.py:67-122. -/
def varBounds (o : Ocp) : Layout.VarBounds where
  x := (numbers o.xMin, numbers o.xMax)
  y := (numbers o.yMin, numbers o.yMax)
  u := (numbers o.uMin, numbers o.uMax)
  pOpt := (numbers o.pOptMin, numbers o.pOptMax)
  thetaOpt := (numbers o.thetaOptMin, numbers o.thetaOptMax)

section
variable {K : Type}

/-- The values of the variables in the blocks. -/
def readVars (ρ : Sym → K) (b : Blocks Sym) : Blocks K where
  x := b.x.map (List.map (List.map ρ))
  y := b.y.map (List.map (List.map ρ))
  u := b.u.map (List.map (List.map ρ))
  eta := b.eta.map ρ
  pOpt := b.pOpt.map ρ
  thetaOpt := b.thetaOpt.map (List.map ρ)

/-- The value of a symbol, given the vector of symbols and the vector of values. -/
def valueIn {α : Type} [DecidableEq α] [Zero K] (keys : List α) (values : List K) (a : α) : K :=
  (List.lookup a (keys.zip values)).getD 0

variable [Field K]

/-- What building parameters and their values reads off the problem and the method,
solutionmethodsbase.py:250-274 and 306-388. -/
def setup (opts : Options) (o : Ocp) : MethodSetup K where
  nX := o.model.x.length
  nU := o.model.u.length
  nP := o.model.p.length
  nTheta := o.model.theta.length
  nPOpt := o.pOpt.length
  nThetaOpt := o.thetaOpt.length
  elements := opts.elements
  initialConditionAsParameter := opts.initialConditionAsParameter
  lastControlOption := opts.lastControlAsParameter
  problemX0 := o.x0.map (Rat.cast : Rat → K)
  problemLastU := o.lastU.map (List.map (Rat.cast : Rat → K))
  heuristic := opts.heuristic

/-- `opt_problem`: the functions that were discretised, the variables with their bounds, and the
parameters. -/
structure Program (K : Type) where
  transcription : Transcription K
  vars : Blocks Sym
  nlp : Nlp
  setup : MethodSetup K

variable [LinearOrder K]

namespace Program

/-- The value of a parameter in the vector of parameters. -/
def parameter (P : Program K) (par : List K) (slot : ParSlot) : K :=
  valueIn P.setup.nlpParameters par slot

/-- The constraints and the objective at a decision vector and a vector of parameters,
solutionmethodsbase.py:256-278 with collocationscheme.py:230-422. -/
def evaluate (P : Program K) (par v : List K) : Except Err (List (Con K) × K) :=
  P.transcription.discretize (readVars (valueIn P.nlp.x v) P.vars)
    ((List.range P.setup.nX).map fun i => P.parameter par (.x0 i))
    ((List.range P.setup.nP).map fun i => P.parameter par (.p i))
    ((List.range P.setup.elements).map fun el =>
      (List.range P.setup.nTheta).map fun i => P.parameter par (.theta el i))
    (Transcription.lastControlArgument P.setup.lastControlAsParameter
      ((List.range P.setup.nU).map fun i => P.parameter par (.lastU i)))

end Program

/-- The discretisation of a prepared problem, solutionmethodsbase.py:250-282 with
collocationscheme.py:230-422: the variables, the functions, then the constraints. Whether building the
constraints raises does not depend on values; here they are evaluated at zero. -/
def build (ops : Expr.Ops K) (opts : Options) (names : NewNames) (o : Ocp) : Except Err (Program K) :=
  match Layout.createCollocation (o.dims opts.elements opts.roots.length opts.controlRoots.length)
      names.var (varBounds o) {} with
  | (.error e, _) => .error e
  | (.ok vars, nlp) => do
    let m ← o.transcription ops opts.roots opts.elements opts.roots.length opts.controlRoots.length
    let _ ← (Program.mk m vars nlp (setup opts o)).evaluate [] []
    .ok ⟨m, vars, nlp, setup opts o⟩

/-- The method: its attributes, and `opt_problem`. -/
structure State (K : Type) where
  method : Direct.Method
  program : Option (Program K) := none

/-- A call that does not concern `opt_problem`. -/
def onMethod {α : Type} (c : Py Direct.Method α) : Py (State K) α := fun s =>
  ((c s.method).1, { s with method := (c s.method).2 })

/-- `create_optimization_problem()`, solutionmethodsbase.py:245-284. -/
def createProgram (ops : Expr.Ops K) (opts : Options) (names : NewNames) : Py (State K) (Program K) := do
  onMethod (Direct.solvePreparation opts.controlRoots opts.controlRoots.length names.xc names.fresh
    names.base)
  let s ← Py.get
  let P ← Py.lift (build ops opts names s.method.problem)
  Py.modify fun s => { s with program := some P }
  Py.pure P

/-- `if self.opt_problem is None: ...`, solutionmethodsbase.py:295-296. -/
def program (ops : Expr.Ops K) (opts : Options) (names : NewNames) : Py (State K) (Program K) :=
  fun s => match s.program with
    | some P => (.ok P, s)
    | none => createProgram ops opts names s

/-- What the solver of the nonlinear program is called with: constraints and objective as functions of
the decision vector, bounds, an initial point and multipliers. -/
structure SolverCall (K : Type) where
  value : List K → Except Err (List (Con K) × K)
  lb : List BVal
  ub : List BVal
  guess : List K
  lamX : Option (List K)
  lamG : Option (List K)

/-- `opt_problem.solve(**args)` up to the call of the solver, abstract_optimization_problem.py:446-452
and 457-480: parameters of the wrong size raise, and so does creating a solver for a program with free
symbols. -/
def Program.call (P : Program K) (c : CallArgs K) : Except Err (SolverCall K) :=
  if c.par.length ≠ P.setup.nlpParameters.length then .error .valueError
  else if P.setup.freeSymbols ≠ [] then .error .runtimeError
  else .ok ⟨P.evaluate c.par, P.nlp.xLb, P.nlp.xUb, c.initialGuess, c.lamX, c.lamG⟩

/-- The function of the controls, collocationscheme.py:466-477. -/
def controlLaw (ops : Expr.Ops K) (opts : Options) (o : Ocp) : ControlLaw K where
  direct := true
  roots := opts.controlRoots.map (Rat.cast : Rat → K)
  value := fun el pt =>
    (Fun.mk [[o.model.t], o.model.uPar] (o.model.uExpr.map fun e =>
      convertTauToTime e o.model.t o.model.tau (o.timeBreakpoint opts.elements el)
        (o.timeBreakpoint opts.elements (el + 1)))).call ops [[pt.t], pt.uPar]

/-- The result: what the scheme stores, `x_c_final` and `x_0`. -/
structure Result (K : Type) where
  report : Report K
  xCFinal : Option (List K)
  x0 : List K

/-- `create_optimization_result(raw_solution_dict, p, theta, x_0)`, solutionmethodsbase.py:461-519,
without names and copies of attributes of the method. -/
def result (ops : Expr.Ops K) (opts : Options) (o : Ocp) (P : Program K) (c : CallArgs K)
    (raw : RawSolution K) : Except Err (Result K) := do
  let r ← P.transcription.report (controlLaw ops opts o) c.p
    ((List.range opts.elements).map fun el => (c.theta.get? el).getD []) raw
  let xf ← finalCostState o.xCost o.model.x r.xValues
  .ok ⟨r, xf, c.x0⟩

/-- `solve(initial_guess, p, theta, x_0, last_u, initial_guess_dict)`, solutionmethodsbase.py:428-459
with `call_solver`, 286-304; `simulated` and `fromProblem` are the heuristics for the initial guess. -/
def solve (ops : Expr.Ops K) (opts : Options) (names : NewNames)
    (simulated fromProblem : List K → Theta K → Except Err (List K))
    (solver : SolverCall K → Except Err (RawSolution K)) (a : SolveArgs K) :
    Py (State K) (Result K) := do
  let P ← program ops opts names
  let s ← Py.get
  let c ← Py.lift ((setup opts s.method.problem).callArgs simulated fromProblem a)
  let call ← Py.lift (P.call c)
  let raw ← Py.lift (solver call)
  Py.lift (result ops opts s.method.problem P c raw)

end
end SolveDirect
end Verif
