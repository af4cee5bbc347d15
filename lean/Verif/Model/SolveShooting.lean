import Verif.Model.SolveDirect
import Verif.Model.TranscribeShooting
/-!
# `DirectMethod(problem, discretization_scheme="multiple-shooting").solve(...)`

methods/base/solutionmethodsbase.py as in Model/SolveDirect, with
`MultipleShootingScheme.discretize` (methods/classic/multipleshooting.py) instead of collocation. The
solver of the nonlinear program and the integrator are parameters.
-/
namespace Verif
namespace SolveShooting
open SolveDirect

variable {K : Type}

/-- `opt_problem`: what was discretised, the variables with their bounds, and the parameters. -/
structure Program (K : Type) where
  shots : ShootingMethod K
  vars : Blocks Sym
  nlp : Nlp
  setup : MethodSetup K

variable [Field K] [LinearOrder K]

namespace Program

/-- The value of a parameter in the vector of parameters. -/
def parameter (P : Program K) (par : List K) (slot : ParSlot) : K :=
  valueIn P.setup.nlpParameters par slot

/-- The constraints and the objective at a decision vector and a vector of parameters,
solutionmethodsbase.py:256-278 with multipleshooting.py:134-284. -/
def evaluate (P : Program K) (par v : List K) : Except Err (List (Con K) × K) :=
  P.shots.discretize (readVars (valueIn P.nlp.x v) P.vars)
    ((List.range P.setup.nX).map fun i => P.parameter par (.x0 i))
    ((List.range P.setup.nP).map fun i => P.parameter par (.p i))
    ((List.range P.setup.elements).map fun el =>
      (List.range P.setup.nTheta).map fun i => P.parameter par (.theta el i))
    (Transcription.lastControlArgument P.setup.lastControlAsParameter
      ((List.range P.setup.nU).map fun i => P.parameter par (.lastU i)))

/-- `opt_problem.solve(**args)` up to the call of the solver, abstract_optimization_problem.py:446-452
and 457-480. -/
def call (P : Program K) (c : CallArgs K) : Except Err (SolverCall K) :=
  if c.par.length ≠ P.setup.nlpParameters.length then .error .valueError
  else if P.setup.freeSymbols ≠ [] then .error .runtimeError
  else .ok ⟨P.evaluate c.par, P.nlp.xLb, P.nlp.xUb, c.initialGuess, c.lamX, c.lamG⟩

end Program

/-- The discretisation of a prepared problem, solutionmethodsbase.py:250-282 with
multipleshooting.py:134-284: the variables, the functions and integrators, then the constraints.
Whether building the constraints raises does not depend on values; here they are evaluated at zero.
`sum` is the attribute `cost_as_a_sum` of the method, directmethod.py:21. -/
def build (ops : Expr.Ops K) (integ : DaeIntegrator K) (opts : Options) (sum : Bool) (names : NewNames)
    (o : Ocp) : Except Err (Program K) :=
  match Layout.createShooting (o.dims opts.elements opts.roots.length opts.controlRoots.length)
      names.var (varBounds o) {} with
  | (.error e, _) => .error e
  | (.ok vars, nlp) => do
    let m ← o.shooting ops integ opts.elements opts.roots.length opts.controlRoots.length sum
    let _ ← (Program.mk m vars nlp (setup opts o)).evaluate [] []
    .ok ⟨m, vars, nlp, setup opts o⟩

/-- The method: its attributes, and `opt_problem`. -/
structure State (K : Type) where
  method : Direct.Method
  program : Option (Program K) := none

/-- A call that does not concern `opt_problem`. -/
def onMethod {α : Type} (c : Py Direct.Method α) : Py (State K) α := fun s =>
  ((c s.method).1, { s with method := (c s.method).2 })

/-- `create_optimization_problem()`, solutionmethodsbase.py:245-284. -/
def createProgram (ops : Expr.Ops K) (integ : DaeIntegrator K) (opts : Options) (sum : Bool)
    (names : NewNames) : Py (State K) (Program K) := do
  onMethod (Direct.solvePreparation opts.controlRoots opts.controlRoots.length names.xc names.fresh
    names.base)
  let s ← Py.get
  let P ← Py.lift (build ops integ opts sum names s.method.problem)
  Py.modify fun s => { s with program := some P }
  Py.pure P

/-- `if self.opt_problem is None: ...`, solutionmethodsbase.py:295-296. -/
def program (ops : Expr.Ops K) (integ : DaeIntegrator K) (opts : Options) (sum : Bool)
    (names : NewNames) : Py (State K) (Program K) :=
  fun s => match s.program with
    | some P => (.ok P, s)
    | none => createProgram ops integ opts sum names s

/-- `create_optimization_result(raw_solution_dict, p, theta, x_0)`, solutionmethodsbase.py:461-519 with
multipleshooting.py:609-692. -/
def result (ops : Expr.Ops K) (opts : Options) (o : Ocp) (P : Program K) (c : CallArgs K)
    (raw : RawSolution K) : Except Err (Result K) := do
  let r ← P.shots.report (controlLaw ops opts o) c.p
    ((List.range opts.elements).map fun el => (c.theta.get? el).getD []) raw
  let xf ← finalCostState o.xCost o.model.x r.xValues
  .ok ⟨r, xf, c.x0⟩

/-- `solve(initial_guess, p, theta, x_0, last_u, initial_guess_dict)`, solutionmethodsbase.py:428-459
with `call_solver`, 286-304. -/
def solve (ops : Expr.Ops K) (integ : DaeIntegrator K) (opts : Options) (sum : Bool) (names : NewNames)
    (simulated fromProblem : List K → Theta K → Except Err (List K))
    (solver : SolverCall K → Except Err (RawSolution K)) (a : SolveArgs K) :
    Py (State K) (Result K) := do
  let P ← program ops integ opts sum names
  let s ← Py.get
  let c ← Py.lift ((setup opts s.method.problem).callArgs simulated fromProblem a)
  let call ← Py.lift (P.call c)
  let raw ← Py.lift (solver call)
  Py.lift (result ops opts s.method.problem P c raw)

end SolveShooting
end Verif
