import Verif.Model.SolveDirect
import Verif.Model.TranscribeIndirect
/-!
# `IndirectMethod(problem).solve(...)` with the collocation scheme

methods/classic/indirectmethod.py with `create_optimization_problem`, `call_solver`, `solve` and
`create_optimization_result` of methods/base/solutionmethodsbase.py. The solver of the nonlinear
program is a parameter.
-/
namespace Verif
namespace SolveIndirect
open SolveDirect (Program SolverCall Result numbers varBounds setup)

/-- Options of the method, solutionmethodsbase.py:30-89; `roots` is what CasADi's `collocation_points`
returns for `degree`. -/
structure Options where
  elements : Nat
  roots : List Rat
  initialConditionAsParameter : Bool := true
  lastControlAsParameter : Bool := false
  createCostState : Bool := false

/-- The options common to all methods: the degree of the control is that of the states
(indirectmethod.py:37-39), and the initial guess is always that of the problem
(indirectmethod.py:33). -/
def Options.common (opts : Options) : SolveDirect.Options where
  elements := opts.elements
  roots := opts.roots
  controlRoots := opts.roots
  initialConditionAsParameter := opts.initialConditionAsParameter
  lastControlAsParameter := opts.lastControlAsParameter
  heuristic := "problem_info"

/-- The symbols CasADi creates: the adjoints and multipliers (numbered from `base`), the cost state and
its initial condition, the variables of the nonlinear program. -/
structure NewNames where
  base : Sym
  xc : Sym
  fresh : Sym
  var : Layout.Kind → Nat → Nat → List Sym

section
variable {K : Type} [Field K] [LinearOrder K]

/-- The discretisation of a prepared problem, solutionmethodsbase.py:250-282 with
collocationscheme.py:230-422: the variables, the functions, then the constraints. Whether building the
constraints raises does not depend on values; here they are evaluated at zero. -/
def build (ops : Expr.Ops K) (opts : Options) (names : NewNames) (o : Ocp) : Except Err (Program K) :=
  match Layout.createCollocation (o.dims opts.elements opts.roots.length opts.roots.length)
      names.var (varBounds o) {} with
  | (.error e, _) => .error e
  | (.ok vars, nlp) => do
    let m ← o.indirectTranscription ops opts.roots opts.elements
    let _ ← (Program.mk m vars nlp (setup opts.common o)).evaluate [] []
    .ok ⟨m, vars, nlp, setup opts.common o⟩

/-- The method: the problem, `prepared` and `opt_problem`. -/
structure State (K : Type) where
  problem : Ocp
  prepared : Bool := false
  program : Option (Program K) := none

/-- `self.prepare()`, which changes the problem. -/
def prepareProblem (B : Backend) (opts : Options) (names : NewNames) : Py (State K) Unit := fun s =>
  ((Indirect.prepare B opts.createCostState s.prepared names.base names.xc names.fresh s.problem).1,
    { s with
      problem := (Indirect.prepare B opts.createCostState s.prepared names.base names.xc names.fresh
        s.problem).2 })

/-- `if not self.prepared: ...`, solutionmethodsbase.py:246-248. -/
def preparation (B : Backend) (opts : Options) (names : NewNames) : Py (State K) Unit := do
  let s ← Py.get
  if s.prepared then Py.pure ()
  else do
    prepareProblem B opts names
    Py.modify fun s => { s with prepared := true }

/-- `create_optimization_problem()`, solutionmethodsbase.py:245-284. -/
def createProgram (B : Backend) (ops : Expr.Ops K) (opts : Options) (names : NewNames) :
    Py (State K) (Program K) := do
  preparation B opts names
  let s ← Py.get
  let P ← Py.lift (build ops opts names s.problem)
  Py.modify fun s => { s with program := some P }
  Py.pure P

/-- `if self.opt_problem is None: ...`, solutionmethodsbase.py:295-296. -/
def program (B : Backend) (ops : Expr.Ops K) (opts : Options) (names : NewNames) :
    Py (State K) (Program K) :=
  fun s => match s.program with
    | some P => (.ok P, s)
    | none => createProgram B ops opts names s

/-- The function of the controls, collocationscheme.py:462-485: the control law as a function of all
symbols of the model. -/
def controlLaw (ops : Expr.Ops K) (opts : Options) (o : Ocp) : ControlLaw K where
  direct := false
  roots := opts.roots.map (Rat.cast : Rat → K)
  value := fun el pt =>
    (Fun.mk o.model.allSym (o.model.uExpr.map fun e =>
      convertTauToTime e o.model.t o.model.tau (o.timeBreakpoint opts.elements el)
        (o.timeBreakpoint opts.elements (el + 1)))).callAt ops pt

/-- `create_optimization_result(raw_solution_dict, p, theta, x_0)`, solutionmethodsbase.py:461-519,
without names and copies of attributes of the method. -/
def result (ops : Expr.Ops K) (opts : Options) (o : Ocp) (P : Program K) (c : CallArgs K)
    (raw : RawSolution K) : Except Err (Result K) := do
  let r ← P.transcription.report (controlLaw ops opts o) c.p
    ((List.range opts.elements).map fun el => (c.theta.get? el).getD []) raw
  let xf ← finalCostState o.xCost o.model.x r.xValues
  .ok ⟨r, xf, c.x0⟩

/-- `solve(initial_guess, p, theta, x_0, last_u, initial_guess_dict)`, solutionmethodsbase.py:428-459
with `call_solver`, 286-304; `simulated` and `fromProblem` are the heuristics for the initial guess. -/
def solve (B : Backend) (ops : Expr.Ops K) (opts : Options) (names : NewNames)
    (simulated fromProblem : List K → Theta K → Except Err (List K))
    (solver : SolverCall K → Except Err (RawSolution K)) (a : SolveArgs K) :
    Py (State K) (Result K) := do
  let P ← program B ops opts names
  let s ← Py.get
  let c ← Py.lift ((setup opts.common s.problem).callArgs simulated fromProblem a)
  let call ← Py.lift (P.call c)
  let raw ← Py.lift (solver call)
  Py.lift (result ops opts s.problem P c raw)

end
end SolveIndirect
end Verif
