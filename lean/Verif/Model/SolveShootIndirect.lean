import Verif.Model.SolveIndirect
import Verif.Model.SolveShooting
import Verif.Model.ShootIndirect
/-!
# `IndirectMethod(problem, discretization_scheme="multiple-shooting").solve(...)`

methods/classic/indirectmethod.py and methods/base/solutionmethodsbase.py as in Model/SolveIndirect, with
`MultipleShootingScheme` (methods/classic/multipleshooting.py) instead of collocation. The solver of the
nonlinear program and the integrator are parameters.
-/
namespace Verif
namespace SolveShootIndirect
open SolveDirect (SolverCall Result varBounds setup)
open SolveIndirect (Options NewNames controlLaw)
open SolveShooting (Program)

section
variable {K : Type} [Field K] [LinearOrder K]

/-- The discretisation of a prepared problem, solutionmethodsbase.py:250-282 with
multipleshooting.py:134-284: the variables, the functions and integrators, then the constraints.
Whether building the constraints raises does not depend on values; here they are evaluated at zero. -/
def build (ops : Expr.Ops K) (integ : DaeIntegrator K) (opts : Options) (names : NewNames) (o : Ocp) :
    Except Err (Program K) :=
  match Layout.createShooting (o.dims opts.elements opts.roots.length opts.roots.length)
      names.var (varBounds o) {} with
  | (.error e, _) => .error e
  | (.ok vars, nlp) => do
    let m ← o.indirectShooting ops integ opts.elements opts.roots.length
    let _ ← (Program.mk m vars nlp (setup opts.common o)).evaluate [] []
    .ok ⟨m, vars, nlp, setup opts.common o⟩

/-- The method: the problem, `prepared` and `opt_problem`. -/
structure State (K : Type) where
  problem : Ocp
  prepared : Bool := false
  program : Option (Program K) := none

/-- `self.prepare()`, indirectmethod.py:47-54, which changes the problem. -/
def prepareProblem (B : Backend) (opts : Options) (names : NewNames) : Py (State K) Unit := fun s =>
  ((Indirect.prepare B opts.createCostState s.prepared names.base names.xc names.fresh s.problem).1,
    { s with
      problem := (Indirect.prepare B opts.createCostState s.prepared names.base names.xc names.fresh
        s.problem).2 })

/-- `if not self.prepared: ...`, solutionmethodsbase.py:246-248. -/
def preparation (B : Backend) (opts : Options) (names : NewNames) : Py (State K) Unit := do
  let s ← Py.get
  if s.prepared then Py.pure ()
  else do
    prepareProblem B opts names
    Py.modify fun s => { s with prepared := true }

/-- `create_optimization_problem()`, solutionmethodsbase.py:245-284. -/
def createProgram (B : Backend) (ops : Expr.Ops K) (integ : DaeIntegrator K) (opts : Options)
    (names : NewNames) : Py (State K) (Program K) := do
  preparation B opts names
  let s ← Py.get
  let P ← Py.lift (build ops integ opts names s.problem)
  Py.modify fun s => { s with program := some P }
  Py.pure P

/-- `if self.opt_problem is None: ...`, solutionmethodsbase.py:295-296. -/
def program (B : Backend) (ops : Expr.Ops K) (integ : DaeIntegrator K) (opts : Options)
    (names : NewNames) : Py (State K) (Program K) :=
  fun s => match s.program with
    | some P => (.ok P, s)
    | none => createProgram B ops integ opts names s

/-- `create_optimization_result(raw_solution_dict, p, theta, x_0)`, solutionmethodsbase.py:461-519 with
multipleshooting.py:609-692. -/
def result (ops : Expr.Ops K) (opts : Options) (o : Ocp) (P : Program K) (c : CallArgs K)
    (raw : RawSolution K) : Except Err (Result K) := do
  let r ← P.shots.report (controlLaw ops opts o) c.p
    ((List.range opts.elements).map fun el => (c.theta.get? el).getD []) raw
  let xf ← finalCostState o.xCost o.model.x r.xValues
  .ok ⟨r, xf, c.x0⟩

/-- `solve(initial_guess, p, theta, x_0, last_u, initial_guess_dict)`, solutionmethodsbase.py:428-459
with `call_solver`, 286-304; `simulated` and `fromProblem` are the heuristics for the initial guess. -/
def solve (B : Backend) (ops : Expr.Ops K) (integ : DaeIntegrator K) (opts : Options) (names : NewNames)
    (simulated fromProblem : List K → Theta K → Except Err (List K))
    (solver : SolverCall K → Except Err (RawSolution K)) (a : SolveArgs K) :
    Py (State K) (Result K) := do
  let P ← program B ops integ opts names
  let s ← Py.get
  let c ← Py.lift ((setup opts.common s.problem).callArgs simulated fromProblem a)
  let call ← Py.lift (P.call c)
  let raw ← Py.lift (solver call)
  Py.lift (result ops opts s.problem P c raw)

end
end SolveShootIndirect
end Verif
