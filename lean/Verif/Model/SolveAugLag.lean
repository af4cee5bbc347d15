import Verif.Model.Relax
import Verif.Model.NuUpdate
import Verif.Model.SolveDirect
/-!
# `AugmentedLagrangian(problem, DirectMethod, ...).solve(...)` with the collocation scheme

methods/augmented_lagrangian.py: the constructor relaxes constraints and gives the relaxed problem to the
direct method; `solve` calls the direct method with the multipliers and penalties until the relaxed
constraints hold up to the tolerance. The solver of the nonlinear programs is a parameter.
-/
namespace Verif

namespace Relax

/-- `_parametrize_nu()`, augmented_lagrangian.py:373-384 with `create_polynomial_approximation`,
util.py:259-321. The basis and the numbering of the points are those of the controls of a direct method
(`Direct.polynomials`). -/
def parametrizeNu (roots : List Rat) (degree : Nat) : Py Relax Unit := do
  let s ← Py.get
  let par ← newSyms (s.nRelax * degree)
  Py.modify fun s => { s with nuPar := s.nuPar ++ par }
  onProblem (Ocp.replaceVariable s.nuSym
    (Direct.polynomials roots s.problem.model.tau s.next s.nRelax degree))
  onProblem (Ocp.onModel (SysModel.includeTheta par))

/-- What the constructor does with the problem, augmented_lagrangian.py:214-225, with the default values of
the debug options. -/
def construct (mu0 : Rat) (a : Args) (roots : List Rat) (degree : Nat) : Py Relax Unit := do
  relax mu0 a
  parametrizeNu roots degree

end Relax

namespace SolveAugLag
open SolveDirect

/-- The attributes that do not change after the constructor, augmented_lagrangian.py:155-264: the options
of the direct method and of the augmented Lagrangian, `no_update_after_solving`, `relaxed_alg` and
`relaxed_eq`; and the symbols CasADi creates for the direct method. -/
structure Method (K : Type) where
  opts : Options
  names : NewNames
  al : AugLag.Opts K
  noUpdate : Bool := true
  relaxedAlg : List Expr
  relaxedEq : List Expr

/-- The attributes that change: those of the direct method, and the multipliers and penalties. -/
structure State (K : Type) where
  solver : SolveDirect.State K
  al : AugLag.St K

/-- The result: what `create_optimization_result` of the direct method stores, the initial condition
given by the caller, and `statistics["violation_error"]`, augmented_lagrangian.py:793-843. The multipliers
and violations in `other_data` are in `Model/AugLagResult.lean`. -/
structure Result (K : Type) where
  report : Report K
  xCFinal : Option (List K)
  x0 : Option (List K)
  error : Option (List K)

section
variable {K : Type}

/-- The multipliers as a dictionary from the elements. -/
def nuTheta (nu : List (List K)) : Theta K := nu.zipIdx.map fun v => (v.2, v.1)

/-- `join_nu_to_theta(theta, nu)`, augmented_lagrangian.py:483-488; `join_thetas(None, nu)` of
`update_parameters` has the same value. -/
def joinNu (theta : Option (Theta K)) (nu : List (List K)) : Except Err (Theta K) :=
  match theta with
  | none => .ok (nuTheta nu)
  | some th => joinThetas [some th, some (nuTheta nu)]

/-- `vertcat(p, self.mu) if p is not None else self.mu`, augmented_lagrangian.py:550 and 628. -/
def withMu (p : Option (List K)) (mu : List K) : List K := p.getD [] ++ mu

/-- A call of a method of the direct method. -/
def onSolver {α : Type} (c : Py (SolveDirect.State K) α) : Py (State K) α := fun s =>
  ((c s.solver).1, { s with solver := (c s.solver).2 })

/-- A call that concerns the multipliers and penalties only. -/
def onAl {α : Type} (c : Py (AugLag.St K) α) : Py (State K) α := fun s =>
  ((c s.al).1, { s with al := (c s.al).2 })

/-- `f_relax_alg` or `f_relax_eq` of one element, augmented_lagrangian.py:427-450. -/
def relaxedFunction (o : Ocp) (elements : Nat) (es : List Expr) (el : Nat) : Except Err Fun :=
  Fun.make o.model.allSym (es.map fun e => convertTauToTime (e.subst o.model.u o.model.uExpr) o.model.t
    o.model.tau (o.timeBreakpoint elements el) (o.timeBreakpoint elements (el + 1)))

variable [Field K] [LinearOrder K]

/-- The relaxed constraints as functions, augmented_lagrangian.py:426-450; the problem is the one the
direct method has prepared. -/
def relaxed (ops : Expr.Ops K) (M : Method K) (o : Ocp) : Except Err (AugLag.Relaxed K) := do
  let alg ← (List.range M.al.elements).mapM (relaxedFunction o M.al.elements M.relaxedAlg)
  let eq ← (List.range M.al.elements).mapM (relaxedFunction o M.al.elements M.relaxedEq)
  .ok { direct := true
        alg := fun el pt => (Ocp.funAt alg el).callAt ops pt
        eq := fun el pt => (Ocp.funAt eq el).callAt ops pt }

/-- The violations that `_compute_new_nu_and_error` reads, augmented_lagrangian.py:718-735. They are not
computed with `debug_skip_compute_nu_and_error`. Without `opt_problem` there is nothing to unpack. -/
def violations (ops : Expr.Ops K) (M : Method K) (s : SolveDirect.State K) (p : List K) (theta : Theta K)
    (x : List K) : Except Err (List (List (List K))) :=
  match s.program with
  | none => .error .attributeError
  | some P => do
    let r ← relaxed ops M s.method.problem
    if M.al.skipCompute then .ok []
    else do
      let th ← (List.range M.al.elements).mapM (MethodSetup.thetaAt theta)
      AugLag.violationsCollocation P.transcription M.al r p th x

/-- The update after a solution, augmented_lagrangian.py:568-573 and 620-635. -/
def update (ops : Expr.Ops K) (M : Method K) (p : List K) (theta : Theta K) (x : List K) :
    Py (State K) (Option (List K)) :=
  if M.noUpdate then Py.pure none
  else do
    let s ← Py.get
    let viol ← Py.lift (violations ops M s.solver p theta x)
    onAl (AugLag.iterationError M.al false viol)

/-- One iteration of the loop of `call_solver`, augmented_lagrangian.py:544-600: the solution and whether
the loop is left. -/
def iteration (ops : Expr.Ops K) (M : Method K)
    (simulated fromProblem : List K → Theta K → Except Err (List K))
    (solver : SolverCall K → Except Err (RawSolution K)) (a : SolveArgs K) :
    Py (State K) (SolveDirect.Result K × Bool) := do
  onAl (Py.modify fun s => { s with nu := s.nuTilde.getD s.nu })
  let s ← Py.get
  let th ← Py.lift (joinNu a.theta s.al.nu)
  onAl (Py.modify fun s => { s with solves := s.solves ++ [(s.nu, s.mu)] })
  let r ← onSolver (SolveDirect.solve ops M.opts M.names simulated fromProblem solver
    { a with p := some (withMu a.p s.al.mu), theta := some th })
  let e ← update ops M (withMu a.p s.al.mu) th r.report.raw
  Py.pure (r, AugLag.meets M.al e)

/-- `for n_it in range(max_iter)`, augmented_lagrangian.py:544-600, `n` iterations to go. A solution is
the initial guess of the next one; `dual` are the multipliers of the nonlinear program that the solver
returns with it, which are not part of `RawSolution`. -/
def iterations (ops : Expr.Ops K) (M : Method K)
    (simulated fromProblem : List K → Theta K → Except Err (List K))
    (solver : SolverCall K → Except Err (RawSolution K)) (dual : Report K → List K × List K) :
    Nat → SolveArgs K → Option (SolveDirect.Result K) →
      Py (State K) (Option (SolveDirect.Result K))
  | 0, _, last => Py.pure last
  | n + 1, a, _ => (iteration ops M simulated fromProblem solver a).bind fun r =>
      if r.2 then Py.pure (some r.1)
      else iterations ops M simulated fromProblem solver dual n
        { a with guessDict := some (r.1.report.raw, dual r.1.report) } (some r.1)

/-- `solve(initial_guess, p, theta, x_0, last_u, initial_guess_dict)`, augmented_lagrangian.py:494-527
with `call_solver`, 529-618, and `create_optimization_result`, 793-843. Without iterations `n_it` is not
bound when it is tested. The direct method stores once more what it has stored for the last solution. -/
def solve (ops : Expr.Ops K) (M : Method K)
    (simulated fromProblem : List K → Theta K → Except Err (List K))
    (solver : SolverCall K → Except Err (RawSolution K)) (dual : Report K → List K × List K)
    (a : SolveArgs K) : Py (State K) (Result K) := do
  let r ← iterations ops M simulated fromProblem solver dual M.al.maxIter a none
  let s ← Py.get
  match r with
  | none => Py.throw .unboundLocalError
  | some r => Py.pure ⟨r.report, r.xCFinal, a.x0, s.al.lastError⟩

end
end SolveAugLag
end Verif
