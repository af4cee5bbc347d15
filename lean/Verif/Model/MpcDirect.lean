import Verif.Model.Mpc
import Verif.Model.SolveDirect
/-!
# A controller whose solution method is a direct method

mpc/mpc.py with methods/base/solutionmethodsbase.py and collocation. The estimator keeps a state of its
own (`E`).
-/
namespace Verif
namespace MpcDirect
open SolveDirect

variable {E : Type}

/-- The arguments `get_new_control` gives to `solve`, mpc.py:136-138. -/
def solveArgs (x : List Rat) (guess p : Option (List Rat)) (u : List Rat) : SolveArgs Rat :=
  { x0 := some x, initialGuess := guess, p := p, lastU := some u }

/-- What the controller uses of a result. -/
def solutionOf (r : Result Rat) : Mpc.Solution := ⟨r.report.raw, r.report.uValues⟩

/-- `solution_method.solve(x_0=x_k, initial_guess=self.initial_guess, p=p, last_u=u_k)`, mpc.py:136-138,
for a direct method. -/
def solution (ops : Expr.Ops Rat) (opts : Options) (names : NewNames)
    (simulated fromProblem : List Rat → Theta Rat → Except Err (List Rat))
    (solver : SolverCall Rat → Except Err (RawSolution Rat)) (x : List Rat) (guess p : Option (List Rat))
    (u : List Rat) : Py (E × State Rat) Mpc.Solution := fun w =>
  match solve ops opts names simulated fromProblem solver (solveArgs x guess p u) w.2 with
  | (r, st) => (r.map solutionOf, (w.1, st))

/-- `estimator.estimate(t_k, y_k, u_k)`, mpc.py:111. -/
def estimate (f : Rat → List Rat → List Rat → Py E (List Rat × List Rat)) (t : Rat) (y u : List Rat) :
    Py (E × State Rat) (List Rat × List Rat) := fun w =>
  match f t y u w.1 with
  | (r, e) => (r, (e, w.2))

/-- `MPC(plant, solution_method, estimator, **kwargs)` with a direct method, mpc.py:21-91: the degree
and its collocation points are those of the method, `dims` are the sizes of its problem. -/
def controller (plant : Plant.Env) (dims : Dims) (ops : Expr.Ops Rat) (opts : Options) (names : NewNames)
    (simulated fromProblem : List Rat → Theta Rat → Except Err (List Rat))
    (solver : SolverCall Rat → Except Err (RawSolution Rat))
    (estimator : Rat → List Rat → List Rat → Py E (List Rat × List Rat)) (includeCost : Bool)
    (meanAsParameter : Bool := false) (meanIndices : List (Nat × Nat) := [])
    (covarianceAsParameter : Bool := false) (covIndices : List (Nat × Nat) := []) :
    Mpc.Config (E × State Rat) where
  plant := plant
  dims := dims
  roots := opts.roots
  degree := opts.roots.length
  estimate := estimate estimator
  solve := solution ops opts names simulated fromProblem solver
  includeCost := includeCost
  meanAsParameter := meanAsParameter
  meanIndices := meanIndices
  covarianceAsParameter := covarianceAsParameter
  covIndices := covIndices
  rearrange := none

end MpcDirect
end Verif
