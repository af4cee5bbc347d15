import Verif.Model.MpcMethods
import Verif.Model.SolveAugLag
/-!
# A controller whose solution method is an augmented Lagrangian

mpc/mpc.py with methods/augmented_lagrangian.py around a direct method with collocation.
-/
namespace Verif
namespace MpcAugLag

variable {E : Type}

/-- What the controller uses of a result, as for a direct method. -/
def solutionOf (r : SolveAugLag.Result Rat) : Mpc.Solution := ⟨r.report.raw, r.report.uValues⟩

/-- `MPC(plant, solution_method, estimator, **kwargs)` with an `AugmentedLagrangian`, mpc.py:21-91. The
`discretizer` is the one of the direct method, augmented_lagrangian.py:271-273, whose problem is the
relaxed one (`dims`); `degree` is the one of the options, augmented_lagrangian.py:95-117 and 240-243, and
equals the one of the direct method. The last control is given to `solve`, mpc.py:136-138. -/
def controller (plant : Plant.Env) (dims : Dims) (ops : Expr.Ops Rat) (M : SolveAugLag.Method Rat)
    (simulated fromProblem : List Rat → Theta Rat → Except Err (List Rat))
    (solver : SolveDirect.SolverCall Rat → Except Err (RawSolution Rat))
    (dual : Report Rat → List Rat × List Rat)
    (estimator : Rat → List Rat → List Rat → Py E (List Rat × List Rat)) (includeCost : Bool) :
    Mpc.Config (E × SolveAugLag.State Rat) where
  plant := plant
  dims := dims
  roots := M.opts.roots
  degree := M.opts.roots.length
  estimate := fun t y u w => ((estimator t y u w.1).1, ((estimator t y u w.1).2, w.2))
  solve := fun x guess p u w =>
    ((SolveAugLag.solve ops M simulated fromProblem solver dual (MpcDirect.solveArgs x guess p u) w.2).1.map
        solutionOf,
      (w.1, (SolveAugLag.solve ops M simulated fromProblem solver dual
        (MpcDirect.solveArgs x guess p u) w.2).2))
  includeCost := includeCost
  meanAsParameter := false
  meanIndices := []
  covarianceAsParameter := false
  covIndices := []
  rearrange := none

end MpcAugLag
end Verif
