import Verif.Spec.ConvexDirect
import Mathlib.Data.List.Forall2
/-!
# Local solutions of the nonlinear program
-/
namespace Verif.Spec
open SolveDirect

variable {K : Type} [Field K] [LinearOrder K]

/-- Every entry of one vector is within `eps` of the entry of the other. -/
def Near (eps : K) (v w : List K) : Prop := List.Forall₂ (fun a b => |a - b| ≤ eps) v w

/-- A local solution of the nonlinear program: a feasible decision vector with its objective, and no
feasible decision vector near it has a smaller one. -/
structure CallLocalMinimum (ops : Expr.Ops K) (c : SolverCall K) (raw : RawSolution K) : Prop where
  feasible : CallFeasible ops c raw.x
  objective : ∀ cons f, c.value raw.x = .ok (cons, f) → raw.f = f
  minimal : ∃ eps, 0 < eps ∧ ∀ v, CallFeasible ops c v → Near eps v raw.x →
    ∀ cons f, c.value v = .ok (cons, f) → raw.f ≤ f

/-- A solver that returns a decision vector of the right size, and a local solution of the nonlinear
program whenever it reports success. -/
def LocalSolver (ops : Expr.Ops K) (solver : SolverCall K → Except Err (RawSolution K)) : Prop :=
  ∀ c, ∃ raw, solver c = .ok raw ∧ raw.x.length = c.lb.length ∧
    (raw.success = true → CallLocalMinimum ops c raw)

/-- A decision of the user's discretised problem such that no decision near it costs less. -/
structure LocallyBest (ops : Expr.Ops K) (o : Ocp) (M : Mesh) (x0 p : List K) (theta : List (List K))
    (lastU : Option (List K)) (b : Blocks K) (ρ : Nat → K → Sym → K) : Prop extends
    Decision ops o M x0 p theta lastU b ρ where
  local_best : ∃ eps, 0 < eps ∧ ∀ b' ρ', Decision ops o M x0 p theta lastU b' ρ' →
    Near eps (Layout.stacked b') (Layout.stacked b) → directCost ops o M b ρ ≤ directCost ops o M b' ρ'

end Verif.Spec
