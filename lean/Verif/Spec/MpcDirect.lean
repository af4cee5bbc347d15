import Verif.Model.MpcDirect
import Verif.Spec.SolveDirect
import Verif.Spec.Mpc
/-!
# What a controller with a direct method should do
-/
namespace Verif.Spec
open SolveDirect

/-- The states of a direct method after any calls of `solve`. -/
inductive Used (ops : Expr.Ops Rat) (opts : Options) (names : NewNames) (s : Direct.Method) :
    SolveDirect.State Rat → Prop
  | new : Used ops opts names s ⟨s, none⟩
  | solved (sim info : List Rat → Theta Rat → Except Err (List Rat))
      (solver : SolverCall Rat → Except Err (RawSolution Rat)) (a : SolveArgs Rat)
      (st : SolveDirect.State Rat) : Used ops opts names s st →
      Used ops opts names s (solve ops opts names sim info solver a st).2

/-- The values `b` of the variables are a decision vector, and the best decision of the user's problem
with these data if the solver reported success. A solver that finds solutions whenever there are any reports
success if there is a best decision. -/
structure SolvedFor (ops : Expr.Ops Rat) (solver : SolverCall Rat → Except Err (RawSolution Rat)) (o : Ocp)
    (M : Mesh) (x0 p : List Rat) (theta : List (List Rat)) (b : Blocks Rat) (success : Bool) : Prop where
  data : CollocationData (directDims o M) b
  readable : ∃ ρ, ReadsAll o M b x0 p theta ρ
  best : success = true → ∀ ρ, ReadsAll o M b x0 p theta ρ →
    BestDecision ops o M x0 p theta (lastOf o) b ρ
  found : CompleteSolver ops solver → (∃ b' ρ', BestDecision ops o M x0 p theta (lastOf o) b' ρ') →
    success = true

/-- The controls can be sent: the method uses the same points for states and controls, or there is one
control, constant in each element. -/
def Sendable (o : Ocp) (opts : Options) : Prop :=
  opts.controlRoots = opts.roots ∨ o.model.u.length = 1 ∧ opts.controlRoots.length = 1

/-- The controller has a parameter vector with room for the configured estimates, or no parameter vector
and needs none. -/
def ParametersReady {W : Type} (c : Mpc.Config W) (o : Ocp) (p : Option (List Rat)) (x cov : List Rat) :
    Prop :=
  (∃ p0, p = some p0 ∧ p0.length = o.model.p.length ∧ ParametersFit c o.model.p.length x cov) ∨
  (p = none ∧ o.pOpt.length = o.model.p.length ∧ c.meanAsParameter = false ∧
    c.covarianceAsParameter = false)

/-- The parameters in use: those of the user with the estimates at the configured positions, or
zeros. -/
def ParametersUsed {W : Type} (c : Mpc.Config W) (o : Ocp) (p : Option (List Rat)) (x cov q : List Rat) :
    Prop :=
  q.length = o.model.p.length ∧
  (∀ p0, p = some p0 → ∀ i < o.model.p.length, q[i]? = assigned p0 (assignments c x cov) i) ∧
  (p = none → q = List.replicate o.model.p.length 0)

/-- One cycle, as it should be: the estimator estimates the state, the direct method finds the best
decision of the user's problem from there (if the solver reports success), and the plant goes on with
the control polynomials of the first element, stretched to the sampling time of the plant. Without estimates
among the parameters these stay as they are. -/
def SendsBest {E : Type} (ops : Expr.Ops Rat) (opts : Options)
    (solver : SolverCall Rat → Except Err (RawSolution Rat)) (o : Ocp)
    (estimator : Rat → List Rat → List Rat → Py E (List Rat × List Rat))
    (c : Mpc.Config (E × SolveDirect.State Rat)) (S S' : Mpc.State (E × SolveDirect.State Rat)) : Prop :=
  ∃ (est cov q : List Rat) (b : Blocks Rat) (success : Bool) (f : Rat → List Rat),
    estimator S.plant.t S.plant.measurement S.plant.u S.world.1 = (.ok (est, cov), S'.world.1) ∧
    ParametersUsed c o S.p (est ++ [0]) cov q ∧
    (c.meanAsParameter = false → c.covarianceAsParameter = false → S'.p = S.p) ∧
    SolvedFor ops solver o (mesh opts) est q
      (List.replicate opts.elements (List.replicate o.model.theta.length 0)) b success ∧
    Plant.setControlFunction c.plant f S.plant = (.ok (), S'.plant) ∧
    ∀ tau, f (S.plant.t + tau * c.plant.tS) = (List.range c.plant.nU).map fun i =>
      (controlPoly (mesh opts) b 0 i).eval tau

/-- `n` steps of a relation. -/
inductive Repeated {α : Type} (R : α → α → Prop) : Nat → α → α → Prop
  | zero (a : α) : Repeated R 0 a a
  | succ {n : Nat} {a b c : α} : R a b → Repeated R n b c → Repeated R (n + 1) a c

end Verif.Spec
