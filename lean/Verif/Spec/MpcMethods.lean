import Verif.Model.MpcMethods
/-!
# What a controller with any solution method should do
-/
namespace Verif.Spec
open MpcMethods

/-- Every run raises, whatever the number of iterations, and no control has been sent: the plant is as it
was. -/
def NeverSends {W : Type} (scheme : Scheme) (c : Mpc.Config W) (S : Mpc.State W) : Prop :=
  ∀ n : Int, ∃ e S', run scheme c n S = (.error e, S') ∧ S'.plant = S.plant

/-- The states of an indirect method with collocation after any calls of `solve`. -/
inductive UsedIndirect (B : Backend) (ops : Expr.Ops Rat) (opts : SolveIndirect.Options)
    (names : SolveIndirect.NewNames) (o : Ocp) : SolveIndirect.State Rat → Prop
  | new : UsedIndirect B ops opts names o ⟨o, false, none⟩
  | solved (sim info : List Rat → Theta Rat → Except Err (List Rat))
      (solver : SolveDirect.SolverCall Rat → Except Err (RawSolution Rat)) (a : SolveArgs Rat)
      (st : SolveIndirect.State Rat) : UsedIndirect B ops opts names o st →
      UsedIndirect B ops opts names o (SolveIndirect.solve B ops opts names sim info solver a st).2

end Verif.Spec
