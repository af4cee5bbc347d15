import Verif.Model.SolverOptions
/-!
# Specification of the options of the solver
-/
namespace Verif
namespace Spec
open SolverOptions

/-- The call writes to the dictionary `r`: it assigns to it, or makes a method with it. -/
def Writes {V : Type} (r : DictRef) : Call V → Prop
  | .assign r' _ _ => r' = r
  | .method given => given.getD defaultArgument = r
  | _ => False

/-- The options the solver of the method with number `i` was created with. -/
def SolvesWith {V : Type} (w : World V) (i : Nat) (d : Dict String V) : Prop :=
  ∃ m, w.methods[i]? = some m ∧ m.solver = some d

/-- The options the solver of the optimisation problem with number `i` was created with. -/
def ProblemSolvesWith {V : Type} (w : World V) (i : Nat) (d : Dict String V) : Prop :=
  ∃ q, w.problems[i]? = some q ∧ q.solver = some d

/-- The options given by the user, and the configured ones where nothing is given. -/
def IsGivenOrConfigured {V : Type} (given config d : Dict String V) : Prop :=
  ∀ k, d.get? k = (given.get? k).or (config.get? k)

end Spec
end Verif
