import Verif.Model.ResultCheck
/-!
# Results in order
-/
namespace Verif.Spec
open ResultCheck

/-- A result in order: it has nonnegative sizes and times, at least one time, and an objective. -/
def ValidResult (a : Attrs) : Prop :=
  (∀ name ∈ ["finite_elements", "degree", "degree_control", "t_0", "t_f"], ∃ r : Rat, 0 ≤ r ∧
    Dict.get? a name = some (.num r)) ∧
  (∃ l : List Rat, l ≠ [] ∧ Dict.get? a "time_breakpoints" = some (.list l)) ∧
  (∃ v, v ≠ .none ∧ Dict.get? a "objective" = some v)

end Verif.Spec
