import Verif.Model.AugLagResult
import Verif.Spec.AugLag
/-!
# What the result of the augmented Lagrangian should report
-/
namespace Verif.Spec
open Verif.AugLag

variable {K : Type} [Field K] [LinearOrder K]

/-- The entry of row `i` at collocation point `j` of element `el`. -/
def reported (values : List (List (List K))) (el j i : Nat) : Option K :=
  (values[el]?.bind (·[j]?)).bind (·[i]?)

/-- The number of rows reported at a point. -/
def rowsAt (values : List (List (List K))) (el j : Nat) : Option Nat :=
  (values[el]?.bind (·[j]?)).map (·.length)

/-- The multipliers of all elements: `nRelax` values for each of the collocation points. -/
def Rows (o : Opts K) (nu : List (List K)) : Prop :=
  nu.length = o.elements ∧ ∀ v ∈ nu, v.length = o.nRelax * o.degree

/-- Multipliers and penalties have the sizes of the problem, in use or computed for the next solve. -/
structure SizedState (o : Opts K) (s : St K) : Prop where
  nu : Rows o s.nu
  tilde : ∀ t, s.nuTilde = some t → Rows o t
  mu : s.mu.length = o.nRelax

/-- The result describes a solution with violations `viol`, found with multipliers `nu`: at every point
the times, the multipliers and the violations of that point, the first `nAlg` constraints being the
relaxed algebraic equations; and the largest violation of each constraint. -/
structure Describes (o : Opts K) (nAlg : Nat) (nu : List (List K)) (viol : List (List (List K)))
    (r : Result K) : Prop where
  time : ∀ el < o.elements, ∀ j < o.degree,
    (r.time[el]?.bind (·[j]?)) = some (pointTime o el j)
  multipliers : ∀ el < o.elements, ∀ j < o.degree, rowsAt r.nu el j = some o.nRelax ∧
    ∀ i < o.nRelax, reported r.nu el j i = multiplier o nu el (pointTime o el j) i
  algebraic : ∀ el < o.elements, ∀ j < o.degree, rowsAt r.alg el j = some nAlg ∧
    ∀ i < nAlg, reported r.alg el j i = violation viol el j i
  equalities : ∀ el < o.elements, ∀ j < o.degree, rowsAt r.eq el j = some (o.nRelax - nAlg) ∧
    ∀ i < o.nRelax - nAlg, reported r.eq el j i = violation viol el j (nAlg + i)
  error : ∃ e, r.error = some e ∧ e.length = o.nRelax ∧
    ∀ i x, e[i]? = some x → LargestViolation o viol i x

end Verif.Spec
