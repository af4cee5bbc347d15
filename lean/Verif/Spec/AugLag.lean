import Verif.Model.AugLag
import Verif.Spec.Relax
/-!
# What the augmented Lagrangian method should do
-/
namespace Verif.Spec
open Verif.AugLag

variable {K : Type} [Field K] [LinearOrder K]

/-- A well-posed discretisation: one degree everywhere, distinct collocation points, as many as the
degree, elements of positive length. -/
structure Discretised (o : Opts K) : Prop where
  same : o.nuDegree = o.degree
  points : (o.roots o.degree).length = o.degree
  distinct : (o.roots o.degree).Nodup
  positive : 0 < o.degree
  length : o.deltaT ≠ 0

/-- The value of multiplier `i` at a time of element `el`. -/
def multiplier (o : Opts K) (nu : List (List K)) (el : Nat) (t : K) (i : Nat) : Option K :=
  (nuAt o (nu[el]?.getD []) el t)[i]?

/-- The time of collocation point `j` of element `el`. -/
def pointTime (o : Opts K) (el j : Nat) : K := o.timeNu el j

/-- A solution has a violation for each constraint at each collocation point. -/
def Violations (o : Opts K) (viol : List (List (List K))) : Prop :=
  ∀ el < o.elements, ∀ j < o.degree, ∃ row r, viol[el]? = some row ∧ row[j]? = some r ∧
    r.length = o.nRelax

/-- The violation of constraint `i` at collocation point `j` of element `el`. -/
def violation (viol : List (List (List K))) (el j i : Nat) : Option K :=
  ((viol[el]?.bind (·[j]?)).bind (·[i]?))

/-- At every collocation point each multiplier is the old one plus the penalty times the violation. -/
def FirstOrderStep (o : Opts K) (nu : List (List K)) (mu : List K) (viol : List (List (List K)))
    (nu' : List (List K)) : Prop :=
  ∀ el < o.elements, ∀ j < o.degree, ∀ i < o.nRelax, ∃ v m r,
    multiplier o nu el (pointTime o el j) i = some v ∧ mu[i]? = some m ∧
    violation viol el j i = some r ∧
    multiplier o nu' el (pointTime o el j) i = some (v + m * r)

/-- `e` is the largest absolute violation of constraint `i` over all elements and points. -/
def LargestViolation (o : Opts K) (viol : List (List (List K))) (i : Nat) (e : K) : Prop :=
  0 ≤ e ∧ (∀ el < o.elements, ∀ j < o.degree, ∀ r, violation viol el j i = some r → |r| ≤ e) ∧
  (e ≠ 0 → ∃ el < o.elements, ∃ j < o.degree, ∃ r, violation viol el j i = some r ∧ |r| = e)

/-- All constraints are violated by less than the tolerance. -/
def Met (o : Opts K) (error : List K) : Prop := ∀ e ∈ error, e < o.tol

/-- The state after a sequence of updates, one for each solution. -/
def afterUpdates (o : Opts K) (viols : List (List (List (List K)))) (s : St K) : St K :=
  viols.foldl (fun s v => (updateParameters o v s).2) s

end Verif.Spec
