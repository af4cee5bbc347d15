import Verif.Model.DistSolve
/-!
# What the distributed solution of a network should do
-/
namespace Verif.Spec
open DistAL

variable {N R S K : Type} [DecidableEq N] [Field K] [LinearOrder K]

/-- `k` outer iterations: `x i` are the variables before iteration `i` and `e i` the largest error of
iteration `i`. -/
structure Iterations (c : Setup N R S K) (s : S) (k : Nat) (x : Nat → Loop N R S K) (e : Nat → K) :
    Prop where
  first : x 0 = { methods := s, last := fun _ => none }
  step : ∀ i < k, c.outerStep i (x i) = .ok (x (i + 1), e i)

/-- `m` is the largest entry. -/
def LargestEntry (rows : List (List K)) (m : K) : Prop :=
  (∃ r ∈ rows, m ∈ r) ∧ ∀ r ∈ rows, ∀ v ∈ r, v ≤ m

/-- The sum of the objectives of the nodes with a result. -/
def sumOfObjectives (nodes : List N) (results : N → Option R) (objective : R → K) : K :=
  (nodes.map fun n => ((results n).map objective).getD 0).sum

/-- Some call of the solver for the node gave this result. -/
def SolvedBy (c : Setup N R S K) (n : N) (r : R) : Prop := ∃ s last, c.solver s n last = some r

end Verif.Spec
