import Verif.Model.DistAL
import Mathlib.Algebra.Order.Group.Unbundled.Abs
/-!
# What the distributed augmented Lagrangian should do
-/
namespace Verif.Spec
open Verif.DistAL

/-- All variables of the connection are in the vector of the neighbour they are looked up in. -/
def Found {K : Type} (l : Link K) : Prop := l.vector.Nodup ∧ ∀ v ∈ l.vars, v ∈ l.vector

/-- The neighbour's value of variable `v` of a connection at collocation point `j` of element `el`. -/
def neighbourValue {K : Type} (l : Link K) (v : Sym) (el j : Nat) : K :=
  l.traj (l.vector.idxOf v) el j

/-- Solving a node problem reads only the last results of the node itself and of its neighbours. -/
def ReadsNeighbours {N R : Type} (connected : N → N → Prop) (solve : NodeSolver N R) : Prop :=
  ∀ n last last', (∀ m, m = n ∨ connected n m → last m = last' m) → solve n last = solve n last'

/-- No two nodes of the list are connected or the same. -/
def Independent {N : Type} (connected : N → N → Prop) (l : List N) : Prop :=
  l.Pairwise fun a b => a ≠ b ∧ ¬ connected a b ∧ ¬ connected b a

variable {K : Type} [Field K] [LinearOrder K]

/-- The objective improved by the relative tolerance. -/
def ImprovedBy (tol last objective : K) : Prop := tol * |last| ≤ last - objective

/-- The residuals of the nodes: `r` is the largest primal one, `s` the largest dual one. -/
structure LargestResiduals {K : Type} [LinearOrder K] (rs : List K) (ss : List (WithBot K))
    (r : K) (s : WithBot K) : Prop where
  primal : r ∈ rs ∧ ∀ x ∈ rs, x ≤ r
  dual : s ∈ ss ∧ ∀ x ∈ ss, x ≤ s

/-- `top` is the largest of all penalties of all nodes. -/
def LargestPenalty {K : Type} [LinearOrder K] (mus : List (List K)) (top : K) : Prop :=
  (∃ mu ∈ mus, top ∈ mu) ∧ ∀ mu ∈ mus, ∀ m ∈ mu, m ≤ top

end Verif.Spec
