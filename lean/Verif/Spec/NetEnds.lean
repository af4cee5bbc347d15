import Verif.Spec.AugLag
import Verif.Spec.AugLagResult
/-!
# The two ends of a connection
-/
namespace Verif.Spec
open Verif.AugLag

variable {K : Type} [Field K] [LinearOrder K]

/-- The local methods of two nodes have the same options; they may relax different numbers of
constraints. -/
structure SameOptions (o o' : Opts K) : Prop where
  roots : o'.roots = o.roots
  t0 : o'.t0 = o.t0
  tf : o'.tf = o.tf
  nuDegree : o'.nuDegree = o.nuDegree
  degree : o'.degree = o.degree
  elements : o'.elements = o.elements
  muMax : o'.muMax = o.muMax
  beta : o'.beta = o.beta
  minDecrease : o'.minDecrease = o.minDecrease
  rule : o'.rule = o.rule
  skipUpdateMu : o'.skipUpdateMu = o.skipUpdateMu

/-- Multipliers are computed in every update and all of them are used, and the rule for the penalties is a
known one. -/
structure PlainUpdates (o : Opts K) : Prop where
  compute : o.skipCompute = false
  store : o.skipUpdateNu = false
  all : o.onlyImprove = false
  rule : o.rule = "constant" ∨ o.rule = "primal" ∨ o.rule = "primal-dual" ∨ o.rule = "bounded-increase"

/-- What happens to a node in an outer iteration: it is solved some times, then its parameters are updated
with the violations of the relaxed constraints, and then all nodes may get a common penalty (with the
primal-dual rule, and with processes). -/
structure NodeRound (K : Type) where
  solves : List (Solver K)
  viol : List (List (List K))
  common : Option K := none

/-- The local method after the solves of an outer iteration; solving does not update. -/
def afterSolves (o : Opts K) (s : St K) (solves : List (Solver K)) : St K :=
  solves.foldl (fun s f => (callSolver o true f s).2) s

/-- The update of a node: `compute_primal_dual` with the primal-dual rule, else `update_parameters`. -/
def nodeUpdate (o : Opts K) (viol : List (List (List K))) : Py (St K) (List K) :=
  if o.rule = "primal-dual" then computeNu o viol else updateParameters o viol

/-- The local method with a common penalty. -/
def withCommon (s : St K) : Option K → St K
  | none => s
  | some m => (setMu [m] s).2

/-- The local method after an outer iteration. -/
def afterRound (o : Opts K) (s : St K) (r : NodeRound K) : St K :=
  withCommon (nodeUpdate o r.viol (afterSolves o s r.solves)).2 r.common

/-- The multipliers with which the node will be solved next. -/
def nextMultipliers (s : St K) : List (List K) := s.nuTilde.getD s.nu

/-- Constraint `i` of one node and constraint `i'` of the other have the same multipliers in the next solve,
and the same penalty. -/
structure SameEnds (o o' : Opts K) (i i' : Nat) (s s' : St K) : Prop where
  multipliers : ∀ el < o.elements, ∀ j < o.degree,
    multiplier o (nextMultipliers s) el (pointTime o el j) i =
      multiplier o' (nextMultipliers s') el (pointTime o' el j) i'
  penalty : s.mu[i]? = s'.mu[i']?

/-- The constraints have the same violations at all points. -/
def SameViolations (o : Opts K) (i i' : Nat) (v v' : List (List (List K))) : Prop :=
  ∀ el < o.elements, ∀ j < o.degree, violation v el j i = violation v' el j i'

/-- In an outer iteration both nodes are solved, and the constraints have the same violations. -/
structure SolvedAlike (o o' : Opts K) (i i' : Nat) (r r' : NodeRound K) : Prop where
  solved : r.solves ≠ []
  solved' : r'.solves ≠ []
  sized : Violations o r.viol
  sized' : Violations o' r'.viol
  same : SameViolations o i i' r.viol r'.viol
  common : r'.common = r.common

end Verif.Spec
