import Verif.Model.Stochastic
/-!
# What registering uncertain quantities means
-/
namespace Verif.Spec
open Verif

/-- Uncertain quantities registered together. -/
structure Registration where
  syms : List Sym
  mean : List Rat
  cov : Weight
  dist : String

/-- One mean per symbol, and a square covariance matrix of that size. -/
def Registration.Valid (r : Registration) : Prop :=
  r.syms.length = r.mean.length ∧ r.cov.rows = r.syms.length ∧ r.cov.cols = r.syms.length

instance (r : Registration) : Decidable r.Valid := by
  unfold Registration.Valid; infer_instance

/-- The registration of parameters a call asks for. -/
def askedParameters : StochasticOcp.Call → Option Registration
  | .setParameter par mean cov dist => some ⟨par, mean, cov, dist⟩
  | .includeParameter par mean cov dist => some ⟨par, mean, cov, dist⟩
  | _ => none

/-- The registration of initial conditions a call asks for. -/
def askedInitial : StochasticOcp.Call → Option Registration
  | .setInitial par mean cov dist => some ⟨par, mean, cov, dist⟩
  | _ => none

/-- The valid ones of a history, in order. -/
def validOnes (asked : StochasticOcp.Call → Option Registration) (cs : List StochasticOcp.Call) :
    List Registration :=
  (cs.filterMap asked).filter fun r => decide r.Valid

/-- Number of uncertain quantities before registration `a`. -/
def before (rs : List Registration) (a : Nat) : Nat := ((rs.take a).map fun r => r.syms.length).sum

/-- The data kept are those registered: symbols, means and distributions in order, and a covariance that
is the registered one inside a registration and zero between different ones. -/
structure Collects (rs : List Registration) (q : Uncertain) : Prop where
  syms : q.syms = rs.flatMap (·.syms)
  mean : q.mean = rs.flatMap (·.mean)
  dist : q.dist = rs.flatMap fun r => List.replicate r.syms.length r.dist
  rows : q.cov.rows = q.syms.length
  cols : q.cov.cols = q.syms.length
  cov : ∀ (a b : Nat) (r r' : Registration), rs[a]? = some r → rs[b]? = some r' →
    ∀ i j, i < r.syms.length → j < r'.syms.length →
      q.cov.entry (before rs a + i) (before rs b + j) = if a = b then r.cov.entry i j else 0

end Verif.Spec
