import Verif.Model.Equilibrium
/-!
# Specification of an equilibrium
-/
namespace Verif
namespace Spec
open Equilibrium
variable {K : Type} [Field K]

/-- The equations the user gives in addition. -/
def extra : Additional → List Expr
  | .vector v => v
  | .list l => l

/-- The symbols `v` have the values `r`. -/
def HasValues (ρ : Sym → K) (v : List Sym) (r : List K) : Prop := v.map ρ = r

/-- The right-hand sides, the algebraic equations and the additional ones vanish. -/
def IsEquilibrium (ops : Expr.Ops K) (m : SysModel) (additional : Additional) (ρ : Sym → K) : Prop :=
  ∀ e, e ∈ m.odeVec ∨ e ∈ m.alg ∨ e ∈ extra additional → e.eval ops ρ = 0

/-- The root finder returns roots: as many numbers as unknowns, and all equations vanish where the
unknowns have these values. -/
def FindsRoots (ops : Expr.Ops K) (rf : Rootfinder K) : Prop :=
  ∀ v eqs g r, rf v eqs g = .ok r →
    r.length = v.length ∧ ∀ ρ, HasValues ρ v r → ∀ e ∈ eqs, e.eval ops ρ = 0

/-- What the documentation asks for: one equation per state, one algebraic equation per algebraic
variable and one additional equation per control. -/
structure WellDefined (m : SysModel) (additional : Additional) : Prop where
  ode : m.odeVec.length = m.x.length
  alg : m.alg.length = m.y.length
  extra : (extra additional).length = m.u.length

/-- Some equation contains a symbol that is no state, algebraic variable, parameter or time: a
control. -/
def UsesControl (m : SysModel) (additional : Additional) : Prop :=
  ∃ e, (e ∈ m.odeVec ∨ e ∈ m.alg ∨ e ∈ Spec.extra additional) ∧
    ∃ s ∈ e.syms, s ∉ m.x ++ m.y ++ m.p ++ m.theta ∧ s ≠ m.t ∧ s ≠ m.tau

end Spec
end Verif
