import Verif.Model.AlgVar
import Verif.Spec.Equilibrium
/-!
# Specification of the values of the algebraic variables
-/
namespace Verif
namespace Spec
variable {K : Type} [Field K]

/-- The symbols have the given rational values. -/
def HasRatValues (ρ : Sym → K) (v : List Sym) (r : List Rat) : Prop :=
  v.map ρ = r.map fun q : Rat => (q : K)

/-- The point `ρ` is the one the user asked about: time, states, controls and parameters have the given
values; parameters that are not given have none. -/
structure AtPoint (m : SysModel) (t : Rat) (x u : List Rat) (p theta : Option (List Rat))
    (ρ : Sym → K) : Prop where
  t : ρ m.t = (t : K)
  x : HasRatValues ρ m.x x
  u : HasRatValues ρ m.u u
  p : HasRatValues ρ m.p (p.getD [])
  theta : HasRatValues ρ m.theta (theta.getD [])

/-- The variables of the model are distinct. -/
def DistinctVariables (m : SysModel) : Prop :=
  (m.t :: (m.x ++ m.u ++ m.p ++ m.theta) ++ m.y).Nodup

/-- The arguments have the sizes of the vectors of the model. -/
structure ArgumentsFit (m : SysModel) (x u : List Rat) (p theta : Option (List Rat)) : Prop where
  x : x.length = m.x.length
  u : u.length = m.u.length
  p : (p.getD []).length = m.p.length
  theta : (theta.getD []).length = m.theta.length

/-- The algebraic equations contain only variables of the model. -/
def OnlyVariables (m : SysModel) : Prop :=
  ∀ e ∈ m.alg, ∀ s ∈ e.syms, s = m.t ∨ s ∈ m.x ∨ s ∈ m.u ∨ s ∈ m.p ∨ s ∈ m.theta ∨ s ∈ m.y

end Spec
end Verif
