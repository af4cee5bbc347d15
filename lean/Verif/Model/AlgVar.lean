import Verif.Model.Equilibrium
/-!
# `find_algebraic_variable` (modelling/mixins/algebraic_mixin.py)

CasADi's `rootfinder` is a parameter, see `Verif.Model.Equilibrium`.
-/
namespace Verif
namespace AlgVar
open Equilibrium

variable {K : Type} [Field K]

/-- `known_var`, algebraic_mixin.py:67. -/
def knownVar (m : SysModel) : List Sym := m.t :: (m.x ++ m.u ++ m.p ++ m.theta)

/-- `known_var_values`, algebraic_mixin.py:68; `p` and `theta_value` not given are empty,
algebraic_mixin.py:60-63. -/
def knownValues (t : Rat) (x u : List Rat) (p theta : Option (List Rat)) : List Rat :=
  t :: (x ++ u ++ p.getD [] ++ theta.getD [])

/-- `substitute(alg, known_var, known_var_values)`, algebraic_mixin.py:66-69. CasADi raises a
`RuntimeError` for vectors of different sizes. -/
def substituted (m : SysModel) (vals : List Rat) : Except Err (List Expr) :=
  if (knownVar m).length = vals.length then
    .ok (m.alg.map (Expr.subst (knownVar m) (vals.map Expr.const)))
  else .error .runtimeError

/-- `find_algebraic_variable(x, u, guess, t, p, theta_value)`, algebraic_mixin.py:42-74. -/
def findAlgebraicVariable (rf : Rootfinder K) (m : SysModel) (x u : List Rat)
    (guess : Option (List K)) (t : Rat) (p theta : Option (List Rat)) : Except Err (List K) := do
  let alg ← substituted m (knownValues t x u p theta)
  let f ← functionOf m.y alg
  square m.y f
  let g ← fit m.y.length (guess.getD (List.replicate m.y.length 1))
  rf m.y f g

end AlgVar
end Verif
