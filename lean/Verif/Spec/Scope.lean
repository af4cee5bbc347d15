import Verif.Spec.Equations
/-!
# Which symbols a model may mention
-/
namespace Verif
open SysModel

/-- Symbols that have a meaning in a model: time, element time, states, algebraics, parameters and
control parameters. -/
def Spec.InScope (m : SysModel) (s : Sym) : Prop :=
  s = m.t ∨ s = m.tau ∨ s ∈ m.x ∨ s ∈ m.y ∨ s ∈ m.p ∨ s ∈ m.theta ∨ s ∈ m.uPar

/-- Every equation mentions only symbols in scope. -/
def Spec.WellScoped (m : SysModel) : Prop :=
  ∀ e ∈ Spec.equations m, ∀ s ∈ e.syms, Spec.InScope m s

/-- The expressions a call brings into the model. -/
def Spec.argExprs : Call → List Expr
  | .includeState _ ode _ _ => ode.getD []
  | .includeAlgebraic _ alg => alg.getD []
  | .parametrizeControl _ e _ => e
  | .includeEquations args ode _ alg =>
      alg ++ ode.getD [] ++ args.flatMap EqArg.residuals ++ args.flatMap EqArg.rhss
  | .replaceVariable _ w => w
  | .connect _ y _ => y
  | _ => []

/-- The building calls (everything except removals and merging). -/
def Spec.isBuilding : Call → Bool
  | .removeState _ => false
  | .removeAlgebraic _ _ => false
  | .removeControl _ => false
  | .removeParameter _ => false
  | .removeTheta _ => false
  | .includeModels _ => false
  | .merge _ _ => false
  | _ => true

/-- A program in which every expression given to a call mentions only symbols in scope once the
call is done, and every call returns. -/
def Spec.ScopedProgram : List Call → SysModel → Prop
  | [], _ => True
  | c :: cs, m => Spec.isBuilding c = true ∧ ∃ m', Call.run c m = (.ok (), m') ∧
      (∀ e ∈ Spec.argExprs c, ∀ s ∈ e.syms, Spec.InScope m' s) ∧ Spec.ScopedProgram cs m'

end Verif
