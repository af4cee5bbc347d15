import Verif.Spec.Scope
import Verif.Model.Ocp
/-!
# Which symbols the costs and constraints of a problem may mention
-/
namespace Verif
open SysModel

/-- The costs and constraints of a problem. -/
def Spec.terms (o : Ocp) : List Expr :=
  [o.L, o.V, o.S] ++ o.h ++ o.hInitial ++ o.hFinal ++ o.gEq ++ o.gIneq

/-- Symbols that have a meaning in a problem: those of its model, its initial conditions and its
multipliers of the terminal constraints. -/
def Spec.KnownTo (o : Ocp) (s : Sym) : Prop :=
  Spec.InScope o.model s ∨ s ∈ o.model.x0 ∨ s ∈ o.eta

/-- Every cost and constraint mentions only symbols that have a meaning in the problem. -/
def Spec.TermsScoped (o : Ocp) : Prop := ∀ e ∈ Spec.terms o, ∀ s ∈ e.syms, Spec.KnownTo o s

/-- The expressions a call brings into the costs and constraints of a problem. -/
def Spec.argTerms : Ocp.Call → List Expr
  | .includeState _ _ _ _ _ h _ _ _ => h.getD []
  | .includeInitialEquality e => e
  | .includeFinalEquality e => e
  | .includeTimeInequality e _ => e
  | .includeTimeEquality e _ => e
  | .includeEquality e => e
  | .replaceVariable _ w => w
  | .parametrizeControl _ e _ => e
  | _ => []

/-- The calls that take no variable away: neither removals, nor merging, nor a connection by
replacement. -/
def Spec.keepsVariables : Ocp.Call → Bool
  | .removeAlgebraic _ _ => false
  | .removeControl _ => false
  | .merge _ => false
  | .connect _ _ r => !r
  | _ => true

/-- A program in which every term given to a call mentions only symbols known to the problem once the
call is done, and every call returns. -/
def Spec.ScopedTerms : List Ocp.Call → Ocp → Prop
  | [], _ => True
  | c :: cs, o => Spec.keepsVariables c = true ∧ ∃ o', c.run o = (.ok (), o') ∧
      (∀ e ∈ Spec.argTerms c, ∀ s ∈ e.syms, Spec.KnownTo o' s) ∧ Spec.ScopedTerms cs o'

/-- No cost or constraint of the problem mentions the times of its model. -/
def Spec.Timeless (o : Ocp) : Prop :=
  ∀ e ∈ Spec.terms o, o.model.t ∉ e.syms ∧ o.model.tau ∉ e.syms

end Verif
