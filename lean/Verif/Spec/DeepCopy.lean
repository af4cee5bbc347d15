import Verif.Model.DeepCopy
import Verif.Spec.Merge
/-!
# What a deep copy should be
-/
namespace Verif
open SysModel

/-- All variables of the original, in the order in which they are renamed. -/
def Spec.oldVars (m : SysModel) : List Sym := m.x ++ m.y ++ m.u ++ m.p ++ m.theta ++ m.uPar

/-- Their new names. -/
def Spec.newVars (f : Fresh) : List Sym := f.x ++ f.y ++ f.u ++ f.p ++ f.theta ++ f.uPar

/-- The new symbols fit the model and are really new. -/
structure Spec.FreshFor (m : SysModel) (f : Fresh) : Prop where
  x : f.x.length = m.x.length
  x0 : f.x0.length = m.x.length
  y : f.y.length = m.y.length
  u : f.u.length = m.u.length
  p : f.p.length = m.p.length
  theta : f.theta.length = m.theta.length
  uPar : f.uPar.length = m.uPar.length
  distinct : f.x.Nodup
  new : ∀ s ∈ Spec.newVars f, s ∉ Spec.oldVars m

/-- An equation with the variables renamed. -/
def Spec.rename (m : SysModel) (f : Fresh) (e : Expr) : Expr :=
  e.subst (Spec.oldVars m) ((Spec.newVars f).map .sym)

/-- The deep copy the code makes of a model with one equation per state. -/
def Spec.deepCopied (m : SysModel) (f : Fresh) : SysModel :=
  { t := f.t, tau := f.tau, x := f.x, x0 := f.x0
    ode := f.x.zip (m.odeVec.map fun e => some (Spec.rename m f e))
    y := f.y
    alg := m.alg.map (Spec.rename m f)
    u := f.u
    uExpr := m.uExpr.map (Spec.rename m f)
    uPar := m.uPar
    p := f.p
    theta := f.theta
    hasAdjoint := m.hasAdjoint }

end Verif
