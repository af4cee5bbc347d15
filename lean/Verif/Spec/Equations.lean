import Verif.Model.SystemModel
/-!
# Equations of a model and their values
-/
namespace Verif
open SysModel

/-- `ρ'` is the point `ρ` with the variables `v` moved to the values of `w` at `ρ`. -/
def Spec.MovedTo {K : Type u} [Field K] (ops : Expr.Ops K) (v : List Sym) (w : List Expr)
    (ρ ρ' : Sym → K) : Prop :=
  (∀ i (h₁ : i < v.length) (h₂ : i < w.length), ρ' v[i] = w[i].eval ops ρ) ∧
  ∀ s, s ∉ v → ρ' s = ρ s

/-- The values of the equation table at a point, state by state. -/
def Spec.odeAt {K : Type u} [Field K] (ops : Expr.Ops K) (ρ : Sym → K) (m : SysModel) :
    List (Sym × Option K) := m.ode.map fun kv => (kv.1, kv.2.map (Expr.eval ops ρ))

/-- All equations of a model: differential, algebraic and control expressions. -/
def Spec.equations (m : SysModel) : List Expr := m.odeVec ++ m.alg ++ m.uExpr

end Verif
