import Verif.Spec.Equations
/-!
# What merging models should give
-/
namespace Verif
open SysModel

/-- Symbols a merged-in model brings along: those of its equations and its controls. -/
def Spec.Brings (k : SysModel) (s : Sym) : Prop :=
  (∃ e ∈ Spec.equations k, s ∈ e.syms) ∨ s ∈ k.u

/-- A model with exactly one equation for each state, in the order of the states. -/
def Spec.Complete (k : SysModel) : Prop :=
  k.ode.keys = k.x ∧ k.x.Nodup ∧ ∀ kv ∈ k.ode, kv.2.isSome = true

/-- The models `ks` can be merged into `m`: they are complete, all states are different, and the
time symbols of each belong to it alone. -/
structure Spec.Mergeable (m : SysModel) (ks : List SysModel) : Prop where
  complete : ∀ k ∈ ks, Spec.Complete k
  states : (m.ode.keys ++ ks.flatMap (·.x)).Nodup
  times : ∀ k ∈ ks, k.t ≠ m.t ∧ k.t ≠ m.tau ∧ k.tau ≠ m.t ∧ k.tau ≠ m.tau
  base : ∀ k ∈ ks, ¬ Spec.Brings m k.t ∧ ¬ Spec.Brings m k.tau
  own : ∀ k ∈ ks, k.t ∉ k.u ∧ k.tau ∉ k.u
  others : ks.Pairwise fun j k => (¬ Spec.Brings j k.t ∧ ¬ Spec.Brings j k.tau) ∧
    ¬ Spec.Brings k j.t ∧ ¬ Spec.Brings k j.tau

/-- An equation of `k` written in the time of `m`. -/
def Spec.retime (m k : SysModel) (e : Expr) : Expr :=
  e.subst [k.t, k.tau] [.sym m.t, .sym m.tau]

/-- The equation table of `k` in the time of `m`. -/
def Spec.retimedOde (m k : SysModel) : Dict Sym (Option Expr) :=
  k.ode.map fun kv => (kv.1, kv.2.map (Spec.retime m k))

/-- The merged model: everything concatenated in argument order. -/
def Spec.merged (m : SysModel) (ks : List SysModel) : SysModel :=
  { m with
    x := m.x ++ ks.flatMap (·.x)
    x0 := m.x0 ++ ks.flatMap (·.x0)
    ode := m.ode ++ ks.flatMap (Spec.retimedOde m)
    y := m.y ++ ks.flatMap (·.y)
    alg := m.alg ++ ks.flatMap fun k => k.alg.map (Spec.retime m k)
    u := m.u ++ ks.flatMap (·.u)
    uExpr := m.uExpr ++ ks.flatMap fun k => k.u.map .sym
    uPar := m.uPar ++ ks.flatMap (·.u)
    p := m.p ++ ks.flatMap (·.p)
    theta := m.theta ++ ks.flatMap (·.theta) }

end Verif
