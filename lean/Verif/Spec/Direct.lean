import Verif.Spec.Equations
import Verif.Model.Ocp
import Mathlib.Analysis.Calculus.Deriv.Basic
/-!
# Exact trajectories of a problem
-/
namespace Verif

/-- `X` is an exact trajectory of the problem between two times: it solves the differential
equations, meets the initial constraints, and gives the initial condition symbols the recorded
initial values. -/
structure Spec.OcpTrajectory (ops : Expr.Ops ℝ) (o : Ocp) (X : ℝ → Sym → ℝ) (t0 tf : ℝ) : Prop where
  ode : ∀ t ∈ Set.uIcc t0 tf, ∀ s ∈ o.model.x, ∀ e, o.model.ode.get? s = some (some e) →
    HasDerivAt (fun τ => X τ s) (e.eval ops (X t)) t
  init : ∀ e ∈ o.hInitial, e.eval ops (X t0) = 0
  value : ∀ p ∈ o.model.x0.zip o.x0, X t0 p.1 = (p.2 : ℝ)

/-- The expressions that become the transcription's objective, constraints and dynamics. -/
def Spec.expressions (o : Ocp) : List Expr :=
  [o.L, o.V] ++ o.hFinal ++ o.gEq ++ o.gIneq ++ o.model.alg ++ o.model.ode.filterMap (·.2)

end Verif
