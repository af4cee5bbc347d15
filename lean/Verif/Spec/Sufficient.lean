import Verif.Spec.ShootIndirect
import Mathlib.Analysis.Convex.Function
/-!
# Optimal trajectories of a problem in continuous time

What it means that no trajectory of the problem the user wrote costs less. Nothing here mentions
adjoints, except the conditions of convexity at the end.
-/
namespace Verif.Spec
open Set

/-- The times of an element besides its end. -/
def openTimes (o : Ocp) (M : Mesh) (el : Nat) : Set ℝ :=
  Ico (nodeTime o M el) (nodeTime o M (el + 1))

/-- `ρ` gives the time, the parameters and the initial values their values at the time `t` of element
`el`. -/
structure ReadsGiven (o : Ocp) (M : Mesh) (x0 p : List ℝ) (theta : List (List ℝ)) (el : Nat) (t : ℝ)
    (ρ : Sym → ℝ) : Prop where
  time : ρ o.model.t = t
  position : ρ o.model.tau = t / stepLength o M - (el : ℝ)
  parameters : ∀ (i : Nat) (s : Sym), o.model.p[i]? = some s → ρ s = p.getD i 0
  thetas : ∀ (i : Nat) (s : Sym), o.model.theta[i]? = some s → ρ s = (theta.getD el []).getD i 0
  starts : ∀ (i : Nat) (s : Sym), o.model.x0[i]? = some s → ρ s = x0.getD i 0

/-- A trajectory of the problem of the user over the horizon: continuous states that satisfy the
differential equations (as derivatives from the right, so that controls may jump), the algebraic
equations, controls within their bounds, the initial and the final conditions. `Y el t` are the values of
the symbols at the time `t` of element `el`. -/
structure ControlledTrajectory (ops : Expr.Ops ℝ) (o : Ocp) (M : Mesh) (x0 p : List ℝ) (theta : List (List ℝ))
    (Y : Nat → ℝ → Sym → ℝ) : Prop where
  given : ∀ el < M.elements, ∀ t ∈ elementTimes o M el, ReadsGiven o M x0 p theta el t (Y el t)
  initial : ∀ e ∈ o.hInitial, e.eval ops (Y 0 0) = 0
  joined : ∀ el, el + 1 < M.elements → ∀ s ∈ o.model.x,
    Y (el + 1) (nodeTime o M (el + 1)) s = Y el (nodeTime o M (el + 1)) s
  continuous : ∀ el < M.elements, ∀ s ∈ o.model.x,
    ContinuousOn (fun t => Y el t s) (elementTimes o M el)
  dynamics : ∀ el < M.elements, ∀ t ∈ openTimes o M el, ∀ (s : Sym) (e : Expr),
    o.model.ode.get? s = some (some e) →
    HasDerivWithinAt (fun r => Y el r s) (e.eval ops (Y el t)) (Ici t) t
  algebraic : ∀ el < M.elements, ∀ t ∈ openTimes o M el, ∀ e ∈ o.model.alg, e.eval ops (Y el t) = 0
  controls : ∀ el < M.elements, ∀ t ∈ openTimes o M el, InBounds o fun i => Y el t o.model.u[i]
  final : ∀ e ∈ o.hFinal, e.eval ops (Y (M.elements - 1) (nodeTime o M M.elements)) = 0

/-- `c el t` is the running cost up to the time `t` of element `el`: the integral of `L`. -/
structure RunningCost (ops : Expr.Ops ℝ) (o : Ocp) (M : Mesh) (Y : Nat → ℝ → Sym → ℝ)
    (c : Nat → ℝ → ℝ) : Prop where
  start : c 0 0 = 0
  joined : ∀ el, el + 1 < M.elements → c (el + 1) (nodeTime o M (el + 1)) = c el (nodeTime o M (el + 1))
  continuous : ∀ el < M.elements, ContinuousOn (c el) (elementTimes o M el)
  integral : ∀ el < M.elements, ∀ t ∈ openTimes o M el,
    HasDerivWithinAt (c el) (o.L.eval ops (Y el t)) (Ici t) t

/-- The trajectory has the cost `J`: the running cost plus the final cost. -/
def HasCost (ops : Expr.Ops ℝ) (o : Ocp) (M : Mesh) (Y : Nat → ℝ → Sym → ℝ) (J : ℝ) : Prop :=
  ∃ c, RunningCost ops o M Y c ∧ J = c (M.elements - 1) (nodeTime o M M.elements) +
    o.V.eval ops (Y (M.elements - 1) (nodeTime o M M.elements))

/-- No trajectory of the problem costs less. -/
structure OptimalTrajectory (ops : Expr.Ops ℝ) (o : Ocp) (M : Mesh) (x0 p : List ℝ)
    (theta : List (List ℝ)) (X : Nat → ℝ → Sym → ℝ) : Prop where
  admissible : ControlledTrajectory ops o M x0 p theta X
  least : ∀ J, HasCost ops o M X J → ∀ Y, ControlledTrajectory ops o M x0 p theta Y →
    ∀ J', HasCost ops o M Y J' → J ≤ J'

/-- What is asked of the problem: the initial state is given, no parameters are to be found, the equations
and the running cost mention symbols of the model, and the final cost and constraints besides no
algebraic variables and controls. -/
structure StateProblem (o : Ocp) : Prop where
  start : ∀ (i : Nat) (s s0 : Sym), o.model.x[i]? = some s → o.model.x0[i]? = some s0 →
    Expr.sub (.sym s) (.sym s0) ∈ o.hInitial
  known : o.pOpt = [] ∧ o.thetaOpt = []
  path : ∀ e ∈ o.L :: (o.model.odeVec ++ o.model.alg), ∀ s ∈ e.syms, InScope o.model s
  final : ∀ e ∈ o.V :: o.hFinal, ∀ s ∈ e.syms,
    s = o.model.t ∨ s = o.model.tau ∨ s ∈ o.model.x ∨ s ∈ o.model.p ∨ s ∈ o.model.theta

/-- The function is convex in the symbols `v`, with the others at the values `ρ`, and smooth at `ρ`. -/
structure ConvexIn (v : List Sym) (G : (Sym → ℝ) → ℝ) (ρ : Sym → ℝ) : Prop where
  convex : ConvexOn ℝ univ fun w => G (assign v w ρ)
  smooth : DifferentiableAt ℝ (fun w => G (assign v w ρ)) fun i => ρ v[i]

/-- Along the trajectory the Hamiltonian is convex in the states, the algebraic variables and the
controls, and at the end the final cost with the weighted final constraints is convex in the states. With
linear equations and constraints and convex costs both hold always. -/
structure ConvexAlong (ops : Expr.Ops ℝ) (o : Ocp) (a : Added) (M : Mesh) (X : Nat → ℝ → Sym → ℝ) :
    Prop where
  path : ∀ el < M.elements, ∀ t ∈ openTimes o M el,
    ConvexIn (o.model.x ++ o.model.y ++ o.model.u) (hamiltonianAt ops o a.lamb a.nu) (X el t)
  final : ConvexIn o.model.x
    (finalAt ops o a.eta (X (M.elements - 1) (nodeTime o M M.elements)))
    (X (M.elements - 1) (nodeTime o M M.elements))

end Verif.Spec
