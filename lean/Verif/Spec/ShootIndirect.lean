import Verif.Spec.TranscribeShooting
import Verif.Spec.TranscribeIndirect
/-!
# The conditions of Pontryagin in continuous time

What a solution of the program of an indirect method with multiple shooting is, in terms of the problem
the user wrote: trajectories of the states, the adjoints, the algebraic variables and their multipliers
in every element, with controls that minimise the Hamiltonian at every time.
-/
namespace Verif.Spec
open Set

/-- `ρ` gives the parameters, the initial values, the multipliers of the final constraints and the time
their values at the time `t` of element `el`. -/
structure ReadsKnown (o : Ocp) (a : Added) (M : Mesh) (b : Blocks ℝ) (x0 p : List ℝ)
    (theta : List (List ℝ)) (el : Nat) (t : ℝ) (ρ : Sym → ℝ) : Prop where
  time : ρ o.model.t = t
  position : ρ o.model.tau = t / stepLength o M - (el : ℝ)
  parameters : ∀ (i : Nat) (s : Sym), o.model.p[i]? = some s → s ∉ o.pOpt → ρ s = p.getD i 0
  optimised : ∀ (i : Nat) (s : Sym), o.pOpt[i]? = some s → ρ s = b.pOpt.getD i 0
  thetas : ∀ (i : Nat) (s : Sym), o.model.theta[i]? = some s → s ∉ o.thetaOpt →
    ρ s = (theta.getD el []).getD i 0
  optimisedThetas : ∀ (i : Nat) (s : Sym), o.thetaOpt[i]? = some s →
    ρ s = (b.thetaOpt.getD el []).getD i 0
  starts : ∀ (i : Nat) (s : Sym), (o.model.x0 ++ a.starts)[i]? = some s → ρ s = x0.getD i 0
  etas : ∀ (i : Nat) (s : Sym), a.eta[i]? = some s → ρ s = b.eta.getD i 0

/-- The time interval of an element. -/
def elementTimes (o : Ocp) (M : Mesh) (el : Nat) : Set ℝ :=
  Icc (nodeTime o M el) (nodeTime o M (el + 1))

/-- An extremal during element `el` that starts at the states and adjoints of the decision vector: the
dynamics and the algebraic equations of the user, the equations of the adjoints and of the multipliers,
and controls that minimise the Hamiltonian, at every time. -/
structure ExtremalPath (ops : Expr.Ops ℝ) (o : Ocp) (a : Added) (M : Mesh) (b : Blocks ℝ)
    (x0 p : List ℝ) (theta : List (List ℝ)) (el : Nat) (X : ℝ → Sym → ℝ) : Prop where
  known : ∀ t ∈ elementTimes o M el, ReadsKnown o a M b x0 p theta el t (X t)
  start : ∀ (i : Nat) (s : Sym), (o.model.x ++ a.lamb)[i]? = some s →
    X (nodeTime o M el) s = shotState b el i
  controls : ∀ t ∈ elementTimes o M el, MinimisesHamiltonian ops o a (X t)
  ode : ∀ t ∈ elementTimes o M el, ∀ (s : Sym) (e : Expr), o.model.ode.get? s = some (some e) →
    HasDerivWithinAt (fun r => X r s) (e.eval ops (X t)) (elementTimes o M el) t
  costate : ∀ t ∈ elementTimes o M el, ∀ (i : Nat) (s l : Sym), o.model.x[i]? = some s →
    a.lamb[i]? = some l → HasDerivWithinAt (fun r => X r l)
      (-deriv (fun v => hamiltonianAt ops o a.lamb a.nu (Function.update (X t) s v)) (X t s))
      (elementTimes o M el) t
  alg : ∀ t ∈ elementTimes o M el, ∀ e ∈ o.model.alg, e.eval ops (X t) = 0
  stationary : ∀ t ∈ elementTimes o M el, ∀ s ∈ o.model.y,
    deriv (fun v => hamiltonianAt ops o a.lamb a.nu (Function.update (X t) s v)) (X t s) = 0

/-- The pieces fit together to an extremal of the problem of the user, with its constraints and the
conditions at the end. -/
structure ShotExtremal (ops : Expr.Ops ℝ) (o : Ocp) (a : Added) (M : Mesh) (b : Blocks ℝ)
    (X : Nat → ℝ → Sym → ℝ) : Prop where
  initial : ∀ e ∈ o.hInitial, e.eval ops (X 0 0) = 0
  states : ∀ el < M.elements, ∀ (i : Nat) (s : Sym), (o.model.x ++ a.lamb)[i]? = some s →
    shotState b (el + 1) i = X el (nodeTime o M (el + 1)) s
  algebraics : ∀ el < M.elements, ∀ (i : Nat) (s : Sym), (o.model.y ++ a.nu)[i]? = some s →
    shotAlgebraic b el i = X el (nodeTime o M (el + 1)) s
  inequalities : ∀ el < M.elements, ∀ e ∈ o.gIneq, e.eval ops (X el (nodeTime o M (el + 1))) ≤ 0
  equalities : ∀ el < M.elements, ∀ e ∈ o.gEq, e.eval ops (X el (nodeTime o M (el + 1))) = 0
  final : ∀ e ∈ o.hFinal, e.eval ops (X (M.elements - 1) (nodeTime o M M.elements)) = 0
  transversality : ∀ (i : Nat) (s l : Sym), o.model.x[i]? = some s → a.lamb[i]? = some l →
    X (M.elements - 1) (nodeTime o M M.elements) l =
      deriv (fun v => finalAt ops o a.eta (X (M.elements - 1) (nodeTime o M M.elements))
        (Function.update (X (M.elements - 1) (nodeTime o M M.elements)) s v))
        (X (M.elements - 1) (nodeTime o M M.elements) s)
  timeless : ∀ e ∈ o.h, e.eval ops (X (M.elements - 1) (nodeTime o M M.elements)) = 0

/-- Multiple shooting knows path constraints at the ends of elements. -/
def PathAtEnds (o : Ocp) : Prop := ∀ tag ∈ o.timeGIneq ++ o.timeGEq, tag = "end" ∨ tag = "default"

/-- The derivatives the table knows are those of the functions of the problem along the trajectories. -/
structure DerivativesAlong (ops : Expr.Ops ℝ) (D : Expr.DiffTable) (o : Ocp) (M : Mesh)
    (X : Nat → ℝ → Sym → ℝ) : Prop where
  path : ∀ el < M.elements, ∀ t ∈ elementTimes o M el,
    ∀ e ∈ o.L :: (o.model.odeVec ++ o.model.alg), e.SmoothAt ops D (X el t)
  final : ∀ e ∈ o.V :: o.hFinal,
    e.SmoothAt ops D (X (M.elements - 1) (nodeTime o M M.elements))

/-- The times in element `el` at which the controls are reported. -/
noncomputable def reportTimes (o : Ocp) (M : Mesh) (el : Nat) : List ℝ :=
  M.roots.map fun r : Rat => nodeTime o M el + stepLength o M * (r : ℝ)

end Verif.Spec
