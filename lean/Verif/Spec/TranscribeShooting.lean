import Verif.Model.TranscribeShooting
import Verif.Spec.Transcribe
import Mathlib.Analysis.Calculus.Deriv.Basic
import Mathlib.MeasureTheory.Integral.IntervalIntegral.Basic
import Mathlib.MeasureTheory.Measure.Lebesgue.Basic
/-!
# What multiple shooting solves, in terms of the problem the user wrote

In every element the trajectory solves the differential equations of the user, with polynomials as
controls.
-/
namespace Verif.Spec
open Set

/-- A trajectory of differential and algebraic equations between two times. -/
structure DaeTrajectory (ops : Expr.Ops ℝ) (d : Dae) (par : List ℝ) (a b : ℝ) (X : ℝ → Sym → ℝ) :
    Prop where
  time : ∀ t ∈ Icc a b, X t d.t = t
  parameters : ∀ t ∈ Icc a b, d.p.map (X t) = par
  ode : ∀ t ∈ Icc a b, ∀ (i : Nat) (s : Sym) (e : Expr), d.x[i]? = some s → d.ode[i]? = some e →
    HasDerivWithinAt (fun r => X r s) (e.eval ops (X t)) (Icc a b) t
  alg : ∀ t ∈ Icc a b, ∀ e ∈ d.alg, e.eval ops (X t) = 0

/-- The integrator is exact for these equations between these times: it returns the end of the
trajectory (so there is only one). It returns as many values as there are variables. -/
structure ExactShots (ops : Expr.Ops ℝ) (integ : DaeIntegrator ℝ) (d : Dae) (a b : ℝ) : Prop where
  sized : ∀ t t' x par, (integ d t t' x par).1.length = d.x.length ∧
    (integ d t t' x par).2.length = d.y.length
  exact : ∀ par X, DaeTrajectory ops d par a b X →
    integ d a b (d.x.map (X a)) par = (d.x.map (X b), d.y.map (X b))

/-- The start of element `el`; the end is the start of the next one. -/
noncomputable def nodeTime (o : Ocp) (M : Mesh) (el : Nat) : ℝ := stepLength o M * (el : ℝ)

/-- The state at the start of an element, in the decision vector. -/
def shotState {K : Type} [Zero K] (b : Blocks K) (el i : Nat) : K :=
  ((b.x.getD el []).getD 0 []).getD i 0

/-- The algebraics at the end of an element, in the decision vector. -/
def shotAlgebraic {K : Type} [Zero K] (b : Blocks K) (el i : Nat) : K :=
  ((b.y.getD el []).getD 0 []).getD i 0

/-- The values of the symbols of the user during element `el`: the trajectory that starts at the state of
the decision vector. -/
structure ElementPath (ops : Expr.Ops ℝ) (o : Ocp) (M : Mesh) (b : Blocks ℝ) (x0 p : List ℝ)
    (theta : List (List ℝ)) (el : Nat) (X : ℝ → Sym → ℝ) : Prop where
  reads : ∀ t ∈ Icc (nodeTime o M el) (nodeTime o M (el + 1)),
    ReadsData o M b x0 p theta el (t / stepLength o M - (el : ℝ)) (X t)
  start : ∀ (i : Nat) (s : Sym), o.model.x[i]? = some s → X (nodeTime o M el) s = shotState b el i
  ode : ∀ t ∈ Icc (nodeTime o M el) (nodeTime o M (el + 1)), ∀ (s : Sym) (e : Expr),
    o.model.ode.get? s = some (some e) →
    HasDerivWithinAt (fun r => X r s) (e.eval ops (X t)) (Icc (nodeTime o M el) (nodeTime o M (el + 1))) t
  alg : ∀ t ∈ Icc (nodeTime o M el) (nodeTime o M (el + 1)), ∀ e ∈ o.model.alg, e.eval ops (X t) = 0
  running : ContinuousOn (fun t => o.L.eval ops (X t)) (Icc (nodeTime o M el) (nodeTime o M (el + 1)))

/-- The integral of the running cost in an element. -/
noncomputable def runningCost (ops : Expr.Ops ℝ) (o : Ocp) (M : Mesh) (el : Nat) (X : ℝ → Sym → ℝ) : ℝ :=
  ∫ t in (nodeTime o M el)..(nodeTime o M (el + 1)), o.L.eval ops (X t)

/-- A solution of the problem of the user: trajectories in every element that fit together and meet its
conditions. `sum` says that the cost state starts at 0 in every element. -/
structure ShotSolution (ops : Expr.Ops ℝ) (o : Ocp) (M : Mesh) (b : Blocks ℝ)
    (lastU : Option (List ℝ)) (sum : Bool) (X : Nat → ℝ → Sym → ℝ) : Prop where
  initial : ∀ e ∈ o.hInitial, e.eval ops (X 0 0) = 0
  costStart : shotState b 0 o.model.x.length = 0
  states : ∀ el < M.elements, ∀ (i : Nat) (s : Sym), o.model.x[i]? = some s →
    shotState b (el + 1) i = X el (nodeTime o M (el + 1)) s
  running : ∀ el < M.elements, shotState b (el + 1) o.model.x.length =
    if sum then 0 else shotState b el o.model.x.length + runningCost ops o M el (X el)
  algebraics : ∀ el < M.elements, ∀ (i : Nat) (s : Sym), o.model.y[i]? = some s →
    shotAlgebraic b el i = X el (nodeTime o M (el + 1)) s
  inequalities : ∀ el < M.elements, ∀ e ∈ o.gIneq, e.eval ops (X el (nodeTime o M (el + 1))) ≤ 0
  equalities : ∀ el < M.elements, ∀ e ∈ o.gEq, e.eval ops (X el (nodeTime o M (el + 1))) = 0
  rates : ∀ el < M.elements, ∀ before now, controlBefore b lastU el = some before →
    (b.u.getD el []).head? = some now → ∀ (i : Nat) (a c : ℝ) (lo hi : XRat), now[i]? = some a →
    before[i]? = some c → o.duMin[i]? = some lo → o.duMax[i]? = some hi →
    (Ocp.boundValue lo : WithBot (WithTop ℝ)) ≤ ((a - c : ℝ) : WithTop ℝ) ∧
      (((a - c : ℝ) : WithTop ℝ) : WithBot (WithTop ℝ)) ≤ Ocp.boundValue hi
  final : ∀ e ∈ o.hFinal, e.eval ops (X (M.elements - 1) (nodeTime o M M.elements)) = 0
  timeless : ∀ e ∈ o.h, e.eval ops (X (M.elements - 1) (nodeTime o M M.elements)) = 0

/-- The running cost over the horizon and the cost at the end of each element. -/
noncomputable def pathCost (ops : Expr.Ops ℝ) (o : Ocp) (M : Mesh) (X : Nat → ℝ → Sym → ℝ) : ℝ :=
  ((List.range M.elements).map fun el => runningCost ops o M el (X el)).sum +
    ((List.range M.elements).map fun el => o.S.eval ops (X el (nodeTime o M (el + 1)))).sum

/-- The cost of the user: with the final cost. -/
noncomputable def userCost (ops : Expr.Ops ℝ) (o : Ocp) (M : Mesh) (X : Nat → ℝ → Sym → ℝ) : ℝ :=
  o.V.eval ops (X (M.elements - 1) (nodeTime o M M.elements)) + pathCost ops o M X

/-- Besides what a direct method needs: path constraints at the ends of elements, and algebraic variables
only together with equations. -/
structure ShotProblem (o : Ocp) : Prop extends DirectProblem o where
  ends : ∀ tag ∈ o.timeGIneq ++ o.timeGEq, tag = "end" ∨ tag = "default"
  unknowns : o.model.alg = [] → o.model.y = []

/-- The symbols the functions and the integrators of multiple shooting have as inputs. -/
structure ShotScope (o : Ocp) (sum : Bool) : Prop where
  path : ∀ e ∈ o.gIneq ++ o.gEq ++ [o.S], ∀ s ∈ e.syms, InScope o.model s
  dynamics : ∀ e ∈ o.model.odeVec ++ (if o.model.y = [] then [] else o.model.alg), ∀ s ∈ e.syms,
    s ∈ [o.model.t, o.model.tau] ++ o.model.x ++ (if o.model.alg = [] then [] else o.model.y) ++
      o.model.p ++ o.model.theta ++ o.model.uPar
  initial : ∀ e ∈ o.hInitial, ∀ s ∈ e.syms, s ∈ o.model.x ++ o.model.x0
  final : ∀ e ∈ o.hFinal, ∀ s ∈ e.syms, s ∈ o.model.x ++ o.eta ++ o.model.p
  timeless : ∀ e ∈ o.h, ∀ s ∈ e.syms, s ∈ o.model.p
  cost : sum = false → ∀ s ∈ o.V.syms, s ∈ o.model.x ++ o.model.p

end Verif.Spec
