import Verif.Spec.DirectScheme
import Verif.Spec.MpcDirect
import Verif.Model.Plant
/-!
# A controller and its plant

What a controller with a perfect model should achieve: the plant goes where the controller predicted, there
is always a solution, and the optimal costs do not grow.
-/
namespace Verif.Spec

section
variable {K : Type} [Field K]

/-- The values of the symbols at the points of one element. -/
abbrev ElementValues (K : Type) (M : Mesh) := Fin M.roots.length → Sym → K

/-- The part of a trajectory in an element. -/
def elementOf (M : Mesh) (tr : GridValues K M.size) (el : Fin M.elements) : ElementValues K M :=
  fun j => tr (M.point el j)

namespace Mesh

/-- The first element. -/
def firstElement (M : Mesh) (h : GoodMesh M) : Fin M.elements := ⟨0, h.elements⟩

/-- The last element. -/
def lastElement (M : Mesh) (h : GoodMesh M) : Fin M.elements :=
  ⟨M.elements - 1, Nat.sub_lt h.elements Nat.zero_lt_one⟩

end Mesh

/-- The model in one element of the given length, by collocation from given states. -/
structure ElementSolution (ops : Expr.Ops K) (m : SysModel) (M : Mesh) (step : K) (start : Sym → K)
    (q : ElementValues K M) : Prop where
  alg : ∀ j, ∀ e ∈ m.alg, e.eval ops (q j) = 0
  dynamics : ∀ r ∈ m.ode, ∀ e, r.2 = some e → ∃ P : Polynomial K,
    P.natDegree ≤ M.roots.length ∧ P.eval 0 = start r.1 ∧
    ∀ j, P.eval (M.root j) = q j r.1 ∧ P.derivative.eval (M.root j) = step * e.eval ops (q j)

/-- A path constraint with this tag is imposed at this point of an element. -/
def ImposedIn (K : Type) [Field K] (M : Mesh) (tag : String) (j : Fin M.roots.length) : Prop :=
  ∃ taus : List K, pathPositions (inField M.roots) tag = some taus ∧ M.root j ∈ taus

/-- The conditions of the problem at the end of the horizon. -/
def FinalHolds (ops : Expr.Ops K) (o : Ocp) (val : Sym → K) : Prop :=
  ∀ e ∈ o.h ++ o.hFinal, e.eval ops val = 0

/-- The cost of one element: the integral of the running cost, and the stage cost at its end. -/
noncomputable def elementCost (ops : Expr.Ops K) (o : Ocp) (M : Mesh) (h : GoodMesh M) (step : K)
    (q : ElementValues K M) : K :=
  step * ∑ j, quadratureWeight M j * o.L.eval ops (q j) + o.S.eval ops (q (M.lastRoot h))

/-- The states at the end of the first element. -/
def endOfFirst (o : Ocp) (M : Mesh) (h : GoodMesh M) (tr : GridValues K M.size) : List K :=
  o.model.x.map (tr (M.point (M.firstElement h) (M.lastRoot h)))

/-- The trajectory without its first element, followed by one more element. -/
def continued (M : Mesh) (tr : GridValues K M.size) (q : ElementValues K M) : GridValues K M.size := fun k =>
  if h : k.divNat.val + 1 < M.elements then tr (M.point ⟨k.divNat.val + 1, h⟩ k.modNat) else q k.modNat

/-- Nothing depends on the time: no expression along the path has the symbol of the time, and what is given
besides the time is the same in all elements. The initial condition is the default one, the states are the
given initial values. -/
structure Autonomous (ops : Expr.Ops K) (o : Ocp) (M : Mesh) (par : List Sym) (val : GridValues K M.size) :
    Prop where
  timeless : ∀ e ∈ alongPath o, o.model.t ∉ e.syms
  steady : ∀ s ∈ par, s ≠ o.model.t → ∀ el el' j, val (M.point el j) s = val (M.point el' j) s
  initial : ∀ ρ : Sym → K, (∀ (i : Nat) (s s' : Sym), o.model.x[i]? = some s → o.model.x0[i]? = some s' →
    ρ s = ρ s') → ∀ e ∈ o.hInitial, e.eval ops ρ = 0

variable [LinearOrder K]

/-- The values in an element are a solution of the model that the problem allows along the path. -/
structure ElementAllowed (ops : Expr.Ops K) (o : Ocp) (M : Mesh) (step : K) (start : Sym → K)
    (q : ElementValues K M) : Prop extends ElementSolution ops o.model M step start q where
  x : ∀ j, AllWithin o.xMin o.xMax o.model.x (q j)
  y : ∀ j, AllWithin o.yMin o.yMax o.model.y (q j)
  u : ∀ j, AllWithin o.uMin o.uMax o.model.u (q j)
  control : ∀ v ∈ o.model.u, ∃ P : Polynomial K, P.natDegree < M.controlRoots.length ∧
    ∀ j, P.eval (M.root j) = q j v
  eq : ∀ r ∈ o.gEq.zip o.timeGEq, ∀ j, ImposedIn K M r.2 j → r.1.eval ops (q j) = 0
  ineq : ∀ r ∈ o.gIneq.zip o.timeGIneq, ∀ j, ImposedIn K M r.2 j → r.1.eval ops (q j) ≤ 0

/-- The trajectory is allowed by the problem from the given states. -/
def AllowedFrom (ops : Expr.Ops K) (o : Ocp) (M : Mesh) (h : GoodMesh M) (par : List Sym)
    (val : GridValues K M.size) (x0 : List K) (tr : GridValues K M.size) : Prop :=
  ∃ start, StartsAt o x0 start ∧
    SatisfiesAll ops (directScheme ops M h (stepLength o M) start) o (withValues par val tr)

/-- The trajectory is a solution of the problem from the given states. -/
def SolvesFrom (ops : Expr.Ops K) (o : Ocp) (M : Mesh) (h : GoodMesh M) (par : List Sym)
    (val : GridValues K M.size) (x0 : List K) (tr : GridValues K M.size) : Prop :=
  ∃ start, StartsAt o x0 start ∧
    SolutionFor ops (directScheme ops M h (stepLength o M) start) o par val tr

/-- The cost of a trajectory of the problem. -/
noncomputable def horizonCost (ops : Expr.Ops K) (o : Ocp) (M : Mesh) (h : GoodMesh M) (par : List Sym)
    (val : GridValues K M.size) (tr : GridValues K M.size) : K :=
  costOf ops (directScheme ops M h (stepLength o M) fun _ => 0) o (withValues par val tr)

/-- The cost of the first element of a trajectory of the problem. -/
noncomputable def firstCost (ops : Expr.Ops K) (o : Ocp) (M : Mesh) (h : GoodMesh M) (par : List Sym)
    (val : GridValues K M.size) (tr : GridValues K M.size) : K :=
  elementCost ops o M h (stepLength o M) (elementOf M (withValues par val tr) (M.firstElement h))

/-- From every allowed end of the horizon one can go on for one more element, within all constraints, to
another allowed end, and the final cost pays for the element. -/
def CanGoOn (ops : Expr.Ops K) (o : Ocp) (M : Mesh) (h : GoodMesh M) (par : List Sym)
    (val : GridValues K M.size) : Prop :=
  ∀ a : Sym → K, (∀ s ∈ par, a s = val (M.lastPoint h) s) → AllWithin o.xMin o.xMax o.model.x a →
    FinalHolds ops o a → ∃ q : ElementValues K M,
      (∀ j, ∀ s ∈ par, q j s = val (M.point (M.lastElement h) j) s) ∧
      ElementAllowed ops o M (stepLength o M) a q ∧ FinalHolds ops o (q (M.lastRoot h)) ∧
      elementCost ops o M h (stepLength o M) q + o.V.eval ops (q (M.lastRoot h)) ≤ o.V.eval ops a

/-- Where the problem allows a trajectory, it has a solution. -/
def Attained (ops : Expr.Ops K) (o : Ocp) (M : Mesh) (h : GoodMesh M) (par : List Sym)
    (val : GridValues K M.size) : Prop :=
  ∀ x, (∃ tr, AllowedFrom ops o M h par val x tr) → ∃ tr, SolvesFrom ops o M h par val x tr

/-- The plant goes from one state to another as predicted: if the problem has a solution from the first
state, then the second state is the end of the first element of a solution. -/
def AsPredicted (ops : Expr.Ops K) (o : Ocp) (M : Mesh) (h : GoodMesh M) (par : List Sym)
    (val : GridValues K M.size) (x x' : List K) : Prop :=
  (∃ tr, SolvesFrom ops o M h par val x tr) →
    ∃ tr, SolvesFrom ops o M h par val x tr ∧ x' = endOfFirst o M h tr

/-- A closed loop: in each cycle a solution of the problem from the current state, and the next state is the
end of its first element. -/
inductive ClosedLoop (ops : Expr.Ops K) (o : Ocp) (M : Mesh) (h : GoodMesh M) (par : List Sym)
    (val : GridValues K M.size) : List K → List (GridValues K M.size) → List K → Prop
  | stop (x : List K) : ClosedLoop ops o M h par val x [] x
  | next {x x' : List K} {tr : GridValues K M.size} {trs : List (GridValues K M.size)} :
      SolvesFrom ops o M h par val x tr → ClosedLoop ops o M h par val (endOfFirst o M h tr) trs x' →
      ClosedLoop ops o M h par val x (tr :: trs) x'

end

/-- The plant is the model of the problem: it is simulated by the same collocation over one element. -/
def CollocatedPlant (ops : Expr.Ops Rat) (o : Ocp) (M : Mesh) (h : GoodMesh M) (par : List Sym)
    (val : GridValues Rat M.size) (env : Plant.Env) : Prop :=
  ∀ (x : List Rat) (t : Rat) (u : List Rat) r, env.simulate x t (t + env.tS) u = .ok r →
    ∀ (start : Sym → Rat) (q : ElementValues Rat M),
      (∀ (i : Nat) (s : Sym), o.model.x[i]? = some s → start s = x.getD i 0) →
      (∀ j, ∀ s ∈ par, q j s = val (M.point (M.firstElement h) j) s) →
      (∀ j (i : Nat) (s : Sym), o.model.u[i]? = some s → q j s = u.getD i 0) →
      ElementSolution ops o.model M env.tS start q → r.1 = o.model.x.map (q (M.lastRoot h))

/-- A plant with the usual settings: one sample per interval, states and algebraic variables are measured,
no noise, and the sampling interval is an element of the controller. -/
structure PlainPlant (o : Ocp) (M : Mesh) (env : Plant.Env) : Prop where
  points : env.points = [1]
  matrix : env.cRows = Plant.eyeRows env.cCols
  noise : env.hasNoise = false
  states : env.nX = o.model.x.length
  controls : env.nU = o.model.u.length
  interval : env.tS = stepLength o M
  sizes : ∀ x t t' u r, env.simulate x t t' u = .ok r → r.1.length = env.nX

end Verif.Spec
