import Verif.Spec.SolveAugLag
import Verif.Spec.NetProblem
import Mathlib.Logic.Equiv.Fin.Basic
/-!
# Collocation as a way to discretise problems

The trajectories of `Spec/RelaxOptimal.lean` are values at finitely many points. For a direct method these
are the collocation points of all elements.
-/
namespace Verif.Spec
open SolveDirect

namespace Mesh

/-- The number of collocation points. -/
abbrev size (M : Mesh) : Nat := M.elements * M.roots.length

/-- The `j`-th point of an element. -/
def point (M : Mesh) (el : Fin M.elements) (j : Fin M.roots.length) : Fin M.size := finProdFinEquiv (el, j)

/-- Its position in the element. -/
def root {K : Type} [Field K] (M : Mesh) (j : Fin M.roots.length) : K := ((M.roots.get j : Rat) : K)

/-- The last point of an element, at its end. -/
def lastRoot (M : Mesh) (h : GoodMesh M) : Fin M.roots.length :=
  ⟨M.roots.length - 1, Nat.sub_lt (Nat.lt_trans Nat.zero_lt_one h.points) Nat.zero_lt_one⟩

/-- The end of the horizon. -/
def lastPoint (M : Mesh) (h : GoodMesh M) : Fin M.size :=
  M.point ⟨M.elements - 1, Nat.sub_lt h.elements Nat.zero_lt_one⟩ (M.lastRoot h)

end Mesh

section
variable {K : Type} [Field K]

/-- The integral of a polynomial from 0 to 1. -/
noncomputable def unitIntegral (f : Polynomial K) : K :=
  ∑ i ∈ Finset.range (f.natDegree + 1), f.coeff i / ((i : K) + 1)

/-- The weight of a point in an element of length one: the integral of the polynomial that is one at this
point and zero at the others. -/
noncomputable def quadratureWeight (M : Mesh) (j : Fin M.roots.length) : K :=
  unitIntegral (Lagrange.basis Finset.univ (M.root (K := K)) j)

/-- The value of a state at the start of an element: the given one in the first element, and the value at
the end of the element before in the others. -/
def valueBefore (M : Mesh) (h : GoodMesh M) (start : Sym → K) (tr : GridValues K M.size) (s : Sym)
    (el : Fin M.elements) : K :=
  if el.val = 0 then start s
  else tr (M.point ⟨el.val - 1, Nat.lt_of_le_of_lt (Nat.sub_le _ _) el.isLt⟩ (M.lastRoot h)) s

/-- A path constraint with this tag is imposed at this point. -/
def ImposedAt (K : Type) [Field K] (M : Mesh) (tag : String) (k : Fin M.size) : Prop :=
  ∃ taus : List K, pathPositions (inField M.roots) tag = some taus ∧ M.root k.modNat ∈ taus

variable [LinearOrder K]

/-- Collocation with elements of the given length, from given states: a state is a polynomial in every
element, continuous from one element to the next, whose derivative is the right-hand side at the collocation
points. Controls are polynomials of the degree of the controls. The integral of the running cost is exact
for the polynomials through the collocation points. -/
noncomputable def directScheme (ops : Expr.Ops K) (M : Mesh) (h : GoodMesh M) (step : K) (start : Sym → K) :
    Scheme K M.size where
  weight k := step * quadratureWeight M k.modNat
  last := M.lastPoint h
  stages := (List.finRange M.elements).map fun el => M.point el (M.lastRoot h)
  holds := ImposedAt K M
  control w := ∀ el, ∃ P : Polynomial K, P.natDegree < M.controlRoots.length ∧
    ∀ j, P.eval (M.root j) = w (M.point el j)
  dynamics _ f tr := ∀ q ∈ f, ∀ e, q.2 = some e → ∀ el, ∃ P : Polynomial K,
    P.natDegree ≤ M.roots.length ∧ P.eval 0 = valueBefore M h start tr q.1 el ∧
    ∀ j, P.eval (M.root j) = tr (M.point el j) q.1 ∧
      P.derivative.eval (M.root j) = step * e.eval ops (tr (M.point el j))
  boundary timeless initial final _ tr :=
    (∀ e ∈ timeless ++ final, e.eval ops (tr (M.lastPoint h)) = 0) ∧ ∀ e ∈ initial, e.eval ops start = 0
  inequalities g tags tr := ∀ q ∈ g.zip tags, ∀ k, ImposedAt K M q.2 k → q.1.eval ops (tr k) ≤ 0

omit [LinearOrder K] in
/-- What is not optimised: the symbols `par` have the values `val` at the points. These are the time (from
the start of the horizon), the position in the element, and the parameters. -/
structure GivenAt (o : Ocp) (M : Mesh) (p : List K) (theta : List (List K)) (par : List Sym)
    (val : GridValues K M.size) : Prop where
  time : o.model.t ∈ par ∧
    ∀ el j, val (M.point el j) o.model.t = stepLength o M * ((el.val : K) + M.root j)
  position : o.model.tau ∈ par ∧ ∀ el j, val (M.point el j) o.model.tau = M.root j
  parameters : ∀ (i : Nat) (s : Sym), o.model.p[i]? = some s → s ∈ par ∧ ∀ k, val k s = p.getD i 0
  thetas : ∀ (i : Nat) (s : Sym), o.model.theta[i]? = some s → s ∈ par ∧
    ∀ el j, val (M.point el j) s = (theta.getD el.val []).getD i 0
  free : ∀ s ∈ o.model.x ++ o.model.y ++ o.model.u, s ∉ par

/-- The start of the horizon: the states and the symbols of the initial condition have the values `x0`, and
the states are within their bounds. -/
structure StartsAt (o : Ocp) (x0 : List K) (start : Sym → K) : Prop where
  states : ∀ (i : Nat) (s : Sym), o.model.x[i]? = some s → start s = x0.getD i 0
  symbols : ∀ (i : Nat) (s : Sym), o.model.x0[i]? = some s → start s = x0.getD i 0
  within : AllWithin o.xMin o.xMax o.model.x start

/-- Problems whose discretisation only has values at the collocation points to decide: no optimised
parameters, no limits on the changes of the controls, no objective declared positive, no path constraints at
the start of the elements, and the initial condition says that the states start at the given values. -/
structure PointProblem (ops : Expr.Ops K) (o : Ocp) : Prop where
  eta : o.eta = []
  pOpt : o.pOpt = []
  thetaOpt : o.thetaOpt = []
  rates : NoRateLimits o
  positive : o.positiveObjective = false
  tags : ∀ tag ∈ o.timeGIneq ++ o.timeGEq, tag ≠ "start"
  pinned : ∀ ρ : Sym → K, (∀ e ∈ o.hInitial, e.eval ops ρ = 0) → ∀ (i : Nat) (s s' : Sym),
    o.model.x[i]? = some s → o.model.x0[i]? = some s' → ρ s = ρ s'

omit [LinearOrder K] in
/-- The trajectory has the values of the polynomials at the collocation points. -/
structure SampledFrom (o : Ocp) (M : Mesh) (b : Blocks K) (tr : GridValues K M.size) : Prop where
  x : ∀ el j (i : Nat) (s : Sym), o.model.x[i]? = some s →
    tr (M.point el j) s = (statePoly M b el.val i).eval (M.root j)
  y : ∀ el j (i : Nat) (s : Sym), o.model.y[i]? = some s →
    tr (M.point el j) s = (algebraicPoly M b el.val i).eval (M.root j)
  u : ∀ el j (i : Nat) (s : Sym), o.model.u[i]? = some s →
    tr (M.point el j) s = (controlPoly M b el.val i).eval (M.root j)

omit [LinearOrder K] in
/-- The trajectory in the tables of a result. The first entry of an element is the start of the element for
the states; controls that are constant have one entry per element. -/
structure Reported (o : Ocp) (M : Mesh) (r : Report K) (tr : GridValues K M.size) : Prop where
  x : ∀ el j (i : Nat) (s : Sym), o.model.x[i]? = some s →
    tr (M.point el j) s = ((r.xValues.getD el.val []).getD (j.val + 1) []).getD i 0
  y : ∀ el j (i : Nat) (s : Sym), o.model.y[i]? = some s →
    tr (M.point el j) s = ((r.yValues.getD el.val []).getD j.val []).getD i 0
  u : ∀ el j (i : Nat) (s : Sym), o.model.u[i]? = some s → tr (M.point el j) s =
    ((r.uValues.getD el.val []).getD (if M.controlRoots.length = 1 then 0 else j.val) []).getD i 0

/-- A call of `solve` of a direct method: its options, the symbols CasADi creates, the arguments, the
initial guesses from simulations or the problem, the solver, and the data the arguments stand for. -/
structure DirectCall (K : Type) where
  opts : Options
  names : NewNames
  args : SolveArgs K
  simulated : List K → Theta K → Except Err (List K)
  fromProblem : List K → Theta K → Except Err (List K)
  solver : SolverCall K → Except Err (RawSolution K)
  x0 : List K
  p : List K
  theta : List (List K)

namespace DirectCall

/-- What the call returns for a new method for the problem. -/
def result (c : DirectCall K) (ops : Expr.Ops K) (o : Ocp) : Except Err (Result K) :=
  (solve ops c.opts c.names c.simulated c.fromProblem c.solver c.args ⟨{ problem := o }, none⟩).1

/-- The method can work with the problem, the arguments fit, the solver only reports success for solutions
of the nonlinear program, and the data are the given values. -/
structure Ready (c : DirectCall K) (ops : Expr.Ops K) (o : Ocp) (M : Mesh) (start : Sym → K)
    (par : List Sym) (val : GridValues K M.size) : Prop where
  mesh : Spec.mesh c.opts = M
  prepares : (Direct.prepare c.opts.controlRoots c.opts.controlRoots.length c.names.xc c.names.fresh
    c.names.base { problem := o }).1 = .ok ()
  posed : WellPosed K c.opts c.names o
  data : DataFits o M c.x0 c.p c.theta
  fits : ArgsFit o c.opts c.args c.simulated c.fromProblem c.x0 c.p c.theta
  solver : GoodSolver ops c.solver
  controls : ControlsMatch M
  problem : PointProblem ops o
  given : GivenAt o M c.p c.theta par val
  starts : StartsAt o c.x0 start

end DirectCall

end
end Verif.Spec
