import Verif.Model.Collocation
import Verif.Spec.Layout
import Mathlib.LinearAlgebra.Lagrange
import Mathlib.Algebra.Polynomial.Derivative
/-!
# What a collocation solution is

In every element the states are the polynomials through the values at `0` and at the collocation
points, the algebraic variables the polynomials through the values at the collocation points.
-/
namespace Verif

/-- All entries are within the bounds. -/
def Con.Holds {K : Type} [LE K] (c : Con K) : Prop :=
  ∀ v ∈ c.value, c.lb ≤ ((v : K) : WithTop K) ∧ (((v : K) : WithTop K) : WithBot (WithTop K)) ≤ c.ub

namespace Spec

variable {K : Type} [Field K] [LinearOrder K]

/-- The polynomial that takes at the nodes the `s`-th entries of the columns. -/
noncomputable def through (nodes : List K) (columns : List (List K)) (s : Nat) : Polynomial K :=
  Lagrange.interpolate Finset.univ nodes.get fun j => (columns.getD j []).getD s 0

/-- The length of an element. -/
def elementLength (m : Transcription K) : K := (m.tf - m.t0) / (m.dims.elements : K)

/-- Everything at the position `tau` (from 0 to 1) of an element; times count from the start of the
horizon. -/
noncomputable def pointAt (m : Transcription K) (b : Blocks K) (p : List K)
    (theta : List (List K)) (el : Nat) (tau : K) : Point K where
  t := elementLength m * ((el : K) + tau)
  x := (List.range m.dims.nX).map fun s => (through (0 :: m.roots) (b.x.getD el []) s).eval tau
  y := (List.range m.dims.nY).map fun s => (through m.roots (b.y.getD el []) s).eval tau
  p := p
  theta := theta.getD el []
  uPar := (b.u.getD el []).flatten

/-- Where in each element a path constraint holds: at its start, at its end or at the collocation
points. -/
def pathPositions (roots : List K) (tag : String) : Option (List K) :=
  if tag = "start" then some [0] else if tag = "end" then some [1]
  else if tag = "default" then some roots else none

/-- What the values in the blocks of the states are: one column per point. -/
structure CollocationData (d : Dims) (b : Blocks K) : Prop extends SharedShape d b where
  x : Grid d.elements (d.degree + 1) d.nX b.x
  y : Grid d.elements d.degree d.nY b.y

/-- A problem and a grid collocation can handle: positive horizon, degree two at least, collocation
points increasing up to 1, some state and one right-hand side per state. -/
structure CollocationGrid (m : Transcription K) : Prop where
  horizon : m.t0 < m.tf
  elements : 0 < m.dims.elements
  degree : 1 < m.dims.degree
  points : m.roots.length = m.dims.degree
  increasing : (0 :: m.roots).Pairwise (· < ·)
  last : m.roots.getLast? = some 1
  states : 0 < m.dims.nX
  ode : ∀ el < m.dims.elements, ∀ pt, (m.ode el pt).length = m.dims.nX

/-- The same, with known time tags. -/
structure Collocatable (m : Transcription K) : Prop extends CollocationGrid m where
  tags : ∀ g ∈ m.gIneq ++ m.gEq, (pathPositions m.roots g.time).isSome = true

/-- The limits on the changes of the controls: a lower and an upper limit per control, not crossed,
one control value per element at least, and a full last control if there is one. -/
structure RatesFit (m : Transcription K) (lastU : Option (List K)) : Prop where
  min : m.duMin.length = m.dims.nU
  max : m.duMax.length = m.dims.nU
  uncrossed : ∀ (i : Nat) (lo hi : WithBot (WithTop K)), m.duMin[i]? = some lo → m.duMax[i]? = some hi →
    lo ≤ hi
  controls : 0 < controlPoints m.dims
  last : ∀ u, lastU = some u → u.length = m.dims.nU

/-- The control before element `el`: the last control before the first, the first control of the
element before otherwise. -/
def controlBefore (b : Blocks K) (lastU : Option (List K)) : Nat → Option (List K)
  | 0 => lastU
  | el + 1 => (b.u.getD el []).head?

/-- The changes of the controls from element to element stay within the limits. -/
def RatesHold (m : Transcription K) (b : Blocks K) (lastU : Option (List K)) : Prop :=
  ∀ el < m.dims.elements, ∀ before now, controlBefore b lastU el = some before →
    (b.u.getD el []).head? = some now → ∀ (i : Nat) (a c : K) (lo hi : WithBot (WithTop K)),
      now[i]? = some a → before[i]? = some c → m.duMin[i]? = some lo → m.duMax[i]? = some hi →
      lo ≤ ((a - c : K) : WithTop K) ∧ (((a - c : K) : WithTop K) : WithBot (WithTop K)) ≤ hi

/-- The discretised optimal control problem: what a solver must satisfy. -/
structure Collocates (m : Transcription K) (b : Blocks K) (x0 p : List K)
    (theta : List (List K)) (lastU : Option (List K)) : Prop where
  initial : ∀ v ∈ m.hInitial ((b.x.getD 0 []).getD 0 []) x0, v = 0
  continuous : ∀ el, el + 1 < m.dims.elements →
    (b.x.getD el []).getLast? = (b.x.getD (el + 1) []).head?
  dynamics : ∀ el < m.dims.elements, ∀ tau ∈ m.roots, ∀ s < m.dims.nX,
    (through (0 :: m.roots) (b.x.getD el []) s).derivative.eval tau =
      elementLength m * (m.ode el (pointAt m b p theta el tau)).getD s 0
  algebraic : ∀ el < m.dims.elements, ∀ tau ∈ m.roots, ∀ v ∈ m.alg el (pointAt m b p theta el tau),
    v = 0
  rates : RatesHold m b lastU
  inequalities : ∀ el < m.dims.elements, ∀ g ∈ m.gIneq, ∀ taus, pathPositions m.roots g.time = some taus →
    ∀ tau ∈ taus, ∀ v ∈ g.value el (pointAt m b p theta el tau), v ≤ 0
  equalities : ∀ el < m.dims.elements, ∀ g ∈ m.gEq, ∀ taus, pathPositions m.roots g.time = some taus →
    ∀ tau ∈ taus, ∀ v ∈ g.value el (pointAt m b p theta el tau), v = 0
  final : ∀ v ∈ m.hFinal (pointAt m b p theta (m.dims.elements - 1) 1).x b.eta p, v = 0
  independent : ∀ v ∈ m.h p, v = 0

/-- The cost of the discretised problem: the final cost, and the cost at the end of each element. -/
noncomputable def collocationCost (m : Transcription K) (b : Blocks K) (p : List K)
    (theta : List (List K)) : K :=
  m.vCost (pointAt m b p theta (m.dims.elements - 1) 1).x p +
    ((List.range m.dims.elements).map fun el => m.sCost el (pointAt m b p theta el 1)).sum

/-- The number of scalar constraints. -/
def rows (cons : List (Con K)) : Nat := (cons.map fun c => c.value.length).sum

/-- The controls whose change is limited. -/
def limitedControls (m : Transcription K) : Nat :=
  ((List.range m.dims.nU).filter fun i =>
    !(decide (m.duMax[i]? = some ⊤) && decide (m.duMin[i]? = some ⊥))).length

/-- The number of path constraints of an element: the size of each times its points. -/
def pathRows (m : Transcription K) (size : PathCon K → Nat) : Nat :=
  ((m.gIneq ++ m.gEq).map fun g => size g * ((pathPositions m.roots g.time).getD []).length).sum

/-- The sizes of the functions of the problem. -/
structure FunctionSizes (m : Transcription K) (size : PathCon K → Nat)
    (nInitial nFinal nTimeless : Nat) : Prop where
  alg : ∀ el pt, (m.alg el pt).length = m.dims.nY
  path : ∀ g ∈ m.gIneq ++ m.gEq, ∀ el pt, (g.value el pt).length = size g
  initial : ∀ x x0, (m.hInitial x x0).length = nInitial
  final : ∀ x eta p, (m.hFinal x eta p).length = nFinal
  timeless : ∀ p, (m.h p).length = nTimeless

/-- The same problem without limits on the changes of the controls. -/
def withoutLimits (m : Transcription K) : Transcription K :=
  { m with
    duMin := List.replicate m.dims.nU ⊥
    duMax := List.replicate m.dims.nU ⊤ }

end Spec
end Verif
