import Verif.Spec.Collocation
/-!
# Exact solutions that are polynomials in every element

Solutions of the problem itself, before it is discretised. Positions in an element run from 0 to 1.
-/
namespace Verif
namespace Spec

open Polynomial

variable {K : Type} [Field K] [LinearOrder K]

/-- States and algebraic variables as polynomials, for every element and entry, with the controls and the
other decision values. -/
structure PolySolution (K : Type) [Field K] where
  x : Nat → Nat → K[X]
  y : Nat → Nat → K[X]
  u : List (List (List K))
  eta : List K
  pOpt : List K
  thetaOpt : List (List K)

/-- Everything at the position `tau` of an element, at the actual time. -/
noncomputable def exactPoint (m : Transcription K) (z : PolySolution K) (p : List K)
    (theta : List (List K)) (el : Nat) (tau : K) : Point K where
  t := m.t0 + elementLength m * ((el : K) + tau)
  x := (List.range m.dims.nX).map fun s => (z.x el s).eval tau
  y := (List.range m.dims.nY).map fun s => (z.y el s).eval tau
  p := p
  theta := theta.getD el []
  uPar := (z.u.getD el []).flatten

/-- The values at the collocation points, as decision values of the discretised problem. -/
noncomputable def sampled (m : Transcription K) (z : PolySolution K) : Blocks K where
  x := (List.range m.dims.elements).map fun el => (0 :: m.roots).map fun tau =>
    (List.range m.dims.nX).map fun s => (z.x el s).eval tau
  y := (List.range m.dims.elements).map fun el => m.roots.map fun tau =>
    (List.range m.dims.nY).map fun s => (z.y el s).eval tau
  u := z.u
  eta := z.eta
  pOpt := z.pOpt
  thetaOpt := z.thetaOpt

/-- The degrees a collocation of degree `d` can represent, and the sizes of the other decision values. -/
structure Representable (m : Transcription K) (z : PolySolution K) : Prop where
  x : ∀ el s, (z.x el s).natDegree ≤ m.dims.degree
  y : ∀ el s, (z.y el s).natDegree < m.dims.degree
  u : Grid m.dims.elements (controlPoints m.dims) m.dims.nU z.u
  eta : z.eta.length = m.dims.nEta
  pOpt : z.pOpt.length = m.dims.nPOpt
  thetaOpt : Columns m.dims.elements m.dims.nThetaOpt z.thetaOpt

/-- Where a path constraint holds in an element of an exact solution: everywhere, at its start or at its
end. -/
def PathHoldsAt (tag : String) (tau : K) : Prop :=
  (tag = "start" ∧ tau = 0) ∨ (tag = "end" ∧ tau = 1) ∨ (tag = "default" ∧ 0 ≤ tau ∧ tau ≤ 1)

/-- The times the code passes do not matter: the horizon starts at zero, or nothing depends on the
time. -/
def ClockIrrelevant (m : Transcription K) : Prop :=
  m.t0 = 0 ∨ ∀ el pt t, m.ode el { pt with t := t } = m.ode el pt ∧
    m.alg el { pt with t := t } = m.alg el pt ∧ m.sCost el { pt with t := t } = m.sCost el pt ∧
    ∀ g ∈ m.gIneq ++ m.gEq, g.value el { pt with t := t } = g.value el pt

/-- The trajectory solves the problem itself: the differential and algebraic equations and the path
constraints hold everywhere, not only at the collocation points. -/
structure SolvesExactly (m : Transcription K) (z : PolySolution K) (x0 p : List K)
    (theta : List (List K)) (lastU : Option (List K)) : Prop where
  initial : ∀ v ∈ m.hInitial (exactPoint m z p theta 0 0).x x0, v = 0
  continuous : ∀ el, el + 1 < m.dims.elements → ∀ s < m.dims.nX,
    (z.x el s).eval 1 = (z.x (el + 1) s).eval 0
  dynamics : ∀ el < m.dims.elements, ∀ tau, 0 ≤ tau → tau ≤ 1 → ∀ s < m.dims.nX,
    (z.x el s).derivative.eval tau =
      elementLength m * (m.ode el (exactPoint m z p theta el tau)).getD s 0
  algebraic : ∀ el < m.dims.elements, ∀ tau, 0 ≤ tau → tau ≤ 1 →
    ∀ v ∈ m.alg el (exactPoint m z p theta el tau), v = 0
  rates : RatesHold m (sampled m z) lastU
  inequalities : ∀ el < m.dims.elements, ∀ g ∈ m.gIneq, ∀ tau, PathHoldsAt g.time tau →
    ∀ v ∈ g.value el (exactPoint m z p theta el tau), v ≤ 0
  equalities : ∀ el < m.dims.elements, ∀ g ∈ m.gEq, ∀ tau, PathHoldsAt g.time tau →
    ∀ v ∈ g.value el (exactPoint m z p theta el tau), v = 0
  final : ∀ v ∈ m.hFinal (exactPoint m z p theta (m.dims.elements - 1) 1).x z.eta p, v = 0
  independent : ∀ v ∈ m.h p, v = 0

/-- The cost of an exact solution. -/
noncomputable def exactCost (m : Transcription K) (z : PolySolution K) (p : List K)
    (theta : List (List K)) : K :=
  m.vCost (exactPoint m z p theta (m.dims.elements - 1) 1).x p +
    ((List.range m.dims.elements).map fun el => m.sCost el (exactPoint m z p theta el 1)).sum

/-- The points are Radau points: the polynomial with these roots is orthogonal on [0, 1] to all
polynomials of degree below their number minus one. Integrals are differences of antiderivatives. -/
def RadauPoints (roots : List K) : Prop :=
  ∀ r P : K[X], r.natDegree + 1 < roots.length →
    derivative P = (roots.map fun a => X - C a).prod * r → P.eval 1 = P.eval 0

end Spec
end Verif
