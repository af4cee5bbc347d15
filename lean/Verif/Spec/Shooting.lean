import Verif.Model.Shooting
import Verif.Spec.Collocation
/-!
# What a multiple-shooting solution is
-/
namespace Verif
namespace Spec

variable {K : Type} [Field K] [LinearOrder K]

/-- Everything at the end of an element, after simulating from the element's state; times count from
the start of the horizon. -/
def shotEnd (m : ShootingMethod K) (b : Blocks K) (p : List K) (theta : List (List K)) (el : Nat) :
    Point K :=
  let u := (b.u.getD el []).flatten
  let t := elementLength m.toTranscription * ((el : K) + 1)
  let r := m.simulate el (elementLength m.toTranscription * (el : K)) t
    ((b.x.getD el []).getD 0 []) p (theta.getD el []) u
  ⟨t, r.1, r.2, p, theta.getD el [], u⟩

/-- The state the next element starts with: with the cost as a sum, its last entry starts at 0
again. -/
def nextState (m : ShootingMethod K) (x : List K) : List K :=
  if m.costAsSum then x.dropLast ++ [0] else x

/-- What multiple shooting can handle: positive horizon, some element and state, an integrator that
returns full states and algebraics, and path constraints not at the start of elements. -/
structure Shootable (m : ShootingMethod K) : Prop where
  horizon : m.t0 < m.tf
  elements : 0 < m.dims.elements
  states : 0 < m.dims.nX
  simulated : ∀ el < m.dims.elements, ∀ t t' x p theta u, (m.simulate el t t' x p theta u).1.length = m.dims.nX ∧
    (m.simulate el t t' x p theta u).2.length = m.dims.nY
  tags : ∀ g ∈ m.gIneq ++ m.gEq, g.time = "end" ∨ g.time = "default"

/-- The discretised optimal control problem: what a solver must satisfy. -/
structure Shoots (m : ShootingMethod K) (b : Blocks K) (x0 p : List K) (theta : List (List K))
    (lastU : Option (List K)) : Prop where
  initial : ∀ v ∈ m.hInitial ((b.x.getD 0 []).getD 0 []) x0, v = 0
  states : ∀ el < m.dims.elements,
    (b.x.getD (el + 1) []).getD 0 [] = nextState m (shotEnd m b p theta el).x
  algebraics : ∀ el < m.dims.elements, (b.y.getD el []).getD 0 [] = (shotEnd m b p theta el).y
  rates : RatesHold m.toTranscription b lastU
  inequalities : ∀ el < m.dims.elements, ∀ g ∈ m.gIneq,
    ∀ v ∈ g.value el (shotEnd m b p theta el), v ≤ 0
  equalities : ∀ el < m.dims.elements, ∀ g ∈ m.gEq,
    ∀ v ∈ g.value el (shotEnd m b p theta el), v = 0
  final : ∀ v ∈ m.hFinal ((b.x.getD m.dims.elements []).getD 0 []) b.eta p, v = 0
  independent : ∀ v ∈ m.h p, v = 0

/-- The cost: the final cost, or the sum of the cost states at the ends of the elements, and the
cost at the end of each element. -/
def shootingCost (m : ShootingMethod K) (b : Blocks K) (p : List K) (theta : List (List K)) : K :=
  (if m.costAsSum then
    ((List.range m.dims.elements).map fun el => (shotEnd m b p theta el).x.getLastD 0).sum
  else m.vCost ((b.x.getD m.dims.elements []).getD 0 []) p) +
    ((List.range m.dims.elements).map fun el => m.sCost el (shotEnd m b p theta el)).sum

end Spec
end Verif
