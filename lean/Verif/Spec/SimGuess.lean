import Verif.Model.SimGuess
import Verif.Spec.Shooting
/-!
# What an initial guess by simulation should be
-/
namespace Verif
namespace Spec

variable {K : Type} [Field K] [LinearOrder K]

/-- The control a guess is simulated with: the one given, the problem's guess, its last control, or
zeros; the first there is. -/
def guessControl (n : Nat) (u uGuess lastU : Option (List K)) : List K :=
  ((u.or uGuess).or lastU).getD (List.replicate n 0)

/-- The control parameters of an element with a constant control. -/
def constantControl (d : Dims) (u : List K) : List (List K) := List.replicate (controlPoints d) u

/-- Simulations from full states return full states and algebraics. -/
def Simulates (d : Dims) (step : Step K) : Prop :=
  ∀ el t t' x q, x.length = d.nX →
    ∃ r, step el t t' x q = .ok r ∧ r.1.length = d.nX ∧ r.2.length = d.nY

/-- The parts of the guess that are not simulated: constant controls, zeros for `eta`, the given
values of the optimised parameters. -/
structure GuessedRest (d : Dims) (g : Layout.GuessInfo K) (p : List K) (theta : Dict Nat (List K))
    (u : List K) (b : Blocks K) : Prop where
  controls : b.u = List.replicate d.elements (constantControl d u)
  eta : b.eta = List.replicate d.nEta 0
  pOpt : b.pOpt = g.pOptIndices.map fun i => p.getD i 0
  thetaOpt : b.thetaOpt = (List.range d.elements).map fun el =>
    g.thetaOptIndices.map fun i => ((theta.get? el).getD []).getD i 0

/-- A trajectory through the collocation points: it starts at `x0`, every point is simulated from the
one before it, and every element starts where the one before it ended. -/
structure SimulatedPoints (m : Transcription K) (step : Step K) (x0 p : List K)
    (theta : Dict Nat (List K)) (u : List K) (b : Blocks K) : Prop where
  initial : (b.x.getD 0 []).getD 0 [] = x0
  steps : ∀ el < m.dims.elements, ∀ j < m.dims.degree,
    step el (elementLength m * ((el : K) + (0 :: m.roots).getD j 0))
      (elementLength m * ((el : K) + (0 :: m.roots).getD (j + 1) 0))
      ((b.x.getD el []).getD j [])
      (p ++ (theta.get? el).getD [] ++ (constantControl m.dims u).flatten) =
      .ok ((b.x.getD el []).getD (j + 1) [], (b.y.getD el []).getD j [])
  joined : ∀ el, el + 1 < m.dims.elements →
    (b.x.getD (el + 1) []).getD 0 [] = (b.x.getD el []).getD m.dims.degree []

/-- A trajectory through the element boundaries: it starts at `x0`, and every boundary is simulated
from the one before it. -/
structure SimulatedBoundaries (m : Transcription K) (step : Step K) (x0 p : List K)
    (theta : Dict Nat (List K)) (u : List K) (b : Blocks K) : Prop where
  initial : (b.x.getD 0 []).getD 0 [] = x0
  steps : ∀ el < m.dims.elements,
    step el (elementLength m * (el : K)) (elementLength m * ((el : K) + 1))
      ((b.x.getD el []).getD 0 [])
      (p ++ (theta.get? el).getD [] ++ (constantControl m.dims u).flatten) =
      .ok ((b.x.getD (el + 1) []).getD 0 [], (b.y.getD el []).getD 0 [])

end Spec
end Verif
