import Verif.Model.Export
import Verif.Spec.Shooting
/-!
# What a result should report
-/
namespace Verif
namespace Spec

variable {K : Type} [Field K] [LinearOrder K]

/-- Times and values: in every element, at each of the positions `taus` (from 0 to 1), the value of
`f`. -/
structure Sampled (m : Transcription K) (taus : List K) (f : Nat → K → List K)
    (time : List (List K)) (values : List (List (List K))) : Prop where
  time : time = (List.range m.dims.elements).map fun el : Nat =>
    taus.map fun tau => elementLength m * ((el : K) + tau)
  values : values = (List.range m.dims.elements).map fun el : Nat => taus.map (f el)

/-- Where in an element controls are reported: at its start when they are constant, else at the
collocation points. -/
def controlPositions (d : Dims) (c : ControlLaw K) : List K :=
  if d.degreeControl = 1 then [0] else c.roots

/-- Controls that are parametrised by their values at the collocation points (or by one value per
element): the control is the polynomial through these values. -/
structure Parametrised (m : Transcription K) (c : ControlLaw K) : Prop where
  degree : 0 < m.dims.degreeControl
  points : m.dims.degreeControl ≠ 1 → c.roots.length = m.dims.degreeControl ∧ c.roots.Nodup
  law : ∀ el pt, polyApproxMethod c.roots m.dims.nU m.dims.degreeControl false
    (matOf m.dims.nU pt.uPar)
    ((pt.t - m.breakpoint el) / (m.breakpoint (el + 1) - m.breakpoint el)) = .ok (c.value el pt)

/-- Controls that are determined by the other variables: there is nothing to parametrise, and they are
reported at increasing positions. -/
structure Determined (m : Transcription K) (c : ControlLaw K) : Prop where
  free : m.dims.nUPar = 0
  increasing : (controlPositions m.dims c).Pairwise (· < ·)

/-- Everything at the position `tau` of an element, after simulating from the element's state. -/
def shotAt (m : ShootingMethod K) (b : Blocks K) (p : List K) (theta : List (List K)) (el : Nat)
    (tau : K) : Point K :=
  let u := (b.u.getD el []).flatten
  let t := elementLength m.toTranscription * ((el : K) + tau)
  let r := m.simulate el (elementLength m.toTranscription * (el : K)) t
    ((b.x.getD el []).getD 0 []) p (theta.getD el []) u
  ⟨t, r.1, r.2, p, theta.getD el [], u⟩

/-- Stopping a simulation and going on makes no difference. -/
def ShootingMethod.Flow (m : ShootingMethod K) : Prop :=
  ∀ el t t' t'' x p theta u,
    m.simulate el t' t'' (m.simulate el t t' x p theta u).1 p theta u =
      m.simulate el t t'' x p theta u

end Spec
end Verif
