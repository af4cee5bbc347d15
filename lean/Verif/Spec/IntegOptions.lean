import Verif.Model.IntegOptions
/-!
# Specification of the options of the integrator
-/
namespace Verif.Spec
open IntegOptions

/-- The option for the final and the initial time, before the user's options are looked at. -/
def requested (t0 tf : Rat) (k : String) : Option OptVal :=
  if k = "tf" then some (.time tf) else if k = "t0" then some (.time t0) else none

/-- The integrator has the name of the user, and every option is that of the user; where the user gives
nothing it is the requested time or else the configured option. -/
def OptionsOf (given config : Dict String OptVal) (t0 tf : Rat) (c : Created) : Prop :=
  c.name = (given.get? "name").getD (.other "integrator") ∧
  ∀ k, k ≠ "name" → c.opts.get? k = ((given.get? k).or (requested t0 tf k)).or (config.get? k)

/-- Every dictionary there was before is still the same. -/
def Untouched (w w' : World) : Prop :=
  ∀ r < w.heap.length, w'.heap[r]? = w.heap[r]?

/-- The integrators made between two states. -/
def Made (w w' : World) (cs : List Created) : Prop := w'.made = w.made ++ cs

/-- The integrator is told to integrate from `t0` to `tf`. -/
def Interval (t0 tf : Rat) (c : Created) : Prop :=
  c.opts.get? "t0" = some (.time t0) ∧ c.opts.get? "tf" = some (.time tf)

end Verif.Spec
