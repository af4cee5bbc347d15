import Verif.Model.Simulate
import Verif.Model.SolverOptions
/-!
# The options of the integrator (modelling/dae_system.py)

Dictionaries are objects that may have several names; the dictionary 0 is `config.INTEGRATOR_OPTIONS`. The
integrators made by a program are listed in the order of their creation.
-/
namespace Verif
namespace IntegOptions
open SolverOptions (DictRef withDefaults)

/-- A value of an option: a time or anything else. -/
inductive OptVal
  | time (t : Rat)
  | other (s : String)
  deriving DecidableEq, Repr

/-- An integrator of CasADi: the arguments `name`, `solver` and `opts` of its constructor,
dae_system.py:274-279. -/
structure Created where
  name : OptVal
  plugin : Plugin
  opts : Dict String OptVal
  deriving DecidableEq, Repr

/-- The dictionaries and the integrators of a program. -/
structure World where
  heap : List (Dict String OptVal)
  made : List Created := []
  deriving DecidableEq, Repr

/-- `config.INTEGRATOR_OPTIONS`, config.py:29-32. -/
def configDict : DictRef := 0

/-- The contents of a dictionary. -/
def World.dict (w : World) (r : DictRef) : Dict String OptVal := w.heap.getD r []

/-- The dictionary is replaced by its new contents. -/
def World.write (w : World) (r : DictRef) (d : Dict String OptVal) : World :=
  { w with heap := w.heap.set r d }

/-- A new dictionary. -/
def newDict (d : Dict String OptVal) : Py World DictRef := fun w =>
  (.ok w.heap.length, { w with heap := w.heap ++ [d] })

/-- `name = options.pop("name") if "name" in options else "integrator"`, dae_system.py:262. -/
def popName (r : DictRef) : Py World OptVal := fun w =>
  match (w.dict r).get? "name" with
  | some v => (.ok v, w.write r ((w.dict r).del "name"))
  | none => (.ok (.other "integrator"), w)

/-- The loop over the configuration, dae_system.py:265-267. -/
def loadDefaults (r : DictRef) : Py World Unit :=
  Py.modify fun w => w.write r (withDefaults (w.dict r) (w.dict configDict))

/-- `_create_integrator(options, integrator_type)`, dae_system.py:247-284. -/
def create (d : Dae) (r : DictRef) (ty : String) : Py World Created := do
  let name ← popName r
  loadDefaults r
  let pl ← Py.lift (choosePlugin d ty)
  let w ← Py.get
  let c : Created := { name := name, plugin := pl, opts := w.dict r }
  Py.modify fun w => { w with made := w.made ++ [c] }
  pure c

/-- The options given to the integrator, dae_system.py:234-237. -/
def merged (t0 tf : Rat) (given : Dict String OptVal) : Dict String OptVal :=
  Dict.update [("tf", .time tf), ("t0", .time t0)] given

/-- `tau` is one of the symbols of the equations, dae_system.py:222. -/
def tauUsed (d : Dae) : Bool :=
  match d.tau with
  | some tau => d.dependsOn [tau]
  | none => false

/-- `DAESystem.simulate(x_0, t_f, t_0, integrator_type, integrator_options)`, dae_system.py:191-245, up to
the call of the integrator; without options a new dictionary is made (229-230). -/
def simulate (d : Dae) (given : Option DictRef) (ty : String) (t0 tf : Rat) : Py World Created := do
  Py.raiseIf (decide (tf = t0)) .valueError
  Py.raiseIf (tauUsed d) .attributeError
  let w ← Py.get
  let r ← newDict (merged t0 tf ((given.map w.dict).getD []))
  create d r ty

/-- The integrators of `SystemModel.simulate` with a list of final times, system_model.py:643-660: all are
made with the same options of the user, each from the end of the one before. -/
def simulateAll (d : Dae) (given : Option DictRef) (ty : String) : Rat → List Rat → Py World Unit
  | _, [] => pure ()
  | tk, t :: ts => do
    let _ ← simulate d given ty tk t
    simulateAll d given ty t ts

end IntegOptions
end Verif
