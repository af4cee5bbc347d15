import Verif.Model.SystemModel
/-!
# Aliasing of models: `SystemModel.get_copy`

Attributes of a model are rebound, never mutated, with one exception: the dictionary `_ode`, which
some methods change in place. So an object is its attributes plus a reference to a dictionary in a
heap. Two objects (`false`: the original, `true`: the copy) are enough to speak about aliasing.
-/
namespace Verif
namespace SysModel

/-- A dictionary of equations. -/
abbrev Table := Dict Sym (Option Expr)

/-- A model object: attributes (the field `ode` of `attrs` is not used) and the reference held in
`_ode`. -/
structure Obj where
  attrs : SysModel
  cell : Nat

/-- Heap of dictionaries and the two objects. -/
structure World where
  heap : List Table
  obj : Bool → Obj

/-- What a program sees when it reads object `b`. -/
def World.view (w : World) (b : Bool) : SysModel :=
  { (w.obj b).attrs with ode := (w.heap[(w.obj b).cell]?).getD [] }

/-- Effects of methods on the object they are called on. -/
inductive Effect
  /-- attributes other than `_ode` are rebound -/
  | assign (m : SysModel)
  /-- the dictionary is changed in place (`self._ode[x] = ..`, `del self._ode[x]`) -/
  | mutate (d : Table)
  /-- `self._ode = {..}`, a new dictionary -/
  | rebind (d : Table)

/-- Replace object `b`. -/
def World.setObj (w : World) (b : Bool) (o : Obj) : World :=
  { w with obj := fun c => if c = b then o else w.obj c }

/-- Carry out an effect on object `b`. -/
def Effect.apply (b : Bool) : Effect → World → World
  | .assign m, w => w.setObj b { w.obj b with attrs := m }
  | .mutate d, w => { w with heap := w.heap.set (w.obj b).cell d }
  | .rebind d, w =>
      World.setObj { w with heap := w.heap ++ [d] } b { w.obj b with cell := w.heap.length }

/-- The table after the in-place insertion of slots, continuous_states_mixin.py:66-69. -/
def slots (var : List Sym) (m : SysModel) : Table := (Py.forEach var addSlot m).2.ode

/-- How a call writes `_ode`, with `m'` the model after the call:
* `include_state`/`include_variables` insert slots in place (continuous_states_mixin.py:69), and
  rebind when equations are given (line 149);
* `remove_state` deletes in place (line 78); `replace_variable` assigns in place (line 95), also as
  part of `parametrize_control` and `connect(replace=True)`;
* `include_equations` rebinds (line 149);
* `include_models`/`merge` insert slots in place, then rebind; what they do in place afterwards
  goes to the new dictionary;
* all other calls do not write it. -/
def tableEffects (c : Call) (m m' : SysModel) : List Effect :=
  match c with
  | .includeState var none _ _ => [.mutate (slots var m), .mutate m'.ode]
  | .includeState var (some _) _ _ => [.mutate (slots var m), .rebind m'.ode]
  | .includeVariables .. => [.mutate m'.ode]
  | .removeState _ => [.mutate m'.ode]
  | .replaceVariable .. => [.mutate m'.ode]
  | .parametrizeControl .. => [.mutate m'.ode]
  | .connect .. => [.mutate m'.ode]
  | .includeEquations .. => [.rebind m'.ode]
  | .includeModels ks => [.mutate (slots (ks.headD (new 0 0)).x m), .rebind m'.ode]
  | .merge ks _ => [.mutate (slots (ks.headD (new 0 0)).x m), .rebind m'.ode]
  | _ => []

/-- The effects of a call on an object that reads as `m`. -/
def effects (c : Call) (m : SysModel) : List Effect :=
  .assign (c.run m).2 :: tableEffects c m (c.run m).2

/-- Call a method of object `b`. -/
def World.call (w : World) (b : Bool) (c : Call) : World :=
  (effects c (w.view b)).foldl (fun w e => e.apply b w) w

/-- A program calling methods of both objects in any order; exceptions are caught. -/
def World.runAll (w : World) : List (Bool × Call) → World
  | [] => w
  | (b, c) :: rest => (w.call b c).runAll rest

/-- `get_copy()`, system_model.py:468-478: `copy.copy` (all attributes shared) followed by
`copy_model._ode = dict(copy_model._ode)`. The copy becomes object `true`. -/
def World.getCopy (w : World) : World :=
  World.setObj { w with heap := w.heap ++ [(w.view false).ode] } true
    { attrs := (w.obj false).attrs, cell := w.heap.length }

/-- `copy.copy` alone, for comparison. -/
def World.shallowCopy (w : World) : World := w.setObj true (w.obj false)

end SysModel
end Verif
