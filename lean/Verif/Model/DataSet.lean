import Verif.Model.Dict
import Mathlib.Data.List.Sort
import Mathlib.Algebra.Order.Field.Rat
/-!
# `DataSet` (modelling/dataset.py) and `SimulationResult` (modelling/simulation_result.py)

Times and values are rationals. A matrix is its number of rows and the list of its columns. File
output and plotting are not modelled; data frames are in `Verif.Model.DataFrame`.
-/
namespace Verif

/-- A CasADi matrix by columns. -/
structure Mat where
  rows : Nat := 0
  cols : List (List Rat) := []
  deriving DecidableEq, Repr

/-- `horzcat(a, b)`: 0-by-0 matrices are skipped, otherwise the numbers of rows must agree
(`RuntimeError`). -/
def Mat.hcat (a b : Mat) : Except Err Mat :=
  if a.rows = 0 ∧ a.cols = [] then .ok b
  else if b.rows = 0 ∧ b.cols = [] then .ok a
  else if a.rows = b.rows then .ok ⟨a.rows, a.cols ++ b.cols⟩
  else .error .runtimeError

/-- `Entry`, dataset.py:19-29. -/
structure Entry where
  names : List String
  size : Nat
  time : List Rat := []
  values : Mat := {}
  plotStyle : String := "plot"
  deriving DecidableEq, Repr

/-- The `data` dictionary of a `DataSet`, dataset.py:50-53. -/
abbrev DataSet := Dict String Entry

/-- The `time` argument of `insert_data`: a list, a number, or a row vector. -/
inductive TimeArg
  | list (l : List Rat)
  | number (r : Rat)
  | row (l : List Rat)
  deriving DecidableEq, Repr

/-- dataset.py:139-142; `horzcat()` of nothing raises `NotImplementedError`. -/
def TimeArg.toRow : TimeArg → Except Err (List Rat)
  | .list [] => .error .notImplementedError
  | .list l => .ok l
  | .number r => .ok [r]
  | .row l => .ok l

namespace DataSet

/-- Default names `[entry_0, entry_1, ...]`, dataset.py:100-101. -/
def defaultNames (entry : String) (size : Nat) : List String :=
  (List.range size).map fun i => entry ++ "_" ++ toString i

/-- `create_entry(entry, size, names, plot_style)`, dataset.py:83-102. -/
def createEntry (entry : String) (size : Nat) (names : Option (List String))
    (plotStyle : String := "plot") : Py DataSet Unit :=
  Py.modify fun d => Dict.set d entry
    { size := size
      names := names.getD (defaultNames entry size)
      plotStyle := plotStyle }

/-- `d[entry]`, `KeyError` when missing. -/
def entry (name : String) : Py DataSet Entry := fun d =>
  match Dict.get? d name with
  | some e => (.ok e, d)
  | none => (.error .keyError, d)

/-- `insert_data(entry, time, value)`, dataset.py:132-154. The test `size is None` is never true:
sizes are numbers. -/
def insertData (name : String) (time : TimeArg) (value : Mat) : Py DataSet Unit := do
  let time ← Py.lift time.toRow
  Py.raiseIf (decide (time.length ≠ value.cols.length)) .valueError
  let e ← entry name
  let v ← Py.lift (e.values.hcat value)
  Py.modify fun d => Dict.set d name { e with values := v, time := e.time ++ time }

/-- Sort of samples by time; Python's `sorted` is stable, so is this one. -/
def sortSamples (l : List (Rat × List Rat)) : List (Rat × List Rat) :=
  l.insertionSort fun a b => a.1 ≤ b.1

/-- The entry with its samples sorted, dataset.py:206-224. -/
def sortedEntry (e : Entry) : Entry :=
  let pts := sortSamples (e.time.zip e.values.cols)
  { e with
    time := pts.map (·.1)
    values := ⟨e.values.rows, pts.map (·.2)⟩ }

/-- Loop body of `sort`, dataset.py:208-224. Without samples the unpacking of `zip()` raises
`ValueError`. -/
def sortEntry (name : String) : Py DataSet Unit := do
  let e ← entry name
  Py.raiseIf (decide (e.time.zip e.values.cols = [])) .valueError
  Py.modify fun d => Dict.set d name (sortedEntry e)

/-- `sort(entries)`, dataset.py:198-224. -/
def sort (entries : Option (List String)) : Py DataSet Unit := do
  let d ← Py.get
  Py.forEach (entries.getD (Dict.keys d)) sortEntry

/-- `if entry not in self.data: self.create_entry(...)`, dataset.py:184-189. -/
def createIfMissing (name : String) (o : Entry) : Py DataSet Unit := do
  let d ← Py.get
  if Dict.has d name then Py.pure () else createEntry name o.size (some o.names)

/-- Loop body of `extend`, dataset.py:176-194: the size of the own entry is read first. -/
def extendEntry (kv : String × Entry) : Py DataSet Unit := do
  let e ← entry kv.1
  Py.raiseIf (decide (e.size ≠ kv.2.size)) .valueError
  createIfMissing kv.1 kv.2
  insertData kv.1 (.row kv.2.time) kv.2.values

/-- `extend(other_dataset)`, dataset.py:168-196. -/
def extend (other : DataSet) : Py DataSet Unit := do
  Py.forEach other extendEntry
  sort none

/-- The calls that change a data set. -/
inductive Call
  | createEntry (entry : String) (size : Nat) (names : Option (List String)) (style : String)
  | insertData (entry : String) (time : TimeArg) (value : Mat)
  | sort (entries : Option (List String))
  | extend (other : DataSet)

/-- Execute one call. -/
def Call.run : Call → Py DataSet Unit
  | .createEntry e n names s => DataSet.createEntry e n names s
  | .insertData e t v => DataSet.insertData e t v
  | .sort es => DataSet.sort es
  | .extend o => DataSet.extend o

end DataSet

/-- Attributes of a `SimulationResult`, simulation_result.py:8-36 (`delta_t` and the names are left
out). -/
structure SimResult where
  data : DataSet
  t0 : Rat
  tf : Rat
  finiteElements : Nat
  deriving DecidableEq, Repr

namespace SimResult

/-- The constructor, simulation_result.py:9-36. The `finite_elements` argument is not stored: the
attribute is set to 0. -/
def new (nx ny nu : Nat) (t0 tf : Rat) (_finiteElements : Nat) : SimResult :=
  { data := (do
      DataSet.createEntry "x" nx none
      DataSet.createEntry "y" ny none
      DataSet.createEntry "u" nu none : Py DataSet Unit) [] |>.2
    t0 := t0
    tf := tf
    finiteElements := 0 }

/-- `n_x`, `n_y`, `n_u`: the size of an entry, simulation_result.py:60-70. -/
def sizeOf (r : SimResult) (name : String) : Option Nat := (Dict.get? r.data name).map (·.size)

/-- Run a data set method on a result. -/
def onData (c : Py DataSet Unit) : Py SimResult Unit := fun r =>
  match c r.data with
  | (o, d) => (o, { r with data := d })

/-- `extend(other)`, simulation_result.py:94-115. -/
def extend (other : SimResult) : Py SimResult Unit := do
  Py.forEach ["x", "y", "u"] fun a => do
    let r ← Py.get
    Py.raiseIf (decide (r.sizeOf a ≠ other.sizeOf a)) .exception
  Py.modify fun r => { r with
    tf := max r.tf other.tf
    t0 := min r.t0 other.t0
    finiteElements := r.finiteElements + other.finiteElements }
  onData (DataSet.extend other.data)

end SimResult
end Verif
