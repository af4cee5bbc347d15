import Verif.Model.DataSet
/-!
# Aliasing of data sets: `DataSet.get_copy`

A data set object holds a reference to a dictionary, the dictionary holds references to `Entry`
objects, and an entry holds references to a list of names and two matrices. All of these can be
changed in place by whoever holds a reference, and the accessors of a data set give such references.
So a world is a heap of these objects and two data sets (`false` and `true`), each of them the address
of its dictionary. The attributes `name` and `plot_style` of a data set are strings, which nothing
changes in place, and are left out.
-/
namespace Verif
namespace DataHeap

/-- An `Entry` object, dataset.py:19-25: the names, the time and the values are references. -/
structure EntryObj where
  names : Nat
  size : Nat
  time : Nat
  values : Nat
  plotStyle : String
  deriving DecidableEq, Repr

/-- What is found at an address. -/
inductive Cell
  | names (l : List String)
  | row (t : List Rat)
  | mat (m : Mat)
  | entry (e : EntryObj)
  | dict (d : Dict String Nat)
  deriving DecidableEq, Repr

/-- The heap and the attribute `data` of the two data sets, dataset.py:53. -/
structure World where
  heap : List Cell
  obj : Bool → Nat

/-- The address of the matrix `DM()` that is the default of `time`, dataset.py:23: one object for the
whole class. -/
def defaultTime : Nat := 0

/-- The address of the matrix `DM()` that is the default of `values`, dataset.py:24. -/
def defaultValues : Nat := 1

/-- The list at an address. -/
def namesAt (h : List Cell) (a : Nat) : List String :=
  match h[a]? with
  | some (.names l) => l
  | _ => []

/-- The row vector at an address. -/
def rowAt (h : List Cell) (a : Nat) : List Rat :=
  match h[a]? with
  | some (.row t) => t
  | _ => []

/-- The matrix at an address. -/
def matAt (h : List Cell) (a : Nat) : Mat :=
  match h[a]? with
  | some (.mat m) => m
  | _ => {}

/-- The entry object at an address. -/
def entryAt (h : List Cell) (a : Nat) : EntryObj :=
  match h[a]? with
  | some (.entry e) => e
  | _ => ⟨0, 0, defaultTime, defaultValues, "plot"⟩

/-- The dictionary at an address. -/
def dictAt (h : List Cell) (a : Nat) : Dict String Nat :=
  match h[a]? with
  | some (.dict d) => d
  | _ => []

/-- What is read through an entry object. -/
def readEntry (h : List Cell) (e : EntryObj) : Entry :=
  { names := namesAt h e.names
    size := e.size
    time := rowAt h e.time
    values := matAt h e.values
    plotStyle := e.plotStyle }

/-- What is read through data set `b`. -/
def World.view (w : World) (b : Bool) : DataSet :=
  (dictAt w.heap (w.obj b)).map fun kv => (kv.1, readEntry w.heap (entryAt w.heap kv.2))

/-- `self.data[entry]`, `KeyError` when missing. -/
def ref (b : Bool) (name : String) : Py World Nat := fun w =>
  match Dict.get? (dictAt w.heap (w.obj b)) name with
  | some a => (.ok a, w)
  | none => (.error .keyError, w)

/-- The attributes of `self.data[entry]`, as `get_entry`, `get_entry_names` and `get_entry_size` give
them, dataset.py:104-130. -/
def read (b : Bool) (name : String) : Py World Entry := do
  let a ← ref b name
  let w ← Py.get
  Py.pure (readEntry w.heap (entryAt w.heap a))

/-- The heap after `self.data[entry] = Entry(size=size, names=names, ...)`, dataset.py:100-102: a new
list and a new object, with the default matrices of the class. -/
def createIn (b : Bool) (name : String) (size : Nat) (names : List String) (style : String)
    (w : World) : World :=
  { w with
    heap := (w.heap ++ [Cell.names names,
        Cell.entry ⟨w.heap.length, size, defaultTime, defaultValues, style⟩]).set
      (w.obj b) (.dict (Dict.set (dictAt w.heap (w.obj b)) name (w.heap.length + 1))) }

/-- `create_entry(entry, size, names, plot_style)`, dataset.py:83-102, with a list of names that nobody
else holds. -/
def createEntry (b : Bool) (name : String) (size : Nat) (names : Option (List String))
    (style : String) : Py World Unit :=
  Py.modify (createIn b name size (names.getD (DataSet.defaultNames name size)) style)

/-- A new matrix is stored as the attribute `values` of an entry object. -/
def setValuesRef (a : Nat) (v : Mat) (w : World) : World :=
  { w with
    heap := (w.heap ++ [Cell.mat v]).set a (.entry { entryAt w.heap a with values := w.heap.length }) }

/-- A new row vector is stored as the attribute `time` of an entry object. -/
def setTimeRef (a : Nat) (t : List Rat) (w : World) : World :=
  { w with
    heap := (w.heap ++ [Cell.row t]).set a (.entry { entryAt w.heap a with time := w.heap.length }) }

/-- `self.data[entry].values = v`, dataset.py:150 and 224, with a matrix made by `horzcat`. -/
def assignValues (b : Bool) (name : String) (v : Mat) : Py World Unit := do
  let a ← ref b name
  Py.modify (setValuesRef a v)

/-- `self.data[entry].time = t`, dataset.py:151 and 223, with a matrix made by `horzcat`. -/
def assignTime (b : Bool) (name : String) (t : List Rat) : Py World Unit := do
  let a ← ref b name
  Py.modify (setTimeRef a t)

/-- `insert_data(entry, time, value)`, dataset.py:132-154. -/
def insertData (b : Bool) (name : String) (time : TimeArg) (value : Mat) : Py World Unit := do
  let time ← Py.lift time.toRow
  Py.raiseIf (decide (time.length ≠ value.cols.length)) .valueError
  let e ← read b name
  let v ← Py.lift (e.values.hcat value)
  assignValues b name v
  let e ← read b name
  assignTime b name (e.time ++ time)

/-- Loop body of `sort`, dataset.py:208-224. -/
def sortEntry (b : Bool) (name : String) : Py World Unit := do
  let e ← read b name
  Py.raiseIf (decide (e.time.zip e.values.cols = [])) .valueError
  let pts := DataSet.sortSamples (e.time.zip e.values.cols)
  assignTime b name (pts.map (·.1))
  assignValues b name ⟨e.values.rows, pts.map (·.2)⟩

/-- `sort(entries)`, dataset.py:198-224. -/
def sort (b : Bool) (entries : Option (List String)) : Py World Unit := do
  let w ← Py.get
  Py.forEach (entries.getD (Dict.keys (dictAt w.heap (w.obj b)))) (sortEntry b)

/-- `if entry not in self.data: self.create_entry(...)`, dataset.py:184-189. (The entry is never
missing here: its size has been read.) -/
def createIfMissing (b : Bool) (name : String) (o : Entry) : Py World Unit := do
  let w ← Py.get
  if Dict.has (dictAt w.heap (w.obj b)) name then Py.pure ()
  else createEntry b name o.size (some o.names) "plot"

/-- Loop body of `extend`, dataset.py:176-194, with the other data set read when the entry is
reached. -/
def extendEntry (b other : Bool) (name : String) : Py World Unit := do
  let e ← read b name
  let o ← read other name
  Py.raiseIf (decide (e.size ≠ o.size)) .valueError
  createIfMissing b name o
  insertData b name (.row o.time) o.values

/-- `extend(other_dataset)`, dataset.py:168-196; the other data set may be the same one. -/
def extend (b other : Bool) : Py World Unit := do
  let w ← Py.get
  Py.forEach (Dict.keys (dictAt w.heap (w.obj other))) (extendEntry b other)
  sort b none

/-- What is changed in place at an address. -/
def setCell (a : Nat) (c : Cell) (w : World) : World := { w with heap := w.heap.set a c }

/-- `dataset.get_entry_names(entry)[i] = s`: the list itself is returned, dataset.py:115-122. -/
def setName (b : Bool) (name : String) (i : Nat) (s : String) : Py World Unit := do
  let a ← ref b name
  let w ← Py.get
  let l := (readEntry w.heap (entryAt w.heap a)).names
  Py.raiseIf (decide (l.length ≤ i)) .indexError
  Py.modify (setCell (entryAt w.heap a).names (.names (l.set i s)))

/-- `dataset.get_entry_names(entry).append(s)`. -/
def appendName (b : Bool) (name : String) (s : String) : Py World Unit := do
  let a ← ref b name
  let w ← Py.get
  let l := (readEntry w.heap (entryAt w.heap a)).names
  Py.modify (setCell (entryAt w.heap a).names (.names (l ++ [s])))

/-- `dataset.get_entry(entry)[0][i] = r`: the matrix itself is returned, dataset.py:104-112; an index
out of range raises `RuntimeError`. -/
def setTime (b : Bool) (name : String) (i : Nat) (r : Rat) : Py World Unit := do
  let a ← ref b name
  let w ← Py.get
  let t := (readEntry w.heap (entryAt w.heap a)).time
  Py.raiseIf (decide (t.length ≤ i)) .runtimeError
  Py.modify (setCell (entryAt w.heap a).time (.row (t.set i r)))

/-- `dataset.get_entry(entry)[1][i, j] = r`. -/
def setValue (b : Bool) (name : String) (i j : Nat) (r : Rat) : Py World Unit := do
  let a ← ref b name
  let w ← Py.get
  let m := (readEntry w.heap (entryAt w.heap a)).values
  Py.raiseIf (decide (m.cols.length ≤ j ∨ m.rows ≤ i)) .runtimeError
  Py.modify (setCell (entryAt w.heap a).values
    (.mat { m with cols := m.cols.modify j fun c => c.set i r }))

/-- `dataset.data[entry].plot_style = style`, as in optimizationresult.py:173. -/
def setStyle (b : Bool) (name : String) (style : String) : Py World Unit := do
  let a ← ref b name
  let w ← Py.get
  Py.modify (setCell a (.entry { entryAt w.heap a with plotStyle := style }))

/-- What a program does with a data set: call its methods, or change in place what the accessors
gave it. -/
inductive Action
  | createEntry (entry : String) (size : Nat) (names : Option (List String)) (style : String)
  | insertData (entry : String) (time : TimeArg) (value : Mat)
  | sort (entries : Option (List String))
  | extend (other : Bool)
  | setName (entry : String) (i : Nat) (s : String)
  | appendName (entry : String) (s : String)
  | setTime (entry : String) (i : Nat) (r : Rat)
  | setValue (entry : String) (i j : Nat) (r : Rat)
  | setStyle (entry : String) (style : String)

/-- Do it with data set `b`. -/
def Action.run (b : Bool) : Action → Py World Unit
  | .createEntry e n names s => DataHeap.createEntry b e n names s
  | .insertData e t v => DataHeap.insertData b e t v
  | .sort es => DataHeap.sort b es
  | .extend o => DataHeap.extend b o
  | .setName e i s => DataHeap.setName b e i s
  | .appendName e s => DataHeap.appendName b e s
  | .setTime e i r => DataHeap.setTime b e i r
  | .setValue e i j r => DataHeap.setValue b e i j r
  | .setStyle e s => DataHeap.setStyle b e s

/-- A program on both data sets; exceptions are caught. -/
def World.runAll (w : World) : List (Bool × Action) → World
  | [] => w
  | (b, c) :: rest => World.runAll (c.run b w).2 rest

/-- The references of an object, `n` further. -/
def Cell.shift (n : Nat) : Cell → Cell
  | .entry e => .entry { e with names := e.names + n, time := e.time + n, values := e.values + n }
  | .dict d => .dict (d.map fun kv => (kv.1, kv.2 + n))
  | c => c

/-- `get_copy()`, dataset.py:156-166, of data set `b`; the copy becomes the other one. `copy.deepcopy`
makes one copy of every object that can be reached from the dictionary, so that references are shared
in the copy as they are in the original. Here every object is copied, also those that cannot be
reached. -/
def World.getCopy (w : World) (b : Bool) : World :=
  { heap := w.heap ++ w.heap.map (Cell.shift w.heap.length)
    obj := fun c => if c = b then w.obj b else w.obj b + w.heap.length }

/-- `copy.copy(self)` alone, dataset.py:163, for comparison: the dictionary is shared. -/
def World.shallowCopy (w : World) (b : Bool) : World := { w with obj := fun _ => w.obj b }

/-- Two new data sets, dataset.py:33-53. -/
def World.start : World :=
  { heap := [.row [], .mat {}, .dict [], .dict []], obj := fun b => if b then 3 else 2 }

end DataHeap
end Verif
