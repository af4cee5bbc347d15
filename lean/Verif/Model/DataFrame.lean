import Verif.Model.DataSet
/-!
# `as_dataframe()` of a dataset and of a distributed result

modelling/dataset.py and methods/base/distributed_optimization_result.py. A pandas data frame is its
column labels and its rows, each with the value of the index; a missing value (`NaN`) is `none`.
-/
namespace Verif

/-- A data frame with times as index and two-level column labels. -/
structure Frame where
  columns : List (String × String)
  rows : List (Rat × List (Option Rat))
  deriving DecidableEq, Repr

namespace Frame

/-- The rows at one time. -/
def atTime (f : Frame) (t : Rat) : List (List (Option Rat)) :=
  (f.rows.filter fun r => r.1 = t).map Prod.snd

/-- The rows at one time, or a row of missing values. -/
def orMissing (f : Frame) (t : Rat) : List (List (Option Rat)) :=
  if f.atTime t = [] then [List.replicate f.columns.length none] else f.atTime t

/-- The rows of a merge at one time: all pairs. -/
def pairs (f g : Frame) (t : Rat) : List (Rat × List (Option Rat)) :=
  (f.orMissing t).flatMap fun a => (g.orMissing t).map fun b => (t, a ++ b)

/-- The sorted union of times. -/
def union (ts : List Rat) : List Rat := ts.dedup.insertionSort (fun a b => a ≤ b)

/-- `pd.merge(f, g, how="outer", left_index=True, right_index=True)` of frames without common columns, as
pandas documents it: the sorted union of the times, and at each time every row of `f` with every row of
`g`. -/
def merge (f g : Frame) : Frame where
  columns := f.columns ++ g.columns
  rows := (union (f.rows.map Prod.fst ++ g.rows.map Prod.fst)).flatMap (pairs f g)

/-- One step of the loops, dataset.py:69-79 and distributed_optimization_result.py:36-46. -/
def mergeNext (df : Option Frame) (g : Frame) : Option Frame :=
  match df with
  | none => some g
  | some f => some (f.merge g)

/-- The frames one after the other, `None` without any. -/
def mergeAll (fs : List Frame) : Option Frame := fs.foldl mergeNext none

end Frame

namespace DataSet

/-- `pd.DataFrame(values, index=time, columns=index)`, dataset.py:60-67: the shape of the values has to
fit the index and the columns. An entry without data has a 0-by-0 matrix. -/
def entryFrame (name : String) (e : Entry) : Except Err Frame :=
  if e.values.rows ≠ e.names.length ∨ e.values.cols.length ≠ e.time.length then .error .valueError
  else .ok ⟨e.names.map fun n => (name, n), e.time.zip (e.values.cols.map fun c => c.map some)⟩

/-- `as_dataframe()`, dataset.py:55-81: entries without names are skipped; without any other entry
`df.index` raises. -/
def asDataframe (d : DataSet) : Except Err Frame := do
  let fs ← (d.filter fun kv => !kv.2.names.isEmpty).mapM fun kv => entryFrame kv.1 kv.2
  match Frame.mergeAll fs with
  | none => .error .attributeError
  | some f => .ok f

end DataSet

/-- `as_dataframe()` of a distributed result, distributed_optimization_result.py:32-49, from the datasets
of the nodes; the names of the variables of different nodes differ. -/
def distributedDataframe (ds : List DataSet) : Except Err Frame := do
  let fs ← ds.mapM DataSet.asDataframe
  match Frame.mergeAll fs with
  | none => .error .valueError
  | some f => .ok f

end Verif
