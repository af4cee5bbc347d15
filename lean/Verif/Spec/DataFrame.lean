import Verif.Model.DataFrame
import Verif.Spec.DataSet
/-!
# Tables side by side
-/
namespace Verif.Spec

/-- `cells` are tables side by side at the time `t`: of each table one of its rows at this time, or
missing values if it has none. -/
inductive SideBySide (t : Rat) : List Frame → List (Option Rat) → Prop
  | nil : SideBySide t [] []
  | row {f : Frame} {fs : List Frame} {v cells : List (Option Rat)} (h : (t, v) ∈ f.rows)
      (rest : SideBySide t fs cells) : SideBySide t (f :: fs) (v ++ cells)
  | missing {f : Frame} {fs : List Frame} {cells : List (Option Rat)} (h : ∀ v, (t, v) ∉ f.rows)
      (rest : SideBySide t fs cells) : SideBySide t (f :: fs) (List.replicate f.columns.length none ++ cells)

/-- The table has a row at the time `t`. -/
def Recorded (t : Rat) (f : Frame) : Prop := ∃ v, (t, v) ∈ f.rows

/-- The number of rows at the time `t`. -/
def rowCount (t : Rat) (f : Frame) : Nat := (f.rows.filter fun r => decide (r.1 = t)).length

/-- The table of one entry: a column per name and a row per sample. -/
def entryTable (name : String) (e : Entry) : Frame :=
  ⟨e.names.map fun n => (name, n), (samples e).map fun s => (s.1, s.2.map some)⟩

/-- The values fit the names: a row for each name, and a time for each column. -/
def Tabular (e : Entry) : Prop := e.values.rows = e.names.length ∧ Aligned e

/-- The entries that have names. -/
def named (d : DataSet) : List (String × Entry) := d.filter fun kv => decide (kv.2.names ≠ [])

end Verif.Spec
