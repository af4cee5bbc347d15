import Verif.Model.DataSet
/-!
# Samples of a data set
-/
namespace Verif

/-- The samples of an entry: pairs of a time and a column. -/
def Spec.samples (e : Entry) : List (Rat × List Rat) := e.time.zip e.values.cols

/-- One value column per time stamp. -/
def Spec.Aligned (e : Entry) : Prop := e.time.length = e.values.cols.length

/-- `l'` is the chronological arrangement of `l`: the same samples, times non-decreasing, samples of
the same time in their original order. -/
structure Spec.Chronological (l l' : List (Rat × List Rat)) : Prop where
  same : l'.Perm l
  ordered : l'.Pairwise fun a b => a.1 ≤ b.1
  stable : ∀ t, l'.filter (fun s => decide (s.1 = t)) = l.filter fun s => decide (s.1 = t)

/-- Every entry of a data set is aligned and entry names are unique. -/
def Spec.WellFormed (d : DataSet) : Prop :=
  (Dict.keys d).Nodup ∧ ∀ k e, Dict.get? d k = some e → Spec.Aligned e

/-- The samples of the entry `k`, none when there is no such entry. -/
def Spec.samplesOf (d : DataSet) (k : String) : List (Rat × List Rat) :=
  match Dict.get? d k with
  | some e => Spec.samples e
  | none => []

/-- Matrices that can stand side by side. -/
def Spec.SameRows (a b : Mat) : Prop :=
  a.rows = b.rows ∨ (a.rows = 0 ∧ a.cols = []) ∨ (b.rows = 0 ∧ b.cols = [])

end Verif
