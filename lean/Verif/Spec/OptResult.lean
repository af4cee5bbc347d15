import Verif.Model.OptResult
/-!
# What an optimisation result stores
-/
namespace Verif.Spec

/-- The first `k` elements of a series are stored completely: as many times as values, at least one
per element, and `n` numbers in each value. -/
def Stored (n k : Nat) (times : List (List Rat)) (values : List (List (List Rat))) : Prop :=
  ∀ el < k, ∃ ts vs, times[el]? = some ts ∧ values[el]? = some vs ∧ ts.length = vs.length ∧
    ts ≠ [] ∧ ∀ v ∈ vs, v.length = n

/-- The entry of a data set holds exactly the first `k` elements of a series, in order. -/
def Exported (d : DataSet) (name : String) (names : List String) (k : Nat)
    (times : List (List Rat)) (values : List (List (List Rat))) : Prop :=
  ∃ e : Entry, Dict.get? d name = some e ∧ e.names = names ∧ e.size = names.length ∧
    e.time = (times.take k).flatten ∧ e.values.cols = (values.take k).flatten

/-- A complete result: every series is stored for all elements, the states also at the end. -/
structure CompleteResult (r : OptResult) : Prop where
  elements : 0 < r.finiteElements
  x : Stored r.xNames.length (r.finiteElements + 1) (r.x.time ++ [[r.tf]]) r.x.values
  y : Stored r.yNames.length r.finiteElements r.y.time r.y.values
  u : Stored r.uNames.length r.finiteElements r.u.time r.u.values
  thetaOpt : r.thetaOpt.length = r.finiteElements ∧
    ∀ v ∈ r.thetaOpt, v.length = r.thetaOptNames.length
  breakpoints : r.breakpoints.length = r.finiteElements + 1
  other : ∀ kv ∈ r.other, ∃ n, Stored n r.finiteElements kv.2.time kv.2.values
  keys : r.other.keys.Nodup ∧ ∀ k ∈ r.other.keys, k ∉ ["x", "y", "u", "theta_opt"]

/-- The values of one variable, element by element and point by point. -/
def RowOf (i : Nat) (rows : List (List Rat)) (values : List (List (List Rat))) : Prop :=
  List.Forall₂ (List.Forall₂ fun (r : Rat) (v : List Rat) => v[i]? = some r) rows values

/-- The first position of a name. -/
def FirstAt (names : List String) (i : Nat) (name : String) : Prop :=
  names[i]? = some name ∧ ∀ j < i, names[j]? ≠ some name

/-- Every point of a series has one number per name. -/
def Rectangular (names : List String) (values : List (List (List Rat))) : Prop :=
  ∀ el ∈ values, ∀ v ∈ el, v.length = names.length

/-- A vector has the optimised values at the optimised positions and is otherwise as before. -/
def Reports {α : Type} (ind : List Nat) (values before after : List α) : Prop :=
  after.length = before.length ∧
  (∀ k i : Nat, ind[k]? = some i → after[i]? = values[k]?) ∧
  ∀ i, i ∉ ind → after[i]? = before[i]?

end Verif.Spec
