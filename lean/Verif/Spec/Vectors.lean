/-!
# Specifications about vectors and index lists

Written from the English properties; nothing here refers to the model.
-/
namespace Verif.Spec

/-- The positions at which `v` occurs in `l`, in increasing order. -/
def positions {α : Type u} [DecidableEq α] (v : α) (l : List α) : List Nat :=
  (List.range l.length).filter fun i => decide (l[i]? = some v)

/-- `l` without the elements of `var`, other elements in order. -/
def without {α : Type u} [DecidableEq α] (var l : List α) : List α :=
  l.filter fun a => decide (a ∉ var)

/-- Python index `j` addresses an element of a sequence of length `n`. -/
def addresses (n : Nat) (j : Int) : Prop := -(n : Int) ≤ j ∧ j < (n : Int)

instance (n : Nat) (j : Int) : Decidable (addresses n j) :=
  inferInstanceAs (Decidable (_ ∧ _))

/-- Position `i` (counted from the front) of a sequence of length `n` is addressed by one of the
Python indices `js` (a negative index counts from the back). -/
def addressedBy (n : Nat) (js : List Int) (i : Nat) : Prop :=
  (i : Int) ∈ js ∨ (i : Int) - (n : Int) ∈ js

instance (n : Nat) (js : List Int) (i : Nat) : Decidable (addressedBy n js i) :=
  inferInstanceAs (Decidable (_ ∨ _))

/-- What removing by indices should do: refuse (`none`) when an index addresses nothing, otherwise
drop exactly the addressed elements. -/
def deleteAt {α : Type u} (js : List Int) (l : List α) : Option (List α) :=
  if ∀ j ∈ js, addresses l.length j then
    some (((List.range l.length).filter fun i => decide (¬ addressedBy l.length js i)).filterMap
      fun i => l[i]?)
  else none

end Verif.Spec
