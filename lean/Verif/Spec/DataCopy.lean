import Verif.Model.DataCopy
/-!
# Two data sets that are used by one program
-/
namespace Verif.Spec
open DataHeap

/-- The situations a program can be in that creates data sets, calls their methods, changes in place
what it got from them, and makes copies of either (in place of the other). -/
inductive DataReached : World → Prop
  | start : DataReached World.start
  | act (w : World) (b : Bool) (c : Action) : DataReached w → DataReached (c.run b w).2
  | copy (w : World) (b : Bool) : DataReached w → DataReached (w.getCopy b)

/-- The call of a method that an action makes, with the data sets it is given; an in-place change is no
call. -/
def methodCall (d : Bool → DataSet) : Action → Option DataSet.Call
  | .createEntry e n names s => some (.createEntry e n names s)
  | .insertData e t v => some (.insertData e t v)
  | .sort es => some (.sort es)
  | .extend o => some (.extend (d o))
  | _ => none

/-- Two data sets with nothing in common: a call on one of them changes that one. -/
def apart (d : Bool → DataSet) : List (Bool × Action) → (Bool → DataSet)
  | [] => d
  | (b, c) :: rest => apart (fun x => match methodCall d c with
      | some call => if x = b then (call.run (d b)).2 else d x
      | none => d x) rest

end Verif.Spec
