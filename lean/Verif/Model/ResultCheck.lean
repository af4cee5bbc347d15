import Verif.Model.Dict
import Mathlib.Algebra.Order.Field.Rat
/-!
# `OptimizationResult.is_valid` (methods/base/optimizationresult.py)

The attributes of a result by name, as `getattr` and `setattr` see them. Only those that the check and
the creation of a result are about are kept apart; the others are left out.
-/
namespace Verif
namespace ResultCheck

/-- The value of an attribute. -/
inductive Val
  | none
  | num (r : Rat)
  | list (l : List Rat)
  deriving DecidableEq, Repr

/-- The attributes of a result. -/
abbrev Attrs := Dict String Val

/-- `OptimizationResult(**kwargs)`, optimizationresult.py:15-66: the attributes read below have `None`
or an empty list; then every keyword argument becomes an attribute, whatever its name. -/
def new (kwargs : Attrs) : Attrs :=
  Dict.update [("finite_elements", .none), ("degree", .none), ("degree_control", .none), ("t_0", .none),
    ("t_f", .none), ("time_breakpoints", .list []), ("objective_opt_problem", .none)] kwargs

/-- `getattr(self, attr)`, `AttributeError` when missing. -/
def getattr (a : Attrs) (name : String) : Except Err Val :=
  match Dict.get? a name with
  | some v => .ok v
  | .none => .error .attributeError

/-- `v < 0`; `None` and lists cannot be compared with a number. -/
def below : Val → Except Err Bool
  | .num r => .ok (decide (r < 0))
  | _ => .error .typeError

/-- `len(v)`. -/
def lengthOf : Val → Except Err Nat
  | .list l => .ok l.length
  | _ => .error .typeError

/-- `if c: raise Exception`. -/
def refuseIf (c : Bool) : Except Err Unit := if c then .error .exception else .ok ()

/-- Body of the first loop, optimizationresult.py:76-82. -/
def checkNumber (a : Attrs) (name : String) : Except Err Unit := do
  let v ← getattr a name
  let b ← below v
  refuseIf b

/-- The property `is_valid`, optimizationresult.py:74-94. -/
def isValid (a : Attrs) : Except Err Bool := do
  checkNumber a "finite_elements"
  checkNumber a "degree"
  checkNumber a "degree_control"
  checkNumber a "t_0"
  checkNumber a "t_f"
  let points ← getattr a "time_breakpoints"
  let n ← lengthOf points
  refuseIf (decide (n < 1))
  let v ← getattr a "objective"
  refuseIf (decide (v = .none))
  .ok true

/-- The result a method creates, solutionmethodsbase.py:468-491: attributes of the method, of the
problem, and the value of the optimisation problem (discretizationschemebase.py, under the name
`objective_opt_problem`). -/
def created (elements degree degreeControl : Nat) (breakpoints : List Rat) (t0 tf objective : Rat) : Attrs :=
  Dict.update (new []) [("finite_elements", .num elements), ("degree", .num degree),
    ("degree_control", .num degreeControl), ("time_breakpoints", .list breakpoints), ("t_0", .num t0),
    ("t_f", .num tf), ("objective_opt_problem", .num objective)]

end ResultCheck
end Verif
