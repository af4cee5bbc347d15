import Verif.Model.Indirect
/-!
# The constructors of the solution methods (methods/base/solutionmethodsbase.py, methods/classic/)

The problem is the first argument; all others are keywords.
-/
namespace Verif
namespace MethodCtor

/-- The value of an attribute; `obj` stands for any object that is not a number, a string or a truth
value. -/
inductive Val
  | none
  | bool (b : Bool)
  | int (n : Int)
  | str (s : String)
  | obj (n : Nat)
  deriving DecidableEq, Repr

/-- The two methods, directmethod.py:12 and indirectmethod.py:15. -/
inductive Class
  | direct
  | indirect
  deriving DecidableEq, Repr

/-- The instance attributes of a method. -/
abbrev Attrs := Dict String Val

/-- The class attributes, solutionmethodsbase.py:30-32. -/
def classAttrs : Attrs := [("degree", .int 3), ("degree_control", .int 1), ("finite_elements", .int 10)]

/-- An attribute of the instance, else of the class. -/
def plainAttr (a : Attrs) (k : String) : Except Err Val :=
  match a.get? k with
  | some v => .ok v
  | none => match classAttrs.get? k with
    | some v => .ok v
    | none => .error .attributeError

/-- `getattr(method, k)`; in the indirect method `degree_control` is a property,
indirectmethod.py:37-39. The other properties are not modelled. -/
def getAttr (c : Class) (a : Attrs) (k : String) : Except Err Val :=
  if c = .indirect ∧ k = "degree_control" then plainAttr a "degree" else plainAttr a k

/-- Properties without setter, solutionmethodsbase.py:100-123. -/
def readOnly : List String := ["model", "delta_t", "time_interpolation_controls"]

/-- `setattr(method, k, v)`; the setter of `degree_control`, indirectmethod.py:41-45. -/
def setAttr (c : Class) (a : Attrs) (kv : String × Val) : Except Err Attrs :=
  if c = .indirect ∧ kv.1 = "degree_control" then .error .valueError
  else if kv.1 ∈ readOnly then .error .attributeError
  else .ok (a.set kv.1 kv.2)

/-- The loop over `**kwargs`, solutionmethodsbase.py:80-81. -/
def setAll (c : Class) : Attrs → List (String × Val) → Except Err Attrs
  | a, [] => .ok a
  | a, kv :: kvs => match setAttr c a kv with
    | .error e => .error e
    | .ok a' => setAll c a' kvs

/-- The named arguments with their defaults, solutionmethodsbase.py:37-47. -/
def named : List (String × Val) := [
  ("integrator_type", .str "implicit"),
  ("discretization_scheme", .str "collocation"),
  ("initial_condition_as_parameter", .bool true),
  ("nlpsol_opts", .obj 0),
  ("initial_guess_heuristic", .str "simulation"),
  ("last_control_as_parameter", .bool false)]

/-- `**kwargs`: all keywords but the named ones. -/
def kwargs (given : Dict String Val) : Dict String Val :=
  given.filter fun kv => decide (kv.1 ∉ named.map (·.1))

/-- Attributes set before the keywords, solutionmethodsbase.py:61-64 and 73-78 (the problem is kept
apart). -/
def internals : List (String × Val) := [
  ("opt_problem", .none),
  ("solution_class", .str ""),
  ("prepared", .bool false),
  ("initial_guess_model", .none),
  ("initial_guess_in_transform", .none),
  ("initial_guess_out_transform", .none),
  ("parametrized_control", .bool false)]

/-- The attributes of the named arguments, solutionmethodsbase.py:67-72. -/
def namedAttrs (given : Dict String Val) : List (String × Val) :=
  named.map fun nd => (nd.1, (given.get? nd.1).getD nd.2)

/-- `v > 1`; no order on other values than numbers. -/
def isAboveOne : Val → Except Err Bool
  | .int n => .ok (decide (1 < n))
  | .bool _ => .ok false
  | _ => .error .typeError

/-- `DiscretizationSchemeBase.__init__`, discretizationschemebase.py:31-40. -/
def schemeCheck (c : Class) (hasDeltaU : Bool) (a : Attrs) : Except Err Unit := do
  let d ← getAttr c a "degree_control"
  let high ← isAboveOne d
  if high && hasDeltaU then .error .exception else .ok ()

/-- The last control, solutionmethodsbase.py:87-88. -/
def withLastControl (lastU : Bool) (a : Attrs) : Attrs :=
  if lastU then a.set "last_control_as_parameter" (.bool true) else a

/-- The choice of the scheme, solutionmethodsbase.py:90-98. -/
def chooseScheme (c : Class) (hasDeltaU : Bool) (a : Attrs) : Except Err Attrs := do
  let s ← getAttr c a "discretization_scheme"
  if s = .str "multiple-shooting" ∨ s = .str "collocation" then do
    schemeCheck c hasDeltaU a
    .ok (a.set "discretizer" s)
  else .error .exception

/-- `SolutionMethodsBase.__init__`, solutionmethodsbase.py:34-98, on an object with the attributes
`a`. A keyword `problem` or `self` is a second value for an argument (`TypeError`). The options of the
solver are in `Model/SolverOptions.lean`. -/
def baseInit (c : Class) (o : Ocp) (a : Attrs) (given : Dict String Val) : Except Err Attrs :=
  if given.has "problem" || given.has "self" then .error .typeError
  else do
    let a ← setAll c ((a.update internals).update (namedAttrs given)) (kwargs given)
    chooseScheme c o.hasDeltaU (withLastControl o.lastU.isSome a)

/-- `DirectMethod.__init__`, directmethod.py:13-26. -/
def directInit (o : Ocp) (given : Dict String Val) : Except Err Attrs := do
  let a ← baseInit .direct o [("cost_as_a_sum", .bool false)] given
  .ok ((a.set "solution_class" (.str "direct")).set "has_cost_state" (.bool false))

/-- `IndirectMethod.__init__`, indirectmethod.py:16-33, without the bounds. -/
def indirectInit (o : Ocp) (given : Dict String Val) : Except Err Attrs := do
  let a ← baseInit .indirect o
    [("create_cost_state", (given.get? "create_cost_state").getD (.bool false)),
      ("has_cost_state", .bool false)] (given.del "create_cost_state")
  .ok ((a.set "solution_class" (.str "indirect")).set "initial_guess_heuristic" (.str "problem_info"))

/-- `_check_bounds` at the end of the constructor of the indirect method, indirectmethod.py:35. -/
def finish (c : Class) : Py Ocp Unit :=
  match c with
  | .direct => Py.pure ()
  | .indirect => Indirect.checkBounds

/-- The attributes of the new method, before the check of the bounds. -/
def init (c : Class) (o : Ocp) (given : Dict String Val) : Except Err Attrs :=
  match c with
  | .direct => directInit o given
  | .indirect => indirectInit o given

/-- The constructor of a solution method. -/
def construct (c : Class) (given : Dict String Val) : Py Ocp Attrs := do
  let o ← Py.get
  let a ← Py.lift (init c o given)
  finish c
  Py.pure a

end MethodCtor
end Verif
