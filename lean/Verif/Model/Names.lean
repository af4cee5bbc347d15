import Verif.Model.SystemModel
/-!
# Looking variables up by name

The name of a symbol is a parameter `nm` (`SX.name()`), and so is `re.match` (`isMatch pattern
name`). Symbols are primitive, so `vector[i].name()` never raises.
-/
namespace Verif

/-- `find_variables_in_vector_by_name(names, vector, exact)`, util.py:48-78. -/
def findByName (nm : Sym → String) (isMatch : String → String → Bool) (names : List String)
    (vector : List Sym) (exact : Bool) : List Sym :=
  if exact then names.flatMap fun n => vector.filter fun s => decide (nm s = n)
  else names.flatMap fun n => vector.filter fun s => isMatch n (nm s)

/-- Literal patterns: without special characters `re.match` accepts every name that starts with the
pattern. -/
def literalMatch (pattern name : String) : Bool := pattern.toList.isPrefixOf name.toList

namespace SysModel

/-- `getattr(self, var_type)` for the documented variable types, system_model.py:334; other strings
are not attributes of the kind searched here and give `AttributeError`. -/
def varsOf (m : SysModel) (ty : String) : Except Err (List Sym) :=
  if ty = "x" then .ok m.x
  else if ty = "y" then .ok m.y
  else if ty = "u" then .ok m.u
  else if ty = "p" then .ok m.p
  else if ty = "theta" then .ok m.theta
  else .error .attributeError

/-- The loop over variable types, system_model.py:332-338. -/
def collectByNames (nm : Sym → String) (isMatch : String → String → Bool) (m : SysModel)
    (names : List String) : List String → List Sym → Except Err (List Sym)
  | [], acc => .ok acc
  | ty :: tys, acc => do
      let var ← m.varsOf ty
      collectByNames nm isMatch m names tys (acc ++ findByName nm isMatch names var false)

/-- `get_variables_by_names(names, var_type)`, system_model.py:313-338; `none` is the default
`var_type`. -/
def getVariablesByNames (nm : Sym → String) (isMatch : String → String → Bool) (m : SysModel)
    (names : List String) (varType : Option (List String)) : Except Err (List Sym) :=
  collectByNames nm isMatch m names (varType.getD ["x", "y", "u", "p", "theta"]) []

/-- `get_variable_by_name(name, var_type)`, system_model.py:285-311. -/
def getVariableByName (nm : Sym → String) (isMatch : String → String → Bool) (m : SysModel)
    (name : String) (varType : Option (List String)) : Except Err Sym :=
  match getVariablesByNames nm isMatch m [name] varType with
  | .error e => .error e
  | .ok [v] => .ok v
  | .ok _ => .error .valueError

end SysModel
end Verif
