/-!
# Names of created variables (modelling/mixins/*.py, modelling/system_model.py)

A name is its list of characters.
-/
namespace Verif.VarNames

abbrev Name := List Char

/-- A digit. -/
def digit (d : Nat) : Char := Char.ofNat (48 + d)

/-- `str(n)`. -/
def decimal (n : Nat) : Name :=
  if n < 10 then [digit n] else decimal (n / 10) ++ [digit (n % 10)]

/-- A model: its name and `model_name_as_prefix`, system_model.py:42-66. -/
structure Owner where
  name : Name
  asPrefix : Bool := false

/-- `name_variable(name)`, system_model.py:129-132. -/
def nameVariable (o : Owner) (name : Name) : Name :=
  if o.asPrefix then o.name ++ '_' :: name else name

/-- The names of the entries of `SX.sym(name, size)`: CasADi numbers them when there is not exactly one. -/
def symNames (name : Name) (size : Nat) : List Name :=
  if size = 1 then [name] else (List.range size).map fun i => name ++ '_' :: decimal i

/-- The names of the entries of the variable made by `create_state`, `create_algebraic_variable`,
`create_control`, `create_parameter` or `create_theta`, continuous_states_mixin.py:36-54,
algebraic_mixin.py:24-40, control_mixin.py:34-51, parameter_mixin.py:30-64. Sizes are numbers of entries. -/
def create (o : Owner) (name : Name) (size : Nat) : List Name := symNames (nameVariable o name) size

/-- The names of the variables of several models, each with what was created in it, as they stand in the vectors
of a model they are put into. -/
def together (models : List (Owner × List (Name × Nat))) : List Name :=
  models.flatMap fun m => m.2.flatMap fun v => create m.1 v.1 v.2

end Verif.VarNames
