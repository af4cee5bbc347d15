import Verif.Model.Dict
/-!
# The options of the solver (methods/base/solutionmethodsbase.py, optimization/)

Dictionaries are objects that may have several names. The dictionary 0 is the default argument
`nlpsol_opts={}` of the constructor of the solution methods, which Python makes once; the dictionary 1
is `config.SOLVER_OPTIONS["nlpsol_options"]`.
-/
namespace Verif
namespace SolverOptions

/-- A reference to a dictionary. -/
abbrev DictRef := Nat

/-- The default argument of the constructor, solutionmethodsbase.py:42. -/
def defaultArgument : DictRef := 0

/-- `config.SOLVER_OPTIONS["nlpsol_options"]`, config.py:11-25. -/
def configDict : DictRef := 1

/-- A solution method: its attribute `nlpsol_opts`; `solver` are the options its solver was created
with, `none` before the first call of the solver. -/
structure Method (V : Type) where
  opts : DictRef
  solver : Option (Dict String V) := none

/-- An optimisation problem made by the user: its attribute `solver_options`, and the options its
solver was created with. -/
structure Problem (V : Type) where
  opts : DictRef
  solver : Option (Dict String V) := none

/-- All dictionaries, methods and optimisation problems, in the order of their creation. -/
structure World (V : Type) where
  heap : List (Dict String V)
  methods : List (Method V) := []
  problems : List (Problem V) := []

variable {V : Type}

/-- The contents of a dictionary. -/
def World.dict (w : World V) (r : DictRef) : Dict String V := w.heap.getD r []

/-- `d[k] = v` for a dictionary that exists. -/
def World.setItem (w : World V) (r : DictRef) (k : String) (v : V) : World V :=
  { w with heap := w.heap.set r ((w.dict r).set k v) }

/-- Loop body of the constructor, solutionmethodsbase.py:83-85. -/
def addDefault (d : Dict String V) (kv : String × V) : Dict String V :=
  if d.has kv.1 then d else d.set kv.1 kv.2

/-- The loop, solutionmethodsbase.py:83-85. -/
def withDefaults (d config : Dict String V) : Dict String V := config.foldl addDefault d

/-- What a program does with options. -/
inductive Call (V : Type)
  /-- A new dictionary, `{...}`. -/
  | dictionary (d : Dict String V)
  /-- `method.nlpsol_opts[k] = v`, `problem.solver_options[k] = v`, `config.SOLVER_OPTIONS[...][k] = v`
  or an assignment to a dictionary of the user. -/
  | assign (r : DictRef) (k : String) (v : V)
  /-- The constructor of a solution method with or without `nlpsol_opts`. -/
  | method (given : Option DictRef)
  /-- The first or a later call of the solver of the method with this number. -/
  | solve (i : Nat)
  /-- The constructor of an optimisation problem with or without `solver_options`. -/
  | problem (given : Option DictRef)
  /-- The first or a later call of the solver of the optimisation problem with this number. -/
  | solveProblem (i : Nat)

/-- The solver of a method is created with the options of the first call and kept:
`create_optimization_problem` passes the dictionary of the method on, solutionmethodsbase.py:282;
`get_solver`, abstract_optimization_problem.py:397-405; `_create_solver`, nonlinear_problem.py:28-30. -/
def solverOf (d : Dict String V) : Option (Dict String V) → Dict String V
  | some s => s
  | none => d

/-- `SolutionMethodsBase.__init__`, solutionmethodsbase.py:70 and 83-85. -/
def World.newMethod (w : World V) (given : Option DictRef) : World V :=
  let r := given.getD defaultArgument
  { w with
    heap := w.heap.set r (withDefaults (w.dict r) (w.dict configDict))
    methods := w.methods ++ [{ opts := r }] }

/-- `NonlinearOptimizationProblem.__init__`, abstract_optimization_problem.py:50-55 and
nonlinear_problem.py:24-26: without options the problem has the dictionary of the configuration
itself. -/
def World.newProblem (w : World V) (given : Option DictRef) : World V :=
  { w with problems := w.problems ++ [{ opts := match given with
    | none => configDict
    | some r => if (w.dict r).isEmpty then configDict else r }] }

/-- The method after a call of its solver. -/
def World.solved (w : World V) (m : Method V) : Method V :=
  { m with solver := some (solverOf (w.dict m.opts) m.solver) }

/-- The optimisation problem after a call of its solver. -/
def World.solvedProblem (w : World V) (p : Problem V) : Problem V :=
  { p with solver := some (solverOf (w.dict p.opts) p.solver) }

/-- One step of a program. -/
def Call.run (w : World V) : Call V → World V
  | .dictionary d => { w with heap := w.heap ++ [d] }
  | .assign r k v => w.setItem r k v
  | .method given => w.newMethod given
  | .solve i => { w with methods := w.methods.modify i w.solved }
  | .problem given => w.newProblem given
  | .solveProblem i => { w with problems := w.problems.modify i w.solvedProblem }

/-- A program. -/
def runAll (w : World V) (cs : List (Call V)) : World V := cs.foldl Call.run w

/-- The start: the default argument and the configuration. -/
def World.start (config : Dict String V) : World V := { heap := [[], config] }

end SolverOptions
end Verif
