import Verif.Model.AugLag
/-!
# Result of the augmented Lagrangian

`AugmentedLagrangian.solve` and `create_optimization_result`: what the method adds to the result of its
solver. The result of the solver itself is in `Model/Export.lean`.
-/
namespace Verif.AugLag
open Verif

variable {K : Type} [Field K] [LinearOrder K]

/-- Columns of `unvec(vector)`, solutionmethodsbase.py:220-230: `reshape` raises unless the sizes
agree. Simplification: for degree 0 the code raises `ZeroDivisionError`. -/
def unvec (degree : Nat) (v : List K) : Except Err (List (List K)) :=
  if v.length / degree * degree = v.length then
    .ok ((List.range degree).map fun d =>
      (v.drop (d * (v.length / degree))).take (v.length / degree))
  else .error .runtimeError

/-- `values[el]` of a dictionary with keys `0, …, n - 1`. -/
def atElement (values : List (List K)) (el : Nat) : Except Err (List K) :=
  match values[el]? with
  | some v => .ok v
  | none => .error .keyError

/-- `[[unvec(values[el])[:, d] for d in range(degree)] for el in range(finite_elements)]`,
augmented_lagrangian.py:809-815, 818-824 and 829-835. The solver has the degree of the method
(`C113_solver_agrees`), so every column exists. -/
def perPoint (o : Opts K) (values : List (List K)) : Except Err (List (List (List K))) :=
  (List.range o.elements).mapM fun el => (atElement values el).bind (unvec o.degree)

/-- `alg_violation` (rows `0, …, n_alg - 1`) or `eq_violation` (the other rows) of
`_compute_new_nu_and_error`, augmented_lagrangian.py:738-761: the columns of each element, one after
the other. Without rows they are empty, like in the code. -/
def violationRows (o : Opts K) (rows : List K → List K) (viol : List (List (List K))) :
    List (List K) :=
  (List.range o.elements).map fun el => (List.range o.degree).flatMap fun j => rows (violAt viol el j)

/-- The attributes `alg_violation` and `eq_violation`, augmented_lagrangian.py:228-237. -/
structure Stored (K : Type) where
  alg : List (List K)
  eq : List (List K)

/-- `alg_violation` and `eq_violation` after the loop of `call_solver`: the last computation of the
errors writes them, augmented_lagrangian.py:569-573 and 738-761. -/
def storedAfter (o : Opts K) (nAlg : Nat) (noUpdate : Bool) (before : Stored K)
    (viol : List (List (List K))) : Stored K :=
  if noUpdate || o.skipCompute then before
  else ⟨violationRows o (·.take nAlg) viol, violationRows o (·.drop nAlg) viol⟩

/-- What is added to the result: `other_data["nu"]`, `["alg_violation"]`, `["eq_violation"]`, the times
of all three and `statistics["violation_error"]`. -/
structure Result (K : Type) where
  nu : List (List (List K))
  alg : List (List (List K))
  eq : List (List (List K))
  time : List (List K)
  error : Option (List K)

/-- `create_optimization_result`, augmented_lagrangian.py:793-841, and `time_interpolation_nu`,
augmented_lagrangian.py:275-285. -/
def result (o : Opts K) (stored : Stored K) (s : St K) : Except Err (Result K) := do
  let nu ← perPoint o s.nu
  let alg ← perPoint o stored.alg
  let eq ← perPoint o stored.eq
  .ok ⟨nu, alg, eq, (List.range o.elements).map fun el => (List.range o.degree).map (o.timeNu el),
    s.lastError⟩

/-- `solve`, augmented_lagrangian.py:494-527. -/
def solveResult (o : Opts K) (nAlg : Nat) (noUpdate : Bool) (before : Stored K) (solve : Solver K) :
    Py (St K) (Result K) := do
  let viol ← callSolver o noUpdate solve
  let s ← Py.get
  Py.lift (result o (storedAfter o nAlg noUpdate before viol) s)

end Verif.AugLag
