import Verif.Model.Ocp
/-!
# `AbstractOptimizationProblem` (optimization/abstract_optimization_problem.py)

Variables, parameters and constraints are columns; a vector variable is the list of its entries
(as symbols). Numbers are rationals with `-inf` and `inf`; `nan` is not modelled. An empty
constraint expression is a 0-by-1 column (the 0-by-0 `MX()` is not distinguished).
-/
namespace Verif

/-- An entry of a `DM` column: a stored number or a structural zero. -/
inductive DmEntry
  | num (v : XRat)
  | zero
  deriving DecidableEq

/-- The number an entry stands for. -/
def DmEntry.value : DmEntry → XRat
  | .num v => v
  | .zero => XRat.fin 0

/-- `v.nz`: the stored entries. -/
def DmEntry.stored : DmEntry → Option XRat
  | .num v => some v
  | .zero => none

/-- An entry of the bounds of the problem: a number, or an expression in symbols foreign to the
problem. -/
inductive BVal
  | num (v : XRat)
  | sym (e : Expr)
  deriving DecidableEq

/-- A column given as a bound: numbers (`DM`) or a symbolic expression that is not constant
(`MX`). -/
inductive Col
  | dm (l : List DmEntry)
  | mx (l : List Expr)
  deriving DecidableEq

namespace Col

/-- `numel()`. -/
def numel : Col → Nat
  | dm l => l.length
  | mx l => l.length

/-- `is_constant()`. -/
def isConstant : Col → Bool
  | dm _ => true
  | mx _ => false

/-- `depends_on(c, v)`. -/
def dependsOn (c : Col) (v : List Sym) : Bool :=
  match c with
  | dm _ => false
  | mx l => l.any fun e => e.dependsOn v

/-- The entries as stored in the problem. -/
def entries : Col → List BVal
  | dm l => l.map fun d => .num d.value
  | mx l => l.map .sym

/-- `if c.numel() == 1 and n > 1: c = repmat(c, n)`. -/
def spread (n : Nat) : Col → Col
  | dm l => dm (Ocp.broadcast n l)
  | mx l => mx (Ocp.broadcast n l)

end Col

/-- A bound argument: a Python `float` or `int`, or a column. -/
inductive BoundArg
  | float (v : XRat)
  | int (n : Int)
  | col (c : Col)
  deriving DecidableEq

/-- What `nlpsol`/`qpsol` is given, abstract_optimization_problem.py:383-394 (`get_problem_dict`).
The solver is an external function of these. -/
structure NlpDict where
  f : Option Expr
  g : List Expr
  x : List Sym
  p : List Sym
  deriving DecidableEq

/-- The attributes of the class, abstract_optimization_problem.py:22-55. `f` is `none` while it is
the empty `MX()`. The solver is represented by the problem it was made from. Names and
`solver_options` are not modelled. -/
structure Nlp where
  f : Option Expr := none
  g : List Expr := []
  x : List Sym := []
  p : List Sym := []
  gLb : List BVal := []
  gUb : List BVal := []
  xLb : List BVal := []
  xUb : List BVal := []
  solver : Option NlpDict := none
  deriving DecidableEq

namespace Nlp

/-- The bound of `include_variable` as a column, abstract_optimization_problem.py:135-138: only a
`float` is converted; an `int` has no `numel`. -/
def variableBound : BoundArg → Except Err Col
  | .float v => .ok (.dm [.num v])
  | .int _ => .error .attributeError
  | .col c => .ok c

/-- The comparison loop of `include_variable`, abstract_optimization_problem.py:161-168, on
`zip(lb.nz, variable.nz, ub.nz)`. The variable has as many entries as the bounds, so it does not
shorten the list. With a symbolic bound the comparison has no truth value (the class of the
exception is CasADi's; `exception` in the model). -/
def compareStored (lb ub : Col) : Except Err Unit :=
  match lb, ub with
  | .dm l, .dm u =>
      if ((l.filterMap DmEntry.stored).zip (u.filterMap DmEntry.stored)).any
          fun p => decide (p.2 < p.1)
      then .error .valueError else .ok ()
  | .mx l, .dm u =>
      if l = [] ∨ u.filterMap DmEntry.stored = [] then .ok () else .error .exception
  | .dm l, .mx u =>
      if l.filterMap DmEntry.stored = [] ∨ u = [] then .ok () else .error .exception
  | .mx l, .mx u => if l = [] ∨ u = [] then .ok () else .error .exception

/-- `include_variable(variable, lb, ub)`, abstract_optimization_problem.py:122-172. -/
def includeVariable (v : List Sym) (lb ub : BoundArg) : Py Nlp Unit := do
  let lb ← Py.lift (variableBound lb)
  let ub ← Py.lift (variableBound ub)
  let lb := lb.spread v.length
  let ub := ub.spread v.length
  Py.raiseIf (decide (v.length ≠ lb.numel) || decide (v.length ≠ ub.numel)) .valueError
  let n ← Py.get
  Py.raiseIf ((!lb.isConstant && lb.dependsOn n.p) || (!ub.isConstant && ub.dependsOn n.p))
    .valueError
  Py.lift (compareStored lb ub)
  Py.modify fun n => { n with
    x := n.x ++ v
    xLb := n.xLb ++ lb.entries
    xUb := n.xUb ++ ub.entries }

/-- `repmat` of a Python number in `create_variable`, abstract_optimization_problem.py:112-115. -/
def repeated (n : Nat) : BoundArg → BoundArg
  | .float v => .col (.dm (List.replicate n (.num v)))
  | .int k => .col (.dm (List.replicate n (.num (XRat.fin k))))
  | .col c => .col c

/-- `create_variable(name, size, lb, ub)`, abstract_optimization_problem.py:94-120; `v` are the new
symbols. -/
def createVariable (v : List Sym) (lb ub : BoundArg) : Py Nlp Unit :=
  includeVariable v (repeated v.length lb) (repeated v.length ub)

/-- `include_parameter(par)` and `create_parameter`, abstract_optimization_problem.py:174-193. -/
def includeParameter (v : List Sym) : Py Nlp Unit := Py.modify fun n => { n with p := n.p ++ v }

/-- `set_objective(expr)`, abstract_optimization_problem.py:195-211. An empty expression passes the
size check. -/
def setObjective (e : List Expr) : Py Nlp Unit := do
  Py.raiseIf (decide (e.length > 1)) .valueError
  Py.modify fun n => { n with f := e.head? }

/-- A bound of `include_inequality` as a column, abstract_optimization_problem.py:228-231, 241-247
and 255-261. -/
def inequalityBound (default : XRat) (n : Nat) : Option BoundArg → Col
  | none => .dm (List.replicate n (.num default))
  | some (.float v) => (Col.dm [.num v]).spread n
  | some (.int k) => (Col.dm [.num (XRat.fin k)]).spread n
  | some (.col c) => c.spread n

/-- `lb.is_constant() and ub.is_constant() and lb[i] > ub[i]` for some `i`,
abstract_optimization_problem.py:277-284. -/
def crossed : Col → Col → Bool
  | .dm l, .dm u => (l.zip u).any fun p => decide (p.2.value < p.1.value)
  | _, _ => false

/-- `include_inequality(expr, lb, ub)`, abstract_optimization_problem.py:213-288; `columns` is the
number of columns of the expression. -/
def includeInequality (e : List Expr) (columns : Nat) (lb ub : Option BoundArg) : Py Nlp Unit := do
  Py.raiseIf (decide (columns > 1)) .exception
  let lb := inequalityBound ⊥ e.length lb
  Py.raiseIf (decide (e.length ≠ lb.numel)) .valueError
  let ub := inequalityBound ⊤ e.length ub
  Py.raiseIf (decide (e.length ≠ ub.numel)) .valueError
  let n ← Py.get
  Py.raiseIf (lb.dependsOn (n.x ++ n.p) || ub.dependsOn (n.x ++ n.p)) .valueError
  Py.raiseIf (crossed lb ub) .valueError
  Py.modify fun n => { n with
    g := n.g ++ e
    gLb := n.gLb ++ lb.entries
    gUb := n.gUb ++ ub.entries }

/-- The right-hand side of `include_equality` as a column, abstract_optimization_problem.py:306-312. -/
def equalityRhs (n : Nat) : Option BoundArg → Col
  | none => .dm (List.replicate n (.num (XRat.fin 0)))
  | some (.float v) => (Col.dm [.num v]).spread n
  | some (.int k) => (Col.dm [.num (XRat.fin k)]).spread n
  | some (.col c) => c.spread n

/-- `include_equality(expr, rhs)`, abstract_optimization_problem.py:290-330. -/
def includeEquality (e : List Expr) (columns : Nat) (rhs : Option BoundArg) : Py Nlp Unit := do
  Py.raiseIf (decide (columns > 1)) .exception
  let rhs := equalityRhs e.length rhs
  Py.raiseIf (decide (e.length ≠ rhs.numel)) .valueError
  let n ← Py.get
  Py.raiseIf (rhs.dependsOn (n.x ++ n.p)) .valueError
  Py.modify fun n => { n with
    g := n.g ++ e
    gLb := n.gLb ++ rhs.entries
    gUb := n.gUb ++ rhs.entries }

/-- A side of a comparison: a constant node or another expression. -/
inductive Side
  | const (l : List DmEntry)
  | expr (l : List Expr)
  deriving DecidableEq

/-- `is_constant()`. -/
def Side.isConstant : Side → Bool
  | .const _ => true
  | .expr _ => false

/-- `depends_on(side, v)`. -/
def Side.dependsOn (s : Side) (v : List Sym) : Bool :=
  match s with
  | .const _ => false
  | .expr l => l.any fun e => e.dependsOn v

/-- The entries as expressions, for a side that is included as a constraint. A constant side is only
included as one when the other is not, and then its entries are numbers; infinite ones have no
expression and are written as zero (never reached: see `includeConstraint`). -/
def Side.exprs : Side → List Expr
  | .const l => l.map fun _ => .const 0
  | .expr l => l

/-- `include_constraint(lhs op rhs)`, abstract_optimization_problem.py:332-381, for columns.
`isEqual` is CasADi's `is_equal(indep_term_dm, expr.dep(1))` on the constant side, converted to
`DM` and back, and the right side. -/
def includeConstraint (isEqual : List DmEntry → Side → Bool) (op : Op) (lhs rhs : Side) :
    Py Nlp Unit := do
  Py.raiseIf (!isInequality op && !isEquality op) .valueError
  Py.raiseIf (lhs.isConstant && rhs.isConstant) .valueError
  let n ← Py.get
  Py.raiseIf (lhs.dependsOn (n.x ++ n.p) && rhs.dependsOn (n.x ++ n.p)) .valueError
  let dep := if lhs.dependsOn (n.x ++ n.p) then lhs else rhs
  let indep := if lhs.dependsOn (n.x ++ n.p) then rhs else lhs
  match indep with
  | .expr _ => Py.throw .notImplementedError
  | .const c =>
      if isEquality op then includeEquality dep.exprs 1 (some (.col (.dm c)))
      else if isEqual c rhs then includeInequality dep.exprs 1 none (some (.col (.dm c)))
      else includeInequality dep.exprs 1 (some (.col (.dm c))) none

/-! ## The solver -/

/-- `get_problem_dict()`, abstract_optimization_problem.py:383-394. -/
def problemDict (n : Nlp) : NlpDict := ⟨n.f, n.g, n.x, n.p⟩

/-- `get_solver()`, abstract_optimization_problem.py:396-404, with `_create_solver` of
nonlinear_problem.py:28-30 and quadratic_problem.py:25-29. -/
def getSolver : Py Nlp NlpDict := fun n =>
  match n.solver with
  | some s => (.ok s, n)
  | none => (.ok n.problemDict, { n with solver := some n.problemDict })

/-- A dictionary of solver arguments. -/
abbrev CallDict := Dict String (List BVal)

/-- `get_default_call_dict()`, abstract_optimization_problem.py:414-426. -/
def defaultCallDict (n : Nlp) : CallDict :=
  [("lbx", n.xLb), ("ubx", n.xUb), ("lbg", n.gLb), ("ubg", n.gUb)]

/-- Dictionaries in memory; a reference is a position. -/
abbrev Heap := List CallDict

/-- `d[key] = v` on the dictionary at a reference. -/
def assign (r : Nat) (key : String) (v : List BVal) : Py Heap Unit :=
  Py.modify fun h => h.modify r fun d => d.set key v

/-- `if v is not None: d[key] = v`. -/
def assignIf (r : Nat) (key : String) (v : Option (List BVal)) : Py Heap Unit :=
  Py.whenSome v (assign r key)

/-- A new dictionary in memory; its reference. -/
def alloc (d : CallDict) : Py Heap Nat := fun h => (.ok h.length, h ++ [d])

/-- Read the dictionary at a reference. -/
def deref (r : Nat) : Py Heap CallDict := fun h => (.ok (h[r]?.getD []), h)

/-- `if call_dict is None: call_dict = self.get_default_call_dict()`. -/
def callDictOr (n : Nlp) : Option Nat → Py Heap Nat
  | some r => Py.pure r
  | none => alloc n.defaultCallDict

/-- `_get_solver_call_args(initial_guess, call_dict, p, lam_x, lam_g)`,
abstract_optimization_problem.py:457-480; `callDict` is a reference to the caller's dictionary. The
result is a reference. -/
def callArgs (n : Nlp) (guess : Option (List BVal)) (callDict : Option Nat) (p : Option (List BVal))
    (lamX lamG : Option (List BVal)) : Py Heap Nat := do
  let r₀ ← callDictOr n callDict
  let d ← deref r₀
  let r ← alloc d
  assignIf r "x0" guess
  assignIf r "lam_x0" lamX
  assignIf r "lam_g0" lamG
  assign r "p" (p.getD [])
  Py.raiseIf (decide ((p.getD []).length ≠ n.p.length)) .valueError
  Py.pure r

/-! ## Histories of calls -/

/-- The public calls that change a problem. -/
inductive Call
  | includeVariable (v : List Sym) (lb ub : BoundArg)
  | createVariable (v : List Sym) (lb ub : BoundArg)
  | includeParameter (v : List Sym)
  | setObjective (e : List Expr)
  | includeInequality (e : List Expr) (columns : Nat) (lb ub : Option BoundArg)
  | includeEquality (e : List Expr) (columns : Nat) (rhs : Option BoundArg)
  | includeConstraint (isEqual : List DmEntry → Side → Bool) (op : Op) (lhs rhs : Side)
  | getSolver

/-- Forget the result of a call. -/
def discard {α : Type} (c : Py Nlp α) : Py Nlp Unit := Py.bind c fun _ => Py.pure ()

/-- Execute one call. -/
def Call.run : Call → Py Nlp Unit
  | .includeVariable v lb ub => Nlp.includeVariable v lb ub
  | .createVariable v lb ub => Nlp.createVariable v lb ub
  | .includeParameter v => Nlp.includeParameter v
  | .setObjective e => Nlp.setObjective e
  | .includeInequality e c lb ub => Nlp.includeInequality e c lb ub
  | .includeEquality e c r => Nlp.includeEquality e c r
  | .includeConstraint q op l r => Nlp.includeConstraint q op l r
  | .getSolver => discard Nlp.getSolver

/-- The problem after a history of calls; the caller catches exceptions. -/
def after (calls : List Call) (n : Nlp) : Nlp :=
  runHistory (fun c n => (c.run n).2) calls n

end Nlp
end Verif
