import Verif.Model.Ocp
import Verif.Model.Indirect
/-!
# A program that declares a problem

The creating calls of `OptimalControlProblem` (modelling/ocp.py), the including calls that take
expressions, and the assignment of costs. `SX.sym(name, size)` gives symbols that are not used
anywhere: symbols are numbers, and `next` is the first unused one. Sizes are numbers; names are not
modelled, nothing depends on them.
-/
namespace Verif

/-- A problem and the first symbol that is not in use. -/
structure Session where
  problem : Ocp
  next : Sym

/-- The statements of a program that declares a problem. -/
inductive Statement
  | createState (size : Nat) (ode : Option (List Expr)) (x0 : Option (List Rat))
      (xMax xMin : Option BArg) (hInitial : Option (List Expr))
  | createAlgebraic (size : Nat) (alg : Option (List Expr)) (yMax yMin : Option (List XRat))
      (yGuess : Option (List Rat))
  | createControl (size : Nat) (uMin uMax duMin duMax : Option (List XRat))
      (uGuess : Option (List Rat))
  | createParameter (size : Nat)
  | createTheta (size : Nat)
  | createParameterOpt (size : Nat) (lo hi : Option (List XRat))
  | createThetaOpt (size : Nat) (lo hi : Option (List XRat))
  | setParameterOpt (v : List Sym) (lo hi : Option (List XRat))
  | setThetaOpt (v : List Sym) (lo hi : Option (List XRat))
  | initialEquality (e : List Expr)
  | finalEquality (e : List Expr)
  | timeInequality (e : List Expr) (when : String)
  | timeEquality (e : List Expr) (when : String)
  | equality (e : List Expr)
  | systemEquations (ode : Option (List Expr)) (alg : List Expr)
  | setL (e : Expr)
  | setV (e : Expr)
  | setS (e : Expr)
  | setLastU (u : List Rat)

namespace Statement

/-- How many new symbols a statement makes. A new state comes with a symbol for its initial condition,
continuous_states_mixin.py:61-63. -/
def uses : Statement → Nat
  | createState n .. => n + n
  | createAlgebraic n .. => n
  | createControl n .. => n
  | createParameter n => n
  | createTheta n => n
  | createParameterOpt n .. => n
  | createThetaOpt n .. => n
  | _ => 0

/-- What a statement does to the problem, with the new symbols from `v` on: `create_state`,
ocp.py:180-194, `create_algebraic`, ocp.py:196-207, `create_control` (and `create_input`),
ocp.py:209-232, `create_parameter`, ocp.py:234-235 with parameter_mixin.py:31-46, `create_theta`,
ocp.py:237-238 with parameter_mixin.py:48-63, `create_optimization_parameter`, ocp.py:240-252,
`create_optimization_theta`, ocp.py:254-264; then the calls of ocp.py:288-289, 519-585 and 902-967;
and assignments of the attributes `L`, `V`, `S` and `last_u`. -/
def onProblem (v : Sym) : Statement → Py Ocp Unit
  | createState n ode x0 hi lo h => Ocp.includeState (newSyms v n) ode x0 lo hi h none false (v + n)
  | createAlgebraic n alg hi lo g => Ocp.includeAlgebraic (newSyms v n) alg lo hi g
  | createControl n lo hi dlo dhi g => Ocp.includeControl (newSyms v n) lo hi dlo dhi g
  | createParameter n => Ocp.onModel (SysModel.includeParameter (newSyms v n))
  | createTheta n => Ocp.onModel (SysModel.includeTheta (newSyms v n))
  | createParameterOpt n lo hi => Ocp.includeParameterOpt (newSyms v n) lo hi
  | createThetaOpt n lo hi => Ocp.includeThetaOpt (newSyms v n) lo hi
  | setParameterOpt w lo hi => Ocp.setParameterOpt w lo hi
  | setThetaOpt w lo hi => Ocp.setThetaOpt w lo hi
  | initialEquality e => Ocp.includeInitialEquality e
  | finalEquality e => Ocp.includeFinalEquality e
  | timeInequality e w => Ocp.includeTimeInequality e w
  | timeEquality e w => Ocp.includeTimeEquality e w
  | equality e => Ocp.includeEquality e
  | systemEquations ode alg => Ocp.includeSystemEquations ode alg
  | setL e => Py.modify fun o => { o with L := e }
  | setV e => Py.modify fun o => { o with V := e }
  | setS e => Py.modify fun o => { o with S := e }
  | setLastU u => Py.modify fun o => { o with lastU := some u }

/-- Execute a statement. -/
def run (st : Statement) : Py Session Unit := fun s =>
  ((st.onProblem s.next s.problem).1, ⟨(st.onProblem s.next s.problem).2, s.next + st.uses⟩)

end Statement

/-- A program; the first exception stops it. -/
def Session.program (sts : List Statement) : Py Session Unit := Py.forEach sts Statement.run

/-- `OptimalControlProblem(SystemModel(...), t_0=, t_f=)`: a problem without variables. -/
def Session.start (t0 tf : Rat) : Session := ⟨Ocp.new (SysModel.new 0 1) none t0 tf, 2⟩

end Verif
