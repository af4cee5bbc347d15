import Verif.Model.Session
import Verif.Spec.SolveDirect
/-!
# Programs that declare a problem
-/
namespace Verif.Spec

/-- The variables an expression along the trajectory may mention. -/
def pathSymbols (o : Ocp) : List Sym :=
  [o.model.t, o.model.tau] ++ o.model.x ++ o.model.y ++ o.model.u ++ o.model.p ++ o.model.theta

/-- The expressions mention only these symbols. -/
def Mention (es : List Expr) (vars : List Sym) : Prop := ∀ e ∈ es, ∀ s ∈ e.syms, s ∈ vars

/-- The expressions a statement is given mention variables that the problem has after it (`o`), and of
the kinds that make sense in this place; the time tags are known ones; optimised parameters are
parameters that are not optimised already. -/
def SoundArguments (o : Ocp) : Statement → Prop
  | .createState _ ode _ _ _ h => Mention (ode.getD []) (pathSymbols o) ∧
      Mention (h.getD []) (o.model.x ++ o.model.x0)
  | .createAlgebraic _ alg _ _ _ => Mention (alg.getD []) (pathSymbols o)
  | .setParameterOpt _ _ _ => o.pOpt.Nodup ∧ ∀ v ∈ o.pOpt, v ∈ o.model.p
  | .setThetaOpt _ _ _ => o.thetaOpt.Nodup ∧ ∀ v ∈ o.thetaOpt, v ∈ o.model.theta
  | .initialEquality e => Mention e (o.model.x ++ o.model.x0)
  | .finalEquality e => Mention e (o.model.x ++ o.eta ++ o.model.p)
  | .timeInequality e when => Mention e (pathSymbols o) ∧ when ∈ ["start", "end", "default"]
  | .timeEquality e when => Mention e (pathSymbols o) ∧ when ∈ ["start", "end", "default"]
  | .equality e => Mention e o.model.p
  | .systemEquations ode alg => Mention (ode.getD [] ++ alg) (pathSymbols o)
  | .setL e => Mention [e] (pathSymbols o)
  | .setS e => Mention [e] (pathSymbols o)
  | .setV e => Mention [e] (o.model.x ++ o.model.p)
  | _ => True

/-- A program that runs to its end with sound arguments, from `s` to `s'`. -/
def Declares : List Statement → Session → Session → Prop
  | [], s, s' => s' = s
  | st :: sts, s, s' => ∃ s₁, st.run s = (.ok (), s₁) ∧ SoundArguments s₁.problem st ∧ Declares sts s₁ s'

/-- No lower bound is above its upper bound. -/
def NotCrossed (lo hi : List XRat) : Prop :=
  ∀ (i : Nat) (a b : XRat), lo[i]? = some a → hi[i]? = some b → a ≤ b

/-- What the user has to have declared in the end: a horizon, an equation for each state, a control,
algebraic equations only with algebraic variables, and bounds that are not crossed. -/
structure Finished (o : Ocp) : Prop where
  horizon : o.t0 < o.tf
  equations : ∀ v ∈ o.model.x, ∃ e, o.model.ode.get? v = some (some e)
  controls : o.model.u ≠ []
  algebraic : o.model.y = [] → o.model.alg = []
  x : NotCrossed o.xMin o.xMax
  y : NotCrossed o.yMin o.yMax
  u : NotCrossed o.uMin o.uMax
  du : NotCrossed o.duMin o.duMax
  pOpt : NotCrossed o.pOptMin o.pOptMax
  thetaOpt : NotCrossed o.thetaOptMin o.thetaOptMax
  last : ∀ u, o.lastU = some u → u.length = o.model.u.length

/-- Options a direct method with collocation can work with. -/
structure GoodOptions (opts : SolveDirect.Options) : Prop where
  mesh : GoodMesh (Spec.mesh opts)
  controlRoots : opts.controlRoots.Nodup
  initial : opts.initialConditionAsParameter = true

/-- Options multiple shooting can work with. -/
structure ShootingOptions (opts : SolveDirect.Options) : Prop where
  mesh : ControlMesh (Spec.mesh opts)
  controlRoots : opts.controlRoots.Nodup
  initial : opts.initialConditionAsParameter = true

/-- What multiple shooting asks for moreover: no constraints at the starts of the elements, and algebraic
variables only with algebraic equations. -/
structure FinishedForShooting (o : Ocp) : Prop extends Finished o where
  ends : ∀ tag ∈ o.timeGIneq ++ o.timeGEq, tag = "end" ∨ tag = "default"
  unknowns : o.model.alg = [] → o.model.y = []

/-- The symbols CasADi makes for the method are new. -/
structure UnusedNames (s : Session) (names : SolveDirect.NewNames) : Prop where
  costState : s.next ≤ names.xc
  initial : s.next ≤ names.fresh
  different : names.xc ≠ names.fresh
  points : names.xc < names.base ∧ names.fresh < names.base

/-- The path constraints a statement declares, with their time tags. -/
def declaredInequalities : Statement → List (Expr × String)
  | .timeInequality e w => e.map fun e => (e, w)
  | _ => []

/-- The path equalities a statement declares, with their time tags. -/
def declaredEqualities : Statement → List (Expr × String)
  | .timeEquality e w => e.map fun e => (e, w)
  | _ => []

/-- The terminal constraints a statement declares. -/
def declaredFinal : Statement → List Expr
  | .finalEquality e => e
  | _ => []

/-- The conditions on parameters a statement declares. -/
def declaredTimeless : Statement → List Expr
  | .equality e => e
  | _ => []

/-- The running cost a statement declares. -/
def declaredL : Statement → Option Expr
  | .setL e => some e
  | _ => none

/-- The final cost a statement declares. -/
def declaredV : Statement → Option Expr
  | .setV e => some e
  | _ => none

/-- The sum cost a statement declares. -/
def declaredS : Statement → Option Expr
  | .setS e => some e
  | _ => none

/-- The cost in force after a program: the one assigned last. -/
def lastCost (f : Statement → Option Expr) (before : Expr) (sts : List Statement) : Expr :=
  (sts.filterMap f).getLastD before

/-- A bound for `n` variables as the user asked for it: without one there is no limit, and a single
number is for all of them. -/
def askedBound (none? : XRat) (n : Nat) : Option (List XRat) → List XRat
  | none => List.replicate n none?
  | some [a] => List.replicate n a
  | some v => v

/-- The bounds of states. -/
def askedStateBound (none? : XRat) (n : Nat) : Option BArg → List XRat
  | none => List.replicate n none?
  | some (.dm v) => v
  | some (.list v) => v

/-- The bounds of new states: lower and upper. -/
def declaredX : Statement → List (XRat × XRat)
  | .createState n _ _ hi lo _ => (askedStateBound ⊥ n lo).zip (askedStateBound ⊤ n hi)
  | _ => []

/-- The bounds of new algebraic variables. -/
def declaredY : Statement → List (XRat × XRat)
  | .createAlgebraic n _ hi lo _ => (askedBound ⊥ n lo).zip (askedBound ⊤ n hi)
  | _ => []

/-- The bounds of new controls. -/
def declaredU : Statement → List (XRat × XRat)
  | .createControl n lo hi _ _ _ => (askedBound ⊥ n lo).zip (askedBound ⊤ n hi)
  | _ => []

/-- The limits on the changes of new controls. -/
def declaredDu : Statement → List (XRat × XRat)
  | .createControl n _ _ lo hi _ => (askedBound ⊥ n lo).zip (askedBound ⊤ n hi)
  | _ => []

/-- The bounds of optimised parameters. -/
def declaredPOpt : Statement → List (XRat × XRat)
  | .createParameterOpt n lo hi => (askedBound ⊥ n lo).zip (askedBound ⊤ n hi)
  | .setParameterOpt v lo hi => (askedBound ⊥ v.length lo).zip (askedBound ⊤ v.length hi)
  | _ => []

/-- The bounds of optimised element parameters. -/
def declaredThetaOpt : Statement → List (XRat × XRat)
  | .createThetaOpt n lo hi => (askedBound ⊥ n lo).zip (askedBound ⊤ n hi)
  | .setThetaOpt v lo hi => (askedBound ⊥ v.length lo).zip (askedBound ⊤ v.length hi)
  | _ => []

/-- The initial values of new states. -/
def declaredStart : Statement → List Rat
  | .createState n _ x0 _ _ _ => x0.getD (List.replicate n 0)
  | _ => []

/-- The initial conditions a statement declares itself. -/
def declaredInitial : Statement → List Expr
  | .createState _ _ none _ _ h => h.getD []
  | .initialEquality e => e
  | _ => []

/-- The algebraic equations a statement declares. -/
def declaredAlgebraic : Statement → List Expr
  | .createAlgebraic _ alg _ _ _ => alg.getD []
  | .systemEquations _ alg => alg
  | _ => []

/-- What the problem says is what the statements declared, in this order. -/
structure DeclaredBy (t0 tf : Rat) (sts : List Statement) (o : Ocp) : Prop where
  horizon : o.t0 = t0 ∧ o.tf = tf
  inequalities : o.gIneq.zip o.timeGIneq = sts.flatMap declaredInequalities
  equalities : o.gEq.zip o.timeGEq = sts.flatMap declaredEqualities
  final : o.hFinal = sts.flatMap declaredFinal
  timeless : o.h = sts.flatMap declaredTimeless
  L : o.L = lastCost declaredL (.const 0) sts
  V : o.V = lastCost declaredV (.const 0) sts
  S : o.S = lastCost declaredS (.const 0) sts
  algebraic : o.model.alg = sts.flatMap declaredAlgebraic
  start : o.x0 = sts.flatMap declaredStart
  y : o.yMin.zip o.yMax = sts.flatMap declaredY
  u : o.uMin.zip o.uMax = sts.flatMap declaredU
  du : o.duMin.zip o.duMax = sts.flatMap declaredDu
  pOpt : o.pOptMin.zip o.pOptMax = sts.flatMap declaredPOpt
  thetaOpt : o.thetaOptMin.zip o.thetaOptMax = sts.flatMap declaredThetaOpt

/-- How many states, algebraic variables, controls, parameters and element parameters a statement
creates. -/
structure Counts where
  x : Nat := 0
  y : Nat := 0
  u : Nat := 0
  p : Nat := 0
  theta : Nat := 0

/-- The kinds of the new variables of a statement. -/
def creates : Statement → Counts
  | .createState n _ _ _ _ _ => { x := n }
  | .createAlgebraic n _ _ _ _ => { y := n }
  | .createControl n _ _ _ _ _ => { u := n }
  | .createParameter n => { p := n }
  | .createTheta n => { theta := n }
  | .createParameterOpt n _ _ => { p := n }
  | .createThetaOpt n _ _ => { theta := n }
  | _ => {}

/-- The variables of one kind, when `v` is the first unused symbol. -/
def createdSymbols (count : Counts → Nat) : Sym → List Statement → List Sym
  | _, [] => []
  | v, st :: sts => (List.range (count (creates st))).map (v + ·) ++ createdSymbols count (v + st.uses) sts

/-- The variables of a problem are those the statements created, of the kinds they created. -/
structure CreatedBy (sts : List Statement) (m : SysModel) : Prop where
  x : m.x = createdSymbols Counts.x 2 sts
  y : m.y = createdSymbols Counts.y 2 sts
  u : m.u = createdSymbols Counts.u 2 sts
  p : m.p = createdSymbols Counts.p 2 sts
  theta : m.theta = createdSymbols Counts.theta 2 sts

/-- The state bounds of a statement are not given as lists of more than one number. -/
def ColumnBounds : Statement → Prop
  | .createState _ _ _ hi lo _ => (∀ v, hi = some (.list v) → v.length ≤ 1) ∧
      ∀ v, lo = some (.list v) → v.length ≤ 1
  | _ => True

/-- The initial conditions in force, when `v` is the first unused symbol: for a state created with an
initial value, that it starts at the value (which has a symbol of its own). -/
def initialConditions : Sym → List Statement → List Expr
  | _, [] => []
  | v, .createState n _ (some _) _ _ _ :: sts =>
      ((List.range n).map fun i => Expr.sub (.sym (v + n + i)) (.sym (v + i))) ++
        initialConditions (v + (n + n)) sts
  | v, st :: sts => declaredInitial st ++ initialConditions (v + st.uses) sts

/-- The states and their equations, when `v` is the first unused symbol. -/
def stateEquations : Sym → List Statement → List (Sym × Option Expr)
  | _, [] => []
  | v, .createState n none _ _ _ _ :: sts =>
      ((List.range n).map fun i => (v + i, none)) ++ stateEquations (v + (n + n)) sts
  | v, .createState n (some e) _ _ _ _ :: sts =>
      ((List.range n).map (v + ·)).zip (e.map some) ++ stateEquations (v + (n + n)) sts
  | v, st :: sts => stateEquations (v + st.uses) sts

/-- The program gives the equations of the states where it creates them. -/
def EquationsWithStates (sts : List Statement) : Prop := ∀ ode alg, .systemEquations (some ode) alg ∉ sts

end Verif.Spec
