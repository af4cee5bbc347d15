import Verif.Model.Dict
import Verif.Model.Expr
/-!
# `SystemModel`: the mixins and `modelling/system_model.py`

Class layout: `SystemModel(ContinuousStateMixin, AlgebraicMixin, ControlMixin, ParameterMixin)`.
Column vectors are lists, symbols are natural numbers. Methods are `Py` computations: when a call
raises, the object keeps whatever was assigned before the `raise`.
-/
namespace Verif

/-- The attributes of a `SystemModel`. `ode` is the private dictionary from states to equations
(`None` until an equation is given); `parametrized` is `_parametrized_controls`. Names are in
`Verif.Model.Names`; `verbosity` and `name` are not modelled. -/
structure SysModel where
  t : Sym
  tau : Sym
  x : List Sym := []
  x0 : List Sym := []
  ode : Dict Sym (Option Expr) := []
  y : List Sym := []
  alg : List Expr := []
  u : List Sym := []
  uExpr : List Expr := []
  uPar : List Sym := []
  parametrized : List Sym := []
  p : List Sym := []
  theta : List Sym := []
  hasAdjoint : Bool := false
  deriving DecidableEq, Repr

namespace SysModel

/-- `SystemModel()`, system_model.py:42-70 with the constructors of the mixins; `t` and `tau` are
new symbols. -/
def new (t tau : Sym) : SysModel := { t := t, tau := tau }

/-- Property `ode`, continuous_states_mixin.py:29-34: the equations that are not `None`. -/
def odeVec (m : SysModel) : List Expr := m.ode.values.filterMap id

/-- Property `system_type`, system_model.py:72-83 (`True` for `"dae"`). -/
def isDae (m : SysModel) : Bool := decide (m.y.length > 0)

/-- Property `x_sys_sym`, system_model.py:85-90. -/
def xSys (m : SysModel) : List Sym :=
  if m.hasAdjoint then m.x.take (m.x.length / 2) else m.x

/-- Property `lamb_sym`, system_model.py:92-97. -/
def lamb (m : SysModel) : List Sym :=
  if m.hasAdjoint then m.x.drop (m.x.length / 2) else []

/-- Property `all_sym`, system_model.py:99-108. -/
def allSym (m : SysModel) : List (List Sym) := [[m.t], m.x, m.y, m.p, m.theta, m.uPar]

/-! ## Equations -/

/-- A positional argument of `include_equations`: `der(x) == rhs`, an `SX` equality `lhs == rhs`,
or anything else (ignored by both mixins). -/
inductive EqArg
  | diff (inner : List Sym) (rhs : List Expr)
  | equality (lhs rhs : Expr)
  | other
  deriving DecidableEq, Repr

/-- Algebraic residual contributed by a positional argument, algebraic_mixin.py:118-120. -/
def EqArg.residuals : EqArg → List Expr
  | .equality l r => [.sub l r]
  | _ => []

/-- States contributed by a positional argument, continuous_states_mixin.py:156-159. -/
def EqArg.states : EqArg → List Sym
  | .diff inner _ => inner
  | _ => []

/-- Right-hand sides contributed by a positional argument, continuous_states_mixin.py:156-158. -/
def EqArg.rhss : EqArg → List Expr
  | .diff _ rhs => rhs
  | _ => []

/-- `AlgebraicMixin.include_equations`, algebraic_mixin.py:106-123. -/
def includeAlgEquations (args : List EqArg) (alg : List Expr) : Py SysModel Unit :=
  Py.modify fun m => { m with alg := m.alg ++ (alg ++ args.flatMap EqArg.residuals) }

/-- `_include_equation_from_kwargs(x, ode)`, continuous_states_mixin.py:138-149: `AssertionError`
on different sizes, `KeyError` for an unknown state (the loop that warns on overriding reads
`self._ode[x_i]`), then the dictionary is rebuilt. Entries of `ode` are dense; see
`includeSparse` in `Verif.Model.SparseOde` for structural zeros. -/
def includeFromKwargs (x : List Sym) (ode : List Expr) : Py SysModel Unit := fun m =>
  if ode.length ≠ x.length then (.error .assertionError, m)
  else if x.any (fun xi => !m.ode.has xi) then (.error .keyError, m)
  else (.ok (), { m with ode := m.ode.update (x.zip (ode.map some)) })

/-- `_include_equation_from_diff_equations(*args)`, continuous_states_mixin.py:151-162. -/
def includeFromDiff (args : List EqArg) : Py SysModel Unit :=
  includeFromKwargs (args.flatMap EqArg.states) (args.flatMap EqArg.rhss)

/-- `if len(args) > 0: self._include_equation_from_diff_equations(*args)`,
continuous_states_mixin.py:110-111. -/
def includeArgs (args : List EqArg) : Py SysModel Unit :=
  if args.length > 0 then includeFromDiff args else Py.pure ()

/-- The guess of the states, continuous_states_mixin.py:125-134. `list(values).index(None)` gives
the first `None` (`ValueError` if there is none); an equation in a slot before it raises. As every
slot before the first `None` holds an equation, this raises exactly when the first slot is not
`None`. (Comparing a CasADi expression with `None` inside `index` may raise already, with another
exception class; the model reports `ValueError`.) `vertcat()` of no states raises
`NotImplementedError`. -/
def guessStates (m : SysModel) (n : Nat) : Except Err (List Sym) :=
  match m.ode.values.findIdx? Option.isNone with
  | none => .error .valueError
  | some firstNone =>
    if (m.ode.values.take firstNone).any Option.isSome then .error .valueError
    else
      let xs := (m.ode.keys.drop firstNone).take n
      if xs = [] then .error .notImplementedError else .ok xs

/-- `include_equations(*args, ode=, x=, alg=)`, continuous_states_mixin.py:97-136 and
system_model.py:223-230. The algebraic part runs first. -/
def includeEquations (args : List EqArg) (ode : Option (List Expr)) (x : Option (List Sym))
    (alg : List Expr) : Py SysModel Unit := do
  includeAlgEquations args alg
  match ode, x with
  | none, some _ => Py.throw .valueError
  | none, none => includeArgs args
  | some e, some xs =>
      includeArgs args
      includeFromKwargs xs e
  | some e, none =>
      includeArgs args
      let m ← Py.get
      let xs ← Py.lift (guessStates m e.length)
      includeFromKwargs xs e

/-! ## States -/

/-- One pass of the loop creating slots, continuous_states_mixin.py:66-69. -/
def addSlot (xi : Sym) : Py SysModel Unit := fun m =>
  if m.ode.has xi then (.error .valueError, m)
  else (.ok (), { m with ode := m.ode.set xi none })

/-- `include_state(var, ode, x_0)`, continuous_states_mixin.py:56-72. `fresh`,
`fresh + 1`, ... are the new symbols made when `x_0` is not given (one per element; `vertcat()`
raises for an empty `var`). The vectors
are extended before the duplicate check. -/
def includeState (var : List Sym) (ode : Option (List Expr)) (x0 : Option (List Sym))
    (fresh : Sym) : Py SysModel Unit := do
  Py.modify fun m => { m with x := m.x ++ var }
  let x0v ← (match x0 with
    | some v => Py.pure v
    | none => if var = [] then Py.throw .notImplementedError else 
        Py.pure ((List.range var.length).map (fresh + ·)))
  Py.modify fun m => { m with x0 := m.x0 ++ x0v }
  Py.forEach var addSlot
  match ode with
  | none => Py.pure ()
  | some e => includeEquations [] (some e) (some var) []

/-- `create_state(name, size)`, continuous_states_mixin.py:36-54: `var` and `x0` are the new
symbols. -/
def createState (var x0 : List Sym) : Py SysModel Unit := includeState var none (some x0) 0

/-- `del self._ode[x_i]`, continuous_states_mixin.py:78. -/
def delSlot (xi : Sym) : Py SysModel Unit := fun m =>
  if m.ode.has xi then (.ok (), { m with ode := m.ode.del xi }) else (.error .keyError, m)

/-- `remove_state(var)`, continuous_states_mixin.py:74-78. `x_0` is not touched. -/
def removeState (var : List Sym) : Py SysModel Unit := do
  let m ← Py.get
  let x' ← Py.lift (removeVars var m.x)
  Py.modify fun m => { m with x := x' }
  Py.forEach var delSlot

/-! ## Algebraic variables and parameters -/

/-- `include_algebraic(var, alg)`, algebraic_mixin.py:76-79. -/
def includeAlgebraic (var : List Sym) (alg : Option (List Expr)) : Py SysModel Unit := do
  Py.modify fun m => { m with y := m.y ++ var }
  match alg with
  | none => Py.pure ()
  | some a => includeEquations [] none none a

/-- `remove_algebraic(var, eq)`, algebraic_mixin.py:81-84. Equations are compared with
`is_equal(..., depth)`, here structural equality. -/
def removeAlgebraic (var : List Sym) (eq : Option (List Expr)) : Py SysModel Unit := do
  let m ← Py.get
  let y' ← Py.lift (removeVars var m.y)
  Py.modify fun m => { m with y := y' }
  match eq with
  | none => Py.pure ()
  | some e => do
      let a ← Py.lift (removeVars e m.alg)
      Py.modify fun m => { m with alg := a }

/-- `include_parameter(p)`, parameter_mixin.py:62-63. -/
def includeParameter (p : List Sym) : Py SysModel Unit := Py.modify fun m => { m with p := m.p ++ p }

/-- `include_theta(theta)`, parameter_mixin.py:65-66. -/
def includeTheta (th : List Sym) : Py SysModel Unit :=
  Py.modify fun m => { m with theta := m.theta ++ th }

/-- `remove_parameter(var)`, parameter_mixin.py:68-69. -/
def removeParameter (var : List Sym) : Py SysModel Unit := do
  let m ← Py.get
  let p' ← Py.lift (removeVars var m.p)
  Py.modify fun m => { m with p := p' }

/-- `remove_theta(var)`, parameter_mixin.py:71-72. -/
def removeTheta (var : List Sym) : Py SysModel Unit := do
  let m ← Py.get
  let th' ← Py.lift (removeVars var m.theta)
  Py.modify fun m => { m with theta := th' }

/-! ## Replacement of variables -/

/-- Substitution in one slot of the equation table, continuous_states_mixin.py:93-95. -/
def substSlot (v : List Sym) (w : List Expr) : Option Expr → Option Expr
  | none => none
  | some e => some (e.subst v w)

/-- `replace_variable(original, replacement)`: continuous_states_mixin.py:80-95,
algebraic_mixin.py:86-104, control_mixin.py:65-78. Each mixin checks the sizes first, and they see
the same arguments, so the check is done once. -/
def replaceVariable (v : List Sym) (w : List Expr) : Py SysModel Unit := fun m =>
  if v.length ≠ w.length then (.error .valueError, m)
  else (.ok (), { m with
    uExpr := m.uExpr.map (Expr.subst v w)
    alg := m.alg.map (Expr.subst v w)
    ode := if v.length > 0 then m.ode.map fun kv => (kv.1, substSlot v w kv.2) else m.ode })

/-! ## Controls -/

/-- `include_control(var)`, control_mixin.py:53-56. -/
def includeControl (var : List Sym) : Py SysModel Unit :=
  Py.modify fun m => { m with
    u := m.u ++ var, uExpr := m.uExpr ++ var.map .sym, uPar := m.uPar ++ var }

/-- `remove_control(var)`, control_mixin.py:58-63. -/
def removeControl (var : List Sym) : Py SysModel Unit := do
  let m ← Py.get
  let ue ← Py.lift (removeByIndices ((findIndices var m.u).map Int.ofNat) m.uExpr)
  Py.modify fun m => { m with uExpr := ue }
  let u' ← Py.lift (removeVars var m.u)
  Py.modify fun m => { m with u := u' }
  let up ← Py.lift (removeVars var m.uPar)
  Py.modify fun m => { m with uPar := up }

/-- `control_is_parametrized(u)`, control_mixin.py:124-140, for one control. -/
def controlIsParametrized (m : SysModel) (ui : Sym) : Bool := m.parametrized.contains ui

/-- Body of the registration loop, control_mixin.py:95-99. -/
def registerParametrized (ui : Sym) : Py SysModel Unit := fun m =>
  if m.controlIsParametrized ui then (.error .valueError, m)
  else (.ok (), { m with parametrized := m.parametrized ++ [ui] })

/-- `parametrize_control(u, expr, u_par)`, control_mixin.py:80-107. -/
def parametrizeControl (u : List Sym) (expr : List Expr) (uPar : Option (List Sym)) :
    Py SysModel Unit := do
  Py.raiseIf (decide (u.length ≠ expr.length)) .valueError
  Py.forEach u registerParametrized
  let m ← Py.get
  let up ← Py.lift (removeVars u m.uPar)
  Py.modify fun m => { m with uPar := up }
  Py.whenSome uPar fun v => Py.modify fun m => { m with uPar := m.uPar ++ v }
  replaceVariable u expr

/-- `is_parametrized()`, system_model.py:359-366. -/
def isParametrized (m : SysModel) : Bool := decide (m.parametrized.length > 0)

/-- `has_variable(var)`, system_model.py:340-357. -/
def hasVariable (m : SysModel) (var : List Sym) : Bool :=
  decide ((findIndices var (m.x ++ m.y ++ m.u ++ m.p ++ m.theta ++ m.uPar)).length > 0)

/-! ## Merging and connecting -/

/-- `include_variables(x, y, u, p, theta)`, system_model.py:232-272. -/
def includeVariables (x y u p theta : Option (List Sym)) (fresh : Sym) : Py SysModel Unit := do
  Py.whenSome x fun v => includeState v none none fresh
  Py.whenSome y fun v => includeAlgebraic v none
  Py.whenSome u includeControl
  Py.whenSome p includeParameter
  Py.whenSome theta includeTheta

/-- Loop body of `include_models`, system_model.py:377-390. -/
def includeModel (k : SysModel) : Py SysModel Unit := do
  includeState k.x none (some k.x0) 0
  includeAlgebraic k.y none
  includeControl k.u
  includeParameter k.p
  includeTheta k.theta
  includeEquations [] (some k.odeVec) (some k.x) k.alg
  let m ← Py.get
  replaceVariable [k.t] [.sym m.t]
  replaceVariable [k.tau] [.sym m.tau]

/-- `include_models(models)`, system_model.py:368-390. -/
def includeModels (ks : List SysModel) : Py SysModel Unit := Py.forEach ks includeModel

/-- `merge(models_list, connecting_equations)`, system_model.py:392-403. -/
def merge (ks : List SysModel) (connecting : Option (List Expr)) : Py SysModel Unit := do
  includeModels ks
  match connecting with
  | none => Py.pure ()
  | some e => includeEquations [] none none e

/-- `connect(u, y, replace)`, system_model.py:405-427; `y` is a vector of expressions (usually
symbols) of the outputs. -/
def connect (u : List Sym) (y : List Expr) (replace : Bool) : Py SysModel Unit := do
  Py.raiseIf (decide (u.length ≠ y.length)) .assertionError
  if replace then replaceVariable u y
  else do
    includeEquations [] none none (u.zipWith (fun a b => Expr.sub (.sym a) b) y)
    includeAlgebraic u none
  removeControl u

/-! ## Histories of calls -/

/-- The public calls that change a model. -/
inductive Call
  | includeState (var : List Sym) (ode : Option (List Expr)) (x0 : Option (List Sym))
      (fresh : Sym)
  | removeState (var : List Sym)
  | includeAlgebraic (var : List Sym) (alg : Option (List Expr))
  | removeAlgebraic (var : List Sym) (eq : Option (List Expr))
  | includeControl (var : List Sym)
  | removeControl (var : List Sym)
  | parametrizeControl (u : List Sym) (expr : List Expr) (uPar : Option (List Sym))
  | includeParameter (p : List Sym)
  | removeParameter (p : List Sym)
  | includeTheta (th : List Sym)
  | removeTheta (th : List Sym)
  | includeEquations (args : List EqArg) (ode : Option (List Expr)) (x : Option (List Sym))
      (alg : List Expr)
  | replaceVariable (v : List Sym) (w : List Expr)
  | includeVariables (x y u p theta : Option (List Sym)) (fresh : Sym)
  | includeModels (ks : List SysModel)
  | merge (ks : List SysModel) (connecting : Option (List Expr))
  | connect (u : List Sym) (y : List Expr) (replace : Bool)
  deriving DecidableEq, Repr

/-- Execute one call. -/
def Call.run : Call → Py SysModel Unit
  | .includeState var ode x0 fresh => SysModel.includeState var ode x0 fresh
  | .removeState var => SysModel.removeState var
  | .includeAlgebraic var alg => SysModel.includeAlgebraic var alg
  | .removeAlgebraic var eq => SysModel.removeAlgebraic var eq
  | .includeControl var => SysModel.includeControl var
  | .removeControl var => SysModel.removeControl var
  | .parametrizeControl u e up => SysModel.parametrizeControl u e up
  | .includeParameter p => SysModel.includeParameter p
  | .removeParameter p => SysModel.removeParameter p
  | .includeTheta th => SysModel.includeTheta th
  | .removeTheta th => SysModel.removeTheta th
  | .includeEquations a o x g => SysModel.includeEquations a o x g
  | .replaceVariable v w => SysModel.replaceVariable v w
  | .includeVariables x y u p th fresh => SysModel.includeVariables x y u p th fresh
  | .includeModels ks => SysModel.includeModels ks
  | .merge ks c => SysModel.merge ks c
  | .connect u y r => SysModel.connect u y r

/-- A program of calls; the first exception stops it. -/
def runCalls (calls : List Call) : Py SysModel Unit := Py.forEach calls Call.run

end SysModel
end Verif
