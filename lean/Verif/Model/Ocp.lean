import Verif.Model.SystemModel
import Mathlib.Order.WithBot
import Mathlib.Algebra.Order.Field.Rat
/-!
# `OptimalControlProblem` (modelling/ocp.py)

Bounds are rationals extended by `-inf` (`⊥`) and `inf` (`⊤`). A `DM` column is the list of its
entries. Costs `L`, `V`, `S` are scalar expressions (the code lets the user assign vectors and
rejects them before solving). `create_adjoint_states` is in `Model/Indirect.lean`, the quadratic cost
of the `obj=` keyword of the constructor in `Model/OcpCost.lean`; other attribute keywords are not
modelled.
-/
namespace Verif

/-- A bound: a number, `-inf` or `inf`. -/
abbrev XRat := WithBot (WithTop Rat)

/-- A finite bound. -/
abbrev XRat.fin (q : Rat) : XRat := ((q : WithTop Rat) : XRat)

/-- The attributes of the class, ocp.py:66-126. -/
structure Ocp where
  model : SysModel
  t0 : Rat := 0
  tf : Rat := 1
  x0 : List Rat := []
  xCost : Option Sym := none
  eta : List Sym := []
  pOpt : List Sym := []
  thetaOpt : List Sym := []
  xMax : List XRat := []
  yMax : List XRat := []
  uMax : List XRat := []
  duMax : List XRat := []
  pOptMax : List XRat := []
  thetaOptMax : List XRat := []
  xMin : List XRat := []
  yMin : List XRat := []
  uMin : List XRat := []
  duMin : List XRat := []
  pOptMin : List XRat := []
  thetaOptMin : List XRat := []
  h : List Expr := []
  hInitial : List Expr := []
  hFinal : List Expr := []
  gEq : List Expr := []
  gIneq : List Expr := []
  timeGEq : List String := []
  timeGIneq : List String := []
  L : Expr := .const 0
  V : Expr := .const 0
  S : Expr := .const 0
  lastU : Option (List Rat) := none
  yGuess : Option (List Rat) := none
  uGuess : Option (List Rat) := none
  positiveObjective : Bool := false
  deriving DecidableEq

/-- A bound argument of `include_state`: a `DM` column or a Python list. -/
inductive BArg
  | dm (v : List XRat)
  | list (v : List XRat)
  deriving DecidableEq

/-- A natural number given as an entry of a list. -/
def XRat.toNat? : XRat → Option Nat
  | none => none
  | some none => none
  | some (some q) => if q.den = 1 ∧ 0 ≤ q.num then some q.num.toNat else none

/-- The CasADi constructor `DM(*l)` applied to the numbers of a list: no argument gives the empty
matrix, one argument a scalar, two non-negative integers `n`, `m` the `n`-by-`m` matrix of
(structural) zeros; anything else is not a signature of the constructor (`NotImplementedError`).
Rationals do not distinguish `2` from `2.0`. -/
def dmCtor : List XRat → Except Err (List XRat)
  | [] => .ok []
  | [v] => .ok [v]
  | [a, b] =>
      match a.toNat?, b.toNat? with
      | some n, some m => .ok (List.replicate (n * m) (XRat.fin 0))
      | _, _ => .error .notImplementedError
  | _ => .error .notImplementedError

/-- The bound of `include_state` after the defaults and conversions, ocp.py:302-305 and
311-314. -/
def stateBound (default : XRat) (n : Nat) : Option BArg → Except Err (List XRat)
  | none => .ok (List.replicate n default)
  | some (.dm v) => .ok v
  | some (.list v) => dmCtor v

/-- `a - b` on CasADi columns: a scalar is broadcast, other size differences are a
`RuntimeError`. -/
def vecSub (a b : List Expr) : Except Err (List Expr) :=
  if a.length = b.length then .ok (List.zipWith Expr.sub a b)
  else match a, b with
    | [x], _ => .ok (b.map (Expr.sub x))
    | _, [y] => .ok (a.map (Expr.sub · y))
    | _, _ => .error .runtimeError

/-- `v[ind]` for a list of indices; an index out of range is a `RuntimeError`. -/
def gather {α : Type u} (v : List α) (ind : List Nat) : Except Err (List α) :=
  if ind.all (fun i => decide (i < v.length)) then .ok (ind.filterMap fun i => v[i]?)
  else .error .runtimeError

namespace Ocp

/-- `OptimalControlProblem(model, x_0=, t_0=, t_f=)`, ocp.py:66-126 (without the keywords `obj` and
others). `self.model` is a copy of the model. The difference `x - x_0` is for vectors of one size. -/
def new (m : SysModel) (x0 : Option (List Rat)) (t0 tf : Rat) : Ocp where
  model := m
  t0 := t0
  tf := tf
  x0 := x0.getD []
  xMax := List.replicate m.x.length ⊤
  yMax := List.replicate m.y.length ⊤
  uMax := List.replicate m.u.length ⊤
  duMax := List.replicate m.u.length ⊤
  xMin := List.replicate m.x.length ⊥
  yMin := List.replicate m.y.length ⊥
  uMin := List.replicate m.u.length ⊥
  duMin := List.replicate m.u.length ⊥
  hInitial := List.zipWith (fun a b => Expr.sub (.sym a) (.sym b)) m.x m.x0

/-- A method of the problem's model, `self.model.f(...)`. -/
def onModel {α : Type} (c : Py SysModel α) : Py Ocp α := fun o =>
  ((c o.model).1, { o with model := (c o.model).2 })

/-- Property `has_delta_u`, ocp.py:168-178. -/
def hasDeltaU (o : Ocp) : Bool :=
  (List.range o.model.u.length).any fun i =>
    decide (o.duMax[i]? ≠ some ⊤) || decide (o.duMin[i]? ≠ some ⊥)

/-- The symbols of the new initial conditions, as returned by `model.include_state`
(continuous_states_mixin.py:59-64 and 72). -/
def x0Symbols (var : List Sym) (x0Sym : Option (List Sym)) (fresh : Sym) : List Sym :=
  match x0Sym with
  | some v => v
  | none => (List.range var.length).map (fresh + ·)

/-- The initial constraint that is finally included, ocp.py:334-342: an initial value replaces the
given one. -/
def initialConstraint (x0 : Option (List Rat)) (hInitial : Option (List Expr)) (x0s var : List Sym) :
    Except Err (Option (List Expr)) :=
  match x0 with
  | some _ => (vecSub (x0s.map .sym) (var.map .sym)).map some
  | none => .ok hInitial

/-- `include_state(var, ode, x_0, x_min, x_max, h_initial, x_0_sym, suppress)`, ocp.py:291-345. -/
def includeState (var : List Sym) (ode : Option (List Expr)) (x0 : Option (List Rat))
    (xMin xMax : Option BArg) (hInitial : Option (List Expr)) (x0Sym : Option (List Sym))
    (suppress : Bool) (fresh : Sym) : Py Ocp Unit := do
  Py.raiseIf (x0.isNone && hInitial.isNone && !suppress) .exception
  let lo ← Py.lift (stateBound ⊥ var.length xMin)
  let hi ← Py.lift (stateBound ⊤ var.length xMax)
  Py.raiseIf (decide (var.length ≠ hi.length)) .valueError
  Py.raiseIf (decide (var.length ≠ lo.length)) .valueError
  Py.raiseIf (x0.any fun v => decide (var.length ≠ v.length)) .valueError
  onModel (SysModel.includeState var ode x0Sym fresh)
  Py.modify fun o => { o with x0 := o.x0 ++ x0.getD (List.replicate var.length 0) }
  let h ← Py.lift (initialConstraint x0 hInitial (x0Symbols var x0Sym fresh) var)
  Py.modify fun o => { o with hInitial := o.hInitial ++ h.getD [] }
  Py.modify fun o => { o with
    xMin := o.xMin ++ lo
    xMax := o.xMax ++ hi }

/-- The guess after `include_algebraic`, ocp.py:378-382. -/
def extendGuess (n : Nat) (old new : Option (List Rat)) : Option (List Rat) :=
  match old with
  | none => none
  | some g => some (g ++ new.getD (List.replicate n 0))

/-- `include_algebraic(var, alg, y_min, y_max, y_guess)`, ocp.py:347-386. -/
def includeAlgebraic (var : List Sym) (alg : Option (List Expr)) (yMin yMax : Option (List XRat))
    (yGuess : Option (List Rat)) : Py Ocp Unit := do
  let lo := yMin.getD (List.replicate var.length ⊥)
  let hi := yMax.getD (List.replicate var.length ⊤)
  Py.raiseIf (decide (var.length ≠ lo.length)) .valueError
  Py.raiseIf (decide (var.length ≠ hi.length)) .valueError
  Py.modify fun o => { o with yGuess := extendGuess var.length o.yGuess yGuess }
  onModel (SysModel.includeAlgebraic var alg)
  Py.modify fun o => { o with
    yMin := o.yMin ++ lo
    yMax := o.yMax ++ hi }

/-- "if passed a scalar but meant a vector of that scalar", ocp.py:434-442. -/
def broadcast {α : Type u} (n : Nat) (v : List α) : List α :=
  match v with
  | [a] => if n > 1 then List.replicate n a else [a]
  | _ => v

/-- A bound of `include_control` after defaults and broadcasting, ocp.py:398-405 and 434-442. -/
def controlBound (default : XRat) (n : Nat) (v : Option (List XRat)) : List XRat :=
  broadcast n (v.getD (List.replicate n default))

/-- The guess after `include_control`, ocp.py:481-485. -/
def controlGuess (nu : Nat) (old new : Option (List Rat)) : Option (List Rat) :=
  match new with
  | none => old
  | some g => if nu = 0 then some g else
      match old with
      | none => none
      | some g' => some (g' ++ g)

/-- `include_control(var, u_min, u_max, delta_u_min, delta_u_max, u_guess)`, ocp.py:388-487. The
bounds are extended before the model. -/
def includeControl (var : List Sym) (uMin uMax duMin duMax : Option (List XRat))
    (uGuess : Option (List Rat)) : Py Ocp Unit := do
  let lo := controlBound ⊥ var.length uMin
  let hi := controlBound ⊤ var.length uMax
  let dlo := controlBound ⊥ var.length duMin
  let dhi := controlBound ⊤ var.length duMax
  let o ← Py.get
  Py.raiseIf (uGuess.isNone && o.uGuess.isSome) .valueError
  Py.raiseIf (decide (var.length ≠ lo.length)) .valueError
  Py.raiseIf (decide (var.length ≠ hi.length)) .valueError
  Py.raiseIf (decide (var.length ≠ dlo.length)) .valueError
  Py.raiseIf (decide (var.length ≠ dhi.length)) .valueError
  Py.raiseIf (uGuess.any fun g => decide (var.length ≠ g.length)) .valueError
  Py.modify fun o => { o with
    uMin := o.uMin ++ lo
    uMax := o.uMax ++ hi
    duMin := o.duMin ++ dlo
    duMax := o.duMax ++ dhi
    uGuess := controlGuess o.model.u.length o.uGuess uGuess }
  onModel (SysModel.includeControl var)

/-- `set_parameter_as_optimization_parameter(new_p_opt, min, max)`, ocp.py:902-934. -/
def setParameterOpt (v : List Sym) (lo hi : Option (List XRat)) : Py Ocp Unit := do
  let lo := lo.getD (List.replicate v.length ⊥)
  let hi := hi.getD (List.replicate v.length ⊤)
  Py.raiseIf (decide (v.length ≠ hi.length)) .valueError
  Py.raiseIf (decide (v.length ≠ lo.length)) .valueError
  Py.modify fun o => { o with
    pOpt := o.pOpt ++ v
    pOptMin := o.pOptMin ++ lo
    pOptMax := o.pOptMax ++ hi }

/-- `set_theta_as_optimization_theta(new_theta_opt, min, max)`, ocp.py:936-967. -/
def setThetaOpt (v : List Sym) (lo hi : Option (List XRat)) : Py Ocp Unit := do
  let lo := lo.getD (List.replicate v.length ⊥)
  let hi := hi.getD (List.replicate v.length ⊤)
  Py.raiseIf (decide (v.length ≠ hi.length)) .valueError
  Py.raiseIf (decide (v.length ≠ lo.length)) .valueError
  Py.modify fun o => { o with
    thetaOpt := o.thetaOpt ++ v
    thetaOptMin := o.thetaOptMin ++ lo
    thetaOptMax := o.thetaOptMax ++ hi }

/-- `include_optimization_parameter(var, min, max)`, ocp.py:495-504, and
`create_optimization_parameter`, ocp.py:240-252 (with `var` the new symbols). -/
def includeParameterOpt (v : List Sym) (lo hi : Option (List XRat)) : Py Ocp Unit := do
  onModel (SysModel.includeParameter v)
  setParameterOpt v lo hi

/-- `include_optimization_theta(var, min, max)`, ocp.py:506-517, and `create_optimization_theta`,
ocp.py:254-264. -/
def includeThetaOpt (v : List Sym) (lo hi : Option (List XRat)) : Py Ocp Unit := do
  onModel (SysModel.includeTheta v)
  setThetaOpt v lo hi

/-- `include_initial_time_equality(eq)`, ocp.py:519-527. -/
def includeInitialEquality (e : List Expr) : Py Ocp Unit :=
  Py.modify fun o => { o with hInitial := o.hInitial ++ e }

/-- `include_final_time_equality(eq)`, ocp.py:529-537. -/
def includeFinalEquality (e : List Expr) : Py Ocp Unit :=
  Py.modify fun o => { o with hFinal := o.hFinal ++ e }

/-- `include_time_inequality(eq, when)`, ocp.py:539-556. -/
def includeTimeInequality (e : List Expr) (when : String) : Py Ocp Unit :=
  Py.modify fun o => { o with
    gIneq := o.gIneq ++ e
    timeGIneq := o.timeGIneq ++ List.replicate e.length when }

/-- `include_time_equality(eq, when)`, ocp.py:558-575. -/
def includeTimeEquality (e : List Expr) (when : String) : Py Ocp Unit :=
  Py.modify fun o => { o with
    gEq := o.gEq ++ e
    timeGEq := o.timeGEq ++ List.replicate e.length when }

/-- `include_equality(eq)`, ocp.py:577-585. -/
def includeEquality (e : List Expr) : Py Ocp Unit :=
  Py.modify fun o => { o with h := o.h ++ e }

/-- `include_system_equations(ode, alg)`, ocp.py:288-289. -/
def includeSystemEquations (ode : Option (List Expr)) (alg : List Expr) : Py Ocp Unit :=
  onModel (SysModel.includeEquations [] ode none alg)

/-- Removal from an optional guess. -/
def removeGuess (ind : List Int) : Option (List Rat) → Except Err (Option (List Rat))
  | none => .ok none
  | some g => (removeByIndices ind g).map some

/-- `remove_algebraic(var, eq)`, ocp.py:587-598. -/
def removeAlgebraic (var : List Sym) (eq : Option (List Expr)) : Py Ocp Unit := do
  let o ← Py.get
  let ind := ((findIndices var o.model.y).map Int.ofNat).reverse
  let hi ← Py.lift (removeByIndices ind o.yMax)
  Py.modify fun o => { o with yMax := hi }
  let lo ← Py.lift (removeByIndices ind o.yMin)
  Py.modify fun o => { o with yMin := lo }
  let g ← Py.lift (removeGuess ind o.yGuess)
  Py.modify fun o => { o with yGuess := g }
  onModel (SysModel.removeAlgebraic var eq)

/-- Removal of the bounds at some positions of the controls, ocp.py:603-610. -/
def removeControlBounds (ind : List Int) : Py Ocp Unit := do
  let o ← Py.get
  let hi ← Py.lift (removeByIndices ind o.uMax)
  Py.modify fun o => { o with uMax := hi }
  let lo ← Py.lift (removeByIndices ind o.uMin)
  Py.modify fun o => { o with uMin := lo }
  let dhi ← Py.lift (removeByIndices ind o.duMax)
  Py.modify fun o => { o with duMax := dhi }
  let dlo ← Py.lift (removeByIndices ind o.duMin)
  Py.modify fun o => { o with duMin := dlo }

/-- `remove_control(var)`, ocp.py:600-617. -/
def removeControl (var : List Sym) : Py Ocp Unit := do
  let o ← Py.get
  let ind := (findIndices var o.model.u).map Int.ofNat
  removeControlBounds ind
  let g ← Py.lift (removeGuess ind o.uGuess)
  Py.modify fun o => { o with uGuess := g }
  onModel (SysModel.removeControl var)

/-- `replace_variable(original, replacement)`, ocp.py:619-652. -/
def replaceVariable (v : List Sym) (w : List Expr) : Py Ocp Unit := do
  Py.raiseIf (decide (v.length ≠ w.length)) .valueError
  Py.modify fun o => { o with
    L := o.L.subst v w
    V := o.V.subst v w
    S := o.S.subst v w
    hInitial := o.hInitial.map (Expr.subst v w)
    hFinal := o.hFinal.map (Expr.subst v w)
    gIneq := o.gIneq.map (Expr.subst v w)
    gEq := o.gEq.map (Expr.subst v w)
    h := o.h.map (Expr.subst v w) }
  onModel (SysModel.replaceVariable v w)

/-- `parametrize_control(u, expr, u_par)`, ocp.py:654-662. -/
def parametrizeControl (u : List Sym) (expr : List Expr) (uPar : Option (List Sym)) :
    Py Ocp Unit := do
  onModel (SysModel.parametrizeControl u expr uPar)
  replaceVariable u expr

/-- The size comparisons of `pre_solve_check`, ocp.py:715-763, in order. -/
def sizeChecks (o : Ocp) : List (Nat × Nat) :=
  [(o.x0.length, o.model.x.length), (o.xMax.length, o.model.x.length),
   (o.yMax.length, o.model.y.length), (o.uMax.length, o.model.u.length),
   (o.xMin.length, o.model.x.length), (o.yMin.length, o.model.y.length),
   (o.uMin.length, o.model.u.length), (o.duMax.length, o.model.u.length),
   (o.duMin.length, o.model.u.length), (o.pOptMax.length, o.pOpt.length),
   (o.pOptMin.length, o.pOpt.length), (o.thetaOptMin.length, o.thetaOpt.length),
   (o.thetaOptMax.length, o.thetaOpt.length)]

/-- `pre_solve_check()`, ocp.py:698-763; the costs are scalars in the model. -/
def preSolveCheck (o : Ocp) : Except Err Unit :=
  if o.sizeChecks.any fun p => decide (p.1 ≠ p.2) then .error .exception else .ok ()

/-- `create_state(name, 1, ode, x_0, x_max, x_min, h_initial)`, ocp.py:180-194, with the new symbol
`xc` and the new initial condition symbol `fresh`. -/
def createState (xc : Sym) (ode : Option (List Expr)) (x0 : Option (List Rat))
    (xMin xMax : Option BArg) (hInitial : Option (List Expr)) (fresh : Sym) : Py Ocp Unit :=
  includeState [xc] ode x0 xMin xMax hInitial none false fresh

/-- `create_cost_state()`, ocp.py:768-779. -/
def createCostState (xc fresh : Sym) : Py Ocp Unit := do
  let o ← Py.get
  createState xc (some [o.L]) (some [0])
    (some (.dm [if o.positiveObjective then XRat.fin 0 else ⊥])) none none fresh
  Py.modify fun o => { o with xCost := some xc }

/-- The merged value of `last_u`, `y_guess` or `u_guess`, ocp.py:862-893; `n` is the size of the
model's vector before the merge. -/
def mergeGuess (n : Nat) (a b : Option (List Rat)) : Option (List Rat) :=
  match a, b with
  | none, some g => if n = 0 then some g else none
  | some g, some g' => some (g ++ g')
  | _, none => none

/-- The attributes changed by `merge` for one problem, ocp.py:829-897. -/
def mergeAttributes (o k : Ocp) : Ocp :=
  { o with
    x0 := o.x0 ++ k.x0
    eta := o.eta ++ k.eta
    pOpt := o.pOpt ++ k.pOpt
    thetaOpt := o.thetaOpt ++ k.thetaOpt
    xMax := o.xMax ++ k.xMax
    yMax := o.yMax ++ k.yMax
    uMax := o.uMax ++ k.uMax
    duMax := o.duMax ++ k.duMax
    pOptMax := o.pOptMax ++ k.pOptMax
    thetaOptMax := o.thetaOptMax ++ k.thetaOptMax
    xMin := o.xMin ++ k.xMin
    yMin := o.yMin ++ k.yMin
    uMin := o.uMin ++ k.uMin
    duMin := o.duMin ++ k.duMin
    pOptMin := o.pOptMin ++ k.pOptMin
    thetaOptMin := o.thetaOptMin ++ k.thetaOptMin
    h := o.h ++ k.h
    hInitial := o.hInitial ++ k.hInitial
    hFinal := o.hFinal ++ k.hFinal
    gEq := o.gEq ++ k.gEq
    gIneq := o.gIneq ++ k.gIneq
    timeGEq := o.timeGEq ++ k.timeGEq
    timeGIneq := o.timeGIneq ++ k.timeGIneq
    L := .add o.L k.L
    V := .add o.V k.V
    S := .add o.S k.S
    lastU := mergeGuess o.model.u.length o.lastU k.lastU
    yGuess := mergeGuess o.model.y.length o.yGuess k.yGuess
    uGuess := mergeGuess o.model.u.length o.uGuess k.uGuess
    positiveObjective := o.positiveObjective && k.positiveObjective }

/-- Loop body of `merge`, ocp.py:815-900. -/
def mergeOne (k : Ocp) : Py Ocp Unit := do
  let o ← Py.get
  Py.raiseIf (decide (o.t0 ≠ k.t0)) .valueError
  Py.raiseIf (decide (o.tf ≠ k.tf)) .valueError
  Py.modify fun o => mergeAttributes o k
  onModel (SysModel.merge [k.model] none)

/-- `merge(problems)`, ocp.py:810-900. -/
def merge (ks : List Ocp) : Py Ocp Unit := Py.forEach ks mergeOne

/-- `self.u_guess[ind_u]` appended to the guess of the algebraic variables, ocp.py:1008-1009. -/
def connectGuess (ind : List Nat) (yGuess uGuess : Option (List Rat)) :
    Except Err (Option (List Rat)) :=
  match yGuess, uGuess with
  | some g, some gu => (gather gu ind).map fun v => some (g ++ v)
  | g, _ => .ok g

/-- The part of `connect` for `replace=False`, ocp.py:1007-1012. -/
def connectBounds (ind : List Nat) : Py Ocp Unit := do
  let o ← Py.get
  let g ← Py.lift (connectGuess ind o.yGuess o.uGuess)
  Py.modify fun o => { o with yGuess := g }
  let hi ← Py.lift (gather o.uMax ind)
  Py.modify fun o => { o with yMax := o.yMax ++ hi }
  let lo ← Py.lift (gather o.uMin ind)
  Py.modify fun o => { o with yMin := o.yMin ++ lo }

/-- `if c: f`. -/
def when (c : Bool) (f : Py Ocp Unit) : Py Ocp Unit := if c then f else Py.pure ()

/-- `connect(u, y, replace)`, ocp.py:975-1025. -/
def connect (u : List Sym) (y : List Expr) (replace : Bool) : Py Ocp Unit := do
  Py.raiseIf (decide (u.length ≠ y.length)) .valueError
  let o ← Py.get
  let ind := findIndices u o.model.u
  onModel (SysModel.connect u y replace)
  when (!replace) (connectBounds ind)
  let hi ← Py.lift (removeByIndices (ind.map Int.ofNat) o.uMax)
  Py.modify fun o => { o with uMax := hi }
  let lo ← Py.lift (removeByIndices (ind.map Int.ofNat) o.uMin)
  Py.modify fun o => { o with uMin := lo }
  let g ← Py.lift (removeGuess (ind.map Int.ofNat) o.uGuess)
  Py.modify fun o => { o with uGuess := g }
  let dhi ← Py.lift (removeByIndices (ind.map Int.ofNat) o.duMax)
  Py.modify fun o => { o with duMax := dhi }
  let dlo ← Py.lift (removeByIndices (ind.map Int.ofNat) o.duMin)
  Py.modify fun o => { o with duMin := dlo }

/-- `get_p_opt_indices()`, ocp.py:969-970. -/
def pOptIndices (o : Ocp) : List Nat := findIndices o.pOpt o.model.p

/-- `get_theta_opt_indices()`, ocp.py:972-973. -/
def thetaOptIndices (o : Ocp) : List Nat := findIndices o.thetaOpt o.model.theta

/-! ## Histories of calls -/

/-- The public calls that change a problem. -/
inductive Call
  | includeState (var : List Sym) (ode : Option (List Expr)) (x0 : Option (List Rat))
      (xMin xMax : Option BArg) (hInitial : Option (List Expr)) (x0Sym : Option (List Sym))
      (suppress : Bool) (fresh : Sym)
  | includeAlgebraic (var : List Sym) (alg : Option (List Expr)) (yMin yMax : Option (List XRat))
      (yGuess : Option (List Rat))
  | includeControl (var : List Sym) (uMin uMax duMin duMax : Option (List XRat))
      (uGuess : Option (List Rat))
  | includeParameter (v : List Sym)
  | includeTheta (v : List Sym)
  | setParameterOpt (v : List Sym) (lo hi : Option (List XRat))
  | setThetaOpt (v : List Sym) (lo hi : Option (List XRat))
  | includeParameterOpt (v : List Sym) (lo hi : Option (List XRat))
  | includeThetaOpt (v : List Sym) (lo hi : Option (List XRat))
  | includeInitialEquality (e : List Expr)
  | includeFinalEquality (e : List Expr)
  | includeTimeInequality (e : List Expr) (when : String)
  | includeTimeEquality (e : List Expr) (when : String)
  | includeEquality (e : List Expr)
  | includeSystemEquations (ode : Option (List Expr)) (alg : List Expr)
  | removeAlgebraic (var : List Sym) (eq : Option (List Expr))
  | removeControl (var : List Sym)
  | replaceVariable (v : List Sym) (w : List Expr)
  | parametrizeControl (u : List Sym) (expr : List Expr) (uPar : Option (List Sym))
  | createCostState (xc fresh : Sym)
  | merge (ks : List Ocp)
  | connect (u : List Sym) (y : List Expr) (replace : Bool)

/-- Execute one call. -/
def Call.run : Call → Py Ocp Unit
  | .includeState var ode x0 lo hi h xs s f => Ocp.includeState var ode x0 lo hi h xs s f
  | .includeAlgebraic var alg lo hi g => Ocp.includeAlgebraic var alg lo hi g
  | .includeControl var lo hi dlo dhi g => Ocp.includeControl var lo hi dlo dhi g
  | .includeParameter v => onModel (SysModel.includeParameter v)
  | .includeTheta v => onModel (SysModel.includeTheta v)
  | .setParameterOpt v lo hi => Ocp.setParameterOpt v lo hi
  | .setThetaOpt v lo hi => Ocp.setThetaOpt v lo hi
  | .includeParameterOpt v lo hi => Ocp.includeParameterOpt v lo hi
  | .includeThetaOpt v lo hi => Ocp.includeThetaOpt v lo hi
  | .includeInitialEquality e => Ocp.includeInitialEquality e
  | .includeFinalEquality e => Ocp.includeFinalEquality e
  | .includeTimeInequality e w => Ocp.includeTimeInequality e w
  | .includeTimeEquality e w => Ocp.includeTimeEquality e w
  | .includeEquality e => Ocp.includeEquality e
  | .includeSystemEquations ode alg => Ocp.includeSystemEquations ode alg
  | .removeAlgebraic var eq => Ocp.removeAlgebraic var eq
  | .removeControl var => Ocp.removeControl var
  | .replaceVariable v w => Ocp.replaceVariable v w
  | .parametrizeControl u e up => Ocp.parametrizeControl u e up
  | .createCostState xc f => Ocp.createCostState xc f
  | .merge ks => Ocp.merge ks
  | .connect u y r => Ocp.connect u y r

/-- A program of calls; the first exception stops it. -/
def runCalls (calls : List Call) : Py Ocp Unit := Py.forEach calls Call.run

end Ocp
end Verif
