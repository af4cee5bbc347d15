import Verif.Model.Dae
/-!
# `SystemModel.simulate` and `DAESystem.simulate`

The CasADi integrator is a parameter: from the interval, the initial state, the parameter vector and
the optional guess of the algebraic variables it gives the final state and the final algebraic
variables. The control expression `f_u` is a parameter as well. Lists given for vectors have already
been turned into vectors.
-/
namespace Verif

/-- A numeric column vector. -/
abbrev Vec := List Rat

/-- A CasADi integrator: `t0 tf x0 p z0`. -/
abbrev Integrator := Rat → Rat → Vec → Vec → Option Vec → Vec × Vec

/-- `f_u(t, x, y, p, theta, u_par)`, system_model.py:641. -/
abbrev ControlFn := Rat → Vec → Vec → Vec → Vec → Vec → Vec

/-- The integrators the code can create, dae_system.py:274-279. -/
inductive Plugin
  | cvodes
  | idas
  | rk
  | collocation
  deriving DecidableEq, Repr

/-- Choice of the integrator, `_create_integrator`, dae_system.py:269-284. -/
def choosePlugin (d : Dae) (ty : String) : Except Err Plugin :=
  let ty := if ty = "explicit" then "rk" else ty
  if ty = "implicit" ∧ d.isDae = false then .ok .cvodes
  else if ty = "implicit" ∧ d.isDae = true then .ok .idas
  else if ty = "rk" then .ok .rk
  else if ty = "collocation" then .ok .collocation
  else if ty = "cvodes" then .ok .cvodes
  else if ty = "idas" then .ok .idas
  else .error .valueError

/-- `DAESystem.simulate(x_0, t_f, t_0, p, y_0, integrator_type)`, dae_system.py:191-245; `integ`
gives the CasADi integrator of a plugin. Integrator options are not modelled. -/
def Dae.simulate (d : Dae) (integ : Plugin → Integrator) (ty : String) (x0 : Vec) (tf t0 : Rat)
    (p : Vec) (y0 : Option Vec) : Except Err (Vec × Vec) :=
  if tf = t0 then .error .valueError
  else if (match d.tau with
      | some tau => d.dependsOn [tau]
      | none => false) then .error .attributeError
  else match choosePlugin d ty with
    | .error e => .error e
    | .ok pl => .ok (integ pl t0 tf x0 p (if d.isDae then y0 else none))

/-- The `u` argument: one vector for all elements, or a dictionary. -/
inductive UArg
  | const (u : Vec)
  | dict (d : Dict Nat Vec)
  deriving DecidableEq, Repr

/-- `u_sim`, system_model.py:623. -/
def UArg.toDict (u : UArg) (n : Nat) : Dict Nat Vec :=
  match u with
  | .dict d => d
  | .const v => (List.range n).map fun el => (el, v)

/-- The lists collected by `simulate`, system_model.py:632-636; inserted as entries `x`, `y`, `u` of
the returned `SimulationResult`. -/
structure SimOut where
  tx : List Rat
  tyu : List Rat
  x : List Vec
  y : List Vec
  u : List Vec
  deriving DecidableEq, Repr

/-- State of the loop: `t_k`, `x_k`, `y_k` and the lists. -/
structure SimState where
  t : Rat
  xk : Vec
  yk : Option Vec
  out : SimOut

/-- `d[k]`. -/
def dictGet (d : Dict Nat Vec) (k : Nat) : Except Err Vec :=
  match d.get? k with
  | some v => .ok v
  | none => .error .keyError

/-- Everything `simulate` gets besides the times and the initial point. -/
structure SimArgs where
  dae : Dae
  integ : Plugin → Integrator
  ty : String
  fu : ControlFn
  p : Vec
  theta : Dict Nat Vec
  u : Dict Nat Vec

/-- Loop body, system_model.py:643-668. -/
def SimArgs.step (a : SimArgs) (k : Nat) (tkpp : Rat) (s : SimState) : Except Err SimState := do
  let th ← dictGet a.theta k
  let u ← dictGet a.u k
  let r ← a.dae.simulate a.integ a.ty s.xk tkpp s.t (a.p ++ th ++ u) s.yk
  pure
    { t := tkpp
      xk := r.1
      yk := some r.2
      out :=
        { tx := s.out.tx ++ [tkpp]
          tyu := s.out.tyu ++ [tkpp]
          x := s.out.x ++ [r.1]
          y := s.out.y ++ [r.2]
          u := s.out.u ++ [a.fu tkpp r.1 r.2 a.p th u] } }

/-- `for k, t_kpp in enumerate(t_f)`, from index `k`. -/
def SimArgs.loop (a : SimArgs) : Nat → List Rat → SimState → Except Err SimState
  | _, [], s => .ok s
  | k, t :: ts, s => do
      let s' ← a.step k t s
      a.loop (k + 1) ts s'

/-- `simulate(x_0, t_f, t_0, u, p, theta, y_0, integrator_type)`, system_model.py:574-693. An empty
list of times makes `t_f[-1]` raise `IndexError`. -/
def SysModel.simulate (m : SysModel) (integ : Plugin → Integrator) (ty : Option String)
    (fu : ControlFn) (x0 : Vec) (tf : List Rat) (t0 : Rat) (u : UArg) (p : Vec)
    (theta : Option (Dict Nat Vec)) (y0 : Option Vec) : Except Err SimOut :=
  let th := theta.getD ((List.range tf.length).map fun k => (k, []))
  let us := u.toDict tf.length
  if tf.length > 1 ∧ us.length ≠ tf.length then .error .valueError
  else
    let a : SimArgs :=
      { dae := m.getDae
        integ := integ
        ty := ty.getD "implicit"
        fu := fu
        p := p
        theta := th
        u := us }
    match a.loop 0 tf ⟨t0, x0, y0, ⟨[t0], [], [x0], [], []⟩⟩ with
    | .error e => .error e
    | .ok s => if tf = [] then .error .indexError else .ok s.out

end Verif
