import Verif.Model.SystemModel
/-!
# `DAESystem` (modelling/dae_system.py) and `SystemModel.get_dae_system`
-/
namespace Verif

/-- A `DAESystem`, dae_system.py:36-73. Absent vectors are empty; `t` and `tau` are always given by
`get_dae_system`, `tau` may be missing when built by hand. -/
structure Dae where
  x : List Sym
  ode : List Expr
  t : Sym
  y : List Sym := []
  p : List Sym := []
  alg : List Expr := []
  tau : Option Sym := none
  deriving DecidableEq, Repr

/-- `get_dae_system()`, system_model.py:549-572: algebraic variables and equations are handed over
only when the model has algebraic variables; the parameters are `[p; theta; u_par]`. -/
def SysModel.getDae (m : SysModel) : Dae :=
  { x := m.x
    ode := m.odeVec
    t := m.t
    tau := some m.tau
    y := if m.isDae then m.y else []
    alg := if m.isDae then m.alg else []
    p := if m.p.length + m.theta.length + m.uPar.length > 0 then m.p ++ m.theta ++ m.uPar else [] }

namespace Dae

/-- Property `is_dae`, dae_system.py:75-96. -/
def isDae (d : Dae) : Bool := decide (d.alg.length ≠ 0)

/-- Property `dae_system_dict`, dae_system.py:105-125, as the list of (key, symbols or number of
equations); only the symbols matter here: `x`, `z`, `t`, `p`. -/
def inputs (d : Dae) : List Sym :=
  d.x ++ (if d.isDae then d.y else []) ++ [d.t] ++ (if d.p.length > 0 then d.p else [])

/-- `has_variable(var)`, dae_system.py:127-135. -/
def hasVariable (d : Dae) (var : List Sym) : Bool :=
  decide ((findIndices var (d.x ++ d.y ++ d.p ++ [d.t] ++ d.tau.toList)).length > 0)

/-- `depends_on(var)`, dae_system.py:137-141. -/
def dependsOn (d : Dae) (var : List Sym) : Bool := (d.ode ++ d.alg).any fun e => e.dependsOn var

/-- `convert_from_tau_to_time(t_k, t_kp1)`, dae_system.py:143-164 (`t` is always set in the model).-/
def convertFromTau (d : Dae) (tk tkp1 : Rat) : Except Err Dae :=
  match d.tau with
  | none => .error .attributeError
  | some tau => .ok { d with
      alg := d.alg.map fun e => convertTauToTime e d.t tau tk tkp1
      ode := d.ode.map fun e => convertTauToTime e d.t tau tk tkp1 }

/-- A vector of symbols after `substitute` of one symbol by another. -/
def substSyms (a b : Sym) (l : List Sym) : List Sym := l.map fun s => if s = a then b else s

/-- `substitute_variable(old_var, new_var)`, dae_system.py:166-174, for one symbol replaced by
another (the only use, in `join`). -/
def substituteVariable (d : Dae) (a b : Sym) : Dae :=
  { d with
    ode := d.ode.map (Expr.subst [a] [.sym b])
    alg := d.alg.map (Expr.subst [a] [.sym b])
    x := substSyms a b d.x
    y := substSyms a b d.y
    p := substSyms a b d.p }

/-- `if dae_sys.tau is not None and self.tau is not None: ...`, dae_system.py:188-189. -/
def joinTau (d d' : Dae) : Dae :=
  match d'.tau, d.tau with
  | some a, some b => d.substituteVariable a b
  | _, _ => d

/-- `join(dae_sys)`, dae_system.py:176-189. -/
def join (d d' : Dae) : Dae :=
  joinTau ((Dae.mk (d.x ++ d'.x) (d.ode ++ d'.ode) d.t (d.y ++ d'.y) (d.p ++ d'.p)
    (d.alg ++ d'.alg) d.tau).substituteVariable d'.t d.t) d'

end Dae
end Verif
