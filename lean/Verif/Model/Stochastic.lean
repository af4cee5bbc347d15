import Verif.Model.OcpCost
import Verif.Model.Pce
/-!
# `StochasticOCP` (modelling/stochastic_ocp.py) and the conversion by `PCEConverter` (stochastic/pce.py)

A covariance matrix is a `Weight` (number of rows and columns, entries). Numbers, lists and `DM`s are
turned into columns by `vertcat` first; arguments here are those columns.
-/
namespace Verif

/-- `diagcat(a, b)`. -/
def Weight.diagcat (a b : Weight) : Weight where
  rows := a.rows + b.rows
  cols := a.cols + b.cols
  entry i j :=
    if i < a.rows ∧ j < a.cols then a.entry i j
    else if a.rows ≤ i ∧ a.cols ≤ j then b.entry (i - a.rows) (j - a.cols)
    else 0

/-- `DM()`. -/
def Weight.empty : Weight := ⟨0, 0, fun _ _ => 0⟩

/-- `numel()`. -/
def Weight.numel (a : Weight) : Nat := a.rows * a.cols

/-- Uncertain quantities: symbols, mean, covariance and distributions, stochastic_ocp.py:16-24. -/
structure Uncertain where
  syms : List Sym := []
  mean : List Rat := []
  cov : Weight := .empty
  dist : List String := []

/-- The attributes of a `StochasticOCP`, stochastic_ocp.py:11-26. -/
structure StochasticOcp where
  problem : Ocp
  ineq : List Expr := []
  rhs : List Rat := []
  prob : List Rat := []
  pUnc : Uncertain := {}
  x0Unc : Uncertain := {}

namespace StochasticOcp

/-- A call on the model of the problem. -/
def onModel {α : Type} (c : Py SysModel α) : Py StochasticOcp α := fun s =>
  ((Ocp.onModel c s.problem).1, { s with problem := (Ocp.onModel c s.problem).2 })

/-- The two size checks, stochastic_ocp.py:63-72 and 88-97. -/
def checkSizes (par : List Sym) (mean : List Rat) (cov : Weight) : Py StochasticOcp Unit := do
  Py.raiseIf (decide (par.length ≠ mean.length)) .valueError
  Py.raiseIf (decide (¬(cov.rows = mean.length ∧ cov.cols = mean.length))) .valueError

/-- The new covariance of the parameters, stochastic_ocp.py:77-80. -/
def joinParameterCov (old cov : Weight) : Weight :=
  if old.numel = 0 then cov else old.diagcat cov

/-- The new covariance of the initial conditions, stochastic_ocp.py:109-118. -/
def joinInitialCov (old cov : Weight) : Weight :=
  if cov.numel > 0 ∧ old.numel > 0 then old.diagcat cov
  else if cov.numel > 0 then cov
  else old

/-- `set_parameter_as_uncertain_parameter(par, mean, cov, distribution)`,
stochastic_ocp.py:56-81. -/
def setParameterUncertain (par : List Sym) (mean : List Rat) (cov : Weight) (dist : String) :
    Py StochasticOcp Unit := do
  checkSizes par mean cov
  Py.modify fun s => { s with pUnc :=
    { syms := s.pUnc.syms ++ par
      mean := s.pUnc.mean ++ mean
      cov := joinParameterCov s.pUnc.cov cov
      dist := s.pUnc.dist ++ List.replicate par.length dist } }

/-- `include_uncertain_parameter(par, mean, cov, distribution)`, stochastic_ocp.py:50-54, and
`create_uncertain_parameter(name, mean, var, size, distribution)`, stochastic_ocp.py:40-48, with `par`
the new symbols. -/
def includeUncertain (par : List Sym) (mean : List Rat) (cov : Weight) (dist : String) :
    Py StochasticOcp Unit := do
  onModel (SysModel.includeParameter par)
  setParameterUncertain par mean cov dist

/-- `set_initial_condition_as_uncertain(par, mean, cov, distribution)`, stochastic_ocp.py:83-118. -/
def setInitialUncertain (par : List Sym) (mean : List Rat) (cov : Weight) (dist : String) :
    Py StochasticOcp Unit := do
  checkSizes par mean cov
  Py.modify fun s => { s with x0Unc :=
    { syms := s.x0Unc.syms ++ par
      mean := s.x0Unc.mean ++ mean
      cov := joinInitialCov s.x0Unc.cov cov
      dist := s.x0Unc.dist ++ List.replicate par.length dist } }

/-- `include_time_chance_inequality(ineq, prob, rhs, when)`, stochastic_ocp.py:133-178. The second check
repeats the first one; `when` is not used. -/
def includeChance (ineq : List Expr) (prob : List Rat) (rhs : Option (List Rat)) (_when : String) :
    Py StochasticOcp Unit := do
  let rhs := rhs.getD (List.replicate ineq.length 0)
  Py.raiseIf (decide (ineq.length ≠ rhs.length)) .valueError
  Py.raiseIf (decide (ineq.length ≠ rhs.length)) .valueError
  Py.modify fun s => { s with
    ineq := s.ineq ++ ineq
    rhs := s.rhs ++ rhs
    prob := s.prob ++ prob }

/-- The calls of the class. -/
inductive Call
  | setParameter (par : List Sym) (mean : List Rat) (cov : Weight) (dist : String)
  | includeParameter (par : List Sym) (mean : List Rat) (cov : Weight) (dist : String)
  | setInitial (par : List Sym) (mean : List Rat) (cov : Weight) (dist : String)
  | chance (ineq : List Expr) (prob : List Rat) (rhs : Option (List Rat)) (when : String)

/-- Execute one call. -/
def Call.run : Call → Py StochasticOcp Unit
  | .setParameter par mean cov dist => setParameterUncertain par mean cov dist
  | .includeParameter par mean cov dist => includeUncertain par mean cov dist
  | .setInitial par mean cov dist => setInitialUncertain par mean cov dist
  | .chance ineq prob rhs when => includeChance ineq prob rhs when

/-- A history of calls on a new problem; exceptions are caught. -/
def history (o : Ocp) (cs : List Call) : StochasticOcp :=
  runHistory (fun c s => (c.run s).2) cs { problem := o }

/-- `getattr(model, name)` for the vectors of symbols of a `SystemModel`: the attributes set by the
constructors of system_model.py:42-70 and of the mixins, and the properties of
system_model.py:85-124. -/
def symbols (m : SysModel) (name : String) : Except Err (List Sym) :=
  if name = "x" then .ok m.x
  else if name = "x_0" then .ok m.x0
  else if name = "y" then .ok m.y
  else if name = "u" then .ok m.u
  else if name = "u_par" then .ok m.uPar
  else if name = "p" then .ok m.p
  else if name = "theta" then .ok m.theta
  else if name = "t" ∨ name = "t_sym" then .ok [m.t]
  else if name = "tau" ∨ name = "tau_sym" then .ok [m.tau]
  else if name = "x_sys_sym" then .ok m.xSys
  else if name = "lamb_sym" then .ok m.lamb
  else .error .attributeError

/-- `get_p_unc_indices()`, stochastic_ocp.py:125-126. -/
def uncertainIndices (s : StochasticOcp) : Except Err (List Nat) := do
  let p ← symbols s.problem.model "p_sym"
  .ok (findIndices s.pUnc.syms p)

/-- `get_p_without_p_unc()`, stochastic_ocp.py:120-123. -/
def certainParameters (s : StochasticOcp) : Except Err (List Sym) := do
  let ind ← s.uncertainIndices
  let p ← symbols s.problem.model "p_sym"
  removeByIndices (ind.map Int.ofNat) p

/-- `get_uncertain_initial_cond_indices()`, stochastic_ocp.py:128-131. -/
def initialIndices (s : StochasticOcp) : Except Err (List Nat) := do
  let x0 ← symbols s.problem.model "x_0_sym"
  .ok (findIndices s.x0Unc.syms x0)

/-- The number of samples of a converter, pce.py:41 and 55-56 with 58-68. -/
def numberOfSamples (s : StochasticOcp) (order : Nat) (given : Option Nat) : Nat :=
  given.getD (Pce.nPol (s.pUnc.syms.length + s.x0Unc.syms.length) order)

/-- The first statements of `_create_model`, pce.py:372-378: the control, parameter and element
parameter vectors of the new model. What follows is left out, see `convert`. -/
def startModel (s : StochasticOcp) (t tau : Sym) : Except Err SysModel := do
  let u ← symbols s.problem.model "u_sym"
  let p ← s.certainParameters
  let theta ← symbols s.problem.model "theta_sym"
  let m := { SysModel.new t tau with u := u, uExpr := u.map .sym, uPar := u }
  .ok { m with p := p, theta := theta }

/-- `convert_socp_to_ocp_with_pce()`, pce.py:145-168: samples (see `Pce.usedCovariances` and
`Pce.affineSample`), then the model. `rest` stands for everything after `startModel`. -/
def convert {α : Type} (s : StochasticOcp) (t tau : Sym) (rest : SysModel → Except Err α) :
    Except Err α := do
  let _ ← Pce.usedCovariances s.pUnc.syms.length s.x0Unc.syms.length (s.pUnc.dist ++ s.x0Unc.dist)
  let m ← s.startModel t tau
  rest m

end StochasticOcp
end Verif
