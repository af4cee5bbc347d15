import Verif.Model.DistPrepare
import Verif.Spec.Network
import Verif.Spec.Relax
/-!
# What a node of the distributed method should look like
-/
namespace Verif.Spec
open Net DistPrepare

/-- The parameters of the approximation of coupling number `k`. -/
def couplingParams (degree : Nat) (next : Sym) (k : Nat) : List Sym :=
  List.range' (next + k * degree) degree

/-- The parameters of the first `n` couplings, coupling after coupling. -/
def allParams (degree : Nat) (next : Sym) (n : Nat) : List Sym :=
  (List.range n).flatMap (couplingParams degree next)

/-- `u - approximation of the output it is connected to`, for every input. -/
def inputEquations (o : Opts) (next : Sym) (ins : List Sym) : List Expr :=
  ins.zipIdx.map fun p => Expr.sub (.sym p.1) (o.approx (couplingParams o.degree next p.2))

/-- `approximation of the input it is connected to - y`, for every output; the couplings before are
`first`. -/
def outputEquations (o : Opts) (next : Sym) (first : Nat) (outs : List Sym) : List Expr :=
  outs.zipIdx.map fun p => Expr.sub (o.approx (couplingParams o.degree next (first + p.2))) (.sym p.1)

/-- The outputs of a list of connections. -/
def outputsOf (es : List Edge) : List Sym := es.flatMap (·.y)

/-- A problem whose inputs `ins` have become algebraic variables with the equations of the couplings,
and whose outputs have path equalities, everything else being the same; `alg`, `y` and `eq` are the
positions of the new equations, of the new variables and of the new path equalities. -/
structure Coupled (o : Opts) (next : Sym) (ins outs : List Sym) (p : Ocp) (s : Prep) : Prop where
  y : s.problem.model.y = p.model.y ++ ins
  alg : s.problem.model.alg = p.model.alg ++ inputEquations o next ins
  gEq : s.problem.gEq = p.gEq ++ outputEquations o next ins.length outs
  timeGEq : s.problem.timeGEq = p.timeGEq ++ List.replicate outs.length "default"
  theta : s.problem.model.theta = p.model.theta ++ allParams o.degree next (ins.length + outs.length)
  rest : JoinedProblem p ins { s.problem with gEq := p.gEq, timeGEq := p.timeGEq }
  ode : s.problem.model.ode = p.model.ode
  parameters : s.problem.model.p = p.model.p
  algInd : s.algInd = List.range' p.model.alg.length ins.length
  yRelax : s.yRelax = List.range' p.model.y.length ins.length
  eqInd : s.eqInd = List.range' p.gEq.length outs.length
  next : s.next = next + (ins.length + outs.length) * o.degree

/-- The connections of a node fit its problem: as many inputs as outputs, every input is a control of
the problem, with one connection only, and no algebraic variable. -/
structure Fits (p : Ocp) (ins outs : List Edge) : Prop where
  sized : Sized p
  controls : p.model.u.Nodup
  expressions : p.model.u.length = p.model.uExpr.length
  sizes : ∀ e ∈ ins, e.u.length = e.y.length ∧ e.u ≠ []
  sizesOut : ∀ e ∈ outs, e.u.length = e.y.length
  inputs : ∀ v ∈ inputsOf ins, v ∈ p.model.u ∧ v ∈ p.model.uPar
  distinct : (p.model.y ++ inputsOf ins).Nodup

/-- There are guesses for both controls and algebraic variables, of the right sizes, or for neither. -/
def GuessesFit (p : Ocp) : Prop :=
  (p.uGuess = none ∧ p.yGuess = none) ∨
  ∃ gu gy, p.uGuess = some gu ∧ p.yGuess = some gy ∧ gu.length = p.model.u.length ∧
    gy.length = p.model.y.length

/-- A node that can be solved on its own: its dynamics and constraints, with the inputs among its
controls, and the couplings as terms of the cost. Only the limits on the rates of the inputs are lost. -/
structure Decoupled (o : Opts) (next : Sym) (ins outs : List Sym) (p : Ocp) (r : Relax) : Prop where
  x : r.problem.model.x = p.model.x
  ode : r.problem.model.ode = p.model.ode
  y : r.problem.model.y = p.model.y
  alg : r.problem.model.alg = p.model.alg
  gEq : r.problem.gEq = p.gEq
  timeGEq : r.problem.timeGEq = p.timeGEq
  u : r.problem.model.u = p.model.u.filter (fun v => decide (v ∉ ins)) ++ ins
  uMax : ∀ v ∈ p.model.u,
    (bounds r.problem.model.u r.problem.uMax).lookup v = (bounds p.model.u p.uMax).lookup v
  uMin : ∀ v ∈ p.model.u,
    (bounds r.problem.model.u r.problem.uMin).lookup v = (bounds p.model.u p.uMin).lookup v
  yBounds : r.problem.yMin = p.yMin ∧ r.problem.yMax = p.yMax
  xBounds : r.problem.xMin = p.xMin ∧ r.problem.xMax = p.xMax
  duMax : ∀ v ∈ p.model.u, (bounds r.problem.model.u r.problem.duMax).lookup v =
    if v ∈ ins then some ⊤ else (bounds p.model.u p.duMax).lookup v
  duMin : ∀ v ∈ p.model.u, (bounds r.problem.model.u r.problem.duMin).lookup v =
    if v ∈ ins then some ⊥ else (bounds p.model.u p.duMin).lookup v
  sizes : r.problem.uMax.length = r.problem.model.u.length ∧
    r.problem.uMin.length = r.problem.model.u.length ∧
    r.problem.duMax.length = r.problem.model.u.length ∧ r.problem.duMin.length = r.problem.model.u.length
  inequalities : r.problem.gIneq = p.gIneq ∧ r.problem.timeGIneq = p.timeGIneq
  boundary : r.problem.h = p.h ∧ r.problem.hInitial = p.hInitial ∧ r.problem.hFinal = p.hFinal ∧
    r.problem.x0 = p.x0
  otherCosts : r.problem.V = p.V ∧ r.problem.S = p.S
  fresh : ∀ s ∈ r.nuSym ++ r.muSym, next + (ins.length + outs.length) * o.degree ≤ s
  theta : r.problem.model.theta = p.model.theta ++ allParams o.degree next (ins.length + outs.length)
  penalties : r.problem.model.p = p.model.p ++ r.muSym
  cost : CostPlus p r.problem r.nuSym r.muSym
    (inputEquations o next ins ++ outputEquations o next ins.length outs)

end Verif.Spec
