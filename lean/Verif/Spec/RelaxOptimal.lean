import Verif.Spec.Relax
import Verif.Spec.Indirect
import Mathlib.Algebra.BigOperators.Group.Finset.Basic
/-!
# Optimality of relaxed problems

A trajectory gives the values of all symbols at finitely many points. How the differential equations, the
boundary conditions and the path inequalities are discretised is left open.
-/
namespace Verif.Spec

variable {K : Type} [Field K] [LinearOrder K] {n : Nat}

/-- The values of the symbols at `n` points. -/
abbrev GridValues (K : Type) (n : Nat) := Fin n → Sym → K

/-- A way to discretise problems: the weights of the integral of the running cost, the last point, the
points with a stage cost, the points where path equalities with a given tag are imposed, consecutive
points for the limits on the change of controls, the values a control may have at the points (equal ones
within an element, say) and relations for everything else: the boundary conditions come with the initial
values of the states. -/
structure Scheme (K : Type) (n : Nat) where
  weight : Fin n → K
  last : Fin n
  stages : List (Fin n) := []
  holds : String → Fin n → Prop
  steps : List (Fin n × Fin n) := []
  control : (Fin n → K) → Prop := fun _ => True
  dynamics : List Sym → Dict Sym (Option Expr) → GridValues K n → Prop
  boundary : List Expr → List Expr → List Expr → List (Sym × Rat) → GridValues K n → Prop
  inequalities : List Expr → List String → GridValues K n → Prop

/-- Every variable is within its bounds. -/
def AllWithin (lo hi : List XRat) (vars : List Sym) (val : Sym → K) : Prop :=
  ∀ p ∈ vars.zip (lo.zip hi), Within p.2.1 p.2.2 (val p.1)

/-- The trajectory satisfies all constraints of the problem. -/
structure SatisfiesAll (ops : Expr.Ops K) (sch : Scheme K n) (o : Ocp) (tr : GridValues K n) : Prop where
  x : ∀ k, AllWithin o.xMin o.xMax o.model.x (tr k)
  y : ∀ k, AllWithin o.yMin o.yMax o.model.y (tr k)
  u : ∀ k, AllWithin o.uMin o.uMax o.model.u (tr k)
  control : ∀ v ∈ o.model.u, sch.control (fun k => tr k v)
  du : ∀ s ∈ sch.steps, AllWithin o.duMin o.duMax o.model.u (fun v => tr s.2 v - tr s.1 v)
  alg : ∀ k, ∀ e ∈ o.model.alg, e.eval ops (tr k) = 0
  eq : ∀ p ∈ o.gEq.zip o.timeGEq, ∀ k, sch.holds p.2 k → p.1.eval ops (tr k) = 0
  ineq : sch.inequalities o.gIneq o.timeGIneq tr
  dynamics : sch.dynamics o.model.x o.model.ode tr
  boundary : sch.boundary o.h o.hInitial o.hFinal (o.model.x.zip o.x0) tr

/-- The cost of a trajectory. -/
def costOf (ops : Expr.Ops K) (sch : Scheme K n) (o : Ocp) (tr : GridValues K n) : K :=
  ∑ k, sch.weight k * o.L.eval ops (tr k) + o.V.eval ops (tr sch.last) +
    (sch.stages.map fun k => o.S.eval ops (tr k)).sum

/-- The trajectory is a solution of the problem. -/
def Minimum (ops : Expr.Ops K) (sch : Scheme K n) (o : Ocp) (tr : GridValues K n) : Prop :=
  SatisfiesAll ops sch o tr ∧ ∀ tr', SatisfiesAll ops sch o tr' → costOf ops sch o tr ≤ costOf ops sch o tr'

/-- The trajectory with the given values for the symbols `par`. -/
def withValues (par : List Sym) (mult : GridValues K n) (tr : GridValues K n) : GridValues K n :=
  fun k s => if s ∈ par then mult k s else tr k s

/-- The trajectory is a solution of the problem for the given values of the symbols `par`, multipliers and
penalties. -/
def MinimumAt (ops : Expr.Ops K) (sch : Scheme K n) (o : Ocp) (par : List Sym) (mult : GridValues K n)
    (tr : GridValues K n) : Prop :=
  SatisfiesAll ops sch o tr ∧ ∀ tr', SatisfiesAll ops sch o tr' →
    costOf ops sch o (withValues par mult tr) ≤ costOf ops sch o (withValues par mult tr')

/-- The residuals of the equations are at most `ε` everywhere. -/
def ResidualsWithin (ops : Expr.Ops K) (ε : K) (r : List Expr) (tr : GridValues K n) : Prop :=
  ∀ k, ∀ e ∈ r, |e.eval ops (tr k)| ≤ ε

/-- No variable of the problem and no expression that matters here has a symbol from `next` on. -/
def Below (next : Sym) (o : Ocp) : Prop :=
  (∀ e ∈ o.L :: o.V :: o.S :: (o.model.alg ++ o.gEq), ∀ s ∈ e.syms, s < next) ∧
    ∀ s ∈ o.model.x ++ o.model.y ++ o.model.u, s < next

/-- The relations of the scheme do not depend on symbols the problem does not have. -/
def Blind (sch : Scheme K n) (next : Sym) (o : Ocp) : Prop :=
  ∀ tr tr' : GridValues K n, (∀ k, ∀ s < next, tr k s = tr' k s) →
    (sch.inequalities o.gIneq o.timeGIneq tr → sch.inequalities o.gIneq o.timeGIneq tr') ∧
    (sch.dynamics o.model.x o.model.ode tr → sch.dynamics o.model.x o.model.ode tr') ∧
    (sch.boundary o.h o.hInitial o.hFinal (o.model.x.zip o.x0) tr →
      sch.boundary o.h o.hInitial o.hFinal (o.model.x.zip o.x0) tr')

/-- Controls may have any values at the points: their degree is that of the collocation. -/
def FreeControls (sch : Scheme K n) : Prop := ∀ w, sch.control w

/-- The relaxed path equalities are imposed at every point. -/
def Everywhere (sch : Scheme K n) (o : Ocp) (idx : List Nat) : Prop :=
  ∀ tag ∈ entriesAt o.timeGEq idx, ∀ k, sch.holds tag k

/-- The variables that become controls, or get a control as a copy: the chosen algebraic variables and the
states with a bound. -/
def freed (o : Ocp) (a : Relax.Args) : List Sym :=
  (if a.alg o = [] then [] else entriesAt o.model.y (a.algVar o)) ++
    if a.stateBounds then entriesAt o.model.x (boundedStates o) else []

/-- Arguments with which the constructor relaxes constraints: the problem can be relaxed that way, it has
no guesses for the controls if bounds of states are relaxed, and the positions of path equalities are also
positions of algebraic equations that are left. -/
structure RelaxableCall (o : Ocp) (a : Relax.Args) : Prop where
  sized : Sized o
  algebraic : a.alg o = [] ∨ Relaxable o (a.alg o) (a.algVar o)
  bounds : a.stateBounds = true → o.uGuess = none ∧ (a.alg o = [] ∨ o.yGuess = none)
  time : Positions o.gEq a.time
  tags : o.timeGEq.length = o.gEq.length
  left : ∀ i ∈ a.time, i + (a.alg o).length < o.model.alg.length

end Verif.Spec
