import Verif.Model.Relax
import Verif.Spec.Ocp
import Mathlib.Algebra.Order.Field.Basic
/-!
# What relaxing constraints should do
-/
namespace Verif.Spec

/-- The entries at the given positions, in that order. -/
def entriesAt {α : Type} (l : List α) (ind : List Nat) : List α := ind.filterMap fun i => l[i]?

/-- The entries at the other positions, in the order of the vector. -/
def otherEntries {α : Type} (l : List α) (ind : List Nat) : List α :=
  ((List.range l.length).filter fun i => decide (i ∉ ind)).filterMap fun i => l[i]?

/-- The positions are positions of the vector, each at most once. -/
def Positions {α : Type} (l : List α) (ind : List Nat) : Prop := ind.Nodup ∧ ∀ i ∈ ind, i < l.length

instance {α : Type} (l : List α) (ind : List Nat) : Decidable (Positions l ind) :=
  inferInstanceAs (Decidable (_ ∧ _))

/-- The augmented Lagrangian terms of constraints with values `r`: for each constraint
`nu * r + mu / 2 * r ^ 2`. -/
def augmentedTerms {K : Type} [Field K] (nu mu r : List K) : K :=
  ((nu.zip (mu.zip r)).map fun p => p.1 * p.2.2 + p.2.1 / 2 * p.2.2 ^ 2).sum

/-- The running cost of `o'` is the one of `o` plus the terms of the constraints `r`. -/
def CostPlus (o o' : Ocp) (nu mu : List Sym) (r : List Expr) : Prop :=
  nu.length = r.length ∧ mu.length = r.length ∧
  ∀ (K : Type) [Field K] [CharZero K] (ops : Expr.Ops K) (ρ : Sym → K),
    o'.L.eval ops ρ = o.L.eval ops ρ +
      augmentedTerms (nu.map ρ) (mu.map ρ) (r.map (Expr.eval ops ρ))

/-- The algebraic variables `vidx` of `o` are controls of `o'` with the same bounds, the equations
`idx` are gone, everything else is in its place. -/
structure AlgebraicRelaxed (o o' : Ocp) (idx vidx : List Nat) : Prop where
  u : o'.model.u = o.model.u ++ entriesAt o.model.y vidx
  uMin : o'.uMin = o.uMin ++ entriesAt o.yMin vidx
  uMax : o'.uMax = o.uMax ++ entriesAt o.yMax vidx
  y : o'.model.y = otherEntries o.model.y vidx
  yMin : o'.yMin = otherEntries o.yMin vidx
  yMax : o'.yMax = otherEntries o.yMax vidx
  alg : o'.model.alg = otherEntries o.model.alg idx
  x : o'.model.x = o.model.x
  ode : o'.model.ode = o.model.ode
  xMin : o'.xMin = o.xMin
  xMax : o'.xMax = o.xMax
  gEq : o'.gEq = o.gEq
  timeGEq : o'.timeGEq = o.timeGEq
  gIneq : o'.gIneq = o.gIneq
  timeGIneq : o'.timeGIneq = o.timeGIneq
  hInitial : o'.hInitial = o.hInitial
  hFinal : o'.hFinal = o.hFinal
  h : o'.h = o.h
  V : o'.V = o.V
  S : o'.S = o.S
  x0 : o'.x0 = o.x0
  duMin : o'.duMin = o.duMin ++ List.replicate (entriesAt o.model.y vidx).length ⊥
  duMax : o'.duMax = o.duMax ++ List.replicate (entriesAt o.model.y vidx).length ⊤

/-- What the caller has to give to relax algebraic equations: as many variables as equations, and
guesses for both algebraic variables and controls or for neither. -/
structure Relaxable (o : Ocp) (idx vidx : List Nat) : Prop where
  sized : Spec.Sized o
  distinctVariables : o.model.y.Nodup
  distinctEquations : o.model.alg.Nodup
  square : o.model.alg.length = o.model.y.length
  nonempty : idx ≠ []
  equations : Positions o.model.alg idx
  chosen : Positions o.model.y vidx
  same : idx.length = vidx.length
  guessSize : ∀ g, o.yGuess = some g → g.length = o.model.y.length
  guesses : o.uGuess.isSome → o.yGuess.isSome

/-- A state has a bound. -/
def BoundedState (o : Ocp) (i : Nat) : Bool :=
  decide (o.xMax[i]? ≠ some ⊤) || decide (o.xMin[i]? ≠ some ⊥)

/-- The states with a bound, in order. -/
def boundedStates (o : Ocp) : List Nat := (List.range o.model.x.length).filter (BoundedState o)

/-- The equations `copy - x` of copies of the states `ind`. -/
def copyEquations (o : Ocp) (copies : List Sym) (ind : List Nat) : List Expr :=
  List.zipWith (fun c x => Expr.sub (.sym c) (.sym x)) copies (entriesAt o.model.x ind)

/-- The multipliers `nu` and penalties `mu` (parameters of the problem, with value `mu0`) of the
constraints `r` have been added, with their terms in the cost. -/
def ConstraintsAdded (mu0 : Rat) (s s' : Relax) (r : List Expr) : Prop :=
  ∃ nu mu : List Sym, s'.nuSym = s.nuSym ++ nu ∧ s'.muSym = s.muSym ++ mu ∧
    s'.problem.model.p = s.problem.model.p ++ mu ∧
    s'.mu = s.mu ++ List.replicate r.length mu0 ∧
    s'.nRelax = s.nRelax + r.length ∧
    CostPlus s.problem s'.problem nu mu r

end Verif.Spec
