import Verif.Model.Nlp
import Mathlib.Order.WithBot
/-!
# What an optimisation problem means
-/
namespace Verif.Spec
open Verif

/-- Variables and their bounds, and constraints and their bounds, have equal sizes. -/
structure NlpSized (n : Nlp) : Prop where
  xLb : n.xLb.length = n.x.length
  xUb : n.xUb.length = n.x.length
  gLb : n.gLb.length = n.g.length
  gUb : n.gUb.length = n.g.length

/-- No number is above the number it is paired with. -/
def Uncrossed (lb ub : List BVal) : Prop :=
  ∀ (i : Nat) (a b : XRat), lb[i]? = some (BVal.num a) → ub[i]? = some (BVal.num b) → a ≤ b

variable {K : Type} [Field K] [LinearOrder K]

/-- A number with infinities in place of the rationals with infinities. -/
def extended : XRat → WithBot (WithTop K) := WithBot.map (WithTop.map fun q : Rat => (q : K))

omit [Field K] [LinearOrder K] in
/-- A value among the numbers with infinities. -/
def finite (v : K) : WithBot (WithTop K) := ((v : WithTop K) : WithBot (WithTop K))

/-- The value of a bound at a point. -/
def boundValue (ops : Expr.Ops K) (ρ : Sym → K) : BVal → WithBot (WithTop K)
  | .num v => extended v
  | .sym e => finite (e.eval ops ρ)

/-- The value lies between the bounds. -/
def Between (ops : Expr.Ops K) (ρ : Sym → K) (lb ub : BVal) (v : K) : Prop :=
  boundValue ops ρ lb ≤ finite v ∧ finite v ≤ boundValue ops ρ ub

/-- The point satisfies the bounds of all variables and all constraints. -/
def Feasible (ops : Expr.Ops K) (n : Nlp) (ρ : Sym → K) : Prop :=
  (∀ (i : Nat) s lb ub, n.x[i]? = some s → n.xLb[i]? = some lb → n.xUb[i]? = some ub →
    Between ops ρ lb ub (ρ s)) ∧
  (∀ (i : Nat) e lb ub, n.g[i]? = some e → n.gLb[i]? = some lb → n.gUb[i]? = some ub →
    Between ops ρ lb ub (e.eval ops ρ))

/-- The `i`-th entry of a column where a scalar stands for every entry. -/
def entryAt {α : Type} (l : List α) (i : Nat) : Option α := if l.length = 1 then l[0]? else l[i]?

/-- What a bound argument says about entry `i`. -/
def argAt : BoundArg → Nat → Option BVal
  | .float v, _ => some (.num v)
  | .int k, _ => some (.num (XRat.fin k))
  | .col c, i => entryAt c.entries i

/-- What the right-hand side of an equality says about entry `i`: zero when it is not given. -/
def rhsAt : Option BoundArg → Nat → Option BVal
  | some b, i => argAt b i
  | none, _ => some (.num (XRat.fin 0))

/-- Entry `i` of a side of a comparison. -/
def sideAt : Nlp.Side → Nat → Option BVal
  | .const l, i => entryAt (l.map fun d => BVal.num d.value) i
  | .expr l, i => entryAt (l.map BVal.sym) i

/-- Number of entries of a side. -/
def sideSize : Nlp.Side → Nat
  | .const l => l.length
  | .expr l => l.length

/-- The comparison holds at a point for each entry. -/
def Holds (ops : Expr.Ops K) (ρ : Sym → K) (op : Op) (lhs rhs : Nlp.Side) : Prop :=
  ∀ i < max (sideSize lhs) (sideSize rhs), ∃ a b, sideAt lhs i = some a ∧ sideAt rhs i = some b ∧
    (op = .eq → boundValue ops ρ a = boundValue ops ρ b) ∧
    (op = .le → boundValue ops ρ a ≤ boundValue ops ρ b)

/-- A bound argument without structural zeros. -/
def DenseArg : BoundArg → Prop
  | .col (.dm l) => DmEntry.zero ∉ l
  | _ => True

/-- The bounds of variables are given without structural zeros. -/
def DenseCall : Nlp.Call → Prop
  | .includeVariable _ lb ub => DenseArg lb ∧ DenseArg ub
  | .createVariable _ lb ub => DenseArg lb ∧ DenseArg ub
  | _ => True

/-- The variables a call brings. -/
def variablesOf : Nlp.Call → List Sym
  | .includeVariable v _ _ => v
  | .createVariable v _ _ => v
  | _ => []

/-- The parameters a call brings. -/
def parametersOf : Nlp.Call → List Sym
  | .includeParameter v => v
  | _ => []

end Verif.Spec
