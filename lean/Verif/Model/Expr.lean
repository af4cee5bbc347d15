import Verif.Model.Util
import Mathlib.Algebra.Field.Defs
import Mathlib.Data.Rat.Cast.Defs
/-!
# Symbolic expressions (CasADi `SX`/`MX` scalars)

CasADi itself is external code. This file fixes what the model assumes of it: an expression is a
tree; `substitute(e, v, w)` replaces all symbols of `v` simultaneously; evaluation is
compositional; `depends_on` is occurrence. CasADi's on-the-fly simplification is not modelled.
-/
namespace Verif

/-- A scalar expression. `un`/`bin` are the named operators (`sin`, `fmin`, comparison, ...),
which CasADi identifies by an operation code. -/
inductive Expr
  | const (q : Rat)
  | sym (s : Sym)
  | neg (a : Expr)
  | add (a b : Expr)
  | sub (a b : Expr)
  | mul (a b : Expr)
  | div (a b : Expr)
  | un (op : Nat) (a : Expr)
  | bin (op : Nat) (a b : Expr)
  deriving DecidableEq, Repr

namespace Expr

/-- Meaning of the named operators. -/
structure Ops (K : Type u) where
  un : Nat → K → K
  bin : Nat → K → K → K

/-- Value of an expression at an assignment of the symbols. -/
def eval {K : Type u} [Field K] (ops : Ops K) (ρ : Sym → K) : Expr → K
  | const q => (q : K)
  | sym s => ρ s
  | neg a => - eval ops ρ a
  | add a b => eval ops ρ a + eval ops ρ b
  | sub a b => eval ops ρ a - eval ops ρ b
  | mul a b => eval ops ρ a * eval ops ρ b
  | div a b => eval ops ρ a / eval ops ρ b
  | un o a => ops.un o (eval ops ρ a)
  | bin o a b => ops.bin o (eval ops ρ a) (eval ops ρ b)

/-- The symbols of an expression (`symvar`). -/
def syms : Expr → List Sym
  | const _ => []
  | sym s => [s]
  | neg a => syms a
  | add a b => syms a ++ syms b
  | sub a b => syms a ++ syms b
  | mul a b => syms a ++ syms b
  | div a b => syms a ++ syms b
  | un _ a => syms a
  | bin _ a b => syms a ++ syms b

/-- Apply a map from symbols to expressions. -/
def mapSyms (σ : Sym → Expr) : Expr → Expr
  | const q => const q
  | sym s => σ s
  | neg a => neg (mapSyms σ a)
  | add a b => add (mapSyms σ a) (mapSyms σ b)
  | sub a b => sub (mapSyms σ a) (mapSyms σ b)
  | mul a b => mul (mapSyms σ a) (mapSyms σ b)
  | div a b => div (mapSyms σ a) (mapSyms σ b)
  | un o a => un o (mapSyms σ a)
  | bin o a b => bin o (mapSyms σ a) (mapSyms σ b)

/-- The replacement of one symbol: the entry of `w` at the position of `s` in `v`. -/
def replacementOf : List Sym → List Expr → Sym → Expr
  | v :: vs, w :: ws, s => if s = v then w else replacementOf vs ws s
  | _, _, s => sym s

/-- CasADi `substitute(e, v, w)`: simultaneous replacement of `v[i]` by `w[i]`. (Callers pass
vectors of distinct symbols of the same size as `w`.) -/
def subst (v : List Sym) (w : List Expr) (e : Expr) : Expr := mapSyms (replacementOf v w) e

/-- CasADi `depends_on(e, vector)`. -/
def dependsOn (e : Expr) (v : List Sym) : Bool := v.any fun s => e.syms.contains s

end Expr

/-! ## `util.convert_expr_from_tau_to_time` and the `SystemModel` methods -/

/-- `convert_expr_from_tau_to_time(expr, t, tau, t_k, t_kp1)`, util.py:191-204, and
`SystemModel.convert_expr_from_tau_to_time`, system_model.py:462-466 (the same body with the
model's `t` and `tau`). -/
def convertTauToTime (expr : Expr) (t tau : Sym) (tk tkp1 : Rat) : Expr :=
  let h := tkp1 - tk
  expr.subst [tau] [.div (.sub (.sym t) (.const tk)) (.const h)]

/-- `SystemModel.convert_expr_from_time_to_tau`, system_model.py:456-460. -/
def convertTimeToTau (expr : Expr) (t tau : Sym) (tk tkp1 : Rat) : Expr :=
  let h := tkp1 - tk
  expr.subst [t] [.add (.mul (.sym tau) (.const h)) (.const tk)]

end Verif
