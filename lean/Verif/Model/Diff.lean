import Verif.Model.Expr
/-!
# Symbolic derivatives

CasADi's `gradient`, `jacobian` and `hessian` are external code. This file fixes what the model
assumes of them: the derivative follows the sum, product, quotient and chain rules. The derivatives
of the named operators (`sin`, `fmin`, ...) are a parameter, a `DiffTable`.
-/
namespace Verif.Expr

/-- The partial derivatives of the named operators, as expressions in their arguments. -/
structure DiffTable where
  un : Nat → Expr → Expr
  bin₁ : Nat → Expr → Expr → Expr
  bin₂ : Nat → Expr → Expr → Expr

/-- The partial derivative with respect to one symbol. -/
def diff (D : DiffTable) (s : Sym) : Expr → Expr
  | const _ => const 0
  | sym r => if r = s then const 1 else const 0
  | neg a => neg (diff D s a)
  | add a b => add (diff D s a) (diff D s b)
  | sub a b => sub (diff D s a) (diff D s b)
  | mul a b => add (mul (diff D s a) b) (mul a (diff D s b))
  | div a b => div (sub (mul (diff D s a) b) (mul a (diff D s b))) (mul b b)
  | un o a => mul (D.un o a) (diff D s a)
  | bin o a b => add (mul (D.bin₁ o a b) (diff D s a)) (mul (D.bin₂ o a b) (diff D s b))

/-- CasADi `gradient(e, v)`. -/
def gradient (D : DiffTable) (v : List Sym) (e : Expr) : List Expr := v.map fun s => diff D s e

/-- CasADi `hessian(e, v)`, the matrix, row by row. -/
def hessian (D : DiffTable) (v : List Sym) (e : Expr) : List (List Expr) :=
  (gradient D v e).map (gradient D v)

/-- CasADi `dot(a, b)` of two columns of one size. -/
def dot (a b : List Expr) : Expr := (List.zipWith mul a b).foldl add (const 0)

end Verif.Expr
