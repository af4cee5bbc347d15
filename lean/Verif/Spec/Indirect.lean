import Verif.Model.Ocp
import Verif.Spec.Equations
import Mathlib.Data.Real.Basic
import Mathlib.LinearAlgebra.Matrix.DotProduct
import Mathlib.Data.Matrix.Mul
/-!
# What the indirect method should do
-/
namespace Verif

/-- The value `v` satisfies the bounds: at least a finite lower bound, at most a finite upper bound,
and neither infinity is on the wrong side. -/
def Spec.Within {K : Type u} [Field K] [LinearOrder K] (lo hi : XRat) (v : K) : Prop :=
  lo ≠ ⊤ ∧ hi ≠ ⊥ ∧ (∀ q : Rat, lo = XRat.fin q → (q : K) ≤ v) ∧
    ∀ q : Rat, hi = XRat.fin q → v ≤ (q : K)

/-- The operators `fmin` and `fmax` are minimum and maximum. -/
def Spec.MinMax {K : Type u} [LinearOrder K] (ops : Expr.Ops K) (opMin opMax : Nat) : Prop :=
  (∀ a b, ops.bin opMin a b = min a b) ∧ ∀ a b, ops.bin opMax a b = max a b

/-- The Hamiltonian of a problem at a point: the running cost, plus the right-hand sides weighted
with the adjoints, plus the algebraic residuals weighted with their multipliers. -/
def Spec.hamiltonianAt {K : Type u} [Field K] (ops : Expr.Ops K) (o : Ocp) (lamb nu : List Sym)
    (ρ : Sym → K) : K :=
  o.L.eval ops ρ +
    (List.zipWith (fun l f => ρ l * f.eval ops ρ) lamb o.model.odeVec).sum +
    (List.zipWith (fun n g => ρ n * g.eval ops ρ) nu o.model.alg).sum

/-- The final cost plus the final constraints weighted with their multipliers. -/
def Spec.finalAt {K : Type u} [Field K] (ops : Expr.Ops K) (o : Ocp) (eta : List Sym)
    (mult : Sym → K) (ρ : Sym → K) : K :=
  o.V.eval ops ρ + (List.zipWith (fun h n => h.eval ops ρ * mult n) o.hFinal eta).sum

/-- The point `ρ` with the vector `v` at the values `w`. -/
def Spec.assign {K : Type u} (v : List Sym) (w : Fin v.length → K) (ρ : Sym → K) : Sym → K :=
  fun s => if h : v.idxOf s < v.length then w ⟨v.idxOf s, h⟩ else ρ s

/-- The quadratic function `c + g·w + ½ wᵀ A w`. -/
noncomputable def Spec.quadratic {n : Nat} (c : ℝ) (g : Fin n → ℝ) (A : Matrix (Fin n) (Fin n) ℝ)
    (w : Fin n → ℝ) : ℝ :=
  c + g ⬝ᵥ w + (1 / 2) * (w ⬝ᵥ A.mulVec w)

/-- Strict convexity of the quadratic function. -/
def Spec.StrictlyConvex {n : Nat} (A : Matrix (Fin n) (Fin n) ℝ) : Prop :=
  A.transpose = A ∧ ∀ d, d ≠ 0 → 0 < d ⬝ᵥ A.mulVec d

/-- The values of a matrix of expressions; missing entries count as zero. -/
def Spec.matrixAt {K : Type u} [Field K] (ops : Expr.Ops K) (ρ : Sym → K) (n : Nat)
    (M : List (List Expr)) : Matrix (Fin n) (Fin n) K :=
  Matrix.of fun i j => (((M[i.val]?).bind fun r : List Expr => r[j.val]?).map (Expr.eval ops ρ)).getD 0

/-- The controls `w` satisfy the bounds of the problem. -/
def Spec.InBounds (o : Ocp) (w : Fin o.model.u.length → ℝ) : Prop :=
  ∀ (i : Fin o.model.u.length) (lo hi : XRat), o.uMin[i.val]? = some lo →
    o.uMax[i.val]? = some hi → Spec.Within lo hi (w i)

end Verif
