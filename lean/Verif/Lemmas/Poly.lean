import Verif.Model.Poly
import Mathlib.LinearAlgebra.Lagrange
import Mathlib.Data.List.Basic
/-! Lemmas connecting the list computation of the Lagrange basis with Mathlib's `Lagrange`. -/
namespace Verif

variable {K : Type u} [Field K]

theorem foldl_mul_if {α : Type*} (l : List α) (c : α → Bool) (f : α → K) (a : K) :
    l.foldl (fun ell x => if c x then ell * f x else ell) a =
      a * (l.map fun x => if c x then f x else 1).prod := by
  induction l generalizing a with
  | nil => simp
  | cons x l ih => by_cases h : c x <;> simp [ih, h, mul_assoc]

omit [Field K] in
theorem zipIdx_eq_ofFn (l : List K) (n : Nat) :
    l.zipIdx n = List.ofFn fun i : Fin l.length => (l.get i, n + i.val) := by
  apply List.ext_getElem
  · simp
  · intro i h₁ h₂; simp

theorem lagrangeFactor_eq (l : List K) (n : Nat) (tau : K) (j : Fin l.length) :
    lagrangeFactor (l.zipIdx n) tau (l.get j, n + j.val) =
      (Lagrange.basis Finset.univ l.get j).eval tau := by
  have h1 := foldl_mul_if (K := K) (l.zipIdx n) (fun rk => decide (rk.2 ≠ n + j.val))
    (fun rk => (tau - rk.1) / (l.get j - rk.1)) 1
  simp only [decide_eq_true_eq] at h1
  rw [lagrangeFactor, h1, one_mul, zipIdx_eq_ofFn, List.map_ofFn, List.prod_ofFn, Lagrange.basis,
    Polynomial.eval_prod, ← Finset.prod_erase (a := j)]
  · apply Finset.prod_congr rfl
    intro k hk
    have hk' : k ≠ j := (Finset.mem_erase.mp hk).1
    have : n + k.val ≠ n + j.val := fun h => hk' (Fin.ext (by omega))
    simp only [Function.comp, if_pos this, Lagrange.basisDivisor, Polynomial.eval_mul,
      Polynomial.eval_C, Polynomial.eval_sub, Polynomial.eval_X, div_eq_mul_inv]
    ring
  · simp

theorem map_lagrangeFactor (l : List K) (n : Nat) (tau : K) :
    (l.zipIdx n).map (lagrangeFactor (l.zipIdx n) tau) =
      List.ofFn fun j : Fin l.length => (Lagrange.basis Finset.univ l.get j).eval tau := by
  have h : (l.zipIdx n).map (lagrangeFactor (l.zipIdx n) tau) =
      (List.ofFn fun i : Fin l.length => (l.get i, n + i.val)).map
        (lagrangeFactor (l.zipIdx n) tau) := congrArg _ (zipIdx_eq_ofFn l n)
  rw [h, List.map_ofFn]
  congr 1
  funext j
  exact lagrangeFactor_eq l n tau j

theorem lagrangeBasisUtil_eq (roots : List K) (b : Bool) (tau : K) :
    lagrangeBasisUtil roots b tau =
      List.ofFn fun j : Fin (if b then 0 :: roots else roots).length =>
        (Lagrange.basis Finset.univ (if b then 0 :: roots else roots).get j).eval tau :=
  map_lagrangeFactor _ 0 tau

theorem lagrangeBasisMethod_zero (roots : List K) (tau : K) :
    lagrangeBasisMethod roots 0 tau =
      List.ofFn fun j : Fin (0 :: roots).length =>
        (Lagrange.basis Finset.univ (0 :: roots).get j).eval tau :=
  map_lagrangeFactor (0 :: roots) 0 tau

theorem lagrangeBasisMethod_one (roots : List K) (tau : K) :
    lagrangeBasisMethod roots 1 tau =
      List.ofFn fun j : Fin roots.length =>
        (Lagrange.basis Finset.univ roots.get j).eval tau :=
  map_lagrangeFactor roots 1 tau

theorem polyRow_ofFn (n : Nat) (f : Fin n → K) (points : Nat → Nat → K) (s : Nat) :
    polyRow (List.ofFn f) points s = ∑ j : Fin n, f j * points s j := by
  have h : (List.ofFn f).zipIdx = List.ofFn fun j : Fin n => (f j, j.val) := by
    apply List.ext_getElem
    · simp
    · intro i h₁ h₂; simp
  rw [polyRow, h, List.map_ofFn, List.sum_ofFn]
  rfl

theorem polyRow_eq_interpolate (nodes : List K) (points : Nat → Nat → K) (s : Nat) (tau : K) :
    polyRow (List.ofFn fun j : Fin nodes.length =>
        (Lagrange.basis Finset.univ nodes.get j).eval tau) points s =
      (Lagrange.interpolate Finset.univ nodes.get fun j => points s j).eval tau := by
  rw [polyRow_ofFn, Lagrange.interpolate_apply, Polynomial.eval_finsetSum]
  apply Finset.sum_congr rfl
  intro j _
  rw [Polynomial.eval_mul, Polynomial.eval_C, mul_comm]

end Verif
