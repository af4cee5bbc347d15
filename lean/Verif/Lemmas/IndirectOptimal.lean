import Verif.Lemmas.Indirect
import Verif.Spec.IndirectOptimal
import Mathlib.LinearAlgebra.Matrix.NonsingularInverse
import Mathlib.LinearAlgebra.Matrix.ToLin
import Mathlib.Tactic.LinearCombination
/-! Derivatives of quadratic Hamiltonians. -/
namespace Verif
open Spec Indirect Matrix

section Quadratic
variable {n : Nat}

theorem quadratic_add (c : ℝ) (g : Fin n → ℝ) (A : Matrix (Fin n) (Fin n) ℝ) (hA : Aᵀ = A)
    (w d : Fin n → ℝ) :
    quadratic c g A (w + d) =
      quadratic c g A w + (g + A *ᵥ w) ⬝ᵥ d + (1 / 2) * (d ⬝ᵥ A *ᵥ d) := by
  have h : w ⬝ᵥ A *ᵥ d = A *ᵥ w ⬝ᵥ d := by
    rw [dotProduct_mulVec, ← mulVec_transpose, hA]
  have h' : d ⬝ᵥ A *ᵥ w = A *ᵥ w ⬝ᵥ d := dotProduct_comm _ _
  simp only [quadratic, mulVec_add, dotProduct_add, add_dotProduct, h, h']
  ring

theorem update_eq_add (w : Fin n → ℝ) (i : Fin n) (v : ℝ) :
    Function.update w i v = w + (v - w i) • Pi.single i 1 := by
  funext j
  by_cases h : j = i
  · subst h; simp
  · simp [h, Function.update_of_ne]

theorem hasDerivAt_quadratic (c : ℝ) (g : Fin n → ℝ) (A : Matrix (Fin n) (Fin n) ℝ) (hA : Aᵀ = A)
    (w : Fin n → ℝ) (i : Fin n) :
    HasDerivAt (fun v => quadratic c g A (Function.update w i v)) ((g + A *ᵥ w) i) (w i) := by
  have hf : (fun v => quadratic c g A (Function.update w i v)) = fun v =>
      quadratic c g A w + (v - w i) * (g + A *ᵥ w) i + (1 / 2) * ((v - w i) * (v - w i) * A i i) := by
    funext v
    rw [update_eq_add, quadratic_add c g A hA]
    simp [mulVec_smul, dotProduct_smul, smul_dotProduct]
    ring
  rw [hf]
  have h1 : HasDerivAt (fun v : ℝ => v - w i) 1 (w i) := (hasDerivAt_id' _).sub_const _
  have := ((h1.mul_const ((g + A *ᵥ w) i)).const_add (quadratic c g A w)).fun_add
    (((h1.fun_mul h1).mul_const (A i i)).const_mul (1 / 2))
  simpa using this

theorem hasDerivAt_affine (g : Fin n → ℝ) (A : Matrix (Fin n) (Fin n) ℝ)
    (w : Fin n → ℝ) (i j : Fin n) :
    HasDerivAt (fun v => (g + A *ᵥ Function.update w j v) i) (A i j) (w j) := by
  have hf : (fun v => (g + A *ᵥ Function.update w j v) i) = fun v =>
      (g + A *ᵥ w) i + (v - w j) * A i j := by
    funext v
    rw [update_eq_add]
    simp [mulVec_add, mulVec_smul]
    ring
  rw [hf]
  have h1 : HasDerivAt (fun v : ℝ => v - w j) 1 (w j) := (hasDerivAt_id' _).sub_const _
  simpa using (h1.mul_const (A i j)).const_add ((g + A *ᵥ w) i)

end Quadratic

section Assign

theorem assign_get (u : List Sym) (hu : u.Nodup) (w : Fin u.length → ℝ) (ρ : Sym → ℝ)
    (i : Fin u.length) : assign u w ρ u[i] = w i := by
  have h : u.idxOf u[i] = i := List.Nodup.idxOf_getElem hu i.val i.isLt
  simp only [assign]
  rw [dif_pos (by rw [h]; exact i.isLt)]
  congr 1
  exact Fin.ext h

theorem assign_not_mem (u : List Sym) (w : Fin u.length → ℝ) (ρ : Sym → ℝ) (s : Sym)
    (h : s ∉ u) : assign u w ρ s = ρ s := by
  simp only [assign]
  rw [dif_neg (by rwa [List.idxOf_lt_length_iff])]

theorem assign_update (u : List Sym) (hu : u.Nodup) (w : Fin u.length → ℝ) (ρ : Sym → ℝ)
    (i : Fin u.length) (v : ℝ) :
    assign u (Function.update w i v) ρ = Function.update (assign u w ρ) u[i] v := by
  funext s
  by_cases hs : s ∈ u
  · obtain ⟨j, hj, rfl⟩ := List.getElem_of_mem hs
    have := assign_get u hu (Function.update w i v) ρ ⟨j, hj⟩
    simp only [Fin.getElem_fin] at this ⊢
    rw [this]
    by_cases hij : j = i.val
    · subst hij; simp
    · have hne : u[j] ≠ u[i.val] := fun h => hij ((hu.getElem_inj_iff).mp h)
      have h2 := assign_get u hu w ρ ⟨j, hj⟩
      simp only [Fin.getElem_fin] at h2
      rw [Function.update_of_ne (fun h => hij (congrArg Fin.val h)), Function.update_of_ne hne, h2]
  · have hne : s ≠ u[i.val] := fun h => hs (h ▸ List.getElem_mem _)
    rw [assign_not_mem _ _ _ _ hs]
    simp only [Fin.getElem_fin]
    rw [Function.update_of_ne hne, assign_not_mem _ _ _ _ hs]

theorem assign_self (u : List Sym) (ρ : Sym → ℝ) : assign u (fun i => ρ u[i]) ρ = ρ := by
  funext s
  simp only [assign]
  split
  · next h => simp
  · rfl

end Assign

section Derivatives
variable {ops : Expr.Ops ℝ} {D : Expr.DiffTable} {H : Expr} {u : List Sym} {ρ : Sym → ℝ} {c : ℝ}
  {g : Fin u.length → ℝ} {A : Matrix (Fin u.length) (Fin u.length) ℝ}

theorem gradient_value (hu : u.Nodup) (hA : Aᵀ = A) (hq : QuadraticInControls ops D H u ρ c g A)
    (w : Fin u.length → ℝ) (i : Fin u.length) :
    (Expr.diff D u[i] H).eval ops (assign u w ρ) = (g + A *ᵥ w) i := by
  have h1 := Expr.hasDerivAt_diff ops D (assign u w ρ) u[i] H (hq.smooth w)
  simp only [← assign_update u hu w ρ i, hq.value] at h1
  rw [assign_get u hu] at h1
  exact h1.unique (hasDerivAt_quadratic c g A hA w i)

theorem hessian_value (hu : u.Nodup) (hA : Aᵀ = A) (hq : QuadraticInControls ops D H u ρ c g A)
    (w : Fin u.length → ℝ) (i j : Fin u.length) :
    (Expr.diff D u[j] (Expr.diff D u[i] H)).eval ops (assign u w ρ) = A i j := by
  have h1 := Expr.hasDerivAt_diff ops D (assign u w ρ) u[j] (Expr.diff D u[i] H)
    (hq.smooth' w _ (List.getElem_mem _))
  simp only [← assign_update u hu w ρ j, gradient_value hu hA hq] at h1
  rw [assign_get u hu] at h1
  exact h1.unique (hasDerivAt_affine g A w i j)

theorem hessian_matrix (hu : u.Nodup) (hA : Aᵀ = A) (hq : QuadraticInControls ops D H u ρ c g A) :
    matrixAt ops ρ u.length (Expr.hessian D u H) = A := by
  ext i j
  have h := hessian_value hu hA hq (fun i => ρ u[i]) i j
  rw [assign_self] at h
  simpa [matrixAt, Expr.hessian, Expr.gradient] using h

end Derivatives

theorem zipWith_sum_fin {α β : Type} (f : α → β → ℝ) (a : List α) (b : List β)
    (h : a.length = b.length) :
    (List.zipWith f a b).sum = ∑ j : Fin b.length, f (a[j.val]'(by omega)) b[j] := by
  rw [← List.sum_ofFn]
  congr 1
  apply List.ext_getElem
  · simp [h]
  · intro i h₁ h₂
    simp

end Verif
