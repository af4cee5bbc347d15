import Verif.Model.Expm
import Verif.Spec.Expm
import Verif.Lemmas.Collocation
import Mathlib.Analysis.Normed.Algebra.MatrixExponential
import Mathlib.Analysis.SpecialFunctions.Exponential
import Mathlib.Analysis.ODE.ExistUnique
/-!
# Lemmas on the matrix exponential
-/
namespace Verif.Expm
open Verif Matrix

variable {r c n : Nat}

theorem vec_entry {K : Type} (a : Matrix (Fin r) (Fin c) K) (i : Fin r) (j : Fin c) (d : K) :
    (vec a).getD (j.val * r + i.val) d = a i j := by
  have h : Spec.Columns c r ((List.finRange c).map fun j => (List.finRange r).map fun i => a i j) := by
    constructor
    · simp
    · intro l hl
      obtain ⟨j, -, rfl⟩ := List.mem_map.1 hl
      simp
  rw [vec, List.flatMap_def, flatten_entry r d _ c h _ _ i.isLt]
  simp

theorem ode_vec {K : Type} [Field K] (a : Matrix (Fin r) (Fin c) K) (x : Fin c → K) :
    ode (r := r) (vec a) x = a.mulVec x := by
  funext i
  simp only [ode, vec_entry, Matrix.mulVec, dotProduct]

attribute [local instance] Matrix.linftyOpNormedRing Matrix.linftyOpNormedAlgebra
  Matrix.linftyOpNormedAddCommGroup Matrix.linftyOpNormedSpace

theorem solves_exp (a : Matrix (Fin n) (Fin n) ℝ) (x₀ : Fin n → ℝ) (tf : ℝ) :
    Spec.Solves a.mulVec tf (fun t => (NormedSpace.exp (t • a)).mulVec x₀) := by
  intro t _
  refine HasDerivAt.hasDerivWithinAt ?_
  have h := hasDerivAt_exp_smul_const' (𝕂 := ℝ) a t
  have hl := (LinearMap.toContinuousLinearMap
    ((Matrix.mulVecBilin ℝ ℝ).flip x₀ : Matrix (Fin n) (Fin n) ℝ →ₗ[ℝ] (Fin n → ℝ))).hasFDerivAt
    (x := NormedSpace.exp (t • a))
  have := hl.comp_hasDerivAt t h
  rw [Matrix.mulVec_mulVec]
  exact this

theorem solves_unique (a : Matrix (Fin n) (Fin n) ℝ) {tf : ℝ} (htf : 0 ≤ tf) {x y : ℝ → Fin n → ℝ}
    (h0 : x 0 = y 0) (hx : Spec.Solves a.mulVec tf x) (hy : Spec.Solves a.mulVec tf y) :
    x tf = y tf := by
  let L := LinearMap.toContinuousLinearMap (Matrix.toLin' a)
  have hv : ∀ t ∈ Set.Ico 0 tf, LipschitzOnWith ‖L‖₊ (fun v => a.mulVec v) Set.univ := by
    intro t _
    exact (L.lipschitz).lipschitzOnWith
  have right : ∀ z : ℝ → Fin n → ℝ, Spec.Solves a.mulVec tf z →
      ContinuousOn z (Set.Icc 0 tf) ∧
      ∀ t ∈ Set.Ico 0 tf, HasDerivWithinAt z (a.mulVec (z t)) (Set.Ici t) t := by
    intro z hz
    refine ⟨fun t ht => (hz t ht).continuousWithinAt, fun t ht => ?_⟩
    have h := hz t ⟨ht.1, ht.2.le⟩
    exact (h.mono (Set.Icc_subset_Icc_left ht.1)).mono_of_mem_nhdsWithin
      (Icc_mem_nhdsGE ht.2)
  exact ODE_solution_unique_of_mem_Icc_right (v := fun _ v => a.mulVec v) (s := fun _ => Set.univ) hv
    (right x hx).1 (right x hx).2 (fun _ _ => trivial) (right y hy).1 (right y hy).2
    (fun _ _ => trivial) h0 ⟨htf, le_rfl⟩

end Verif.Expm
