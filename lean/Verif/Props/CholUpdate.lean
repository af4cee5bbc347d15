import Verif.Lemmas.CholUpdate
import Mathlib.Analysis.Real.Sqrt
/-!
# C151: the update of a Cholesky factor
-/
namespace Verif
open Chol Spec Finset
variable {K : Type} [Field K] [LinearOrder K] [IsStrictOrderedRing K]

/-- C151. With the sign `+` the matrix becomes the factor of `RᵀR + x xᵀ`, for every upper triangular
matrix without zero on the diagonal and every vector. -/
theorem C151_update {sqrt : K → K} (hq : IsSqrt sqrt) (p : Nat) (s : St K) (h : IsFactor p s.r) :
    (cholupdate sqrt "+" p s).1 = .ok () ∧
    IsUpdated 1 p s.r s.x (cholupdate sqrt "+" p s).2.r := by
  have he := cholupdate_eq sqrt true p s
  simp only [if_true] at he
  rw [he]
  have h0 : Inv (sgn true) p (fun i j => gram p s.r i j + sgn true * (s.x i * s.x j)) 0 s :=
    ⟨h, by intro i hi; omega, by intro i _ j _; simp⟩
  have hn := inv_steps hq true h0 (fun k t hk ht => by
    have hd := ht.factor.diagonal k hk
    have h1 : 0 < t.r k k * t.r k k := mul_self_pos.mpr hd
    have h2 : 0 ≤ t.x k * t.x k := mul_self_nonneg _
    simp only [sgn, if_true, one_mul]
    exact add_pos_of_pos_of_nonneg h1 h2) p (le_refl _)
  refine ⟨rfl, hn.factor, hn.pos, ?_, fun i j hij => steps_outside sqrt true p s p i j (le_refl _) hij⟩
  intro i hi j hj
  have := hn.sum i hi j hj
  rw [if_neg (by omega), mul_zero, add_zero] at this
  exact this

/-- C151. With the sign `-` the matrix becomes the factor of `RᵀR - x xᵀ` whenever this has a factor,
that is, whenever it is positive definite. -/
theorem C151_downdate {sqrt : K → K} (hq : IsSqrt sqrt) (p : Nat) (s : St K) (h : IsFactor p s.r)
    (hp : IsPositive p fun i j => gram p s.r i j + -1 * (s.x i * s.x j)) :
    (cholupdate sqrt "-" p s).1 = .ok () ∧
    IsUpdated (-1) p s.r s.x (cholupdate sqrt "-" p s).2.r := by
  have he := cholupdate_eq sqrt false p s
  simp only [Bool.false_eq_true, if_false] at he
  rw [he]
  have h0 : Inv (sgn false) p (fun i j => gram p s.r i j + -1 * (s.x i * s.x j)) 0 s :=
    ⟨h, by intro i hi; omega, by intro i _ j _; simp [sgn]⟩
  have hn := inv_steps hq false h0 (fun k t hk ht => pivot_pos hk ht hp) p (le_refl _)
  refine ⟨rfl, hn.factor, hn.pos, ?_, fun i j hij => steps_outside sqrt false p s p i j (le_refl _) hij⟩
  intro i hi j hj
  have := hn.sum i hi j hj
  rw [if_neg (by omega), mul_zero, add_zero] at this
  exact this

omit [LinearOrder K] [IsStrictOrderedRing K] in
/-- C151. Any other sign is rejected before anything is written; for an empty vector it is not looked
at. -/
theorem C151_sign (sqrt : K → K) (sign : String) (h1 : sign ≠ "+") (h2 : sign ≠ "-") (p : Nat)
    (s : St K) : cholupdate sqrt sign p s = (if p = 0 then .ok () else .error .valueError, s) := by
  cases p with
  | zero => rfl
  | succ p =>
    unfold cholupdate
    rw [List.range_succ_eq_map]
    simp [Py.forEach, Py.bind, body, h1, h2]

/-- C151 fails for the vector given: it is overwritten. -/
theorem C151_vector_fails {sqrt : K → K} (hq : IsSqrt sqrt) :
    ∃ s : St K, IsFactor 2 s.r ∧ s.x 1 = 1 ∧ (cholupdate sqrt "+" 2 s).2.x 1 ≠ 1 := by
  refine ⟨⟨fun i j => if i = j then (if i = 0 then 3 else 1) else 0, fun i => if i = 0 then 4 else 1⟩,
    ⟨?_, ?_⟩, by simp, ?_⟩
  · intro i hi j hj
    have : i ≠ j := by omega
    simp [this]
  · intro i hi
    by_cases h0 : i = 0 <;> simp [h0]
  · have h25 : sqrt 25 = 5 := by
      obtain ⟨h1, h2⟩ := hq 25 (by norm_num)
      have : (sqrt 25 - 5) * (sqrt 25 + 5) = 0 := by ring_nf; rw [pow_two, h2]; ring
      rcases mul_eq_zero.mp this with h | h
      · linear_combination h
      · exfalso
        have : 0 < sqrt 25 + 5 := by positivity
        exact absurd h (ne_of_gt this)
    have he := cholupdate_eq sqrt true 2
      (⟨fun i j => if i = j then (if i = 0 then 3 else 1) else 0, fun i => if i = 0 then 4 else 1⟩ : St K)
    simp only [if_true] at he
    rw [he]
    have e25 : (3 : K) * 3 + 4 * 4 = 25 := by norm_num
    simp only [steps, step, newVector, newRow, newDiagonal, withSign]
    norm_num [e25, h25]

/-! ## The hypotheses are met -/

example : IsSqrt Real.sqrt := fun a ha => ⟨Real.sqrt_pos.mpr ha, Real.mul_self_sqrt ha.le⟩

example : IsFactor 2 (fun i j => if j < i then (0 : ℝ) else 1) :=
  ⟨fun i _ j hj => by simp [hj], fun i _ => by simp⟩

/-- `RᵀR - x xᵀ` is positive definite for the matrix 5 and the vector 3. -/
example : IsPositive 1 fun i j =>
    gram 1 (fun _ _ => (5 : ℝ)) i j + -1 * ((fun _ => (3 : ℝ)) i * (fun _ => (3 : ℝ)) j) := by
  rintro v ⟨i, hi, hv⟩
  obtain rfl : i = 0 := by omega
  have h2 : 0 < v 0 * v 0 := mul_self_pos.mpr hv
  simp only [Finset.sum_range_one, gram]
  nlinarith

/-- `[[3]]` and the vector `4` give `[[5]]`; `[[5]]` and `3` give `[[4]]`. -/
example : (cholupdate (fun q : Rat => if q = 25 then 5 else 4) "+" 1 ⟨fun _ _ => 3, fun _ => 4⟩).2.r 0 0 = 5 ∧
    (cholupdate (fun q : Rat => if q = 25 then 5 else 4) "-" 1 ⟨fun _ _ => 5, fun _ => 3⟩).2.r 0 0 = 4 := by
  decide +kernel

end Verif
