import Verif.Lemmas.Gauss
import Verif.Lemmas.Pce
import Mathlib.MeasureTheory.Integral.Pi
import Mathlib.Probability.Moments.Variance
/-!
# Mean, variance and tails of expansions
-/
namespace Verif.Pce
open Verif Verif.Spec MeasureTheory ProbabilityTheory

theorem zipWith_ofFn (g : Nat → ℝ → ℝ) (e : List Nat) (n : Nat) (h : e.length = n) (x : Fin n → ℝ) :
    (List.zipWith g e (List.ofFn x)).prod = ∏ i : Fin n, g (e[i.val]?.getD 0) (x i) := by
  rw [← List.prod_ofFn]
  congr 1
  apply List.ext_getElem
  · simp [h]
  · intro i h1 h2
    have hi : i < e.length := by simp at h1; omega
    simp [List.getElem?_eq_getElem hi]

theorem basis_eq (e : List Nat) (n : Nat) (h : e.length = n) (x : Fin n → ℝ) :
    basisPolynomial e (List.ofFn x) = ∏ i : Fin n, He (e[i.val]?.getD 0) (x i) :=
  zipWith_ofFn (fun k v => He k v) e n h x

/-- The squared norm of a basis polynomial. -/
def squaredNorm (e : List Nat) : ℝ := (e.map fun k => (k.factorial : ℝ)).prod

theorem integrable_basis_mul (e f : List Nat) (n : Nat) (he : e.length = n) (hf : f.length = n) :
    Integrable (fun x : Fin n → ℝ => basisPolynomial e (List.ofFn x) * basisPolynomial f (List.ofFn x))
      (Measure.pi fun _ => gaussianReal 0 1) := by
  have h1 : ∀ i : Fin n, Integrable (fun x => He (e[i.val]?.getD 0) x * He (f[i.val]?.getD 0) x)
      (gaussianReal 0 1) := by
    intro i
    have := integrable_poly (hermiteR (e[i.val]?.getD 0) * hermiteR (f[i.val]?.getD 0))
    simpa only [Polynomial.eval_mul, eval_hermiteR] using this
  have h2 := Integrable.fintype_prod (μ := fun _ : Fin n => gaussianReal 0 1) h1
  have h3 : (fun x : Fin n → ℝ =>
      basisPolynomial e (List.ofFn x) * basisPolynomial f (List.ofFn x)) =
      fun x => ∏ i : Fin n, He (e[i.val]?.getD 0) (x i) * He (f[i.val]?.getD 0) (x i) := by
    funext x
    rw [basis_eq e n he, basis_eq f n hf, ← Finset.prod_mul_distrib]
  rw [h3]
  exact h2

theorem integral_basis_mul (e f : List Nat) (n : Nat) (he : e.length = n) (hf : f.length = n) :
    ∫ x : Fin n → ℝ, basisPolynomial e (List.ofFn x) * basisPolynomial f (List.ofFn x)
      ∂(Measure.pi fun _ => gaussianReal 0 1) = if e = f then squaredNorm e else 0 := by
  simp only [basis_eq e n he, basis_eq f n hf, ← Finset.prod_mul_distrib]
  rw [integral_fintype_prod_eq_prod (μ := fun _ : Fin n => gaussianReal 0 1)
    (f := fun i x => He (e[i.val]?.getD 0) x * He (f[i.val]?.getD 0) x)]
  simp only [integral_He_mul_He]
  split
  · next h =>
    subst h
    simp only [if_true]
    unfold squaredNorm
    rw [← List.prod_ofFn]
    congr 1
    apply List.ext_getElem
    · simp [he]
    · intro i h1 h2
      have hi : i < e.length := by simp at h2; omega
      simp [List.getElem?_eq_getElem hi]
  · next h =>
    have : ∃ i : Fin n, e[i.val]?.getD 0 ≠ f[i.val]?.getD 0 := by
      by_contra hc
      push Not at hc
      apply h
      apply List.ext_getElem (he.trans hf.symm)
      intro i h1 h2
      have := hc ⟨i, he ▸ h1⟩
      simpa [List.getElem?_eq_getElem h1, List.getElem?_eq_getElem h2] using this
    obtain ⟨i, hi⟩ := this
    exact Finset.prod_eq_zero (Finset.mem_univ i) (if_neg hi)

theorem basis_zero (n : Nat) (x : Fin n → ℝ) :
    basisPolynomial (List.replicate n 0) (List.ofFn x) = 1 := by
  rw [basis_eq _ n (by simp)]
  apply Finset.prod_eq_one
  intro i _
  simp [He]

theorem sum_zipWith (g : ℝ → ℝ → ℝ) (l l' : List ℝ) (h : l.length = l'.length) :
    (List.zipWith g l l').sum = ∑ i ∈ Finset.range l.length, g (l[i]?.getD 0) (l'[i]?.getD 0) := by
  induction l generalizing l' with
  | nil => simp
  | cons a l ih =>
    match l', h with
    | b :: l', h =>
      rw [List.zipWith_cons_cons, List.sum_cons, ih l' (by simpa using h), List.length_cons,
        Finset.sum_range_succ']
      simp [add_comm]

/-- Mean and variance of a combination of orthogonal functions, the first of which is one. -/
theorem orthogonal_statistics {Ω : Type} {mΩ : MeasurableSpace Ω} (P : Measure Ω)
    [IsProbabilityMeasure P] (q : Nat) (φ : Nat → Ω → ℝ) (s c : Nat → ℝ) (h0 : ∀ ω, φ 0 ω = 1)
    (hi : ∀ i j, i ≤ q → j ≤ q → Integrable (fun ω => φ i ω * φ j ω) P)
    (ho : ∀ i j, i ≤ q → j ≤ q → ∫ ω, φ i ω * φ j ω ∂P = if i = j then s i else 0) :
    ∫ ω, ∑ i ∈ Finset.range (q + 1), c i * φ i ω ∂P = c 0 ∧
    Var[fun ω => ∑ i ∈ Finset.range (q + 1), c i * φ i ω; P] =
      ∑ i ∈ Finset.range q, c (i + 1) ^ 2 * s (i + 1) := by
  have hi1 : ∀ i, i ≤ q → Integrable (φ i) P := by
    intro i hiq
    have := hi i 0 hiq (by omega)
    simpa [h0] using this
  have hmean : ∫ ω, ∑ i ∈ Finset.range (q + 1), c i * φ i ω ∂P = c 0 := by
    rw [integral_finsetSum _ fun i h => (hi1 i (by simpa [Nat.lt_succ_iff] using h)).const_mul _]
    rw [Finset.sum_eq_single 0]
    · rw [integral_const_mul]
      simp [h0]
    · intro i h hne
      have := ho i 0 (by simpa [Nat.lt_succ_iff] using h) (by omega)
      simp only [h0, mul_one, if_neg hne] at this
      rw [integral_const_mul, this, mul_zero]
    · simp
  refine ⟨hmean, ?_⟩
  rw [variance_eq_integral, hmean]
  · have hsq : ∀ ω, (∑ i ∈ Finset.range (q + 1), c i * φ i ω - c 0) ^ 2 =
        ∑ i ∈ Finset.range q, ∑ j ∈ Finset.range q,
          c (i + 1) * c (j + 1) * (φ (i + 1) ω * φ (j + 1) ω) := by
      intro ω
      rw [Finset.sum_range_succ', h0]
      simp only [mul_one, add_sub_cancel_right]
      rw [sq, Finset.sum_mul_sum]
      refine Finset.sum_congr rfl fun i _ => Finset.sum_congr rfl fun j _ => by ring
    simp only [hsq]
    rw [integral_finsetSum]
    · refine Finset.sum_congr rfl fun i hiq => ?_
      rw [Finset.mem_range] at hiq
      rw [integral_finsetSum]
      · rw [Finset.sum_eq_single i]
        · rw [integral_const_mul, ho _ _ (by omega) (by omega), if_pos rfl]; ring
        · intro j hj hne
          rw [Finset.mem_range] at hj
          rw [integral_const_mul, ho _ _ (by omega) (by omega), if_neg (by omega), mul_zero]
        · intro h; simp at h; omega
      · intro j hj
        rw [Finset.mem_range] at hj
        exact (hi _ _ (by omega) (by omega)).const_mul _
    · intro i hiq
      rw [Finset.mem_range] at hiq
      refine integrable_finsetSum _ fun j hj => ?_
      rw [Finset.mem_range] at hj
      exact (hi _ _ (by omega) (by omega)).const_mul _
  · exact (integrable_finsetSum _ fun i h =>
      (hi1 i (by simpa [Nat.lt_succ_iff] using h)).const_mul _).aestronglyMeasurable.aemeasurable

/-- Covariance of two combinations of orthogonal functions, the first of which is one. -/
theorem orthogonal_covariance {Ω : Type} {mΩ : MeasurableSpace Ω} (P : Measure Ω)
    (q : Nat) (φ : Nat → Ω → ℝ) (s c d : Nat → ℝ) (h0 : ∀ ω, φ 0 ω = 1)
    (hi : ∀ i j, i ≤ q → j ≤ q → Integrable (fun ω => φ i ω * φ j ω) P)
    (ho : ∀ i j, i ≤ q → j ≤ q → ∫ ω, φ i ω * φ j ω ∂P = if i = j then s i else 0) :
    ∫ ω, (∑ i ∈ Finset.range (q + 1), c i * φ i ω - c 0) *
        (∑ i ∈ Finset.range (q + 1), d i * φ i ω - d 0) ∂P =
      ∑ i ∈ Finset.range q, c (i + 1) * d (i + 1) * s (i + 1) := by
  have hsq : ∀ ω, (∑ i ∈ Finset.range (q + 1), c i * φ i ω - c 0) *
      (∑ i ∈ Finset.range (q + 1), d i * φ i ω - d 0) =
      ∑ i ∈ Finset.range q, ∑ j ∈ Finset.range q,
        c (i + 1) * d (j + 1) * (φ (i + 1) ω * φ (j + 1) ω) := by
    intro ω
    rw [Finset.sum_range_succ', Finset.sum_range_succ' (fun i => d i * φ i ω), h0]
    simp only [mul_one, add_sub_cancel_right]
    rw [Finset.sum_mul_sum]
    refine Finset.sum_congr rfl fun i _ => Finset.sum_congr rfl fun j _ => by ring
  simp only [hsq]
  rw [integral_finsetSum]
  · refine Finset.sum_congr rfl fun i hiq => ?_
    rw [Finset.mem_range] at hiq
    rw [integral_finsetSum]
    · rw [Finset.sum_eq_single i]
      · rw [integral_const_mul, ho _ _ (by omega) (by omega), if_pos rfl]
      · intro j hj hne
        rw [Finset.mem_range] at hj
        rw [integral_const_mul, ho _ _ (by omega) (by omega), if_neg (by omega), mul_zero]
      · intro h; simp at h; omega
    · intro j hj
      rw [Finset.mem_range] at hj
      exact (hi _ _ (by omega) (by omega)).const_mul _
  · intro i hiq
    rw [Finset.mem_range] at hiq
    refine integrable_finsetSum _ fun j hj => ?_
    rw [Finset.mem_range] at hj
    exact (hi _ _ (by omega) (by omega)).const_mul _

/-- Cantelli's inequality. -/
theorem cantelli {Ω : Type} {mΩ : MeasurableSpace Ω} (P : Measure Ω) [IsProbabilityMeasure P]
    (g : Ω → ℝ) (hg : MemLp g 2 P) (a : ℝ) (ha : 0 < a) :
    P.real {ω | P[g] + a ≤ g ω} * (Var[g; P] + a ^ 2) ≤ Var[g; P] := by
  have hv : 0 ≤ Var[g; P] := variance_nonneg g P
  set v := Var[g; P] with hvdef
  set m := P[g] with hm
  have hint : Integrable g P := hg.integrable (by norm_num)
  have hvar : v = ∫ ω, (g ω - m) ^ 2 ∂P := variance_eq_integral hg.aemeasurable
  have hsq : Integrable (fun ω => (g ω - m) ^ 2) P := (hg.sub (memLp_const m)).integrable_sq
  set t := v / a with ht
  have ht0 : 0 ≤ t := by positivity
  have hlin : Integrable (fun ω => 2 * t * (g ω - m)) P :=
    (hint.sub (integrable_const m)).const_mul (2 * t)
  have hlin2 : Integrable (fun ω => 2 * t * (g ω - m) + t ^ 2) P := hlin.add (integrable_const _)
  have hI : Integrable (fun ω => (g ω - m + t) ^ 2) P := by
    have : (fun ω => (g ω - m + t) ^ 2) = fun ω => (g ω - m) ^ 2 + (2 * t * (g ω - m) + t ^ 2) := by
      funext ω; ring
    rw [this]
    exact hsq.add hlin2
  have hE : ∫ ω, (g ω - m + t) ^ 2 ∂P = v + t ^ 2 := by
    have : (fun ω => (g ω - m + t) ^ 2) = fun ω => (g ω - m) ^ 2 + (2 * t * (g ω - m) + t ^ 2) := by
      funext ω; ring
    rw [this, integral_add hsq hlin2, integral_add hlin (integrable_const _),
      integral_const_mul, integral_sub hint (integrable_const m), ← hvar]
    simp [hm]
  have hM := mul_meas_ge_le_integral_of_nonneg (μ := P) (f := fun ω => (g ω - m + t) ^ 2)
    (Filter.Eventually.of_forall fun ω => sq_nonneg _) hI ((a + t) ^ 2)
  rw [hE] at hM
  have hsub : P.real {ω | m + a ≤ g ω} ≤ P.real {ω | (a + t) ^ 2 ≤ (g ω - m + t) ^ 2} := by
    refine measureReal_mono ?_ (measure_ne_top _ _)
    intro ω hω
    simp only [Set.mem_ofPred_eq] at hω ⊢
    apply pow_le_pow_left₀ (by positivity)
    linarith
  have h1 : (a + t) ^ 2 * P.real {ω | m + a ≤ g ω} ≤ v + t ^ 2 :=
    le_trans (mul_le_mul_of_nonneg_left hsub (sq_nonneg _)) hM
  have e1 : (a + t) ^ 2 = (v + a ^ 2) ^ 2 / a ^ 2 := by rw [ht]; field_simp; ring
  have e2 : v + t ^ 2 = v * (v + a ^ 2) / a ^ 2 := by rw [ht]; field_simp; ring
  rw [e1, e2, div_mul_eq_mul_div, div_le_div_iff_of_pos_right (by positivity)] at h1
  have hpos : 0 < v + a ^ 2 := by positivity
  have h2 : (v + a ^ 2) * (P.real {ω | m + a ≤ g ω} * (v + a ^ 2)) ≤ (v + a ^ 2) * v := by
    nlinarith
  exact le_of_mul_le_mul_left h2 hpos

end Verif.Pce
