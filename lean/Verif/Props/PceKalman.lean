import Verif.Props.Pce
import Verif.Lemmas.Kalman
import Mathlib.Probability.Moments.Covariance
/-!
# The polynomial chaos Kalman filter (C83, C121)
-/
namespace Verif
open Verif.Spec Verif.Kalman Verif.Pce MeasureTheory ProbabilityTheory Matrix

/-- The covariance of two expansions of independent standard normal variables. -/
theorem expansion_covariance (n order : Nat) (ho : order ≤ 9) (a b : List ℝ)
    (ha : a.length = nPol n order) (hb : b.length = nPol n order)
    (values : (Fin n → ℝ) → List ℝ) (hv : ∀ x, psi n order (List.ofFn x) = .ok (values x)) :
    cov[fun x => (List.zipWith (· * ·) a (values x)).sum,
        fun x => (List.zipWith (· * ·) b (values x)).sum; Measure.pi fun _ => gaussianReal 0 1] =
      ∑ i ∈ Finset.range (nPol n order - 1), a[i + 1]?.getD 0 * b[i + 1]?.getD 0 *
        squaredNorm ((exponents n order)[i + 1]?.getD []) := by
  have hval : ∀ x, values x = (exponents n order).map fun e => basisPolynomial e (List.ofFn x) := by
    intro x
    have := hv x
    rw [C74_values_partial n order ho (List.ofFn x) (by simp)] at this
    exact (Except.ok.inj this).symm
  have hlen : (exponents n order).length = nPol n order := (C74_basis n order).2.1
  obtain ⟨q, hq⟩ : ∃ q, nPol n order = q + 1 := by
    obtain ⟨rest, h, -⟩ := exponents_cons n order
    exact ⟨rest.length, by rw [← hlen, h]; rfl⟩
  set E := exponents n order with hE
  let φ : Nat → (Fin n → ℝ) → ℝ := fun i x => basisPolynomial (E[i]?.getD []) (List.ofFn x)
  have hmemE : ∀ i, i ≤ q → E[i]?.getD [] ∈ E := by
    intro i hi
    have hlt : i < E.length := by omega
    rw [List.getElem?_eq_getElem hlt, Option.getD_some]
    exact List.getElem_mem hlt
  have hlenE : ∀ i, i ≤ q → (E[i]?.getD []).length = n := fun i hi =>
    ((mem_exponents n order _).1 (hmemE i hi)).1
  have hφv : ∀ i, i ≤ q → ∀ x, (values x)[i]?.getD 0 = φ i x := by
    intro i hi x
    have hlt : i < E.length := by omega
    simp only [φ, hval, List.getElem?_map, List.getElem?_eq_getElem hlt, Option.map_some,
      Option.getD_some]
  have hφ0 : ∀ x, φ 0 x = 1 := by
    intro x
    have : E[0]?.getD [] = List.replicate n 0 := by
      rw [(C74_basis n order).2.2.2.2]; rfl
    simp only [φ]
    rw [this, basis_zero]
  have hnd : E.Nodup := (C74_basis n order).2.2.1
  have hortho : ∀ i j, i ≤ q → j ≤ q →
      ∫ x, φ i x * φ j x ∂(Measure.pi fun _ => gaussianReal 0 1) =
        if i = j then squaredNorm (E[i]?.getD []) else 0 := by
    intro i j hi hj
    rw [integral_basis_mul _ _ n (hlenE i hi) (hlenE j hj)]
    by_cases hij : i = j
    · simp [hij]
    · have hi' : i < E.length := by omega
      have hj' : j < E.length := by omega
      rw [if_neg hij, if_neg]
      rw [List.getElem?_eq_getElem hi', List.getElem?_eq_getElem hj', Option.getD_some,
        Option.getD_some]
      exact fun h => hij ((List.Nodup.getElem_inj_iff hnd).1 h)
  have hint : ∀ i j, i ≤ q → j ≤ q → Integrable (fun x => φ i x * φ j x)
      (Measure.pi fun _ => gaussianReal 0 1) :=
    fun i j hi hj => integrable_basis_mul _ _ n (hlenE i hi) (hlenE j hj)
  have hsum : ∀ c : List ℝ, c.length = nPol n order → ∀ x,
      (List.zipWith (· * ·) c (values x)).sum =
      ∑ i ∈ Finset.range (q + 1), c[i]?.getD 0 * φ i x := by
    intro c hc x
    rw [sum_zipWith _ _ _ (by rw [hval, List.length_map, hlen, hc]), hc, hq]
    refine Finset.sum_congr rfl fun i hi => ?_
    rw [hφv i (by simpa [Nat.lt_succ_iff] using hi)]
  have hmean : ∀ c : Nat → ℝ, ∫ x, ∑ i ∈ Finset.range (q + 1), c i * φ i x
      ∂(Measure.pi fun _ => gaussianReal 0 1) = c 0 := fun c =>
    (orthogonal_statistics (Measure.pi fun _ : Fin n => gaussianReal 0 1) q φ
      (fun i => squaredNorm (E[i]?.getD [])) c hφ0 hint hortho).1
  unfold covariance
  simp only [hsum a ha, hsum b hb, hmean]
  rw [orthogonal_covariance _ q φ (fun i => squaredNorm (E[i]?.getD [])) (fun i => a[i]?.getD 0)
    (fun i => b[i]?.getD 0) hφ0 hint hortho, hq, Nat.add_sub_cancel]

theorem sum_range'_one (f : Nat → ℝ) (q : Nat) :
    ((List.range' 1 q).map f).sum = ∑ i ∈ Finset.range q, f (i + 1) := by
  induction q with
  | zero => rfl
  | succ q ih =>
    rw [List.range'_concat, List.map_append, List.sum_append, ih, Finset.sum_range_succ]
    simp [Nat.add_comm]

/-- C83: for expansions of order at most one, with as many samples as polynomials, the covariances computed
from the coefficients are those of the expanded quantities. -/
theorem C83_covariance_partial (n order : Nat) (ho : order ≤ 1) (a b : List ℝ)
    (ha : a.length = nPol n order) (hb : b.length = nPol n order)
    (values : (Fin n → ℝ) → List ℝ) (hv : ∀ x, psi n order (List.ofFn x) = .ok (values x)) :
    covEntry (nPol n order) a b =
      .ok cov[fun x => (List.zipWith (· * ·) a (values x)).sum,
        fun x => (List.zipWith (· * ·) b (values x)).sum; Measure.pi fun _ => gaussianReal 0 1] := by
  rw [expansion_covariance n order (by omega) a b ha hb values hv,
    covEntry_ok _ _ _ (by omega) (by omega), sum_range'_one]
  congr 1
  refine Finset.sum_congr rfl fun i hi => ?_
  have hlen : (exponents n order).length = nPol n order := (C74_basis n order).2.1
  have hlt : i + 1 < (exponents n order).length := by
    rw [Finset.mem_range] at hi; omega
  have hnorm : squaredNorm ((exponents n order)[i + 1]?.getD []) = 1 := by
    rw [List.getElem?_eq_getElem hlt, Option.getD_some]
    have hmem := (mem_exponents n order _).1 (List.getElem_mem hlt)
    unfold squaredNorm
    refine List.prod_eq_one fun k hk => ?_
    obtain ⟨m, hm, rfl⟩ := List.mem_map.1 hk
    have : m ≤ 1 := le_trans (List.le_sum_of_mem hm) (le_trans hmem.2 ho)
    interval_cases m <;> simp
  rw [hnorm, mul_one]

/-- Two states, order one: three coefficients each. -/
example (values : (Fin 2 → ℝ) → List ℝ) (hv : ∀ x, psi 2 1 (List.ofFn x) = .ok (values x)) :
    covEntry (nPol 2 1) [5, 2, 3] [7, 1, -1] = .ok (-1 : ℝ) ∧
    cov[fun x => (List.zipWith (· * ·) [5, 2, 3] (values x)).sum,
      fun x => (List.zipWith (· * ·) [7, 1, -1] (values x)).sum;
      Measure.pi fun _ => gaussianReal 0 1] = -1 := by
  have h : covEntry (nPol 2 1) [5, 2, 3] [7, 1, -1] = .ok (-1 : ℝ) := by
    have h3 : nPol 2 1 = 3 := by decide
    rw [h3, covEntry_ok _ _ _ (by simp) (by simp)]
    norm_num [List.range']
  have h' := C83_covariance_partial 2 1 (by omega) [5, 2, 3] [7, 1, -1] (by decide) (by decide) values hv
  rw [h] at h'
  exact ⟨h, (Except.ok.inj h').symm⟩

/-- C83: fails from order two on: the norms of the basis polynomials are left out. For every number of
parameters there is a polynomial of the basis whose variance is two, and is computed as one. -/
theorem C83_norms_fails (n order : Nat) (hn : 0 < n) (h2 : 2 ≤ order) (ho : order ≤ 9)
    (values : (Fin n → ℝ) → List ℝ) (hv : ∀ x, psi n order (List.ofFn x) = .ok (values x)) :
    ∃ a : List ℝ, a.length = nPol n order ∧ covEntry (nPol n order) a a = .ok 1 ∧
      cov[fun x => (List.zipWith (· * ·) a (values x)).sum,
        fun x => (List.zipWith (· * ·) a (values x)).sum; Measure.pi fun _ => gaussianReal 0 1] = 2 := by
  obtain ⟨m, rfl⟩ : ∃ m, n = m + 1 := ⟨n - 1, by omega⟩
  have hlen : (exponents (m + 1) order).length = nPol (m + 1) order := (C74_basis (m + 1) order).2.1
  have hmem : (2 :: List.replicate m 0) ∈ exponents (m + 1) order := by
    rw [mem_exponents]
    simp [h2]
  obtain ⟨i, hi, hie⟩ := List.getElem_of_mem hmem
  have hi0 : i ≠ 0 := by
    rintro rfl
    have h0 := (C74_basis (m + 1) order).2.2.2.2
    rw [List.getElem?_eq_getElem hi, hie] at h0
    simp [List.replicate_succ] at h0
  obtain ⟨k, rfl⟩ : ∃ k, i = k + 1 := ⟨i - 1, by omega⟩
  have hget : ∀ j, j < nPol (m + 1) order →
      ((List.range (nPol (m + 1) order)).map fun j => if j = k + 1 then (1 : ℝ) else 0)[j]?.getD 0 =
        if j = k + 1 then 1 else 0 := by
    intro j hj
    simp [hj]
  refine ⟨(List.range (nPol (m + 1) order)).map fun j => if j = k + 1 then 1 else 0, by simp, ?_, ?_⟩
  · rw [covEntry_ok _ _ _ (by simp) (by simp), sum_range'_one]
    congr 1
    rw [Finset.sum_eq_single k]
    · rw [hget _ (by omega)]
      simp
    · intro j hj hne
      rw [Finset.mem_range] at hj
      rw [hget _ (by omega), if_neg (by omega), mul_zero]
    · intro h
      rw [Finset.mem_range] at h
      omega
  · rw [expansion_covariance (m + 1) order ho _ _ (by simp) (by simp) values hv, Finset.sum_eq_single k]
    · rw [hget _ (by omega), List.getElem?_eq_getElem hi, hie]
      simp [squaredNorm]
    · intro j hj hne
      rw [Finset.mem_range] at hj
      rw [hget _ (by omega), if_neg (by omega)]
      simp
    · intro h
      rw [Finset.mem_range] at h
      omega

variable {K : Type} [Field K] {nx ny nu nm : Nat}

/-- C83: fails with more samples than polynomials: every estimate raises. -/
theorem C83_samples_fails {pol samples : Nat} (hp : 0 < pol) (hs : pol < samples) (hx : 0 < nx)
    (env : PceEnv nx ny nu nm pol samples K) (cfg : Config nx nm K) (t : K) (xMean : Fin nx → K)
    (pK : Matrix (Fin nx) (Fin nx) K) (yK : Fin nm → K) (uK : Fin nu → K) :
    pceEstimate hp env cfg t xMean pK yK uK = .error .runtimeError := by
  unfold pceEstimate
  have : ∀ rows : Fin nx → Fin pol → K,
      covMatrix samples (fun i => List.ofFn (rows i)) (fun i => List.ofFn (rows i)) =
        .error .runtimeError := by
    intro rows
    unfold covMatrix
    refine if_neg fun h => ?_
    have := h ⟨0, hx⟩ ⟨0, hx⟩
    rw [covEntry_error _ _ _ (by rw [List.length_ofFn]; exact hp) (by simpa using hs)] at this
    cases this
  simp only [this]
  rfl

variable [LinearOrder K] [IsStrictOrderedRing K]

/-- C121: the new covariance of the polynomial chaos filter is a covariance. -/
theorem C121_pce {pol samples : Nat} (hp : 0 < pol)
    (env : PceEnv nx ny nu nm pol samples K) (cfg : Config nx nm K) (hv : IsCovariance cfg.rV)
    (hn : PositiveCovariance cfg.rN)
    (hsolve : ∀ a b, PositiveCovariance a → a * env.solve a b = b) (t : K) (xMean : Fin nx → K)
    (pK : Matrix (Fin nx) (Fin nx) K) (yK : Fin nm → K) (uK : Fin nu → K) (hs : samples ≤ pol) :
    ∃ x p, pceEstimate hp env cfg t xMean pK yK uK = .ok (x, p) ∧ IsCovariance p := by
  unfold pceEstimate
  have hok : ∀ (a b : Nat) (rows : Fin a → Fin pol → K) (cols : Fin b → Fin pol → K),
      covMatrix samples (fun i => List.ofFn (rows i)) (fun i => List.ofFn (cols i)) = .ok (
      weightedOuter ((List.range' 1 (samples - 1)).map fun _ => (1 : K))
        ((List.range' 1 (samples - 1)).map fun k i => (List.ofFn (rows i))[k]?.getD 0) 0
        ((List.range' 1 (samples - 1)).map fun k j => (List.ofFn (cols j))[k]?.getD 0) 0) := by
    intro a b rows cols
    rw [covMatrix_ok _ _ _ (fun _ => by simpa using hs) (fun _ => by simpa using hs)]
    congr 1
    exact cov_weightedOuter _ (fun i k => (List.ofFn (rows i))[k]?.getD 0)
      (fun j k => (List.ofFn (cols j))[k]?.getD 0)
  simp only [hok]
  refine ⟨_, _, rfl, ?_⟩
  have hw : ∀ c ∈ (List.range' 1 (samples - 1)).map fun _ => (1 : K), 0 ≤ c := by
    intro c hc
    obtain ⟨-, -, rfl⟩ := List.mem_map.1 hc
    exact zero_le_one
  have hyy := fun l : List (Fin nm → K) => weightedOuter_covariance _ hw l 0
  refine corrected_covariance _ _ _ _ _ _ (weightedOuter_residual _ _ _ _ hw _ _ (by simp)) (hyy _) hv
    (PositiveCovariance.covariance hn) ?_
  have hpos := fun l => IsCovariance.add_positive (hyy l) hn
  have ht := fun l b => congrArg transpose (hsolve _ (b : Matrix (Fin nx) (Fin nm) K).transpose (hpos l))
  simp only [transpose_mul, transpose_transpose] at ht
  have hS := fun l => (hpos l).1
  simp only [hS] at ht
  rw [hS]
  exact ht _ _

end Verif
