import Verif.Lemmas.Expansion
import Mathlib.LinearAlgebra.Matrix.NonsingularInverse
import Mathlib.Tactic.NormNum
/-!
# Polynomial chaos expansions (C74-C78, C117-C119)
-/
namespace Verif
open Verif.Spec Verif.Pce

/-! ### The basis -/

/-- C74: the number of parameters is the binomial coefficient, and the multi-indices are exactly those of
total degree at most the order, each of them once, starting with the constant. -/
theorem C74_basis (n order : Nat) :
    nPol n order = Nat.choose (n + order) order ∧
    (exponents n order).length = nPol n order ∧ (exponents n order).Nodup ∧
    (∀ e, e ∈ exponents n order ↔ e.length = n ∧ e.sum ≤ order) ∧
    (exponents n order)[0]? = some (List.replicate n 0) := by
  obtain ⟨rest, h, -⟩ := exponents_cons n order
  exact ⟨nPol_eq n order, by rw [length_exponents, nPol_eq],
    (productRange_nodup (order + 1) n).filter _, mem_exponents n order, by rw [h]; rfl⟩

/-- C74: up to order nine the basis has one polynomial for each multi-index: the product of the Hermite
polynomials of its entries. -/
theorem C74_values_partial {K : Type} [Field K] (n order : Nat) (h : order ≤ 9) (x : List K)
    (hx : x.length = n) :
    psi n order x = .ok ((exponents n order).map fun e => basisPolynomial e x) := by
  rw [psi_ok n order (by omega) x hx]
  congr 1
  apply List.map_congr_left
  intro e he
  obtain ⟨-, hs⟩ := (mem_exponents n order e).1 he
  unfold basisPolynomial
  congr 1
  exact zipWith_congr_left e x fun k hk v =>
    heValue_He k v (by have := List.le_sum_of_mem hk; omega)

/-- C74: fails above order ten: the table of polynomials ends there. -/
theorem C74_order_fails {K : Type} [Field K] (n order : Nat) (hn : 0 < n) (h : 10 < order)
    (x : List K) : psi n order x = .error .indexError := by
  obtain ⟨rest, h1, h2⟩ := exponents_cons n order
  unfold psi
  simp only [h2, bind, Except.bind]
  apply fillPsi_error
  have hmem : order :: List.replicate (n - 1) 0 ∈ exponents n order :=
    (mem_exponents n order _).2 ⟨by simp; omega, by simp⟩
  rw [h1] at hmem
  rcases List.mem_cons.1 hmem with he | he
  · exfalso
    have : (List.replicate n 0)[0]? = some order := by rw [← he]; rfl
    rw [List.getElem?_replicate_of_lt hn] at this
    simp at this
    omega
  · exact ⟨_, he, order, by simp, h⟩

example : exponents 2 2 = [[0, 0], [0, 1], [0, 2], [1, 0], [1, 1], [2, 0]] := by decide

example : psi 2 2 [(2 : Rat), 3] = .ok [1, 3, 8, 2, 6, 3] := by decide +kernel

/-- C75: the tabulated polynomials are the Hermite polynomials, up to the ninth. -/
theorem C75_hermite_partial {K : Type} [Field K] (k : Nat) (hk : k ≤ 9) (x : K) :
    helist k x = .ok (He k x) := by
  rw [helist_heValue k x (by omega), heValue_He k x hk]

/-- C75: fails for the tenth one, at every point but zero. -/
theorem C75_tenth_fails {K : Type} [Field K] [CharZero K] (x : K) (hx : x ≠ 0) :
    helist 10 x ≠ .ok (He 10 x) := by
  rw [helist_heValue 10 x (by omega), heValue_ten]
  intro h
  have h' : He 10 x + 10 * x ^ 6 = He 10 x := Except.ok.inj h
  have : (10 : K) * x ^ 6 = 0 := by
    have := congrArg (fun y => y - He 10 x) h'
    simpa using this
  rcases mul_eq_zero.1 this with h | h
  · norm_num at h
  · exact hx (pow_eq_zero_iff (by norm_num) |>.1 h)

/-- C75: polynomials beyond the table raise. -/
theorem C75_beyond {K : Type} [Field K] (k : Nat) (hk : 10 < k) (x : K) :
    helist k x = .error .indexError := helist_error k x hk

example : helist 4 (2 : Rat) = .ok (-5) ∧ He 4 (2 : Rat) = -5 := by decide +kernel

/-! ### The least-squares factor -/

section LeastSquares
variable {K : Type} [Field K] {m p : Nat}

/-- C76: without regularisation the factor returns the coefficients of every expansion from its values at
the samples. -/
theorem C76_exact (lin : Linear p K) (psiMatrix : Matrix (Fin m) (Fin p) K)
    (hc : (lin.chol (normal psiMatrix 0)).transpose * lin.chol (normal psiMatrix 0) =
      normal psiMatrix 0)
    (hs : lin.chol (normal psiMatrix 0) * lin.solve (lin.chol (normal psiMatrix 0)) 1 = 1)
    (c : Fin p → K) : (lsFactor lin psiMatrix 0).mulVec (psiMatrix.mulVec c) = c := by
  have h := lsFactor_normal lin psiMatrix 0 hc hs
  rw [Matrix.mulVec_mulVec]
  have : lsFactor lin psiMatrix 0 * psiMatrix = 1 := by
    unfold lsFactor
    rw [Matrix.mul_assoc]
    have hn : normal psiMatrix 0 = psiMatrix.transpose * psiMatrix := by
      unfold normal
      simp
    rw [hn] at h
    rw [hn]
    exact h.1
  rw [this, Matrix.one_mulVec]

/-- C76: in general the factor returns the only minimiser of the regularised squared error. -/
theorem C76_minimiser [LinearOrder K] [IsStrictOrderedRing K] (lin : Linear p K)
    (psiMatrix : Matrix (Fin m) (Fin p) K) (lamb : K) (hl : 0 ≤ lamb)
    (hr : FullRank psiMatrix ∨ 0 < lamb)
    (hc : (lin.chol (normal psiMatrix lamb)).transpose * lin.chol (normal psiMatrix lamb) =
      normal psiMatrix lamb)
    (hs : lin.chol (normal psiMatrix lamb) * lin.solve (lin.chol (normal psiMatrix lamb)) 1 = 1)
    (v : Fin m → K) (c : Fin p → K) (hne : c ≠ (lsFactor lin psiMatrix lamb).mulVec v) :
    squaredError psiMatrix lamb v ((lsFactor lin psiMatrix lamb).mulVec v) <
      squaredError psiMatrix lamb v c := by
  have h := (lsFactor_normal lin psiMatrix lamb hc hs).2
  set b := (lsFactor lin psiMatrix lamb).mulVec v with hb
  have hnb : (normal psiMatrix lamb).mulVec b = psiMatrix.transpose.mulVec v := by
    rw [hb, Matrix.mulVec_mulVec]
    unfold lsFactor
    rw [← Matrix.mul_assoc, h, Matrix.one_mul]
  have key := squaredError_sub psiMatrix lamb v b c hnb
  have hd : c - b ≠ 0 := sub_ne_zero.2 hne
  have hpos : 0 < dotProduct (psiMatrix.mulVec (c - b)) (psiMatrix.mulVec (c - b)) +
      lamb * dotProduct (c - b) (c - b) := by
    rcases hr with hr | hr
    · have h1 : psiMatrix.mulVec (c - b) ≠ 0 := fun h0 => hd (hr _ h0)
      have h2 := dot_self_pos _ h1
      have h3 : 0 ≤ lamb * dotProduct (c - b) (c - b) := mul_nonneg hl (dot_self_pos _ hd).le
      linarith
    · have h2 := mul_pos hr (dot_self_pos _ hd)
      have h3 := dot_self_nonneg (psiMatrix.mulVec (c - b))
      linarith
  linarith

/-- C76: with samples that do not determine the coefficients (for example fewer samples than
coefficients) and no regularisation, the factor cannot be computed: whatever the factorisation returns is
singular. -/
theorem C76_rank (psiMatrix : Matrix (Fin m) (Fin p) K) (h : ¬ FullRank psiMatrix)
    (r inv : Matrix (Fin p) (Fin p) K) (hc : r.transpose * r = normal psiMatrix 0) : r * inv ≠ 1 := by
  intro hs
  apply h
  intro c hcz
  have hinv : inv * r = 1 := mul_eq_one_comm.1 hs
  have h1 : (r.transpose * r).mulVec c = 0 := by
    rw [hc]
    unfold normal
    rw [Matrix.add_mulVec, ← Matrix.mulVec_mulVec, hcz]
    simp [Matrix.mulVec_zero]
  have h2 : (inv * inv.transpose * (r.transpose * r)).mulVec c = c := by
    have : inv * inv.transpose * (r.transpose * r) = 1 := by
      rw [Matrix.mul_assoc, ← Matrix.mul_assoc inv.transpose, ← Matrix.transpose_mul, hs,
        Matrix.transpose_one, Matrix.one_mul, hinv]
    rw [this, Matrix.one_mulVec]
  rw [← h2, ← Matrix.mulVec_mulVec, h1, Matrix.mulVec_zero]

/-- The hypotheses of C76 for four samples of a constant. -/
example : let psiMatrix : Matrix (Fin 4) (Fin 1) Rat := fun _ _ => 1
    let lin : Linear 1 Rat := ⟨fun _ _ _ => 2, fun _ _ _ _ => 1 / 2⟩
    FullRank psiMatrix ∧
    (lin.chol (normal psiMatrix 0)).transpose * lin.chol (normal psiMatrix 0) = normal psiMatrix 0 ∧
    lin.chol (normal psiMatrix 0) * lin.solve (lin.chol (normal psiMatrix 0)) 1 = 1 := by
  refine ⟨?_, by decide +kernel, by decide +kernel⟩
  intro c hc
  funext i
  have := congrFun hc 0
  simpa [Matrix.mulVec, dotProduct, Subsingleton.elim i 0] using this

end LeastSquares

/-! ### Mean, variance and chance constraints -/

open MeasureTheory ProbabilityTheory

/-- C77: a nonpositive value of the chance constraint guarantees the probability, for every random
variable with that mean and variance. -/
theorem C77_chance {Ω : Type} {mΩ : MeasurableSpace Ω} (P : Measure Ω) [IsProbabilityMeasure P]
    (g : Ω → ℝ) (hg : MemLp g 2 P) (prob rhs : ℝ) (h0 : 0 < prob) (h1 : prob < 1)
    (h : chance Real.sqrt prob P[g] Var[g; P] rhs ≤ 0) :
    prob ≤ P.real {ω | g ω ≤ rhs} := by
  unfold chance at h
  have hv := variance_nonneg g P
  set v := Var[g; P] with hvdef
  set w := max (1 / 1000000) v with hw
  have hw0 : 0 < w := lt_of_lt_of_le (by norm_num) (le_max_left _ _)
  have hvw : v ≤ w := le_max_right _ _
  have hq : 0 < prob / (1 - prob) := div_pos h0 (by linarith)
  set a := rhs - P[g] with ha
  have hka : Real.sqrt (prob / (1 - prob)) * Real.sqrt w ≤ a := by rw [ha]; linarith
  have hkpos : 0 < Real.sqrt (prob / (1 - prob)) * Real.sqrt w :=
    mul_pos (Real.sqrt_pos.2 hq) (Real.sqrt_pos.2 hw0)
  have ha0 : 0 < a := lt_of_lt_of_le hkpos hka
  have hsq : prob / (1 - prob) * w ≤ a ^ 2 := by
    have := pow_le_pow_left₀ hkpos.le hka 2
    rwa [mul_pow, Real.sq_sqrt hq.le, Real.sq_sqrt hw0.le] at this
  have hc := cantelli P g hg a ha0
  have hset : P.real {ω | rhs < g ω} ≤ P.real {ω | P[g] + a ≤ g ω} := by
    refine measureReal_mono ?_ (measure_ne_top _ _)
    intro ω hω
    simp only [Set.mem_ofPred_eq] at hω ⊢
    rw [ha]; linarith
  have hcompl : P.real {ω | g ω ≤ rhs} = 1 - P.real {ω | rhs < g ω} := by
    have hm : NullMeasurableSet {ω | rhs < g ω} P :=
      nullMeasurableSet_lt aemeasurable_const hg.aemeasurable
    have : {ω | g ω ≤ rhs} = {ω | rhs < g ω}ᶜ := by ext ω; simp
    rw [this, probReal_compl_eq_one_sub₀ hm]
  have hsq' : prob * w ≤ a ^ 2 * (1 - prob) := by
    rwa [div_mul_eq_mul_div, div_le_iff₀ (by linarith)] at hsq
  have hfinal : P.real {ω | P[g] + a ≤ g ω} ≤ 1 - prob := by
    have hp : 0 < v + a ^ 2 := by positivity
    have h2 : P.real {ω | P[g] + a ≤ g ω} * (v + a ^ 2) ≤ (1 - prob) * (v + a ^ 2) := by
      refine le_trans hc ?_
      nlinarith
    exact le_of_mul_le_mul_right h2 hp
  rw [hcompl]
  linarith

/-- C78: with the exact expectations of the squared basis polynomials, up to order nine, the mean and the
variance computed from the coefficients are those of the expansion of independent standard normal
variables. -/
theorem C78_statistics_partial (n order : Nat) (ho : order ≤ 9) (par expPhi : List ℝ)
    (hl : par.length = nPol n order) (hle : expPhi.length = nPol n order)
    (values : (Fin n → ℝ) → List ℝ) (hv : ∀ x, psi n order (List.ofFn x) = .ok (values x))
    (he : ∀ i, i < nPol n order → expPhi[i]?.getD 0 =
      ∫ x, ((values x)[i]?.getD 0) ^ 2 ∂(Measure.pi fun _ => gaussianReal 0 1)) :
    ∫ x, (List.zipWith (· * ·) par (values x)).sum ∂(Measure.pi fun _ => gaussianReal 0 1) =
      mean par ∧
    Var[fun x => (List.zipWith (· * ·) par (values x)).sum; Measure.pi fun _ => gaussianReal 0 1] =
      variance par expPhi := by
  have hval : ∀ x, values x = (exponents n order).map fun e => basisPolynomial e (List.ofFn x) := by
    intro x
    have := hv x
    rw [C74_values_partial n order ho (List.ofFn x) (by simp)] at this
    exact (Except.ok.inj this).symm
  have hlen : (exponents n order).length = nPol n order := (C74_basis n order).2.1
  obtain ⟨q, hq⟩ : ∃ q, nPol n order = q + 1 := by
    obtain ⟨rest, h, -⟩ := exponents_cons n order
    exact ⟨rest.length, by rw [← hlen, h]; rfl⟩
  set E := exponents n order with hE
  let φ : Nat → (Fin n → ℝ) → ℝ := fun i x => basisPolynomial (E[i]?.getD []) (List.ofFn x)
  have hmemE : ∀ i, i ≤ q → E[i]?.getD [] ∈ E := by
    intro i hi
    have hlt : i < E.length := by omega
    rw [List.getElem?_eq_getElem hlt, Option.getD_some]
    exact List.getElem_mem hlt
  have hlenE : ∀ i, i ≤ q → (E[i]?.getD []).length = n := fun i hi =>
    ((mem_exponents n order _).1 (hmemE i hi)).1
  have hφv : ∀ i, i ≤ q → ∀ x, (values x)[i]?.getD 0 = φ i x := by
    intro i hi x
    have hlt : i < E.length := by omega
    simp only [φ, hval, List.getElem?_map, List.getElem?_eq_getElem hlt, Option.map_some,
      Option.getD_some]
  have hφ0 : ∀ x, φ 0 x = 1 := by
    intro x
    have : E[0]?.getD [] = List.replicate n 0 := by
      rw [(C74_basis n order).2.2.2.2]; rfl
    simp only [φ]
    rw [this, basis_zero]
  have hnd : E.Nodup := (C74_basis n order).2.2.1
  have hortho : ∀ i j, i ≤ q → j ≤ q →
      ∫ x, φ i x * φ j x ∂(Measure.pi fun _ => gaussianReal 0 1) =
        if i = j then squaredNorm (E[i]?.getD []) else 0 := by
    intro i j hi hj
    rw [integral_basis_mul _ _ n (hlenE i hi) (hlenE j hj)]
    by_cases hij : i = j
    · simp [hij]
    · have hi' : i < E.length := by omega
      have hj' : j < E.length := by omega
      rw [if_neg hij, if_neg]
      rw [List.getElem?_eq_getElem hi', List.getElem?_eq_getElem hj', Option.getD_some,
        Option.getD_some]
      exact fun h => hij ((List.Nodup.getElem_inj_iff hnd).1 h)
  have hstat := orthogonal_statistics (Measure.pi fun _ : Fin n => gaussianReal 0 1) q φ
    (fun i => squaredNorm (E[i]?.getD [])) (fun i => par[i]?.getD 0) hφ0
    (fun i j hi hj => integrable_basis_mul _ _ n (hlenE i hi) (hlenE j hj)) hortho
  have hsum : ∀ x, (List.zipWith (· * ·) par (values x)).sum =
      ∑ i ∈ Finset.range (q + 1), par[i]?.getD 0 * φ i x := by
    intro x
    rw [sum_zipWith _ _ _ (by rw [hval, List.length_map, hlen, hl]), hl, hq]
    refine Finset.sum_congr rfl fun i hi => ?_
    rw [hφv i (by simpa [Nat.lt_succ_iff] using hi)]
  simp only [hsum]
  refine ⟨hstat.1, hstat.2.trans ?_⟩
  unfold Pce.variance
  rw [sum_zipWith (fun c e => c ^ 2 * e) _ _ (by simp [hl, hle]), List.length_tail, hl, hq,
    Nat.add_sub_cancel]
  refine Finset.sum_congr rfl fun i hi => ?_
  rw [Finset.mem_range] at hi
  rw [List.getElem?_tail, List.getElem?_tail, he (i + 1) (by omega)]
  congr 1
  have := hortho (i + 1) (i + 1) (by omega) (by omega)
  rw [if_pos rfl] at this
  rw [← this]
  congr 1
  funext x
  rw [hφv (i + 1) (by omega), sq]

/-- C78: fails for the expectations that are used: they are means over random samples. For one parameter
and order one the variance is that of the expansion only if the samples have mean square one. -/
theorem C78_samples_fails (samples : List ℝ) (c0 c1 : ℝ) (hc : c1 ≠ 0)
    (psis : List (List ℝ)) (hp : psis = samples.map fun x => [1, x]) :
    (∀ x : ℝ, psi 1 1 [x] = .ok [1, x]) ∧
    (variance [c0, c1] (expectationVector 2 psis) =
        Var[fun x => (List.zipWith (· * ·) [c0, c1] [1, x]).sum; gaussianReal 0 1] ↔
      (samples.map fun x => x ^ 2).sum / (samples.length : ℝ) = 1) := by
  constructor
  · intro x
    rw [C74_values_partial 1 1 (by omega) [x] rfl]
    have : exponents 1 1 = [[0], [1]] := by decide
    rw [this]
    simp [basisPolynomial, He]
  · have hvar : Var[fun x => (List.zipWith (· * ·) [c0, c1] [1, x]).sum; gaussianReal 0 1] =
        c1 ^ 2 := by
      have h1 : (fun x : ℝ => (List.zipWith (· * ·) [c0, c1] [1, x]).sum) =
          fun x => c1 * x + c0 := by funext x; simp [add_comm]
      rw [h1, variance_add_const (by fun_prop), variance_const_mul]
      simp
    have hexp : variance [c0, c1] (expectationVector 2 psis) =
        c1 ^ 2 * ((samples.map fun x => x ^ 2).sum / (samples.length : ℝ)) := by
      subst hp
      simp [Pce.variance, expectationVector, List.range_succ, Function.comp_def]
    rw [hvar, hexp]
    constructor
    · intro h
      have : c1 ^ 2 ≠ 0 := pow_ne_zero 2 hc
      exact mul_left_cancel₀ this (h.trans (mul_one _).symm)
    · intro h
      rw [h, mul_one]

/-- C78: fails at order ten: the tenth polynomial of the table has mean 150, so that the first coefficient
is not the mean. -/
theorem C78_tenth_fails :
    ∫ x : ℝ, heValue 10 x ∂(gaussianReal 0 1) = 150 := by
  have h1 : ∀ x : ℝ, heValue 10 x = He 10 x * He 0 x + 10 * (He 6 x * He 0 x) +
      150 * (He 4 x * He 0 x) + 450 * (He 2 x * He 0 x) + 150 := by
    intro x
    rw [heValue_ten]
    have : x ^ 6 = He 6 x + 15 * He 4 x + 45 * He 2 x + 15 := by
      simp only [He]; push_cast; ring
    rw [this]
    simp only [show He 0 x = (1 : ℝ) from rfl]
    ring
  have hi : ∀ k, Integrable (fun x => He k x * He 0 x) (gaussianReal 0 1) := by
    intro k
    have := integrable_poly (hermiteR k * hermiteR 0)
    simpa only [Polynomial.eval_mul, eval_hermiteR] using this
  have hz : ∀ k : Nat, k ≠ 0 → ∫ x, He k x * He 0 x ∂(gaussianReal 0 1) = 0 := by
    intro k hk
    rw [integral_He_mul_He, if_neg hk]
  have i1 : Integrable (fun x : ℝ => He 10 x * He 0 x + 10 * (He 6 x * He 0 x))
      (gaussianReal 0 1) := (hi 10).add ((hi 6).const_mul 10)
  have i2 : Integrable (fun x : ℝ => He 10 x * He 0 x + 10 * (He 6 x * He 0 x) +
      150 * (He 4 x * He 0 x)) (gaussianReal 0 1) := i1.add ((hi 4).const_mul 150)
  have i3 : Integrable (fun x : ℝ => He 10 x * He 0 x + 10 * (He 6 x * He 0 x) +
      150 * (He 4 x * He 0 x) + 450 * (He 2 x * He 0 x)) (gaussianReal 0 1) :=
    i2.add ((hi 2).const_mul 450)
  simp only [h1]
  rw [integral_add i3 (integrable_const _), integral_add i2 ((hi 2).const_mul 450),
    integral_add i1 ((hi 4).const_mul 150), integral_add (hi 10) ((hi 6).const_mul 10),
    integral_const_mul, integral_const_mul, integral_const_mul, hz 10 (by omega), hz 6 (by omega),
    hz 4 (by omega), hz 2 (by omega)]
  simp

/-- C78: adding a constant to the first coefficient changes only the mean, and a factor enters the
variance squared. -/
theorem C78_affine {K : Type} [Field K] (c0 b f : K) (rest expPhi : List K) :
    mean ((c0 + b) :: rest) = mean (c0 :: rest) + b ∧
    variance ((c0 + b) :: rest) expPhi = variance (c0 :: rest) expPhi ∧
    mean ((c0 :: rest).map (f * ·)) = f * mean (c0 :: rest) ∧
    variance ((c0 :: rest).map (f * ·)) expPhi = f ^ 2 * variance (c0 :: rest) expPhi := by
  refine ⟨rfl, rfl, rfl, ?_⟩
  unfold Pce.variance
  simp only [List.map_cons, List.tail_cons]
  generalize expPhi.tail = l
  induction rest generalizing l with
  | nil => simp
  | cons a rest ih =>
    cases l with
    | nil => simp
    | cons b l =>
      simp only [List.map_cons, List.zipWith_cons_cons, List.sum_cons, ih, mul_add]
      ring

/-- The hypotheses of C77 can be met: with a constant limit, large enough. -/
example : chance Real.sqrt (1 / 2) 0 1 1 ≤ 0 := by
  unfold chance
  norm_num

/-- The hypotheses of C78: the expectations for two parameters and order one. -/
example : psi 2 1 [(5 : Rat), 7] = .ok [1, 7, 5] ∧ nPol 2 1 = 3 := by decide +kernel

/-! ### Orthogonality -/

/-- C117: up to order nine the basis polynomials are orthogonal for independent standard normal variables,
and their squared norms are the products of the factorials of the degrees. -/
theorem C117_orthogonal_partial (n order : Nat) (ho : order ≤ 9)
    (values : (Fin n → ℝ) → List ℝ) (hv : ∀ x, psi n order (List.ofFn x) = .ok (values x))
    (i j : Nat) (e f : List Nat) (hi : (exponents n order)[i]? = some e)
    (hj : (exponents n order)[j]? = some f) :
    ∫ x, ((values x)[i]?.getD 0) * ((values x)[j]?.getD 0)
        ∂(Measure.pi fun _ => gaussianReal 0 1) =
      if i = j then (e.map fun k => (k.factorial : ℝ)).prod else 0 := by
  have hval : ∀ x, values x = (exponents n order).map fun e => basisPolynomial e (List.ofFn x) := by
    intro x
    have := hv x
    rw [C74_values_partial n order ho (List.ofFn x) (by simp)] at this
    exact (Except.ok.inj this).symm
  have he := ((mem_exponents n order _).1 (List.mem_of_getElem? hi)).1
  have hf := ((mem_exponents n order _).1 (List.mem_of_getElem? hj)).1
  simp only [hval, List.getElem?_map, hi, hj, Option.map_some, Option.getD_some]
  rw [integral_basis_mul e f n he hf]
  by_cases hij : i = j
  · subst hij
    rw [hi] at hj
    rw [if_pos (Option.some.inj hj), if_pos rfl]
    rfl
  · rw [if_neg hij, if_neg]
    intro hef
    subst hef
    obtain ⟨hil, hie⟩ := List.getElem?_eq_some_iff.1 hi
    obtain ⟨hjl, hje⟩ := List.getElem?_eq_some_iff.1 hj
    exact hij ((List.Nodup.getElem_inj_iff (C74_basis n order).2.2.1).1 (hie.trans hje.symm))

/-- C117: fails at order ten: the last polynomial for one parameter is not orthogonal to the
constant. -/
theorem C117_tenth_fails (values : ℝ → List ℝ) (hv : ∀ x, psi 1 10 [x] = .ok (values x)) :
    ∫ x, ((values x)[10]?.getD 0) * ((values x)[0]?.getD 0) ∂(gaussianReal 0 1) = 150 := by
  have hexp : exponents 1 10 = [[0], [1], [2], [3], [4], [5], [6], [7], [8], [9], [10]] := by decide
  have hval : ∀ x, values x = (exponents 1 10).map fun e => (List.zipWith heValue e [x]).prod := by
    intro x
    have := hv x
    rw [psi_ok 1 10 (by omega) [x] rfl] at this
    exact (Except.ok.inj this).symm
  simp only [hval, hexp]
  rw [← C78_tenth_fails]
  congr 1
  funext x
  have h0 : heValue 0 x = 1 := heValue_He 0 x (by omega)
  simp [h0]

/-! ### Samples of the parameters -/

section Samples
variable {K : Type} [Field K]

/-- C118: samples drawn from points of mean zero and identity covariance have the given mean and the given
covariance. -/
theorem C118_samples {S : Type} [Fintype S] {n : Nat} (w : S → K) (hw : ∑ s, w s = 1)
    (eps : S → Fin n → K) (hm : HasMean w eps 0) (hc : HasCovariance w eps 1)
    (chol : Matrix (Fin n) (Fin n) K → Matrix (Fin n) (Fin n) K) (mean : Fin n → K)
    (covariance : Matrix (Fin n) (Fin n) K)
    (hchol : (chol covariance).transpose * chol covariance = covariance) :
    HasMean w (fun s => affineSample chol mean covariance (eps s)) mean ∧
    HasCovariance w (fun s => affineSample chol mean covariance (eps s)) covariance := by
  have hmean : HasMean w (fun s => affineSample chol mean covariance (eps s)) mean := by
    intro i
    exact (weightedMean_affine w hw eps 0 hm mean (chol covariance).transpose i).trans (by simp)
  refine ⟨hmean, mean, hmean, ?_⟩
  intro i j
  obtain ⟨m, hm', hc⟩ := hc
  have hm0 : m = 0 := by
    funext k
    rw [← hm' k, hm k]
  subst hm0
  have hsub : ∀ s i, affineSample chol mean covariance (eps s) i - mean i =
      (chol covariance).transpose.mulVec (eps s) i := by
    intro s i
    simp [affineSample]
  simp only [hsub]
  rw [weightedMean_mulVec w eps 1 (fun k l => by simpa using hc k l), Matrix.mul_one,
    Matrix.transpose_transpose, hchol]

/-- C118: no uncertainty raises a `ValueError`, and so does every distribution but the normal one raise a
`NotImplementedError`. -/
theorem C118_errors (nParameters nInitial : Nat) (distributions : List String) :
    (nParameters = 0 → nInitial = 0 →
      usedCovariances nParameters nInitial distributions = .error .valueError) ∧
    (0 < nParameters + nInitial → (∃ d ∈ distributions, d ≠ "normal") →
      usedCovariances nParameters nInitial distributions = .error .notImplementedError) ∧
    (0 < nParameters + nInitial → (∀ d ∈ distributions, d = "normal") →
      usedCovariances nParameters nInitial distributions =
        .ok (decide (0 < nParameters), decide (0 < nInitial))) := by
  unfold usedCovariances
  rcases Nat.eq_zero_or_pos nParameters with h1 | h1 <;> rcases Nat.eq_zero_or_pos nInitial with h2 | h2
  · subst h1; subst h2
    simp [bind, Except.bind]
  all_goals
    refine ⟨fun a b => by omega, fun _ h => ?_, fun _ h => ?_⟩
    · obtain ⟨d, hd, hne⟩ := h
      have : distributions.all (· == "normal") = false := by
        rw [List.all_eq_false]
        exact ⟨d, hd, by simpa using hne⟩
      simp [h1, h2, this, bind, Except.bind]
    · have : distributions.all (· == "normal") = true := by
        rw [List.all_eq_true]
        exact fun d hd => by simpa using h d hd
      simp [h1, h2, this, bind, Except.bind]

end Samples

/-- Four points with the moments that C118 asks for. -/
example : HasMean (fun _ : Fin 4 => (1 / 4 : Rat))
      (fun s => ![if s.val < 2 then 1 else -1, if s.val % 2 = 0 then 1 else -1]) 0 ∧
    HasCovariance (fun _ : Fin 4 => (1 / 4 : Rat))
      (fun s => ![if s.val < 2 then 1 else -1, if s.val % 2 = 0 then 1 else -1]) 1 := by
  have h : HasMean (fun _ : Fin 4 => (1 / 4 : Rat))
      (fun s => ![if s.val < 2 then 1 else -1, if s.val % 2 = 0 then 1 else -1]) 0 := by
    unfold HasMean weightedMean
    decide +kernel
  refine ⟨h, 0, h, fun i j => ?_⟩
  fin_cases i <;> fin_cases j <;> simp [weightedMean, Fin.sum_univ_four] <;> norm_num

/-- C119: the logarithms of the log-normal samples are the normal samples around the logarithm of the
given mean. -/
theorem C119_logarithm_partial {n : Nat} (chol : Matrix (Fin n) (Fin n) ℝ → Matrix (Fin n) (Fin n) ℝ)
    (mean : Fin n → ℝ) (covariance : Matrix (Fin n) (Fin n) ℝ) (eps : Fin n → ℝ) (i : Fin n) :
    0 < logNormalSample Real.log Real.exp chol mean covariance eps i ∧
    Real.log (logNormalSample Real.log Real.exp chol mean covariance eps i) =
      affineSample chol (fun i => Real.log (mean i)) covariance eps i :=
  ⟨Real.exp_pos _, Real.log_exp _⟩

/-- C119: fails: log-normal samples do not have the given mean, they overestimate it for every positive
mean and nonzero deviation. -/
theorem C119_mean_fails (mean sigma : ℝ) (hm : 0 < mean) (hs : sigma ≠ 0) :
    mean < ∫ x, logNormalSample (n := 1) Real.log Real.exp (fun _ => fun _ _ => sigma) (fun _ => mean)
      (fun _ _ => sigma ^ 2) (fun _ => x) 0 ∂(gaussianReal 0 1) := by
  have h : ∀ x : ℝ, logNormalSample (n := 1) Real.log Real.exp (fun _ => fun _ _ => sigma)
      (fun _ => mean) (fun _ _ => sigma ^ 2) (fun _ => x) 0 = mean * Real.exp (sigma * x) := by
    intro x
    simp [logNormalSample, affineSample, Matrix.mulVec, dotProduct, Real.exp_add, Real.exp_log hm,
      Matrix.transpose]
  simp only [h]
  rw [integral_const_mul]
  have hg : ∫ x, Real.exp (sigma * x) ∂(gaussianReal 0 1) = Real.exp (sigma ^ 2 / 2) := by
    have := congrFun (mgf_id_gaussianReal (μ := 0) (v := 1)) sigma
    simpa [mgf] using this
  rw [hg]
  have : 1 < Real.exp (sigma ^ 2 / 2) := Real.one_lt_exp_iff.2 (by positivity)
  nlinarith

end Verif
