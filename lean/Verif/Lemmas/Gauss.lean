import Verif.Spec.Pce
import Mathlib.Probability.Distributions.Gaussian.Real
import Mathlib.MeasureTheory.Integral.IntegralEqImproper
import Mathlib.Analysis.Calculus.Deriv.Polynomial
/-!
# Hermite polynomials under the standard normal distribution
-/
namespace Verif.Pce
open Verif Verif.Spec MeasureTheory ProbabilityTheory Polynomial

/-- The Hermite polynomials as polynomials. -/
noncomputable def hermiteR : Nat → ℝ[X]
  | 0 => 1
  | n + 1 => X * hermiteR n - derivative (hermiteR n)

theorem derivative_hermiteR (n : Nat) :
    derivative (hermiteR (n + 1)) = (n + 1 : ℝ[X]) * hermiteR n := by
  induction n with
  | zero => simp [hermiteR]
  | succ n ih =>
    have h : hermiteR (n + 1 + 1) = X * hermiteR (n + 1) - derivative (hermiteR (n + 1)) := rfl
    rw [h, derivative_sub, derivative_mul, derivative_X, ih, derivative_mul]
    have h' : hermiteR (n + 1) = X * hermiteR n - derivative (hermiteR n) := rfl
    have hd : derivative ((n : ℝ[X]) + 1) = 0 := by simp
    rw [hd]
    push_cast
    linear_combination ((n : ℝ[X]) + 1) * (-h')

theorem eval_hermiteR (n : Nat) (x : ℝ) : (hermiteR n).eval x = He n x := by
  induction n using Nat.twoStepInduction with
  | zero => simp [hermiteR, He]
  | one => simp [hermiteR, He]
  | more n ih0 ih1 =>
    have h : hermiteR (n + 1 + 1) = X * hermiteR (n + 1) - derivative (hermiteR (n + 1)) := rfl
    rw [h, derivative_hermiteR]
    simp [He, ih0, ih1]

theorem integrable_poly (p : ℝ[X]) : Integrable (fun x => p.eval x) (gaussianReal 0 1) := by
  induction p using Polynomial.induction_on' with
  | add p q hp hq =>
    refine (hp.add hq).congr (Filter.Eventually.of_forall fun x => ?_)
    simp
  | monomial n a =>
    simp only [eval_monomial]
    apply Integrable.const_mul
    rcases Nat.eq_zero_or_pos n with rfl | hn
    · simp
    · have h := (memLp_id_gaussianReal (μ := 0) (v := 1) n).integrable_norm_pow (by omega)
      have h' : Integrable (fun x : ℝ => x ^ n) (gaussianReal 0 1) := by
        refine h.mono' (by fun_prop) (Filter.Eventually.of_forall fun x => ?_)
        simp
      exact h'

theorem integrable_poly_pdf (p : ℝ[X]) :
    Integrable (fun x => p.eval x * gaussianPDFReal 0 1 x) := by
  have h := integrable_poly p
  rw [gaussianReal_of_var_ne_zero _ one_ne_zero] at h
  have hm : Measurable (gaussianPDF 0 1) := measurable_gaussianPDF 0 1
  rw [integrable_withDensity_iff_integrable_smul' hm
    (Filter.Eventually.of_forall fun x => gaussianPDF_lt_top)] at h
  refine h.congr (Filter.Eventually.of_forall fun x => ?_)
  simp [toReal_gaussianPDF, mul_comm]

theorem hasDerivAt_pdf (x : ℝ) :
    HasDerivAt (gaussianPDFReal 0 1) (-(x * gaussianPDFReal 0 1 x)) x := by
  have h1 : HasDerivAt (fun x : ℝ => -x ^ 2 / 2) (-x) x := by
    refine (((hasDerivAt_pow 2 x).neg).div_const 2).congr_deriv ?_
    norm_num
    ring
  have h2 := (h1.exp).const_mul ((√(2 * Real.pi * (1 : NNReal)))⁻¹)
  have h3 : gaussianPDFReal 0 1 =
      fun x => (√(2 * Real.pi * (1 : NNReal)))⁻¹ * Real.exp (-x ^ 2 / 2) := by
    funext x
    simp [gaussianPDFReal]
  rw [h3]
  refine h2.congr_deriv ?_
  ring

/-- Stein's identity for polynomials. -/
theorem stein (p : ℝ[X]) :
    ∫ x, x * p.eval x ∂(gaussianReal 0 1) = ∫ x, (derivative p).eval x ∂(gaussianReal 0 1) := by
  rw [integral_gaussianReal_eq_integral_smul one_ne_zero,
    integral_gaussianReal_eq_integral_smul one_ne_zero]
  have h := integral_mul_deriv_eq_deriv_mul_of_integrable
    (u := fun x => p.eval x) (u' := fun x => (derivative p).eval x)
    (v := gaussianPDFReal 0 1) (v' := fun x => -(x * gaussianPDFReal 0 1 x))
    (fun x _ => p.hasDerivAt x) (fun x _ => hasDerivAt_pdf x)
    (by
      have := (integrable_poly_pdf (X * p)).neg
      refine this.congr (Filter.Eventually.of_forall fun x => ?_)
      simp; ring)
    (by
      refine (integrable_poly_pdf (derivative p)).congr (Filter.Eventually.of_forall fun x => rfl))
    (by
      refine (integrable_poly_pdf p).congr (Filter.Eventually.of_forall fun x => rfl))
  have h1 : ∫ x, p.eval x * -(x * gaussianPDFReal 0 1 x) =
      -∫ x, gaussianPDFReal 0 1 x • (x * p.eval x) := by
    rw [← integral_neg]
    congr 1
    funext x
    simp; ring
  have h2 : ∫ x, (derivative p).eval x * gaussianPDFReal 0 1 x =
      ∫ x, gaussianPDFReal 0 1 x • (derivative p).eval x := by
    congr 1
    funext x
    simp [mul_comm]
  rw [h1, h2] at h
  exact neg_injective h

theorem integral_hermite_succ_mul (n : Nat) (q : ℝ[X]) :
    ∫ x, (hermiteR (n + 1) * q).eval x ∂(gaussianReal 0 1) =
      ∫ x, (hermiteR n * derivative q).eval x ∂(gaussianReal 0 1) := by
  have h : hermiteR (n + 1) * q = X * (hermiteR n * q) - derivative (hermiteR n) * q := by
    rw [hermiteR]; ring
  have h1 : ∀ x, (hermiteR (n + 1) * q).eval x =
      x * (hermiteR n * q).eval x - (derivative (hermiteR n) * q).eval x := by
    intro x; rw [h]; simp
  simp only [h1]
  rw [integral_sub, stein, ← integral_sub]
  · congr 1
    funext x
    simp [derivative_mul]
  · exact integrable_poly _
  · exact integrable_poly _
  · have := integrable_poly (X * (hermiteR n * q))
    simpa using this
  · exact integrable_poly _

/-- Orthogonality of the Hermite polynomials. -/
theorem integral_He_mul_He (m n : Nat) :
    ∫ x, He m x * He n x ∂(gaussianReal 0 1) = if m = n then (m.factorial : ℝ) else 0 := by
  have key : ∀ m n : Nat, ∫ x, (hermiteR m * hermiteR n).eval x ∂(gaussianReal 0 1) =
      if m = n then (m.factorial : ℝ) else 0 := by
    intro m
    induction m with
    | zero =>
      intro n
      cases n with
      | zero => simp [hermiteR]
      | succ n =>
        have := integral_hermite_succ_mul n (hermiteR 0)
        rw [mul_comm] at this
        rw [this]
        simp [hermiteR]
    | succ m ih =>
      intro n
      rw [integral_hermite_succ_mul]
      cases n with
      | zero => simp [hermiteR]
      | succ n =>
        rw [derivative_hermiteR]
        have h1 : ∀ x, (hermiteR m * ((n + 1 : ℝ[X]) * hermiteR n)).eval x =
            (n + 1 : ℝ) * (hermiteR m * hermiteR n).eval x := by
          intro x; simp; ring
        simp only [h1]
        rw [integral_const_mul, ih]
        by_cases h : m = n
        · subst h; simp [Nat.factorial_succ]
        · simp [h]
  have := key m n
  simpa [eval_hermiteR] using this

end Verif.Pce
