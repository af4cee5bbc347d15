import Verif.Props.Indirect
import Verif.Lemmas.IndirectOptimal
/-!
# C127: the control law of the indirect method minimises the Hamiltonian
-/
namespace Verif
open Spec Indirect Matrix

/-- The unconstrained optimum and the law, control by control. -/
theorem law_values (B : Backend) (H : Expr) (o : Ocp) (us : List Expr)
    (hr : calculateOptimalControl B H o = .ok us) (hs : Sized o) (hu : o.model.u.Nodup)
    (ops : Expr.Ops ℝ) (hops : MinMax ops opFmin opFmax) (ρ : Sym → ℝ) (c : ℝ)
    (g : Fin o.model.u.length → ℝ) (A : Matrix (Fin o.model.u.length) (Fin o.model.u.length) ℝ)
    (hq : QuadraticInControls ops B.table H o.model.u ρ c g A) (hA : StrictlyConvex A)
    (hsz : (B.inv (Expr.hessian B.table o.model.u H)).length = o.model.u.length ∧
      ∀ row ∈ B.inv (Expr.hessian B.table o.model.u H), row.length = o.model.u.length)
    (hinv : matrixAt ops ρ o.model.u.length (B.inv (Expr.hessian B.table o.model.u H)) =
      (matrixAt ops ρ o.model.u.length (Expr.hessian B.table o.model.u H))⁻¹) :
    ∃ v w : Fin o.model.u.length → ℝ, g + A *ᵥ v = 0 ∧
      (∀ i : Fin o.model.u.length, ∃ e, us[i.val]? = some e ∧ e.eval ops ρ = w i) ∧
      ((∃ w', InBounds o w') → InBounds o w) ∧ (InBounds o v → w = v) ∧
      ∀ w', InBounds o w' → ∀ i, |w i - v i| ≤ |w' i - v i| := by
  have hAinv : IsUnit A := by
    rw [← mulVec_injective_iff_isUnit]
    intro a b hab
    by_contra hne
    have := hA.2 (a - b) (sub_ne_zero.mpr hne)
    rw [mulVec_sub, sub_eq_zero.mpr hab, dotProduct_zero] at this
    exact lt_irrefl _ this
  have hdet : IsUnit A.det := (isUnit_iff_isUnit_det A).mp hAinv
  rw [hessian_matrix hu hA.1 hq] at hinv
  let ρ₀ := assign o.model.u 0 ρ
  have h₀ : (∀ s ∈ o.model.u, ρ₀ s = 0) ∧ ∀ s, s ∉ o.model.u → ρ₀ s = ρ s := by
    refine ⟨fun s h => ?_, fun s h => assign_not_mem _ _ _ _ h⟩
    obtain ⟨i, hi, rfl⟩ := List.getElem_of_mem h
    exact assign_get o.model.u hu 0 ρ ⟨i, hi⟩
  obtain ⟨lo, hlo⟩ : ∃ lo : Fin o.model.u.length → XRat, ∀ i, o.uMin[i.val]? = some (lo i) :=
    ⟨fun i => o.uMin[i.val]'(by rw [hs.uMin]; exact i.isLt), fun i => List.getElem?_eq_getElem _⟩
  obtain ⟨hi, hhi⟩ : ∃ hi : Fin o.model.u.length → XRat, ∀ i, o.uMax[i.val]? = some (hi i) :=
    ⟨fun i => o.uMax[i.val]'(by rw [hs.uMax]; exact i.isLt), fun i => List.getElem?_eq_getElem _⟩
  let v : Fin o.model.u.length → ℝ := -(A⁻¹ *ᵥ g)
  have hlaw : ∀ i : Fin o.model.u.length, ∃ e : Expr, us[i.val]? = some e ∧
      ((∃ x : ℝ, Within (lo i) (hi i) x) → Within (lo i) (hi i) (e.eval ops ρ)) ∧
      (Within (lo i) (hi i) (v i) → e.eval ops ρ = v i) ∧
      ∀ x : ℝ, Within (lo i) (hi i) x → |e.eval ops ρ - v i| ≤ |x - v i| := by
    intro i
    have hil : i.val < (B.inv (Expr.hessian B.table o.model.u H)).length := by
      rw [hsz.1]; exact i.isLt
    have hrl := hsz.2 _ (List.getElem_mem hil)
    have := C85_law B H o us hr i.val _ _ _ (List.getElem?_eq_getElem hil) (hlo i) (hhi i) ops hops ρ
      ρ₀ hu h₀
    have hv : v i = -(List.zipWith (fun a s => a.eval ops ρ *
        (Expr.diff B.table s H).eval ops ρ₀) (B.inv (Expr.hessian B.table o.model.u H))[i.val]
          o.model.u).sum := by
      rw [zipWith_sum_fin _ _ _ hrl]
      simp only [v, Pi.neg_apply, mulVec, dotProduct, ← hinv]
      congr 1
      refine Finset.sum_congr rfl fun j _ => ?_
      have hg := gradient_value hu hA.1 hq 0 j
      simp only [mulVec_zero, add_zero, Fin.getElem_fin] at hg ⊢
      rw [hg]
      congr 1
      have hj : j.val < (B.inv (Expr.hessian B.table o.model.u H))[i.val].length := by
        rw [hrl]; exact j.isLt
      simp [matrixAt, hil, hj]
    rw [hv]
    exact this
  choose e he hw hin hnear using hlaw
  refine ⟨v, fun i => (e i).eval ops ρ, ?_, fun i => ⟨e i, he i, rfl⟩, ?_, ?_, ?_⟩
  · simp only [v, mulVec_neg, mulVec_mulVec, mul_nonsing_inv A hdet, one_mulVec, add_neg_cancel]
  · rintro ⟨w', hw'⟩ i _ _ h₁ h₂
    rw [hlo i] at h₁
    rw [hhi i] at h₂
    cases h₁
    cases h₂
    exact hw i ⟨w' i, hw' i _ _ (hlo i) (hhi i)⟩
  · intro hv
    funext i
    exact hin i (hv i _ _ (hlo i) (hhi i))
  · intro w' hw' i
    exact hnear i (w' i) (hw' i _ _ (hlo i) (hhi i))

/-- C127, first part. Where the Hamiltonian is a strictly convex quadratic function of the controls
whose Hessian does not couple a control that has a bound with another one, the control law lies within
the bounds and attains the minimum of the Hamiltonian over all controls within the bounds. `B` is the
symbolic engine: its matrix inverse has the right size and value. Missing for the full property:
Hessians that couple controls with bounds. -/
theorem C127_partial (B : Backend) (H : Expr) (o : Ocp) (us : List Expr)
    (hr : calculateOptimalControl B H o = .ok us) (hs : Sized o) (hu : o.model.u.Nodup)
    (ops : Expr.Ops ℝ) (hops : MinMax ops opFmin opFmax) (ρ : Sym → ℝ) (c : ℝ)
    (g : Fin o.model.u.length → ℝ) (A : Matrix (Fin o.model.u.length) (Fin o.model.u.length) ℝ)
    (hq : QuadraticInControls ops B.table H o.model.u ρ c g A) (hA : StrictlyConvex A)
    (hdec : BoundsUncoupled o A)
    (hsz : (B.inv (Expr.hessian B.table o.model.u H)).length = o.model.u.length ∧
      ∀ row ∈ B.inv (Expr.hessian B.table o.model.u H), row.length = o.model.u.length)
    (hinv : matrixAt ops ρ o.model.u.length (B.inv (Expr.hessian B.table o.model.u H)) =
      (matrixAt ops ρ o.model.u.length (Expr.hessian B.table o.model.u H))⁻¹)
    (hb : ∃ w', InBounds o w') :
    ∃ w : Fin o.model.u.length → ℝ,
      (∀ i : Fin o.model.u.length, ∃ e, us[i.val]? = some e ∧ e.eval ops ρ = w i) ∧
      InBounds o w ∧
      ∀ w', InBounds o w' →
        H.eval ops (assign o.model.u w ρ) ≤ H.eval ops (assign o.model.u w' ρ) := by
  classical
  obtain ⟨v, w, hv, he, hw, -, hnear⟩ := law_values B H o us hr hs hu ops hops ρ c g A hq hA hsz hinv
  refine ⟨w, he, hw hb, fun w' hw' => ?_⟩
  have hfree : ∀ i : Fin o.model.u.length, ¬ HasBound o i → w i = v i := by
    intro i hi
    unfold HasBound at hi
    push Not at hi
    have hin : InBounds o (Function.update w' i (v i)) := by
      intro j lo hi' h₁ h₂
      by_cases hj : j = i
      · subst hj
        rw [hi.1] at h₁
        rw [hi.2] at h₂
        cases h₁
        cases h₂
        simp [Within]
      · rw [Function.update_of_ne hj]
        exact hw' j lo hi' h₁ h₂
    have := hnear _ hin i
    rw [Function.update_self, sub_self, abs_zero] at this
    exact sub_eq_zero.mp (abs_eq_zero.mp (le_antisymm this (abs_nonneg _)))
  have split : ∀ x : Fin o.model.u.length → ℝ, x ⬝ᵥ A *ᵥ x =
      ∑ i : Fin o.model.u.length, (if HasBound o i then A i i * x i ^ 2 else 0) +
        (fun i : Fin o.model.u.length => if HasBound o i then 0 else x i) ⬝ᵥ
          A *ᵥ fun i : Fin o.model.u.length => if HasBound o i then 0 else x i := by
    intro x
    simp only [dotProduct, ← Finset.sum_add_distrib]
    refine Finset.sum_congr rfl fun i _ => ?_
    by_cases hi : HasBound o i
    · simp only [if_pos hi, zero_mul, add_zero]
      have : (A *ᵥ x) i = A i i * x i := by
        simp only [mulVec, dotProduct]
        exact Finset.sum_eq_single i (fun j _ hj => by rw [hdec i j hj.symm hi, zero_mul])
          (fun h => absurd (Finset.mem_univ i) h)
      rw [this]
      ring
    · simp only [if_neg hi, zero_add]
      congr 1
      simp only [mulVec, dotProduct]
      refine Finset.sum_congr rfl fun j _ => ?_
      by_cases hj : HasBound o j
      · have hne : j ≠ i := fun h => hi (h ▸ hj)
        have hsym : A i j = A j i := (congrFun (congrFun hA.1 i) j).symm
        rw [hsym, hdec j i hne hj, zero_mul, zero_mul]
      · rw [if_neg hj]
  have key : ∀ x : Fin o.model.u.length → ℝ, quadratic c g A x =
      quadratic c g A v + (1 / 2) * ((x - v) ⬝ᵥ A *ᵥ (x - v)) := by
    intro x
    have hx : x = v + (x - v) := by abel
    conv_lhs => rw [hx]
    rw [quadratic_add c g A hA.1, hv, zero_dotProduct, add_zero]
  have hnonneg : ∀ x : Fin o.model.u.length → ℝ, 0 ≤ x ⬝ᵥ A *ᵥ x := by
    intro x
    by_cases hx : x = 0
    · rw [hx, zero_dotProduct]
    · exact (hA.2 x hx).le
  rw [hq.value, hq.value, key w, key w', split (w - v), split (w' - v)]
  have hzero : (fun i : Fin o.model.u.length => if HasBound o i then (0 : ℝ) else (w - v) i) = 0 := by
    funext i
    by_cases hi : HasBound o i
    · simp [hi]
    · simp [hfree i hi]
  rw [hzero, zero_dotProduct, add_zero]
  have hpos : ∀ i, 0 ≤ A i i := by
    intro i
    have := hA.2 (Pi.single i 1) (by simp)
    simpa using this.le
  have hsum : ∑ i : Fin o.model.u.length, (if HasBound o i then A i i * (w - v) i ^ 2 else 0) ≤
      ∑ i : Fin o.model.u.length, if HasBound o i then A i i * (w' - v) i ^ 2 else 0 := by
    refine Finset.sum_le_sum fun i _ => ?_
    by_cases hi : HasBound o i
    · rw [if_pos hi, if_pos hi]
      exact mul_le_mul_of_nonneg_left (sq_le_sq.mpr (hnear w' hw' i)) (hpos i)
    · rw [if_neg hi, if_neg hi]
  have := hnonneg fun i : Fin o.model.u.length => if HasBound o i then 0 else (w' - v) i
  linarith

/-- C127, second part. For any strictly convex quadratic Hamiltonian, the unconstrained optimum
attains the minimum over all controls; so the control law does whenever the unconstrained optimum
lies within the bounds, in particular without bounds. -/
theorem C127_interior_partial (B : Backend) (H : Expr) (o : Ocp) (us : List Expr)
    (hr : calculateOptimalControl B H o = .ok us) (hs : Sized o) (hu : o.model.u.Nodup)
    (ops : Expr.Ops ℝ) (hops : MinMax ops opFmin opFmax) (ρ : Sym → ℝ) (c : ℝ)
    (g : Fin o.model.u.length → ℝ) (A : Matrix (Fin o.model.u.length) (Fin o.model.u.length) ℝ)
    (hq : QuadraticInControls ops B.table H o.model.u ρ c g A) (hA : StrictlyConvex A)
    (hsz : (B.inv (Expr.hessian B.table o.model.u H)).length = o.model.u.length ∧
      ∀ row ∈ B.inv (Expr.hessian B.table o.model.u H), row.length = o.model.u.length)
    (hinv : matrixAt ops ρ o.model.u.length (B.inv (Expr.hessian B.table o.model.u H)) =
      (matrixAt ops ρ o.model.u.length (Expr.hessian B.table o.model.u H))⁻¹) :
    ∃ v : Fin o.model.u.length → ℝ,
      (∀ w', w' ≠ v → H.eval ops (assign o.model.u v ρ) < H.eval ops (assign o.model.u w' ρ)) ∧
      (InBounds o v →
        ∀ i : Fin o.model.u.length, ∃ e, us[i.val]? = some e ∧ e.eval ops ρ = v i) := by
  obtain ⟨v, w, hv, he, -, hin, -⟩ := law_values B H o us hr hs hu ops hops ρ c g A hq hA hsz hinv
  refine ⟨v, fun w' hw' => ?_, fun hb => by rw [← hin hb]; exact he⟩
  rw [hq.value, hq.value]
  have hx : w' = v + (w' - v) := by abel
  rw [hx, quadratic_add c g A hA.1, hv, zero_dotProduct, add_zero]
  have := hA.2 (w' - v) (sub_ne_zero.mpr hw')
  linarith

/-! ### A problem with two controls -/

/-- The Hamiltonian `u₁² + k u₁ u₂ + u₂² - 3 u₂`. -/
def twoControls (k : Rat) : Expr :=
  .sub (.add (.add (.mul (.sym 2) (.sym 2)) (.mul (.const k) (.mul (.sym 2) (.sym 3))))
    (.mul (.sym 3) (.sym 3))) (.mul (.const 3) (.sym 3))

/-- A problem with two controls, the first non-negative. -/
def twoControlsOcp : Ocp :=
  { Ocp.new { SysModel.new 0 1 with
      u := [2, 3]
      uExpr := [.sym 2, .sym 3]
      uPar := [2, 3] } (some []) 0 1 with
    uMin := [XRat.fin 0, ⊥] }

/-- A symbolic engine that inverts the Hessian `[[2, k], [k, 2]]`. -/
def twoControlsBackend (k : Rat) : Backend :=
  ⟨plainTable, fun _ => [[.const (2 / (4 - k * k)), .const (-k / (4 - k * k))],
    [.const (-k / (4 - k * k)), .const (2 / (4 - k * k))]], fun _ => false⟩

theorem twoControls_quadratic (k : Rat) (ρ : Sym → ℝ) :
    QuadraticInControls (minMaxOps ℝ) plainTable (twoControls k) [2, 3] ρ 0 ![0, -3]
      !![2, (k : ℝ); (k : ℝ), 2] := by
  refine ⟨fun w => ?_, fun w => ?_, fun w s hs => ?_⟩
  · have h2 : assign [2, 3] w ρ 2 = w 0 := assign_get [2, 3] (by decide) w ρ 0
    have h3 : assign [2, 3] w ρ 3 = w 1 := assign_get [2, 3] (by decide) w ρ 1
    simp [twoControls, Expr.eval, h2, h3, quadratic, dotProduct, mulVec, Fin.sum_univ_two]
    ring
  · simp [twoControls, Expr.SmoothAt]
  · fin_cases hs <;> simp [twoControls, Expr.diff, Expr.SmoothAt]

theorem twoControls_convex (k : Rat) (hk : |k| < 2) :
    StrictlyConvex (!![2, (k : ℝ); (k : ℝ), 2]) := by
  refine ⟨by ext i j; fin_cases i <;> fin_cases j <;> rfl, fun d hd => ?_⟩
  have h : d 0 ≠ 0 ∨ d 1 ≠ 0 := by
    by_contra hh
    push Not at hh
    exact hd (by ext i; fin_cases i <;> simp [hh.1, hh.2])
  have hk' : (k : ℝ) * k < 4 := by
    have : |(k : ℝ)| < 2 := by exact_mod_cast hk
    nlinarith [abs_mul_abs_self (k : ℝ), abs_nonneg (k : ℝ)]
  have e : d ⬝ᵥ (!![2, (k : ℝ); (k : ℝ), 2]) *ᵥ d =
      2 * (d 0 + k / 2 * d 1) ^ 2 + (4 - k * k) / 2 * d 1 ^ 2 := by
    simp [dotProduct, mulVec, Fin.sum_univ_two]
    ring
  rw [e]
  by_cases h1 : d 1 = 0
  · have h0 := h.resolve_right (not_not.mpr h1)
    have := sq_pos_of_ne_zero h0
    simpa [h1] using this
  · have := sq_pos_of_ne_zero h1
    have h4 : 0 < (4 - (k : ℝ) * k) / 2 := by linarith
    nlinarith [sq_nonneg (d 0 + (k : ℝ) / 2 * d 1), mul_pos h4 this]

theorem twoControls_inverse (k : Rat) (hk : |k| < 2) (ρ : Sym → ℝ) :
    matrixAt (minMaxOps ℝ) ρ 2 ((twoControlsBackend k).inv
      (Expr.hessian plainTable [2, 3] (twoControls k))) =
    (matrixAt (minMaxOps ℝ) ρ 2 (Expr.hessian plainTable [2, 3] (twoControls k)))⁻¹ := by
  have hA := hessian_matrix (u := [2, 3]) (by decide) (twoControls_convex k hk).1
    (twoControls_quadratic k ρ)
  have hk' : (4 : ℝ) - k * k ≠ 0 := by
    have : |(k : ℝ)| < 2 := by exact_mod_cast hk
    nlinarith [abs_mul_abs_self (k : ℝ), abs_nonneg (k : ℝ)]
  have hi : (4 - (k : ℝ) * k) * (4 - (k : ℝ) * k)⁻¹ = 1 := mul_inv_cancel₀ hk'
  refine Eq.trans ?_ (congrArg _ hA).symm
  symm
  apply inv_eq_left_inv
  ext i j
  fin_cases i <;> fin_cases j <;>
    simp [matrixAt, twoControlsBackend, Expr.eval, Matrix.mul_apply, Fin.sum_univ_two,
      div_eq_mul_inv] <;>
    first | (linear_combination hi) | ring

theorem twoControls_sized : Sized twoControlsOcp := by constructor <;> decide +kernel

theorem twoControls_inBounds (w : Fin 2 → ℝ) : InBounds twoControlsOcp w ↔ 0 ≤ w 0 := by
  constructor
  · intro h
    simpa using (h (0 : Fin 2) (XRat.fin 0) ⊤ (by decide +kernel) (by decide +kernel)).2.2.1 0 rfl
  · intro h i lo hi h₁ h₂
    change ([XRat.fin 0, ⊥] : List XRat)[i.val]? = some lo at h₁
    change ([⊤, ⊤] : List XRat)[i.val]? = some hi at h₂
    obtain ⟨i, hi2⟩ := i
    change i < 2 at hi2
    match i, hi2 with
    | 0, _ =>
      simp only [List.getElem?_cons_zero, Option.some.injEq] at h₁ h₂
      subst h₁ h₂
      refine ⟨by simp, by simp, fun q hq => ?_, by simp⟩
      have hq0 : q = 0 := by simpa using hq.symm
      rw [hq0, Rat.cast_zero]
      exact h
    | 1, _ =>
      simp only [List.getElem?_cons_succ, List.getElem?_cons_zero, Option.some.injEq] at h₁ h₂
      subst h₁ h₂
      simp [Within]

/-- The hypotheses of the two partial theorems are met: two controls without cross term (`k = 0`),
or without bounds; and with cross term (`k = 1`) those of the second. -/
example (k : Rat) (hk : |k| < 2) (ρ : Sym → ℝ) :
    (∃ us, calculateOptimalControl (twoControlsBackend k) (twoControls k) twoControlsOcp = .ok us) ∧
    Sized twoControlsOcp ∧ twoControlsOcp.model.u.Nodup ∧ MinMax (minMaxOps ℝ) opFmin opFmax ∧
    QuadraticInControls (minMaxOps ℝ) (twoControlsBackend k).table (twoControls k)
      twoControlsOcp.model.u ρ 0 ![0, -3] !![2, (k : ℝ); (k : ℝ), 2] ∧
    StrictlyConvex (!![2, (k : ℝ); (k : ℝ), 2]) ∧ (∃ w, InBounds twoControlsOcp w) ∧
    (k = 0 → BoundsUncoupled twoControlsOcp (!![2, (k : ℝ); (k : ℝ), 2])) ∧
    BoundsUncoupled { twoControlsOcp with uMin := [⊥, ⊥] } (!![2, (k : ℝ); (k : ℝ), 2]) := by
  refine ⟨⟨_, rfl⟩, twoControls_sized, by decide, minMaxOps_ok ℝ, twoControls_quadratic k ρ,
    twoControls_convex k hk, ⟨fun _ => 0, (twoControls_inBounds _).mpr (le_refl _)⟩, ?_, ?_⟩
  · rintro rfl
    have h : ∀ i j : Fin 2, i ≠ j → (!![2, ((0 : Rat) : ℝ); ((0 : Rat) : ℝ), 2]) i j = 0 := by
      intro i j hij
      fin_cases i <;> fin_cases j <;> simp_all
    exact fun i j hij _ => h i j hij
  · have h : ∀ i < 2, ¬ HasBound { twoControlsOcp with uMin := [⊥, ⊥] } i := by
      unfold HasBound
      decide +kernel
    exact fun i j _ hb => absurd hb (h i i.isLt)

/-- C127 is false: with the Hamiltonian `u₁² + u₁ u₂ + u₂² - 3 u₂` and `u₁ ≥ 0`, everything the
property asks for holds, the control law is `(0, 2)` with value `-2`, but the admissible controls
`(0, 3/2)` give `-9/4`. -/
theorem C127_fails (ρ : Sym → ℝ) :
    Sized twoControlsOcp ∧ twoControlsOcp.model.u = [2, 3] ∧
    QuadraticInControls (minMaxOps ℝ) (twoControlsBackend 1).table (twoControls 1) [2, 3] ρ
      0 ![0, -3] !![2, ((1 : Rat) : ℝ); ((1 : Rat) : ℝ), 2] ∧
    StrictlyConvex (!![2, ((1 : Rat) : ℝ); ((1 : Rat) : ℝ), 2]) ∧
    matrixAt (minMaxOps ℝ) ρ 2 ((twoControlsBackend 1).inv
      (Expr.hessian plainTable [2, 3] (twoControls 1))) =
      (matrixAt (minMaxOps ℝ) ρ 2 (Expr.hessian plainTable [2, 3] (twoControls 1)))⁻¹ ∧
    (∃ us, calculateOptimalControl (twoControlsBackend 1) (twoControls 1) twoControlsOcp = .ok us ∧
      us.map (Expr.eval (minMaxOps ℝ) ρ) = [0, 2]) ∧
    InBounds twoControlsOcp (![0, 3 / 2] : Fin 2 → ℝ) ∧
    (twoControls 1).eval (minMaxOps ℝ) (assign [2, 3] ![0, 3 / 2] ρ) <
      (twoControls 1).eval (minMaxOps ℝ) (assign [2, 3] ![0, 2] ρ) := by
  refine ⟨twoControls_sized, rfl, twoControls_quadratic 1 ρ, twoControls_convex 1 (by norm_num),
    twoControls_inverse 1 (by norm_num) ρ, ⟨_, rfl, ?_⟩, (twoControls_inBounds _).mpr (by simp), ?_⟩
  · have hsub : ∀ s : Sym, Expr.replacementOf [2, 3] [.const 0, .const 0] s =
        if s = 2 then .const 0 else if s = 3 then .const 0 else .sym s := fun _ => rfl
    simp [unconstrained, twoControlsBackend, twoControlsOcp, Ocp.new, clipAll, clip, clipLow,
      clipHigh, Expr.gradient, twoControls, Expr.diff, Expr.subst, Expr.mapSyms, hsub, Expr.dot,
      Expr.eval, minMaxOps, opFmax, opFmin]
    norm_num
  · rw [(twoControls_quadratic 1 ρ).value, (twoControls_quadratic 1 ρ).value]
    simp [quadratic, dotProduct, mulVec, Fin.sum_univ_two]
    norm_num

end Verif
