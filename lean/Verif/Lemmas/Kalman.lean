import Verif.Model.Kalman
import Verif.Lemmas.Py
import Verif.Spec.Kalman
import Mathlib.Tactic.Linarith
import Mathlib.Tactic.Ring
import Mathlib.Tactic.NormNum
import Mathlib.Tactic.FieldSimp
import Mathlib.Tactic.Abel
import Mathlib.Tactic.NoncommRing
import Mathlib.Algebra.BigOperators.Fin
import Mathlib.LinearAlgebra.Matrix.NonsingularInverse
import Mathlib.Analysis.Normed.Algebra.MatrixExponential
/-!
# Lemmas for Kalman filters
-/
namespace Verif.Kalman
open Verif Verif.Spec Matrix

set_option linter.unusedSectionVars false
variable {ι κ K : Type} [Fintype ι] [Fintype κ] [DecidableEq ι] [Field K]

section Covariance
variable [LinearOrder K] [IsStrictOrderedRing K]

theorem PositiveCovariance.covariance {m : Matrix ι ι K} (h : PositiveCovariance m) : IsCovariance m := by
  refine ⟨h.1, fun v => ?_⟩
  by_cases hv : v = 0
  · subst hv; simp
  · exact (h.2 v hv).le

theorem IsCovariance.add {a b : Matrix ι ι K} (ha : IsCovariance a) (hb : IsCovariance b) :
    IsCovariance (a + b) := by
  refine ⟨by rw [transpose_add, ha.1, hb.1], fun v => ?_⟩
  rw [add_mulVec, dotProduct_add]
  exact add_nonneg (ha.2 v) (hb.2 v)

theorem IsCovariance.add_positive {a b : Matrix ι ι K} (ha : IsCovariance a) (hb : PositiveCovariance b) :
    PositiveCovariance (a + b) := by
  refine ⟨by rw [transpose_add, ha.1, hb.1], fun v hv => ?_⟩
  rw [add_mulVec, dotProduct_add]
  exact add_pos_of_nonneg_of_pos (ha.2 v) (hb.2 v hv)

theorem IsCovariance.conj {a : Matrix ι ι K} (ha : IsCovariance a) (f : Matrix κ ι K) :
    IsCovariance (f * a * f.transpose) := by
  refine ⟨by rw [transpose_mul, transpose_mul, transpose_transpose, ha.1, ← Matrix.mul_assoc], fun v => ?_⟩
  rw [← mulVec_mulVec, ← mulVec_mulVec, dotProduct_mulVec, ← mulVec_transpose]
  exact ha.2 _

theorem IsCovariance.trace_nonneg {m : Matrix ι ι K} (h : IsCovariance m) : 0 ≤ m.trace := by
  refine Finset.sum_nonneg fun i _ => ?_
  have := h.2 (Pi.single i 1)
  simpa using this

theorem IsCovariance.zero : IsCovariance (0 : Matrix ι ι K) := ⟨by simp, fun v => by simp⟩

theorem IsCovariance.smul {a : Matrix ι ι K} (ha : IsCovariance a) {c : K} (hc : 0 ≤ c) :
    IsCovariance (c • a) := by
  refine ⟨by rw [transpose_smul, ha.1], fun v => ?_⟩
  rw [smul_mulVec, dotProduct_smul, smul_eq_mul]
  exact mul_nonneg hc (ha.2 v)

theorem IsCovariance.outer (a : ι → K) : IsCovariance (outer a a) := by
  refine ⟨by ext i j; simp [Kalman.outer, mul_comm], fun v => ?_⟩
  have h : dotProduct v ((Kalman.outer a a).mulVec v) = dotProduct v a * dotProduct v a := by
    simp only [dotProduct, mulVec, Kalman.outer, Finset.sum_mul, Finset.mul_sum]
    refine Finset.sum_congr rfl fun i _ => Finset.sum_congr rfl fun j _ => by ring
  rw [h]
  exact mul_self_nonneg _

theorem IsCovariance.listSum {l : List (Matrix ι ι K)} (h : ∀ m ∈ l, IsCovariance m) :
    IsCovariance l.sum := by
  induction l with
  | nil => exact IsCovariance.zero
  | cons a l ih =>
    rw [List.sum_cons]
    exact IsCovariance.add (h a (by simp)) (ih fun m hm => h m (List.mem_cons_of_mem _ hm))

theorem IsCovariance.fromBlocks {nx ny : Nat} {r : Matrix (Fin nx) (Fin nx) K} (h : IsCovariance r) :
    IsCovariance (Matrix.fromBlocks r 0 0 0 : AugMatrix nx ny K) := by
  refine ⟨by rw [fromBlocks_transpose]; simp [h.1], fun v => ?_⟩
  have : dotProduct v ((Matrix.fromBlocks r 0 0 0 : AugMatrix nx ny K).mulVec v) =
      dotProduct (states v) (r.mulVec (states v)) := by
    simp [dotProduct, mulVec, states]
  rw [this]
  exact h.2 _

theorem IsCovariance.fromBlocks_one {nx ny : Nat} {r : Matrix (Fin nx) (Fin nx) K}
    (h : IsCovariance r) : IsCovariance (Matrix.fromBlocks r 0 0 1 : AugMatrix nx ny K) := by
  refine ⟨by rw [fromBlocks_transpose]; simp [h.1], fun v => ?_⟩
  have : dotProduct v ((Matrix.fromBlocks r 0 0 1 : AugMatrix nx ny K).mulVec v) =
      dotProduct (states v) (r.mulVec (states v)) + dotProduct (algebraics v) (algebraics v) := by
    rw [fromBlocks_mulVec]
    simp [dotProduct, algebraics, Function.comp_def]
    rfl
  rw [this]
  exact add_nonneg (h.2 _) (Finset.sum_nonneg fun i _ => mul_self_nonneg _)

theorem IsCovariance.statesBlock {nx ny : Nat} {p : AugMatrix nx ny K} (h : IsCovariance p) :
    IsCovariance (statesBlock p) := by
  refine ⟨?_, fun v => ?_⟩
  · ext i j
    exact congrFun (congrFun h.1 (.inl i)) (.inl j)
  · have := h.2 (vert v 0)
    have h2 : dotProduct (vert v (0 : Fin ny → K)) (p.mulVec (vert v 0)) =
        dotProduct v ((Kalman.statesBlock p).mulVec v) := by
      simp [dotProduct, mulVec, vert, Kalman.statesBlock]
    rwa [h2] at this

end Covariance

/-! ### Gains -/

/-- With the optimal gain the short formula is the covariance of the error. -/
theorem errorCovariance_gain (p : Matrix ι ι K) (h : Matrix κ ι K) (r : Matrix κ κ K)
    (k : Matrix ι κ K) (hk : k * (h * p * h.transpose + r) = p * h.transpose) :
    errorCovariance p h r k = (1 - k * h) * p := by
  unfold errorCovariance
  rw [transpose_sub, transpose_one, transpose_mul]
  have h1 : k * r * k.transpose = p * h.transpose * k.transpose -
      k * h * p * h.transpose * k.transpose := by
    rw [← hk]
    simp only [Matrix.mul_add, Matrix.add_mul, Matrix.mul_assoc]
    abel
  rw [h1]
  simp only [Matrix.mul_sub, Matrix.sub_mul, Matrix.mul_one, Matrix.one_mul, Matrix.mul_assoc]
  abel

/-- Another gain adds a covariance to that of the error. -/
theorem errorCovariance_other (p : Matrix ι ι K) (hp : p.transpose = p) (h : Matrix κ ι K)
    (r : Matrix κ κ K) (hr : r.transpose = r) (k l : Matrix ι κ K)
    (hk : k * (h * p * h.transpose + r) = p * h.transpose) :
    errorCovariance p h r l = errorCovariance p h r k +
      (l - k) * (h * p * h.transpose + r) * (l - k).transpose := by
  have hS : (h * p * h.transpose + r).transpose = h * p * h.transpose + r := by
    rw [transpose_add, transpose_mul, transpose_mul, transpose_transpose, hp, hr, Matrix.mul_assoc]
  have hk' : (h * p * h.transpose + r) * k.transpose = h * p := by
    have := congrArg transpose hk
    rw [transpose_mul, hS, transpose_mul, transpose_transpose, hp] at this
    exact this
  have expand : ∀ m : Matrix ι κ K, errorCovariance p h r m =
      p - m * (h * p) - p * h.transpose * m.transpose +
        m * (h * p * h.transpose + r) * m.transpose := by
    intro m
    unfold errorCovariance
    rw [transpose_sub, transpose_one, transpose_mul]
    simp only [Matrix.mul_sub, Matrix.sub_mul, Matrix.mul_one, Matrix.one_mul, Matrix.mul_assoc,
      Matrix.mul_add, Matrix.add_mul]
    abel
  rw [expand l, expand k, transpose_sub]
  generalize h * p * h.transpose + r = S at hk hk' ⊢
  rw [← hk, ← hk']
  simp only [Matrix.mul_sub, Matrix.sub_mul, Matrix.mul_assoc]
  abel

/-! ### Weighted points -/

theorem sum_range_double {M : Type} [AddCommMonoid M] (n : Nat) (f : Nat → M) :
    ((List.range (2 * n)).map f).sum = ((List.range n).map fun j => f j + f (n + j)).sum := by
  rw [Nat.two_mul, List.range_add, List.map_append, List.sum_append, List.sum_map_add, List.map_map]
  rfl

theorem sum_range_fin {M : Type} [AddCommMonoid M] (n : Nat) (f : Nat → M) :
    ((List.range n).map f).sum = ∑ j : Fin n, f j.val := by
  rw [← List.sum_ofFn, List.ofFn_eq_map, ← List.map_coe_finRange_eq_range, List.map_map]
  rfl

theorem zipWith_range {α β γ : Type} (n : Nat) (f : α → β → γ) (g : Nat → α) (h : Nat → β) :
    List.zipWith f ((List.range n).map g) ((List.range n).map h) =
      (List.range n).map fun i => f (g i) (h i) := by
  rw [List.zipWith_map]
  induction List.range n with
  | nil => rfl
  | cons a l ih => simp

theorem column_lt {nx : Nat} (root : Matrix (Fin nx) (Fin nx) K) (j : Fin nx) :
    column root j.val = fun r => root r j := by
  have h : 0 < nx := Nat.lt_of_le_of_lt (Nat.zero_le _) j.isLt
  unfold column
  rw [dif_pos h]
  funext r
  congr 1
  exact Fin.ext (Nat.mod_eq_of_lt j.isLt)

theorem column_add {nx : Nat} (root : Matrix (Fin nx) (Fin nx) K) (j : Fin nx) :
    column root (nx + j.val) = fun r => root r j := by
  have h : 0 < nx := Nat.lt_of_le_of_lt (Nat.zero_le _) j.isLt
  unfold column
  rw [dif_pos h]
  funext r
  congr 1
  apply Fin.ext
  show (nx + j.val) % nx = j.val
  rw [Nat.add_mod_left, Nat.mod_eq_of_lt j.isLt]

/-- Sums over the sigma points: the centre, and the pairs on both sides of it. -/
theorem sum_sigma {M : Type} [AddCommMonoid M] {nx : Nat} (w0 w1 : K)
    (chol : Matrix (Fin nx) (Fin nx) K → Matrix (Fin nx) (Fin nx) K) (x : Fin nx → K)
    (p : Matrix (Fin nx) (Fin nx) K) (f : K → (Fin nx → K) → M) :
    (List.zipWith f (w0 :: (List.range (2 * nx)).map fun _ => w1) (sigmaPoints chol x p)).sum =
      f w0 x + ∑ j : Fin nx, (f w1 (x + fun r => chol (((nx : K) + lamb nx) • p) j r) +
        f w1 (x - fun r => chol (((nx : K) + lamb nx) • p) j r)) := by
  unfold sigmaPoints
  rw [List.zipWith_cons_cons, List.sum_cons, zipWith_range, sum_range_double, sum_range_fin]
  congr 1
  refine Finset.sum_congr rfl fun j _ => ?_
  rw [if_pos j.isLt, if_neg (by omega), column_lt, column_add, one_smul, neg_one_smul,
    ← sub_eq_add_neg]
  rfl

theorem lamb_eq [CharZero K] (ell : Nat) : (lamb ell : K) = (ell : K) / 1000000 := by
  unfold lamb alpha kappa
  ring

theorem scale_ne_zero [LinearOrder K] [IsStrictOrderedRing K] {ell : Nat} (h : 0 < ell) :
    (0 : K) < (ell : K) + lamb ell := by
  rw [lamb_eq]
  have h' : (0 : K) < (ell : K) := Nat.cast_pos.2 h
  exact add_pos h' (div_pos h' (by norm_num))

section Ordered
variable [LinearOrder K] [IsStrictOrderedRing K]

theorem weightedSum_affine {nx : Nat} (hn : 0 < nx)
    (chol : Matrix (Fin nx) (Fin nx) K → Matrix (Fin nx) (Fin nx) K) (x : Fin nx → K)
    (p : Matrix (Fin nx) (Fin nx) K) (F : Matrix ι (Fin nx) K) (f : ι → K) :
    weightedSum (weightsMean K nx) ((sigmaPoints chol x p).map fun v => F.mulVec v + f) =
      F.mulVec x + f := by
  have hs : (nx : K) + lamb nx ≠ 0 := (scale_ne_zero hn).ne'
  unfold weightedSum weightsMean
  rw [List.zipWith_map_right, sum_sigma _ _ chol x p fun w v => w • (F.mulVec v + f)]
  have h : ∀ c : Fin nx → K,
      (1 / (2 * ((nx : K) + lamb nx))) • (F.mulVec (x + c) + f) +
        (1 / (2 * ((nx : K) + lamb nx))) • (F.mulVec (x - c) + f) =
      (1 / ((nx : K) + lamb nx)) • (F.mulVec x + f) := by
    intro c
    rw [mulVec_add, mulVec_sub, ← smul_add]
    have : F.mulVec x + F.mulVec c + f + (F.mulVec x - F.mulVec c + f) =
        (2 : K) • (F.mulVec x + f) := by
      rw [two_smul]; abel
    rw [this, smul_smul]
    congr 1
    field_simp
  simp only [h]
  rw [Finset.sum_const, Finset.card_univ, Fintype.card_fin, ← Nat.cast_smul_eq_nsmul K, smul_smul,
    ← add_smul]
  have : lamb nx / ((nx : K) + lamb nx) + (nx : K) * (1 / ((nx : K) + lamb nx)) = 1 := by
    field_simp
    ring
  rw [this, one_smul]

theorem weightedOuter_affine {nx : Nat} (hn : 0 < nx)
    (chol : Matrix (Fin nx) (Fin nx) K → Matrix (Fin nx) (Fin nx) K) (x : Fin nx → K)
    (p : Matrix (Fin nx) (Fin nx) K)
    (hc : (chol (((nx : K) + lamb nx) • p)).transpose * chol (((nx : K) + lamb nx) • p) =
      ((nx : K) + lamb nx) • p)
    (F : Matrix ι (Fin nx) K) (f : ι → K) (G : Matrix κ (Fin nx) K) (g : κ → K) :
    weightedOuter (weightsCov K nx) ((sigmaPoints chol x p).map fun v => F.mulVec v + f)
        (F.mulVec x + f) ((sigmaPoints chol x p).map fun v => G.mulVec v + g) (G.mulVec x + g) =
      F * p * G.transpose := by
  have hs : (nx : K) + lamb nx ≠ 0 := (scale_ne_zero hn).ne'
  unfold weightedOuter weightsCov
  rw [List.zip_map', List.zipWith_map_right]
  rw [sum_sigma _ _ chol x p fun w v =>
    w • outer (F.mulVec v + f - (F.mulVec x + f)) (G.mulVec v + g - (G.mulVec x + g))]
  generalize hR : chol (((nx : K) + lamb nx) • p) = R at hc
  have h0 : outer (F.mulVec x + f - (F.mulVec x + f)) (G.mulVec x + g - (G.mulVec x + g)) = 0 := by
    ext i j
    simp [outer]
  have h1 : ∀ c : Fin nx → K,
      (1 / (2 * ((nx : K) + lamb nx))) • outer (F.mulVec (x + c) + f - (F.mulVec x + f))
          (G.mulVec (x + c) + g - (G.mulVec x + g)) +
        (1 / (2 * ((nx : K) + lamb nx))) • outer (F.mulVec (x - c) + f - (F.mulVec x + f))
          (G.mulVec (x - c) + g - (G.mulVec x + g)) =
      (1 / ((nx : K) + lamb nx)) • outer (F.mulVec c) (G.mulVec c) := by
    intro c
    ext i j
    simp only [mulVec_add, mulVec_sub, outer, Matrix.add_apply, Matrix.smul_apply, smul_eq_mul,
      Pi.add_apply, Pi.sub_apply]
    field_simp
    ring
  simp only [h1]
  rw [h0, smul_zero, zero_add, ← Finset.smul_sum]
  have h2 : ∑ j : Fin nx, outer (F.mulVec fun r => R j r) (G.mulVec fun r => R j r) =
      F * (R.transpose * R) * G.transpose := by
    have : F * (R.transpose * R) * G.transpose = F * R.transpose * (G * R.transpose).transpose := by
      rw [transpose_mul, transpose_transpose]
      simp only [Matrix.mul_assoc]
    rw [this]
    ext i j
    simp only [Matrix.sum_apply, Matrix.mul_apply (M := F * R.transpose), transpose_apply, outer]
    rfl
  rw [h2, hc, Matrix.mul_smul, Matrix.smul_mul, smul_smul]
  rw [one_div, inv_mul_cancel₀ hs, one_smul]

end Ordered

/-! ### Corrections from weighted points -/

section Corrections
variable [DecidableEq κ] [LinearOrder K] [IsStrictOrderedRing K]

theorem outer_sub (k : Matrix ι κ K) (a : ι → K) (b : κ → K) :
    outer a a - k * (outer a b).transpose - outer a b * k.transpose + k * outer b b * k.transpose =
      outer (a - k.mulVec b) (a - k.mulVec b) := by
  have h1 : k * (outer a b).transpose = outer (k.mulVec b) a := by
    ext i j
    simp [outer, Matrix.mul_apply, mulVec, dotProduct, Finset.sum_mul]
    exact Finset.sum_congr rfl fun l _ => by ring
  have h2 : outer a b * k.transpose = outer a (k.mulVec b) := by
    ext i j
    simp [outer, Matrix.mul_apply, mulVec, dotProduct, Finset.mul_sum]
    exact Finset.sum_congr rfl fun l _ => by ring
  have h3 : k * outer b b * k.transpose = outer (k.mulVec b) (k.mulVec b) := by
    ext i j
    simp [outer, Matrix.mul_apply, mulVec, dotProduct, Finset.sum_mul, Finset.mul_sum]
    exact Finset.sum_congr rfl fun l _ => Finset.sum_congr rfl fun m _ => by ring
  rw [h1, h2, h3]
  ext i j
  simp only [outer, Matrix.sub_apply, Matrix.add_apply, Pi.sub_apply]
  ring

/-- The covariance of `a - k b` over the weighted points. -/
theorem weightedOuter_residual (k : Matrix ι κ K) (am : ι → K) (bm : κ → K) (w : List K)
    (hw : ∀ c ∈ w, 0 ≤ c) (a : List (ι → K)) (b : List (κ → K)) (h : a.length = b.length) :
    IsCovariance (weightedOuter w a am a am - k * (weightedOuter w a am b bm).transpose -
      weightedOuter w a am b bm * k.transpose + k * weightedOuter w b bm b bm * k.transpose) := by
  induction w generalizing a b with
  | nil => simpa [weightedOuter] using IsCovariance.zero
  | cons c w ih =>
    cases a with
    | nil =>
      cases b with
      | nil => simpa [weightedOuter] using IsCovariance.zero
      | cons y b => simp at h
    | cons x a =>
      cases b with
      | nil => simp at h
      | cons y b =>
        have hih := ih (fun c hc => hw c (List.mem_cons_of_mem _ hc)) a b (by simpa using h)
        have hc : 0 ≤ c := hw c (by simp)
        have hx := IsCovariance.smul (IsCovariance.outer ((x - am) - k.mulVec (y - bm))) hc
        rw [← outer_sub] at hx
        have := IsCovariance.add hx hih
        unfold weightedOuter at this ⊢
        simp only [List.zip_cons_cons, List.zipWith_cons_cons, List.sum_cons]
        refine Eq.subst (motive := IsCovariance) ?_ this
        simp only [smul_sub, smul_add, transpose_add, transpose_smul, Matrix.mul_add, Matrix.add_mul,
          Matrix.mul_smul, Matrix.smul_mul]
        abel

theorem weightedOuter_covariance (w : List K) (hw : ∀ c ∈ w, 0 ≤ c) (a : List (ι → K))
    (am : ι → K) : IsCovariance (weightedOuter w a am a am) := by
  have := weightedOuter_residual (0 : Matrix ι ι K) am am w hw a a rfl
  simpa using this

/-- The corrected covariance of the unscented and the polynomial chaos filter is a covariance. -/
theorem corrected_covariance (x q : Matrix ι ι K) (y r : Matrix κ κ K) (c k : Matrix ι κ K)
    (hres : IsCovariance (x - k * c.transpose - c * k.transpose + k * y * k.transpose))
    (hy : IsCovariance y) (hq : IsCovariance q) (hr : IsCovariance r) (hk : k * (y + r) = c) :
    IsCovariance (x + q - k * ((y + r) * k.transpose)) := by
  have h1 : c * k.transpose = k * ((y + r) * k.transpose) := by rw [← hk, Matrix.mul_assoc]
  have h2 : k * c.transpose = k * ((y + r) * k.transpose) := by
    rw [← hk, transpose_mul, transpose_add, hy.1, hr.1]
  have := IsCovariance.add (IsCovariance.add hres hq) (IsCovariance.conj hr k)
  refine Eq.subst (motive := IsCovariance) ?_ this
  rw [h1, h2]
  simp only [Matrix.add_mul, Matrix.mul_add, Matrix.mul_assoc]
  abel

theorem weightsCov_nonneg (nx : Nat) : ∀ c ∈ weightsCov K nx, 0 ≤ c := by
  intro c hc
  have hn : (0 : K) ≤ (nx : K) := Nat.cast_nonneg nx
  have hl : (0 : K) ≤ lamb nx := by rw [lamb_eq]; exact div_nonneg hn (by norm_num)
  rcases List.mem_cons.1 hc with rfl | hc
  · refine add_nonneg (div_nonneg hl (add_nonneg hn hl)) ?_
    unfold alpha beta
    norm_num
  · rw [List.mem_map] at hc
    obtain ⟨_, _, rfl⟩ := hc
    exact div_nonneg zero_le_one (mul_nonneg zero_le_two (add_nonneg hn hl))

end Corrections

theorem mapM_length {α β : Type} (f : α → Except Err β) (l : List α) (r : List β)
    (h : l.mapM f = .ok r) : r.length = l.length := by
  induction l generalizing r with
  | nil =>
    rw [List.mapM_nil] at h
    cases h
    rfl
  | cons a l ih =>
    rw [List.mapM_cons] at h
    cases h1 : f a with
    | error e => simp [h1, bind, Except.bind] at h
    | ok b =>
      cases h2 : l.mapM f with
      | error e => simp [h1, h2, bind, Except.bind] at h
      | ok bs =>
        simp only [h1, h2, bind, Except.bind, pure, Except.pure, Except.ok.injEq] at h
        subst h
        simp [ih bs h2]

theorem mapM_all_ok {α β : Type} (f : α → Except Err β) (g : α → β) (l : List α)
    (h : ∀ a ∈ l, f a = .ok (g a)) : l.mapM f = .ok (l.map g) := by
  induction l with
  | nil => rfl
  | cons a l ih =>
    rw [List.mapM_cons, h a (by simp), ih fun b hb => h b (List.mem_cons_of_mem _ hb)]
    rfl

/-! ### Steps -/

section Steps
variable {nx ny nu nm : Nat}

/-- The filter after one call of the extended filter's `estimate`. -/
theorem ekfEstimate_state (env : EkfEnv nx ny nu nm K) (cfg : Config nx nm K) (y : Fin nm → K)
    (u : Fin nu → K) (s : State nx ny K) :
    (ekfEstimate env cfg y u s).2 = s ∨
    ∃ (g : Matrix (Fin nm) (Fin nx ⊕ Fin ny) K) (m : Fin nm → K),
      let f := env.simulate s.t (s.t + cfg.tS) s.xMean u
      let p := ekfPredict env cfg s f.1 f.2.1
      let r := ekfCorrect (ekfGain env.inv cfg.rN p g) g (vert f.1 f.2.1) p (y - m)
      measureJacobian env.meas f.1 f.2.1 f.2.2 = .ok g ∧ measure env.meas f.1 f.2.1 f.2.2 = .ok m ∧
      (ekfEstimate env cfg y u s).2 =
        { s with xAug := r.1, xMean := states r.1, pAug := r.2, pK := statesBlock r.2 } ∧
      (ekfEstimate env cfg y u s).1 =
        if ny = 1 then .ok { x := List.ofFn (states r.1), covRows := nx, covCols := nx }
        else .error .valueError := by
  cases h1 : measureJacobian env.meas (env.simulate s.t (s.t + cfg.tS) s.xMean u).1
      (env.simulate s.t (s.t + cfg.tS) s.xMean u).2.1
      (env.simulate s.t (s.t + cfg.tS) s.xMean u).2.2 with
  | error e => left; simp [ekfEstimate, h1]
  | ok g =>
    cases h2 : measure env.meas (env.simulate s.t (s.t + cfg.tS) s.xMean u).1
        (env.simulate s.t (s.t + cfg.tS) s.xMean u).2.1
        (env.simulate s.t (s.t + cfg.tS) s.xMean u).2.2 with
    | error e => left; simp [ekfEstimate, h1, h2]
    | ok m =>
      right
      refine ⟨g, m, by first | rfl | exact h1, by first | rfl | exact h2, ?_, ?_⟩
      · by_cases hy : ny = 1 <;>
          simp [ekfEstimate, h1, h2, savePy, Py.raiseIf, hy]
      · by_cases hy : ny = 1 <;>
          simp [ekfEstimate, h1, h2, savePy, Py.raiseIf, hy]

/-- The filter after one call of the unscented filter's `estimate`. -/
theorem ukfEstimate_state (env : UkfEnv nx ny nu nm K) (cfg : Config nx nm K) (y : Fin nm → K)
    (u : Fin nu → K) (s : State nx ny K) :
    (ukfEstimate env cfg y u s).2 = s ∨
    ∃ (ms : List (Fin nm → K)),
      let q := ukfPredicted cfg (ukfSimulated env cfg s u) ms
      let r := ukfCorrect env.solve q y
      ukfMeasured env.meas u (ukfSimulated env cfg s u) = .ok ms ∧
      (ukfEstimate env cfg y u s).2 =
        { s with xAug := r.1, xMean := states r.1, pAug := q.cov, pK := statesBlock r.2 } ∧
      (ukfEstimate env cfg y u s).1 =
        if ny = 1 then .ok { x := flat r.1, covRows := nx + ny, covCols := nx + ny }
        else .error .valueError := by
  cases h1 : ukfMeasured env.meas u (ukfSimulated env cfg s u) with
  | error e => left; simp [ukfEstimate, h1]
  | ok ms =>
    cases h2 : measure env.meas
        (states (ukfCorrect env.solve (ukfPredicted cfg (ukfSimulated env cfg s u) ms) y).1)
        (algebraics (ukfCorrect env.solve (ukfPredicted cfg (ukfSimulated env cfg s u) ms) y).1) u with
    | error e => left; simp [ukfEstimate, h1, h2]
    | ok m =>
      right
      refine ⟨ms, rfl, ?_, ?_⟩
      · by_cases hy : ny = 1 <;>
          simp [ukfEstimate, h1, h2, savePy, Py.raiseIf, hy]
      · by_cases hy : ny = 1 <;>
          simp [ukfEstimate, h1, h2, savePy, Py.raiseIf, hy]

/-- What one call of the extended filter's `estimate` gives. -/
theorem ekfEstimate_result (env : EkfEnv nx ny nu nm K) (cfg : Config nx nm K) (y : Fin nm → K)
    (u : Fin nu → K) (s : State nx ny K) :
    (let f := env.simulate s.t (s.t + cfg.tS) s.xMean u;
      ((∃ e, measureJacobian env.meas f.1 f.2.1 f.2.2 = .error e) ∨
        ∃ e, measure env.meas f.1 f.2.1 f.2.2 = .error e) ∧
      ∃ e, (ekfEstimate env cfg y u s).1 = .error e) ∨
    ∃ (g : Matrix (Fin nm) (Fin nx ⊕ Fin ny) K) (m : Fin nm → K),
      let f := env.simulate s.t (s.t + cfg.tS) s.xMean u
      let p := ekfPredict env cfg s f.1 f.2.1
      let r := ekfCorrect (ekfGain env.inv cfg.rN p g) g (vert f.1 f.2.1) p (y - m)
      measureJacobian env.meas f.1 f.2.1 f.2.2 = .ok g ∧ measure env.meas f.1 f.2.1 f.2.2 = .ok m ∧
      (ekfEstimate env cfg y u s).2 =
        { s with xAug := r.1, xMean := states r.1, pAug := r.2, pK := statesBlock r.2 } ∧
      (ekfEstimate env cfg y u s).1 =
        if ny = 1 then .ok { x := List.ofFn (states r.1), covRows := nx, covCols := nx }
        else .error .valueError := by
  cases h1 : measureJacobian env.meas (env.simulate s.t (s.t + cfg.tS) s.xMean u).1
      (env.simulate s.t (s.t + cfg.tS) s.xMean u).2.1
      (env.simulate s.t (s.t + cfg.tS) s.xMean u).2.2 with
  | error e => exact Or.inl ⟨Or.inl ⟨e, h1⟩, e, by simp [ekfEstimate, h1]⟩
  | ok g =>
    cases h2 : measure env.meas (env.simulate s.t (s.t + cfg.tS) s.xMean u).1
        (env.simulate s.t (s.t + cfg.tS) s.xMean u).2.1
        (env.simulate s.t (s.t + cfg.tS) s.xMean u).2.2 with
    | error e => exact Or.inl ⟨Or.inr ⟨e, h2⟩, e, by simp [ekfEstimate, h1, h2]⟩
    | ok m =>
      refine Or.inr ⟨g, m, by first | rfl | exact h1, by first | rfl | exact h2, ?_, ?_⟩
      · by_cases hy : ny = 1 <;>
          simp [ekfEstimate, h1, h2, savePy, Py.raiseIf, hy]
      · by_cases hy : ny = 1 <;>
          simp [ekfEstimate, h1, h2, savePy, Py.raiseIf, hy]

/-- What one call of the unscented filter's `estimate` gives. -/
theorem ukfEstimate_result (env : UkfEnv nx ny nu nm K) (cfg : Config nx nm K) (y : Fin nm → K)
    (u : Fin nu → K) (s : State nx ny K) :
    ((ukfEstimate env cfg y u s).2 = s ∧ ∃ e, (ukfEstimate env cfg y u s).1 = .error e) ∨
    ∃ (ms : List (Fin nm → K)),
      let q := ukfPredicted cfg (ukfSimulated env cfg s u) ms
      let r := ukfCorrect env.solve q y
      ukfMeasured env.meas u (ukfSimulated env cfg s u) = .ok ms ∧
      (ukfEstimate env cfg y u s).2 =
        { s with xAug := r.1, xMean := states r.1, pAug := q.cov, pK := statesBlock r.2 } ∧
      (ukfEstimate env cfg y u s).1 =
        if ny = 1 then .ok { x := flat r.1, covRows := nx + ny, covCols := nx + ny }
        else .error .valueError := by
  cases h1 : ukfMeasured env.meas u (ukfSimulated env cfg s u) with
  | error e => exact Or.inl ⟨by simp [ukfEstimate, h1], e, by simp [ukfEstimate, h1]⟩
  | ok ms =>
    cases h2 : measure env.meas
        (states (ukfCorrect env.solve (ukfPredicted cfg (ukfSimulated env cfg s u) ms) y).1)
        (algebraics (ukfCorrect env.solve (ukfPredicted cfg (ukfSimulated env cfg s u) ms) y).1) u with
    | error e => exact Or.inl ⟨by simp [ukfEstimate, h1, h2], e, by simp [ukfEstimate, h1, h2]⟩
    | ok m =>
      refine Or.inr ⟨ms, rfl, ?_, ?_⟩
      · by_cases hy : ny = 1 <;>
          simp [ukfEstimate, h1, h2, savePy, Py.raiseIf, hy]
      · by_cases hy : ny = 1 <;>
          simp [ukfEstimate, h1, h2, savePy, Py.raiseIf, hy]

/-! ### Algebraic variables -/

theorem gammaMatrix_mulVec (dc : Matrix (Fin ny) (Fin nx) K) (v : Fin nx → K) :
    (gammaMatrix dc).mulVec v = vert v (-(dc.mulVec v)) := by
  unfold gammaMatrix
  rw [Matrix.fromRows_mulVec, Matrix.one_mulVec, Matrix.neg_mulVec]
  rfl

theorem gammaMatrix_conj (dc : Matrix (Fin ny) (Fin nx) K) (m : Matrix (Fin nx) (Fin nx) K) :
    gammaMatrix dc * m * (gammaMatrix dc).transpose =
      Matrix.fromBlocks m (m * (-dc).transpose) (-dc * m) (-dc * m * (-dc).transpose) := by
  unfold gammaMatrix
  rw [Matrix.transpose_fromRows, Matrix.fromRows_mul, Matrix.fromRows_mul_fromCols]
  simp

theorem statesBlock_gamma (dc : Matrix (Fin ny) (Fin nx) K) (m : Matrix (Fin nx) (Fin nx) K) :
    statesBlock (gammaMatrix dc * m * (gammaMatrix dc).transpose) = m := by
  rw [gammaMatrix_conj]
  rfl

theorem gammaMatrix_lower (dc : Matrix (Fin ny) (Fin nx) K) (m : Matrix (Fin nx) (Fin nx) K) (i : Fin ny)
    (j : Fin nx) :
    (gammaMatrix dc * m * (gammaMatrix dc).transpose) (.inr i) (.inl j) = (-dc * m) i j := by
  rw [gammaMatrix_conj]
  rfl

theorem gammaMatrix_corner (dc : Matrix (Fin ny) (Fin nx) K) (m : Matrix (Fin nx) (Fin nx) K)
    (i j : Fin ny) :
    (gammaMatrix dc * m * (gammaMatrix dc).transpose) (.inr i) (.inr j) =
      (-dc * m * (-dc).transpose) i j := by
  rw [gammaMatrix_conj]
  rfl

theorem augMatrix_gamma (a : Matrix (Fin nx) (Fin nx) K) (b : Matrix (Fin nx) (Fin ny) K)
    (dc : Matrix (Fin ny) (Fin nx) K) :
    augMatrix a b dc * gammaMatrix dc = gammaMatrix dc * (a - b * dc) := by
  unfold augMatrix gammaMatrix
  rw [Matrix.fromBlocks_mul_fromRows, Matrix.fromRows_mul]
  congr 1
  · simp [sub_eq_add_neg]
  · simp [Matrix.mul_add, Matrix.mul_assoc, sub_eq_add_neg]

end Steps

/-- With process noise only in the covariance of the state, one dimension. -/
theorem scalar_noise [LinearOrder K] [IsStrictOrderedRing K] (z q r h k k' : K) (hz : 0 < z)
    (hq : 0 < q) (hr : 0 < r) (hh : h ≠ 0) (e1 : k * (h * (z + q) * h + r) = (z + q) * h)
    (e2 : k' * (h * z * h + r) = z * h) :
    (1 - k * h) * (z + q) < (1 - k' * h) * z + q := by
  have hh2 : 0 < h * h := mul_self_pos.2 hh
  have s1 : 0 < h * (z + q) * h + r := by nlinarith [mul_pos hh2 (add_pos hz hq)]
  have s2 : 0 < h * z * h + r := by nlinarith [mul_pos hh2 hz]
  have k1 : k = (z + q) * h / (h * (z + q) * h + r) := by rw [eq_div_iff s1.ne']; exact e1
  have k2 : k' = z * h / (h * z * h + r) := by rw [eq_div_iff s2.ne']; exact e2
  have d1 : (1 - k * h) * (z + q) = (z + q) * r / (h * (z + q) * h + r) := by
    rw [k1]
    field_simp
    ring
  have d2 : (1 - k' * h) * z = z * r / (h * z * h + r) := by
    rw [k2]
    field_simp
    ring
  rw [d1, d2, ← sub_pos]
  have d3 : z * r / (h * z * h + r) + q - (z + q) * r / (h * (z + q) * h + r) =
      q * ((h * z * h + r) * (h * (z + q) * h + r) - r * r) /
        ((h * z * h + r) * (h * (z + q) * h + r)) := by
    field_simp
    ring
  rw [d3]
  refine div_pos (mul_pos hq ?_) (mul_pos s2 s1)
  have a1 : 0 < h * z * h := by nlinarith [mul_pos hh2 hz]
  have a2 : 0 < h * (z + q) * h := by nlinarith [mul_pos hh2 (add_pos hz hq)]
  nlinarith [mul_pos a1 a2, mul_pos a1 hr, mul_pos a2 hr]

/-! ### Polynomial chaos filter -/

theorem coefficient_ok (a : List K) (k : Nat) (h : k < a.length) :
    coefficient a k = .ok (a[k]?.getD 0) := by
  unfold coefficient
  simp [List.getElem?_eq_getElem h]

theorem coefficient_error (a : List K) (k : Nat) (h : a.length ≤ k) :
    coefficient a k = .error .runtimeError := by
  unfold coefficient
  simp [List.getElem?_eq_none h]

theorem covEntry_ok (n : Nat) (a b : List K) (ha : n ≤ a.length) (hb : n ≤ b.length) :
    covEntry n a b = .ok (((List.range' 1 (n - 1)).map fun k =>
      a[k]?.getD 0 * b[k]?.getD 0).sum) := by
  unfold covEntry
  rw [mapM_all_ok _ (fun k => a[k]?.getD 0 * b[k]?.getD 0)]
  · rfl
  · intro k hk
    rw [List.mem_range'_1] at hk
    rw [coefficient_ok a k (by omega), coefficient_ok b k (by omega)]
    rfl

theorem mapM_raises {α β : Type} (f : α → Except Err β) (e : Err) (l : List α)
    (h : ∀ a ∈ l, (∃ b, f a = .ok b) ∨ f a = .error e) (he : ∃ a ∈ l, f a = .error e) :
    l.mapM f = .error e := by
  induction l with
  | nil => obtain ⟨a, ha, -⟩ := he; cases ha
  | cons a l ih =>
    rw [List.mapM_cons]
    rcases h a (by simp) with ⟨b, hb⟩ | hb
    · obtain ⟨a', ha', he'⟩ := he
      rcases List.mem_cons.1 ha' with rfl | ha'
      · rw [hb] at he'; cases he'
      · rw [hb, ih (fun c hc => h c (List.mem_cons_of_mem _ hc)) ⟨a', ha', he'⟩]
        rfl
    · rw [hb]
      rfl

theorem covEntry_error (n : Nat) (a b : List K) (h1 : 1 ≤ a.length) (ha : a.length < n) :
    covEntry n a b = .error .runtimeError := by
  unfold covEntry
  rw [mapM_raises _ .runtimeError]
  · rfl
  · intro k _
    by_cases h : k < a.length
    · rw [coefficient_ok a k h]
      by_cases h' : k < b.length
      · rw [coefficient_ok b k h']
        exact Or.inl ⟨_, rfl⟩
      · rw [coefficient_error b k (by omega)]
        exact Or.inr rfl
    · rw [coefficient_error a k (by omega)]
      exact Or.inr rfl
  · refine ⟨a.length, by rw [List.mem_range'_1]; omega, ?_⟩
    rw [coefficient_error a _ (le_refl _)]
    rfl

theorem covMatrix_ok {a b : Nat} (n : Nat) (rows : Fin a → List K) (cols : Fin b → List K)
    (hr : ∀ i, n ≤ (rows i).length) (hc : ∀ j, n ≤ (cols j).length) :
    covMatrix n rows cols = .ok fun i j => ((List.range' 1 (n - 1)).map fun k =>
      (rows i)[k]?.getD 0 * (cols j)[k]?.getD 0).sum := by
  unfold covMatrix
  have : ∀ i j, covEntry n (rows i) (cols j) = .ok (((List.range' 1 (n - 1)).map fun k =>
      (rows i)[k]?.getD 0 * (cols j)[k]?.getD 0).sum) := fun i j =>
    covEntry_ok n _ _ (hr i) (hc j)
  simp only [this]
  exact if_pos (fun i j => rfl)

/-- The covariances as weighted sums over the coefficients. -/
theorem cov_weightedOuter {a b : Nat} (l : List Nat) (rows : Fin a → Nat → K) (cols : Fin b → Nat → K) :
    (fun i j => (l.map fun k => rows i k * cols j k).sum : Matrix (Fin a) (Fin b) K) =
      weightedOuter (l.map fun _ => (1 : K)) (l.map fun k i => rows i k) 0
        (l.map fun k j => cols j k) 0 := by
  unfold weightedOuter
  induction l with
  | nil => rfl
  | cons k l ih =>
    simp only [List.map_cons, List.zip_cons_cons, List.zipWith_cons_cons, List.sum_cons, ← ih]
    ext i j
    simp only [sub_zero, one_smul]
    rfl

section Exponential
attribute [local instance] Matrix.linftyOpNormedRing Matrix.linftyOpNormedAlgebra

/-- Matrices that intertwine two matrices intertwine their exponentials. -/
theorem exp_intertwine {m n : Type} [Fintype m] [Fintype n] [DecidableEq m] [DecidableEq n]
    (a : Matrix m m ℝ) (b : Matrix n n ℝ) (e : Matrix m n ℝ) (h : a * e = e * b) :
    NormedSpace.exp a * e = e * NormedSpace.exp b := by
  have hp : ∀ k : Nat, a ^ k * e = e * b ^ k := by
    intro k
    induction k with
    | zero => simp
    | succ k ih => rw [pow_succ, Matrix.mul_assoc, h, ← Matrix.mul_assoc, ih, Matrix.mul_assoc, ← pow_succ]
  have ha := NormedSpace.exp_series_hasSum_exp' (𝕂 := ℝ) a
  have hb := NormedSpace.exp_series_hasSum_exp' (𝕂 := ℝ) b
  have h1 : HasSum (fun k : Nat => ((k.factorial : ℝ)⁻¹ • a ^ k) * e) (NormedSpace.exp a * e) :=
    ha.map (AddMonoidHom.mk' (fun x : Matrix m m ℝ => x * e) fun x y => Matrix.add_mul x y e)
      (continuous_id.matrix_mul continuous_const)
  have h2 : HasSum (fun k : Nat => e * ((k.factorial : ℝ)⁻¹ • b ^ k)) (e * NormedSpace.exp b) :=
    hb.map (AddMonoidHom.mk' (fun x : Matrix n n ℝ => e * x) fun x y => Matrix.mul_add e x y)
      (continuous_const.matrix_mul continuous_id)
  simp only [Matrix.smul_mul, Matrix.mul_smul, hp] at h1 h2
  exact h1.unique h2

end Exponential

end Verif.Kalman
