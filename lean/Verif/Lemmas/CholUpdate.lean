import Verif.Model.CholUpdate
import Verif.Spec.CholUpdate
import Mathlib.Algebra.BigOperators.Intervals
import Mathlib.Tactic.Ring
import Mathlib.Tactic.FieldSimp
import Mathlib.Tactic.LinearCombination
import Mathlib.Tactic.Positivity
/-!
# Lemmas on the update of a Cholesky factor
-/
namespace Verif
namespace Chol
open Spec Finset
variable {K : Type} [Field K] [LinearOrder K] [IsStrictOrderedRing K]

/-- The sign as a number. -/
def sgn (plus : Bool) : K := if plus then 1 else -1

omit [LinearOrder K] [IsStrictOrderedRing K] in
theorem withSign_eq (plus : Bool) (a b : K) : withSign plus a b = a + sgn plus * b := by
  cases plus <;> simp [withSign, sgn, sub_eq_add_neg]

/-- The first `k` steps. -/
def steps (sqrt : K → K) (plus : Bool) (p : Nat) (s : St K) : Nat → St K
  | 0 => s
  | k + 1 => step sqrt plus p k (steps sqrt plus p s k)

omit [LinearOrder K] [IsStrictOrderedRing K] in
theorem cholupdate_eq (sqrt : K → K) (plus : Bool) (p : Nat) (s : St K) :
    cholupdate sqrt (if plus then "+" else "-") p s = (.ok (), steps sqrt plus p s p) := by
  have hb : ∀ k t, body sqrt (if plus then "+" else "-") p k t = (.ok (), step sqrt plus p k t) := by
    intro k t
    cases plus <;> simp [body]
  have h : ∀ n, Py.forEach (List.range n) (body sqrt (if plus then "+" else "-") p) s =
      (.ok (), steps sqrt plus p s n) := by
    intro n
    induction n with
    | zero => rfl
    | succ n ih =>
      have happ : ∀ (l : List Nat) (k : Nat) (t : St K) (t' : St K),
          Py.forEach l (body sqrt (if plus then "+" else "-") p) t = (.ok (), t') →
          Py.forEach (l ++ [k]) (body sqrt (if plus then "+" else "-") p) t =
            (.ok (), step sqrt plus p k t') := by
        intro l k
        induction l with
        | nil =>
          intro t t' ht
          cases ht
          simp [Py.forEach, Py.bind, hb, Py.pure]
        | cons a l ihl =>
          intro t t' ht
          simp only [List.cons_append, Py.forEach, Py.bind, hb] at ht ⊢
          exact ihl _ _ ht
      rw [List.range_succ]
      exact happ _ n s _ ih
  exact h p

/-- What holds after `k` steps: the sum of the factor and of what is left of the vector. -/
structure Inv (σ : K) (p : Nat) (T : Nat → Nat → K) (k : Nat) (s : St K) : Prop where
  factor : IsFactor p s.r
  pos : ∀ i < k, 0 < s.r i i
  sum : ∀ i < p, ∀ j < p,
    gram p s.r i j + σ * (if k ≤ i ∧ k ≤ j then s.x i * s.x j else 0) = T i j

omit [LinearOrder K] [IsStrictOrderedRing K] in
theorem gram_step (sqrt : K → K) (plus : Bool) (p k : Nat) (hk : k < p) (s : St K) (i j : Nat) :
    gram p (step sqrt plus p k s).r i j = gram p s.r i j +
      (newRow sqrt plus p k s i * newRow sqrt plus p k s j - s.r k i * s.r k j) := by
  unfold gram
  rw [← Finset.add_sum_erase _ _ (mem_range.mpr hk), ← Finset.add_sum_erase _ _ (mem_range.mpr hk)]
  have : ∑ m ∈ (range p).erase k, (step sqrt plus p k s).r m i * (step sqrt plus p k s).r m j =
      ∑ m ∈ (range p).erase k, s.r m i * s.r m j := by
    apply Finset.sum_congr rfl
    intro m hm
    have hmk : m ≠ k := (Finset.mem_erase.mp hm).1
    simp [step, hmk]
  rw [this]
  simp only [step, if_true]
  ring

/-- One step keeps the invariant if the new diagonal entry is the root of a positive number. -/
theorem inv_step {sqrt : K → K} (hq : IsSqrt sqrt) (plus : Bool) {p k : Nat} (hk : k < p)
    {T : Nat → Nat → K} {s : St K} (h : Inv (sgn plus) p T k s)
    (hpos : 0 < s.r k k * s.r k k + sgn plus * (s.x k * s.x k)) :
    Inv (sgn plus) p T (k + 1) (step sqrt plus p k s) := by
  obtain ⟨hr0, hrr⟩ := hq _ hpos
  set r : K := newDiagonal sqrt plus k s with hrdef
  have hre : r = sqrt (s.r k k * s.r k k + sgn plus * (s.x k * s.x k)) := by
    rw [hrdef, newDiagonal, withSign_eq]
  rw [← hre] at hr0 hrr
  have hd : s.r k k ≠ 0 := h.factor.diagonal k hk
  have hrne : r ≠ 0 := ne_of_gt hr0
  have hlow : ∀ j, j < k → newRow sqrt plus p k s j = 0 := by
    intro j hj
    have h1 : j ≠ k := by omega
    have h2 : ¬(k < j ∧ j < p) := by omega
    simp only [newRow, if_neg h1, if_neg h2]
    exact h.factor.lower k hk j hj
  have hdiag : newRow sqrt plus p k s k = r := by simp [newRow, hrdef]
  have hup : ∀ j, k < j → j < p → r * newRow sqrt plus p k s j =
      s.r k k * s.r k j + sgn plus * (s.x k * s.x j) := by
    intro j h1 h2
    have hjk : j ≠ k := by omega
    simp only [newRow, if_neg hjk, if_pos (And.intro h1 h2), withSign_eq, ← hrdef]
    field_simp
  have hvec : ∀ j, k < j → j < p → s.r k k * newVector sqrt plus p k s j =
      r * s.x j - s.x k * newRow sqrt plus p k s j := by
    intro j h1 h2
    simp only [newVector, if_pos (And.intro h1 h2), ← hrdef]
    field_simp
  refine ⟨⟨?_, ?_⟩, ?_, ?_⟩
  · intro i hi j hj
    by_cases hik : i = k
    · subst hik
      simp only [step, if_true]
      exact hlow j hj
    · simp only [step, if_neg hik]
      exact h.factor.lower i hi j hj
  · intro i hi
    by_cases hik : i = k
    · subst hik
      simp only [step, if_true, hdiag]
      exact hrne
    · simp only [step, if_neg hik]
      exact h.factor.diagonal i hi
  · intro i hi
    by_cases hik : i = k
    · subst hik
      simp only [step, if_true, hdiag]
      exact hr0
    · simp only [step, if_neg hik]
      exact h.pos i (by omega)
  · intro i hi j hj
    rw [gram_step sqrt plus p k hk, ← h.sum i hi j hj]
    have hxs : (step sqrt plus p k s).x = newVector sqrt plus p k s := rfl
    rw [hxs]
    generalize (sgn plus : K) = σ at *
    rcases lt_trichotomy i k with hik | rfl | hik
    · have h1 : ¬(k + 1 ≤ i ∧ k + 1 ≤ j) := by omega
      have h2 : ¬(k ≤ i ∧ k ≤ j) := by omega
      rw [if_neg h1, if_neg h2, hlow i hik, h.factor.lower k hk i hik]
      ring
    · have h1 : ¬(i + 1 ≤ i ∧ i + 1 ≤ j) := by omega
      rw [if_neg h1, hdiag]
      rcases lt_trichotomy j i with hj' | rfl | hj'
      · have h2 : ¬(i ≤ i ∧ i ≤ j) := by omega
        rw [if_neg h2, hlow j hj', h.factor.lower i hk j hj']
        ring
      · rw [if_pos ⟨le_refl _, le_refl _⟩, hdiag, hrr]
        ring
      · rw [if_pos ⟨le_refl _, by omega⟩, hup j hj' hj]
        ring
    · rcases lt_trichotomy j k with hj' | rfl | hj'
      · have h1 : ¬(k + 1 ≤ i ∧ k + 1 ≤ j) := by omega
        have h2 : ¬(k ≤ i ∧ k ≤ j) := by omega
        rw [if_neg h1, if_neg h2, hlow j hj', h.factor.lower k hk j hj']
        ring
      · have h1 : ¬(j + 1 ≤ i ∧ j + 1 ≤ j) := by omega
        rw [if_neg h1, if_pos ⟨by omega, le_refl _⟩, hdiag, mul_comm _ r, hup i hik hi]
        ring
      · have h1 : k + 1 ≤ i ∧ k + 1 ≤ j := by omega
        have h2 : k ≤ i ∧ k ≤ j := by omega
        rw [if_pos h1, if_pos h2]
        have ui := hup i hik hi
        have uj := hup j hj' hj
        have vi := hvec i hik hi
        have vj := hvec j hj' hj
        generalize newRow sqrt plus p k s i = Ri at *
        generalize newRow sqrt plus p k s j = Rj at *
        generalize newVector sqrt plus p k s i = Xi at *
        generalize newVector sqrt plus p k s j = Xj at *
        generalize s.r k k = d at *
        generalize s.r k i = ri at *
        generalize s.r k j = rj at *
        generalize s.x k = xk at *
        generalize s.x i = xi at *
        generalize s.x j = xj at *
        have key : d * d * (Ri * Rj - ri * rj + σ * (Xi * Xj) - σ * (xi * xj)) = 0 := by
          have e1 : d * d * (σ * (Xi * Xj)) = σ * ((r * xi - xk * Ri) * (r * xj - xk * Rj)) := by
            rw [← vi, ← vj]; ring
          have e2 : r * r * (Ri * Rj) = (d * ri + σ * (xk * xi)) * (d * rj + σ * (xk * xj)) := by
            rw [← ui, ← uj]; ring
          have e3 : d * d = r * r - σ * (xk * xk) := by rw [hrr]; ring
          have e4 : d * d * (Ri * Rj) + σ * ((r * xi - xk * Ri) * (r * xj - xk * Rj)) =
              r * r * (Ri * Rj) + σ * (r * r) * (xi * xj) - σ * (xk * xi) * (r * Rj)
                - σ * (xk * xj) * (r * Ri) := by
            rw [e3]; ring
          have : d * d * (Ri * Rj - ri * rj + σ * (Xi * Xj) - σ * (xi * xj)) =
              (d * d * (Ri * Rj) + d * d * (σ * (Xi * Xj))) - d * d * (ri * rj)
                - σ * (d * d) * (xi * xj) := by ring
          rw [this, e1, e4, e2, ui, uj, hrr]
          ring
        have hdd : d * d ≠ 0 := mul_ne_zero hd hd
        have := (mul_eq_zero.mp key).resolve_left hdd
        linear_combination this

omit [LinearOrder K] [IsStrictOrderedRing K] in
/-- `vᵀ RᵀR v` is the sum of the squares of `R v`. -/
theorem gram_quadratic (p : Nat) (R : Nat → Nat → K) (v : Nat → K) :
    ∑ i ∈ range p, ∑ j ∈ range p, v i * gram p R i j * v j =
      ∑ m ∈ range p, (∑ i ∈ range p, R m i * v i) * (∑ i ∈ range p, R m i * v i) := by
  simp only [gram, Finset.mul_sum, Finset.sum_mul]
  rw [Finset.sum_comm]
  have : ∀ j ∈ range p, ∑ i ∈ range p, ∑ m ∈ range p, v i * (R m i * R m j) * v j =
      ∑ m ∈ range p, ∑ i ∈ range p, R m i * v i * (R m j * v j) := by
    intro j _
    rw [Finset.sum_comm]
    exact Finset.sum_congr rfl fun m _ => Finset.sum_congr rfl fun i _ => by ring
  rw [Finset.sum_congr rfl this, Finset.sum_comm]

omit [LinearOrder K] [IsStrictOrderedRing K] in
/-- Back substitution: a vector with 1 at place `k`, zero above, that the first `k` rows map to
zero. -/
theorem exists_vector {p : Nat} {R : Nat → Nat → K} (h : IsFactor p R) {k : Nat} (hk : k < p) :
    ∃ v : Nat → K, v k = 1 ∧ (∀ j, k < j → v j = 0) ∧
      ∀ m < k, ∑ i ∈ range p, R m i * v i = 0 := by
  have hstep : ∀ t ≤ k, ∃ v : Nat → K, v k = 1 ∧ (∀ j, k < j → v j = 0) ∧
      ∀ m, k - t ≤ m → m < k → ∑ i ∈ range p, R m i * v i = 0 := by
    intro t
    induction t with
    | zero =>
      intro _
      refine ⟨fun i => if i = k then 1 else 0, by simp, fun j hj => by simp; omega, ?_⟩
      intro m h1 h2
      omega
    | succ t ih =>
      intro ht
      obtain ⟨v, v1, v2, v3⟩ := ih (by omega)
      obtain ⟨q, hq⟩ : ∃ q, q = k - (t + 1) := ⟨_, rfl⟩
      have hqk : q < k := by omega
      have hqp : q < p := by omega
      let w : K := -(∑ i ∈ (range p).erase q, R q i * v i) / R q q
      refine ⟨fun i => if i = q then w else v i, ?_, ?_, ?_⟩
      · have : k ≠ q := by omega
        simp [this, v1]
      · intro j hj
        have : j ≠ q := by omega
        simp [this, v2 j hj]
      · intro m h1 h2
        simp only
        by_cases hmq : m = q
        · rw [hmq]
          rw [← Finset.add_sum_erase _ _ (mem_range.mpr hqp)]
          have : ∑ i ∈ (range p).erase q, R q i * (if i = q then w else v i) =
              ∑ i ∈ (range p).erase q, R q i * v i := by
            apply Finset.sum_congr rfl
            intro i hi
            rw [if_neg (Finset.mem_erase.mp hi).1]
          rw [this, if_pos rfl]
          have hd := h.diagonal q hqp
          simp only [w]
          field_simp
          ring
        · have hqm : q < m := by omega
          rw [← v3 m (by omega) h2]
          apply Finset.sum_congr rfl
          intro i hi
          by_cases hiq : i = q
          · rw [hiq, h.lower m (by omega) _ hqm]
            ring
          · rw [if_neg hiq]
  obtain ⟨v, v1, v2, v3⟩ := hstep k (le_refl _)
  exact ⟨v, v1, v2, fun m hm => v3 m (by omega) hm⟩

/-- If the final matrix is positive, each new diagonal entry is the root of a positive number. -/
theorem pivot_pos {σ : K} {p k : Nat} (hk : k < p) {T : Nat → Nat → K} {s : St K}
    (h : Inv σ p T k s) (hT : IsPositive p T) :
    0 < s.r k k * s.r k k + σ * (s.x k * s.x k) := by
  obtain ⟨v, v1, v2, v3⟩ := exists_vector h.factor hk
  have hp := hT v ⟨k, hk, by rw [v1]; exact one_ne_zero⟩
  have hsum : ∑ i ∈ range p, ∑ j ∈ range p, v i * T i j * v j =
      ∑ i ∈ range p, ∑ j ∈ range p, v i * gram p s.r i j * v j +
      ∑ i ∈ range p, ∑ j ∈ range p,
        v i * (σ * (if k ≤ i ∧ k ≤ j then s.x i * s.x j else 0)) * v j := by
    rw [← Finset.sum_add_distrib]
    apply Finset.sum_congr rfl
    intro i hi
    rw [← Finset.sum_add_distrib]
    apply Finset.sum_congr rfl
    intro j hj
    rw [← h.sum i (mem_range.mp hi) j (mem_range.mp hj)]
    ring
  rw [hsum, gram_quadratic] at hp
  have hrow : ∀ m < p, ∑ i ∈ range p, s.r m i * v i = if m = k then s.r k k else 0 := by
    intro m hm
    rcases lt_trichotomy m k with hmk | rfl | hmk
    · rw [v3 m hmk, if_neg (by omega)]
    · rw [if_pos rfl, Finset.sum_eq_single m]
      · rw [v1, mul_one]
      · intro i _ hne
        rcases lt_or_gt_of_ne hne with hlt | hgt
        · rw [h.factor.lower m hm i hlt, zero_mul]
        · rw [v2 i hgt, mul_zero]
      · intro hn
        exact absurd (mem_range.mpr hm) hn
    · rw [if_neg (by omega)]
      apply Finset.sum_eq_zero
      intro i _
      rcases Nat.lt_or_ge i m with hlt | hge
      · rw [h.factor.lower m hm i hlt, zero_mul]
      · rw [v2 i (by omega), mul_zero]
  have h1 : ∑ m ∈ range p, (∑ i ∈ range p, s.r m i * v i) * (∑ i ∈ range p, s.r m i * v i) =
      s.r k k * s.r k k := by
    rw [Finset.sum_eq_single k]
    · rw [hrow k hk, if_pos rfl]
    · intro m hm hne
      rw [hrow m (mem_range.mp hm), if_neg hne, zero_mul]
    · intro hn
      exact absurd (mem_range.mpr hk) hn
  have h2 : ∑ i ∈ range p, ∑ j ∈ range p,
      v i * (σ * (if k ≤ i ∧ k ≤ j then s.x i * s.x j else 0)) * v j =
      σ * (s.x k * s.x k) := by
    have hz : ∀ i j, i ≠ k ∨ j ≠ k →
        v i * (σ * (if k ≤ i ∧ k ≤ j then s.x i * s.x j else 0)) * v j = 0 := by
      intro i j hij
      by_cases hc : k ≤ i ∧ k ≤ j
      · rcases hij with hij | hij
        · rw [v2 i (by omega)]; ring
        · rw [v2 j (by omega)]; ring
      · rw [if_neg hc]; ring
    rw [Finset.sum_eq_single k]
    · rw [Finset.sum_eq_single k]
      · rw [if_pos ⟨le_refl _, le_refl _⟩, v1]; ring
      · intro j _ hj
        exact hz k j (.inr hj)
      · intro hn
        exact absurd (mem_range.mpr hk) hn
    · intro i _ hi
      exact Finset.sum_eq_zero fun j _ => hz i j (.inl hi)
    · intro hn
      exact absurd (mem_range.mpr hk) hn
  rw [h1, h2] at hp
  exact hp

/-- All steps keep the invariant. -/
theorem inv_steps {sqrt : K → K} (hq : IsSqrt sqrt) (plus : Bool) {p : Nat} {T : Nat → Nat → K}
    {s : St K} (h : Inv (sgn plus) p T 0 s)
    (hpos : ∀ k t, k < p → Inv (sgn plus) p T k t →
      0 < t.r k k * t.r k k + sgn plus * (t.x k * t.x k)) (k : Nat) (hk : k ≤ p) :
    Inv (sgn plus) p T k (steps sqrt plus p s k) := by
  induction k with
  | zero => exact h
  | succ k ih =>
    exact inv_step hq plus (by omega) (ih (by omega)) (hpos k _ (by omega) (ih (by omega)))

omit [LinearOrder K] [IsStrictOrderedRing K] in
/-- Nothing is written outside of the upper triangle of the first `p` rows and columns. -/
theorem steps_outside (sqrt : K → K) (plus : Bool) (p : Nat) (s : St K) (k i j : Nat)
    (hk : k ≤ p) (h : p ≤ i ∨ p ≤ j ∨ j < i) : (steps sqrt plus p s k).r i j = s.r i j := by
  induction k with
  | zero => rfl
  | succ k ih =>
    rw [← ih (by omega)]
    show (if i = k then _ else _) = _
    by_cases hik : i = k
    · subst hik
      have h1 : j ≠ i := by omega
      have h2 : ¬(i < j ∧ j < p) := by omega
      simp only [if_true, newRow, if_neg h1, if_neg h2]
    · rw [if_neg hik]

end Chol
end Verif
