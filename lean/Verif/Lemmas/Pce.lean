import Verif.Model.Pce
import Verif.Spec.Pce
import Mathlib.Data.Nat.Choose.Basic
import Mathlib.Data.Nat.Choose.Sum
import Mathlib.Data.List.Nodup
import Mathlib.Tactic.Ring
import Mathlib.Tactic.Linarith
import Mathlib.LinearAlgebra.Matrix.NonsingularInverse
import Mathlib.Tactic.LinearCombination
namespace Verif.Pce
open Verif Verif.Spec

theorem nPol_eq (n d : Nat) : nPol n d = Nat.choose (n + d) d := by
  unfold nPol
  rw [Nat.choose_eq_factorial_div_factorial (by omega), Nat.add_sub_cancel, Nat.mul_comm]

theorem mem_productRange (m n : Nat) (e : List Nat) :
    e ∈ productRange m n ↔ e.length = n ∧ ∀ k ∈ e, k < m := by
  induction n generalizing e with
  | zero => simp [productRange]; intro h; simp [h]
  | succ n ih =>
    simp only [productRange, List.mem_flatMap, List.mem_range, List.mem_map]
    constructor
    · rintro ⟨a, ha, e', he', rfl⟩
      obtain ⟨h1, h2⟩ := (ih e').1 he'
      exact ⟨by simp [h1], by simpa [ha] using h2⟩
    · rintro ⟨h1, h2⟩
      match e, h1 with
      | a :: e, h1 => exact ⟨a, h2 a (by simp), e, (ih e).2 ⟨by simpa using h1,
          fun k hk => h2 k (by simp [hk])⟩, rfl⟩

theorem productRange_nodup (m n : Nat) : (productRange m n).Nodup := by
  induction n with
  | zero => simp [productRange]
  | succ n ih =>
    unfold productRange
    rw [List.nodup_flatMap]
    refine ⟨fun a _ => ih.map (List.cons_injective), ?_⟩
    refine List.Pairwise.imp ?_ (List.nodup_range (n := m))
    intro a b hab
    simp only [Function.onFun, List.disjoint_left, List.mem_map]
    rintro _ ⟨e, _, rfl⟩ ⟨e', _, h⟩
    exact hab (by simpa using (List.cons.inj h).1.symm)

/-- Number of tuples with sum at most `d`. -/
theorem count_tuples (m n d : Nat) (h : d < m) :
    ((productRange m n).filter fun p => decide (p.sum ≤ d)).length = Nat.choose (n + d) d := by
  induction n generalizing d with
  | zero => simp [productRange]
  | succ n ih =>
    unfold productRange
    rw [List.filter_flatMap, List.length_flatMap]
    have h1 : ∀ a, ((List.map (fun x => a :: x) (productRange m n)).filter
        fun p => decide (p.sum ≤ d)).length = if a ≤ d then Nat.choose (n + (d - a)) (d - a) else 0 := by
      intro a
      rw [List.filter_map, List.length_map]
      split
      · next ha =>
        rw [← ih (d - a) (by omega)]
        congr 1
        apply List.filter_congr
        intro e _
        show decide ((a :: e).sum ≤ d) = decide (e.sum ≤ d - a)
        rw [decide_eq_decide, List.sum_cons]
        omega
      · next ha =>
        rw [List.length_eq_zero_iff, List.filter_eq_nil_iff]
        intro e _
        show ¬ decide ((a :: e).sum ≤ d) = true
        rw [decide_eq_true_eq, List.sum_cons]
        omega
    simp only [h1]
    have h2 : ∀ k, ((List.range (d + 1 + k)).map fun a =>
        if a ≤ d then Nat.choose (n + (d - a)) (d - a) else 0).sum = Nat.choose (n + 1 + d) d := by
      intro k
      induction k with
      | zero =>
        clear ih h1 h
        have : ((List.range (d + 1)).map fun a =>
            if a ≤ d then Nat.choose (n + (d - a)) (d - a) else 0) =
            (List.range (d + 1)).map fun a => Nat.choose (n + (d - a)) (d - a) := by
          apply List.map_congr_left
          intro a ha
          rw [if_pos (by simpa [Nat.lt_succ_iff] using ha)]
        rw [Nat.add_zero, this]
        induction d with
        | zero => simp
        | succ d ih =>
          rw [List.range_succ_eq_map, List.map_cons, List.sum_cons, List.map_map]
          have h3 : ((fun a => Nat.choose (n + (d + 1 - a)) (d + 1 - a)) ∘ Nat.succ) =
              fun a => Nat.choose (n + (d - a)) (d - a) := by
            funext a
            simp only [Function.comp_apply, Nat.succ_eq_add_one, Nat.add_sub_add_right]
          rw [h3, ih]
          · have : n + 1 + (d + 1) = (n + d + 1) + 1 := by omega
            rw [this, Nat.choose_succ_succ]
            have e1 : n + (d + 1 - 0) = n + d + 1 := by omega
            have e2 : n + 1 + d = n + d + 1 := by omega
            rw [e1, e2, Nat.sub_zero, Nat.add_comm]
          · apply List.map_congr_left
            intro a ha
            rw [if_pos (by simpa [Nat.lt_succ_iff] using ha)]
      | succ k ih =>
        rw [← Nat.add_assoc, List.range_succ, List.map_append, List.sum_append, ih]
        simp
        omega
    have := h2 (m - (d + 1))
    rwa [show d + 1 + (m - (d + 1)) = m by omega] at this

theorem length_exponents (n d : Nat) : (exponents n d).length = Nat.choose (n + d) d :=
  count_tuples (d + 1) n d (by omega)

theorem productRange_cons (m n : Nat) :
    ∃ rest, productRange (m + 1) n = List.replicate n 0 :: rest := by
  induction n with
  | zero => exact ⟨[], rfl⟩
  | succ n ih =>
    obtain ⟨rest, h⟩ := ih
    unfold productRange
    rw [List.range_succ_eq_map, List.flatMap_cons, h]
    exact ⟨_, rfl⟩

theorem exponents_cons (n d : Nat) : ∃ rest, exponents n d = List.replicate n 0 :: rest ∧
    laterExponents n d = .ok rest := by
  obtain ⟨rest, h⟩ := productRange_cons d n
  have : exponents n d = List.replicate n 0 :: rest.filter fun p => p.sum ≤ d := by
    unfold exponents
    rw [h, List.filter_cons]
    simp
  refine ⟨_, this, ?_⟩
  unfold laterExponents
  rw [this]

variable {K : Type} [Field K]

theorem helist_ok (k : Nat) (x : K) (h : k ≤ 10) : ∃ v, helist k x = .ok v := by
  match k, h with
  | 0, _ | 1, _ | 2, _ | 3, _ | 4, _ | 5, _ | 6, _ | 7, _ | 8, _ | 9, _ | 10, _ => exact ⟨_, rfl⟩
  | k + 11, h => omega

theorem helist_error (k : Nat) (x : K) (h : 10 < k) : helist k x = .error .indexError := by
  match k, h with
  | k + 11, _ => rfl

/-- The value of a tabulated polynomial. -/
def heValue (k : Nat) (x : K) : K :=
  match helist k x with
  | .ok v => v
  | .error _ => 0

theorem helist_heValue (k : Nat) (x : K) (h : k ≤ 10) : helist k x = .ok (heValue k x) := by
  obtain ⟨v, hv⟩ := helist_ok k x h
  unfold heValue
  rw [hv]

theorem timesHe_ok (xu : List K) (es : List Nat) (j : Nat) (acc : K) (h : ∀ e ∈ es, e ≤ 10)
    (hl : j + es.length ≤ xu.length) :
    timesHe xu es j acc =
      .ok (acc * (List.zipWith (fun k v => heValue k v) es (xu.drop j)).prod) := by
  induction es generalizing j acc with
  | nil => simp [timesHe]
  | cons e es ih =>
    simp only [List.length_cons] at hl
    have hj : j < xu.length := by omega
    unfold timesHe
    rw [List.drop_eq_getElem_cons hj, List.getElem?_eq_getElem hj, Option.getD_some,
      helist_heValue e _ (h e (by simp))]
    simp only [bind, Except.bind]
    rw [ih (j + 1) _ (fun e he => h e (by simp [he])) (by omega)]
    rw [List.zipWith_cons_cons, List.prod_cons, mul_assoc]

theorem fillPsi_ok (xu : List K) (g : List Nat → K) (es : List (List Nat)) (front : List K) (i : Nat)
    (hf : front.length = i + 1) (h : ∀ e ∈ es, timesHe xu e 0 1 = .ok (g e)) :
    fillPsi xu es i (front ++ List.replicate es.length 1) = .ok (front ++ es.map g) := by
  induction es generalizing front i with
  | nil => simp [fillPsi]
  | cons e es ih =>
    unfold fillPsi
    have h1 : (front ++ List.replicate (e :: es).length (1 : K))[i + 1]? = some 1 := by
      rw [List.getElem?_append_right (by omega), hf, Nat.sub_self]; rfl
    have h2 : (front ++ List.replicate (e :: es).length (1 : K)).set (i + 1) (g e) =
        (front ++ [g e]) ++ List.replicate es.length 1 := by
      rw [List.set_append_right _ _ (by omega), hf, Nat.sub_self]
      simp [List.replicate_succ]
    rw [h1]
    simp only [Option.elim_some, bind, Except.bind, h e (by simp)]
    rw [h2, ih (front ++ [g e]) (i + 1) (by simp [hf]) fun e he => h e (by simp [he])]
    simp

/-- The basis in terms of the tabulated polynomials. -/
theorem psi_ok (n d : Nat) (hd : d ≤ 10) (xu : List K) (hx : xu.length = n) :
    psi n d xu = .ok ((exponents n d).map fun e =>
      (List.zipWith (fun k v => heValue k v) e xu).prod) := by
  obtain ⟨rest, h1, h2⟩ := exponents_cons n d
  have hlen : nPol n d = rest.length + 1 := by
    rw [nPol_eq, ← length_exponents, h1]; rfl
  unfold psi
  simp only [h2, bind, Except.bind, hlen]
  have hfill := fillPsi_ok xu (fun e => (List.zipWith (fun k v => heValue k v) e xu).prod) rest [1] 0
    rfl (by
      intro e he
      have hmem : e ∈ exponents n d := by rw [h1]; simp [he]
      obtain ⟨hp, hs⟩ := List.mem_filter.1 hmem
      obtain ⟨hl, hk⟩ := (mem_productRange _ _ _).1 hp
      rw [timesHe_ok xu e 0 1 (fun k hk' => by have := hk k hk'; omega) (by omega)]
      simp)
  rw [List.replicate_succ]
  refine hfill.trans ?_
  rw [h1, List.map_cons]
  have : (List.zipWith (fun k v => heValue k v) (List.replicate n 0) xu).prod = (1 : K) := by
    apply List.prod_eq_one
    intro v hv
    obtain ⟨i, hi, hv⟩ := List.mem_iff_getElem.1 hv
    rw [List.getElem_zipWith, List.getElem_replicate] at hv
    exact hv.symm
  rw [this]
  rfl

theorem mem_exponents (n d : Nat) (e : List Nat) :
    e ∈ exponents n d ↔ e.length = n ∧ e.sum ≤ d := by
  unfold exponents
  rw [List.mem_filter, mem_productRange, decide_eq_true_eq]
  constructor
  · exact fun h => ⟨h.1.1, h.2⟩
  · exact fun h => ⟨⟨h.1, fun k hk => by have := List.le_sum_of_mem hk; omega⟩, h.2⟩

theorem timesHe_error (xu : List K) (es : List Nat) (j : Nat) (acc : K) (h : ∃ e ∈ es, 10 < e) :
    timesHe xu es j acc = .error .indexError := by
  induction es generalizing j acc with
  | nil => simp at h
  | cons e es ih =>
    unfold timesHe
    by_cases he : 10 < e
    · rw [helist_error e _ he]; rfl
    · obtain ⟨v, hv⟩ := helist_ok e (xu[j]?.getD 0) (by omega)
      rw [hv]
      simp only [bind, Except.bind]
      apply ih
      obtain ⟨a, ha, h10⟩ := h
      rcases List.mem_cons.1 ha with rfl | ha
      · exact absurd h10 he
      · exact ⟨a, ha, h10⟩

theorem timesHe_cases (xu : List K) (es : List Nat) (j : Nat) (acc : K) :
    (∃ v, timesHe xu es j acc = .ok v) ∨ timesHe xu es j acc = .error .indexError := by
  induction es generalizing j acc with
  | nil => exact .inl ⟨_, rfl⟩
  | cons e es ih =>
    unfold timesHe
    by_cases he : 10 < e
    · rw [helist_error e _ he]; exact .inr rfl
    · obtain ⟨v, hv⟩ := helist_ok e (xu[j]?.getD 0) (by omega)
      rw [hv]
      exact ih _ _

theorem fillPsi_error (xu : List K) (es : List (List Nat)) (i : Nat) (l : List K)
    (h : ∃ e ∈ es, ∃ k ∈ e, 10 < k) : fillPsi xu es i l = .error .indexError := by
  induction es generalizing i l with
  | nil => simp at h
  | cons e es ih =>
    unfold fillPsi
    cases l[i + 1]? with
    | none => rfl
    | some old =>
      simp only [Option.elim_some, bind, Except.bind]
      by_cases he : ∃ k ∈ e, 10 < k
      · rw [timesHe_error xu e 0 old he]
      · have hes : ∃ e ∈ es, ∃ k ∈ e, 10 < k := by
          obtain ⟨a, ha, hk⟩ := h
          rcases List.mem_cons.1 ha with rfl | ha
          · exact absurd hk he
          · exact ⟨a, ha, hk⟩
        rcases timesHe_cases xu e 0 old with ⟨v, hv⟩ | hv <;> rw [hv]
        exact ih _ _ hes

theorem heValue_He (k : Nat) (x : K) (h : k ≤ 9) : heValue k x = He k x := by
  have he : heValue k x = He k x := by
    match k, h with
    | 0, _ => rfl
    | 1, _ => rfl
    | 2, _ => simp only [heValue, helist, He]; push_cast; ring
    | 3, _ => simp only [heValue, helist, He]; push_cast; ring
    | 4, _ => simp only [heValue, helist, He]; push_cast; ring
    | 5, _ => simp only [heValue, helist, He]; push_cast; ring
    | 6, _ => simp only [heValue, helist, He]; push_cast; ring
    | 7, _ => simp only [heValue, helist, He]; push_cast; ring
    | 8, _ => simp only [heValue, helist, He]; push_cast; ring
    | 9, _ => simp only [heValue, helist, He]; push_cast; ring
  exact he

theorem heValue_ten (x : K) : heValue 10 x = He 10 x + 10 * x ^ 6 := by
  simp only [heValue, helist, He]; push_cast; ring

theorem zipWith_congr_left {α β γ : Type} {f g : α → β → γ} (l : List α) (x : List β)
    (h : ∀ a ∈ l, ∀ b, f a b = g a b) : List.zipWith f l x = List.zipWith g l x := by
  induction l generalizing x with
  | nil => simp
  | cons a l ih =>
    cases x with
    | nil => simp
    | cons b x =>
      rw [List.zipWith_cons_cons, List.zipWith_cons_cons, h a (by simp),
        ih x fun a ha => h a (List.mem_cons_of_mem _ ha)]

section LeastSquares
variable {m p : Nat}

/-- The factor inverts the normal matrix. -/
theorem lsFactor_normal (lin : Linear p K) (psiMatrix : Matrix (Fin m) (Fin p) K) (lamb : K)
    (hc : (lin.chol (normal psiMatrix lamb)).transpose * lin.chol (normal psiMatrix lamb) =
      normal psiMatrix lamb)
    (hs : lin.chol (normal psiMatrix lamb) * lin.solve (lin.chol (normal psiMatrix lamb)) 1 = 1) :
    lin.solve (lin.chol (normal psiMatrix lamb)) 1 *
        (lin.solve (lin.chol (normal psiMatrix lamb)) 1).transpose * normal psiMatrix lamb = 1 ∧
    normal psiMatrix lamb * (lin.solve (lin.chol (normal psiMatrix lamb)) 1 *
        (lin.solve (lin.chol (normal psiMatrix lamb)) 1).transpose) = 1 := by
  have h2 : normal psiMatrix lamb * (lin.solve (lin.chol (normal psiMatrix lamb)) 1 *
        (lin.solve (lin.chol (normal psiMatrix lamb)) 1).transpose) = 1 := by
    generalize lin.solve (lin.chol (normal psiMatrix lamb)) 1 = inv at *
    rw [← hc, Matrix.mul_assoc, ← Matrix.mul_assoc (lin.chol _) inv, hs, Matrix.one_mul,
      ← Matrix.transpose_mul, mul_eq_one_comm.1 hs, Matrix.transpose_one]
  exact ⟨mul_eq_one_comm.1 h2, h2⟩

theorem squaredError_sub (psiMatrix : Matrix (Fin m) (Fin p) K) (lamb : K) (v : Fin m → K)
    (b c : Fin p → K)
    (hb : (normal psiMatrix lamb).mulVec b = psiMatrix.transpose.mulVec v) :
    squaredError psiMatrix lamb v c = squaredError psiMatrix lamb v b +
      (dotProduct (psiMatrix.mulVec (c - b)) (psiMatrix.mulVec (c - b)) +
        lamb * dotProduct (c - b) (c - b)) := by
  obtain ⟨d, rfl⟩ : ∃ d, c = b + d := ⟨c - b, by simp⟩
  simp only [add_sub_cancel_left]
  have hcross : dotProduct (psiMatrix.mulVec d) (psiMatrix.mulVec b) + lamb * dotProduct d b =
      dotProduct (psiMatrix.mulVec d) v := by
    have h := congrArg (dotProduct d) hb
    unfold normal at h
    rw [Matrix.add_mulVec, dotProduct_add, ← Matrix.mulVec_mulVec, Matrix.dotProduct_mulVec,
      Matrix.vecMul_transpose, Matrix.dotProduct_mulVec d psiMatrix.transpose,
      Matrix.vecMul_transpose] at h
    rw [← h]
    congr 1
    rw [dotProduct, dotProduct, Finset.mul_sum]
    refine Finset.sum_congr rfl fun i _ => ?_
    rw [Matrix.mulVec_diagonal]
    ring
  unfold squaredError
  rw [Matrix.mulVec_add]
  simp only [dotProduct_sub, sub_dotProduct, dotProduct_add, add_dotProduct, mul_add]
  rw [dotProduct_comm (psiMatrix.mulVec b) (psiMatrix.mulVec d),
    dotProduct_comm v (psiMatrix.mulVec d), dotProduct_comm b d]
  linear_combination 2 * hcross

theorem dot_self_nonneg [LinearOrder K] [IsStrictOrderedRing K] {n : Nat} (v : Fin n → K) :
    0 ≤ dotProduct v v := Finset.sum_nonneg fun i _ => mul_self_nonneg (v i)

theorem dot_self_pos [LinearOrder K] [IsStrictOrderedRing K] {n : Nat} (v : Fin n → K)
    (h : v ≠ 0) : 0 < dotProduct v v := by
  obtain ⟨i, hi⟩ := Function.ne_iff.1 h
  exact Finset.sum_pos' (fun i _ => mul_self_nonneg (v i))
    ⟨i, Finset.mem_univ i, mul_self_pos.2 hi⟩

end LeastSquares

section Samples

theorem weightedMean_affine {S : Type} [Fintype S] {n : Nat} (w : S → K) (hw : ∑ s, w s = 1)
    (x : S → Fin n → K) (m : Fin n → K) (hm : HasMean w x m) (b : Fin n → K)
    (a : Matrix (Fin n) (Fin n) K) (i : Fin n) :
    weightedMean w (fun s => (b + a.mulVec (x s)) i) = (b + a.mulVec m) i := by
  have h : a.mulVec m i = ∑ k, a i k * weightedMean w (fun s => x s k) := by
    simp only [Matrix.mulVec, dotProduct]
    exact Finset.sum_congr rfl fun k _ => by rw [hm k]
  simp only [Pi.add_apply, h]
  unfold weightedMean
  simp only [mul_add, Finset.sum_add_distrib, ← Finset.sum_mul, hw, one_mul, Matrix.mulVec, dotProduct,
    Finset.mul_sum]
  rw [Finset.sum_comm]
  congr 1
  exact Finset.sum_congr rfl fun k _ => Finset.sum_congr rfl fun s _ => by ring

theorem weightedMean_mulVec {S : Type} [Fintype S] {n p : Nat} (w : S → K) (x : S → Fin n → K)
    (c : Matrix (Fin n) (Fin n) K) (hc : ∀ k l, weightedMean w (fun s => x s k * x s l) = c k l)
    (a : Matrix (Fin p) (Fin n) K) (i j : Fin p) :
    weightedMean w (fun s => a.mulVec (x s) i * a.mulVec (x s) j) = (a * c * a.transpose) i j := by
  simp only [Matrix.mul_apply, Matrix.transpose_apply, ← hc, weightedMean, Matrix.mulVec, dotProduct,
    Finset.mul_sum, Finset.sum_mul]
  rw [Finset.sum_comm]
  refine Finset.sum_congr rfl fun k _ => ?_
  rw [Finset.sum_comm]
  refine Finset.sum_congr rfl fun l _ => ?_
  exact Finset.sum_congr rfl fun s _ => by ring

end Samples

end Verif.Pce
