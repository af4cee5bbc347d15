import Verif.Spec.Collocation
import Verif.Lemmas.Poly
import Verif.Props.Poly
/-! Lemmas on the collocation scheme. -/
namespace Verif

variable {K : Type}

/-! ## Loops that do not raise -/

theorem ok_bind {α β : Type} (a : α) (f : α → Except Err β) :
    ((Except.ok a : Except Err α) >>= f) = f a := rfl

theorem mapM_ok {α β : Type} (f : α → Except Err β) (g : α → β) (l : List α)
    (h : ∀ a ∈ l, f a = .ok (g a)) : l.mapM f = .ok (l.map g) := by
  induction l with
  | nil => rfl
  | cons a l ih =>
    rw [List.mapM_cons, h a List.mem_cons_self, ih fun b hb => h b (List.mem_cons_of_mem _ hb)]
    rfl

theorem mapM_error {α β : Type} (f : α → Except Err β) (e : Err) (a : α) (l : List α)
    (h : f a = .error e) : (a :: l).mapM f = .error e := by
  rw [List.mapM_cons, h]; rfl

theorem mapM_some_error {α β : Type} (f : α → Except Err β) (e : Err) (l : List α)
    (h : ∀ a ∈ l, (∃ b, f a = .ok b) ∨ f a = .error e) (he : ∃ a ∈ l, f a = .error e) :
    l.mapM f = .error e := by
  induction l with
  | nil => obtain ⟨a, ha, -⟩ := he; cases ha
  | cons a l ih =>
    rcases h a List.mem_cons_self with ⟨b, hb⟩ | hb
    · rw [List.mapM_cons, hb, ok_bind, ih (fun a ha => h a (List.mem_cons_of_mem _ ha))]
      · rfl
      · obtain ⟨a', ha', he'⟩ := he
        rcases List.mem_cons.mp ha' with rfl | ha'
        · rw [hb] at he'; cases he'
        · exact ⟨a', ha', he'⟩
    · exact mapM_error f e a l hb

theorem itemAt_ok {α : Type} {l : List α} {i : Nat} {a : α} (h : l[i]? = some a) :
    itemAt l i = .ok a := by rw [itemAt, h]

theorem lastItem_ok {α : Type} {l : List α} {a : α} (h : l.getLast? = some a) :
    lastItem l = .ok a := by rw [lastItem, h]

theorem entryOf_ok {α : Type} {l : List α} {i : Nat} {a : α} (h : l[i]? = some a) :
    entryOf l i = .ok a := by rw [entryOf, h]

theorem subColumns_eq [Sub K] {a b : List K} (h : a.length = b.length) :
    subColumns a b = .ok (List.zipWith (fun x y => x - y) a b) := by
  match a, b with
  | [a], [b] => rfl
  | [a], [] => simp at h
  | [a], b :: c :: l => simp at h
  | [], [] => rfl
  | [], b :: l => simp at h
  | a :: c :: l, [] => simp at h
  | a :: c :: l, [b] => simp at h
  | a :: c :: l, b :: d :: l' =>
    rw [subColumns, if_pos h]
    · exact fun _ h => by simp at h
    · exact fun _ h => by simp at h

/-! ## Parameter columns -/

theorem flatten_entry {α : Type} (n : Nat) (z : α) (cols : List (List α)) (k : Nat)
    (h : Spec.Columns k n cols) (s j : Nat) (hs : s < n) :
    cols.flatten.getD (j * n + s) z = (cols.getD j []).getD s z := by
  obtain ⟨-, hc⟩ := h
  induction cols generalizing j with
  | nil => simp
  | cons c cols ih =>
    have hl : c.length = n := hc c List.mem_cons_self
    have hc' : ∀ c ∈ cols, c.length = n := fun c h => hc c (List.mem_cons_of_mem _ h)
    cases j with
    | zero =>
      simp only [Nat.zero_mul, Nat.zero_add, List.flatten_cons, List.getD_eq_getElem?_getD]
      rw [List.getElem?_append_left (by omega)]
      rfl
    | succ j =>
      rw [List.getD_cons_succ, ← ih j hc', List.flatten_cons, List.getD_eq_getElem?_getD,
        List.getD_eq_getElem?_getD, List.getElem?_append_right (by rw [hl, Nat.succ_mul]; omega)]
      congr 2
      rw [hl, Nat.succ_mul]; omega

theorem flatten_size {α : Type} {n k : Nat} {cols : List (List α)} (h : Spec.Columns k n cols) :
    cols.flatten.length = n * k := by
  obtain ⟨rfl, hc⟩ := h
  induction cols with
  | nil => simp
  | cons c cols ih =>
    rw [List.flatten_cons, List.length_append, hc c List.mem_cons_self,
      ih fun c h => hc c (List.mem_cons_of_mem _ h), List.length_cons, Nat.mul_succ, Nat.add_comm]

section Field

variable [Field K]

theorem polyApprox_states (roots : List K) (n d : Nat) (cols : List (List K)) (tau : K)
    (hd : d ≠ 1) (hn : 0 < n) (h : Spec.Columns (d + 1) n cols) :
    polyApproxMethod roots n d true (matOf n cols.flatten) tau =
      .ok ((List.range n).map fun s => (Spec.through (0 :: roots) cols s).eval tau) := by
  rw [polyApproxMethod, if_neg hd, if_pos rfl, if_pos hn]
  congr 1
  apply List.map_congr_left
  intro s hs
  rw [lagrangeBasisMethod_zero, polyRow_eq_interpolate (0 :: roots), Spec.through]
  congr 2
  funext j
  exact flatten_entry n 0 cols _ h s j (List.mem_range.mp hs)

theorem polyApprox_algebraics (roots : List K) (n d : Nat) (cols : List (List K)) (tau : K)
    (hd : d ≠ 1) (h : Spec.Columns d n cols) :
    polyApproxMethod roots n d false (matOf n cols.flatten) tau =
      .ok ((List.range n).map fun s => (Spec.through roots cols s).eval tau) := by
  rw [polyApproxMethod, if_neg hd, if_neg (by simp)]
  congr 1
  apply List.map_congr_left
  intro s hs
  rw [lagrangeBasisMethod_one, polyRow_eq_interpolate roots, Spec.through]
  congr 2
  funext j
  exact flatten_entry n 0 cols _ h s j (List.mem_range.mp hs)

/-! ## Derivatives -/

open Polynomial in
theorem foldl_dual {α : Type} (l : List α) (c : α → Bool) (f : α → K[X]) (tau : K) (P : K[X]) :
    l.foldl (fun e x => if c x then
        (e.1 * (f x).eval tau, e.2 * (f x).eval tau + e.1 * (f x).derivative.eval tau) else e)
      (P.eval tau, P.derivative.eval tau) =
    ((P * (l.map fun x => if c x then f x else 1).prod).eval tau,
      (P * (l.map fun x => if c x then f x else 1).prod).derivative.eval tau) := by
  induction l generalizing P with
  | nil => simp
  | cons x l ih =>
    by_cases h : c x
    · have : (P.eval tau * (f x).eval tau,
          P.derivative.eval tau * (f x).eval tau + P.eval tau * (f x).derivative.eval tau) =
          ((P * f x).eval tau, (P * f x).derivative.eval tau) := by
        simp [Polynomial.derivative_mul]
      simp only [List.foldl_cons, h, if_true, List.map_cons, List.prod_cons, this]
      rw [ih, mul_assoc]
    · simp only [List.foldl_cons, h, List.map_cons, List.prod_cons, one_mul, Bool.false_eq_true,
        if_false]
      exact ih P

theorem lagrangeFactorD_eq (l : List K) (tau : K) (j : Fin l.length) :
    (lagrangeFactorD (l.zipIdx 0) tau (l.get j, j.val)).2 =
      (Lagrange.basis Finset.univ l.get j).derivative.eval tau := by
  have h1 := foldl_dual (K := K) (l.zipIdx 0) (fun rk => decide (rk.2 ≠ j.val))
    (fun rk => Lagrange.basisDivisor (l.get j) rk.1) tau 1
  have he : ∀ x : K, (Lagrange.basisDivisor (l.get j) x).eval tau =
      (tau - x) / (l.get j - x) := by
    intro x
    simp only [Lagrange.basisDivisor, Polynomial.eval_mul, Polynomial.eval_C, Polynomial.eval_sub,
      Polynomial.eval_X, div_eq_mul_inv]
    ring
  have hd : ∀ x : K, (Lagrange.basisDivisor (l.get j) x).derivative.eval tau =
      1 / (l.get j - x) := by
    intro x
    simp [Lagrange.basisDivisor, Polynomial.derivative_mul]
  simp only [decide_eq_true_eq, he, hd, Polynomial.eval_one, Polynomial.derivative_one,
    Polynomial.eval_zero] at h1
  rw [lagrangeFactorD, h1, one_mul, zipIdx_eq_ofFn, List.map_ofFn, List.prod_ofFn, Lagrange.basis,
    ← Finset.prod_erase (a := j)]
  · show Polynomial.eval tau (Polynomial.derivative _) = _
    congr 2
    apply Finset.prod_congr rfl
    intro k hk
    have hk' : k ≠ j := (Finset.mem_erase.mp hk).1
    have : 0 + k.val ≠ j.val := fun h => hk' (Fin.ext (by omega))
    simp only [Function.comp, if_pos this]
  · simp

theorem polyDerivative_states (roots : List K) (n d : Nat) (cols : List (List K)) (tau : K)
    (hd : d ≠ 1) (hn : 0 < n) (h : Spec.Columns (d + 1) n cols) :
    polyDerivative roots n d (matOf n cols.flatten) tau =
      .ok ((List.range n).map fun s =>
        (Spec.through (0 :: roots) cols s).derivative.eval tau) := by
  rw [polyDerivative, if_neg hd, if_pos hn]
  congr 1
  apply List.map_congr_left
  intro s hs
  have h1 : ((0 :: roots).zipIdx.map fun rj => (lagrangeFactorD (0 :: roots).zipIdx tau rj).2) =
      List.ofFn fun j : Fin (0 :: roots).length =>
        (Lagrange.basis Finset.univ (0 :: roots).get j).derivative.eval tau := by
    conv_lhs => rw [show (0 :: roots).zipIdx.map (fun rj =>
        (lagrangeFactorD (0 :: roots).zipIdx tau rj).2) =
      (List.ofFn fun i : Fin (0 :: roots).length => ((0 :: roots).get i, 0 + i.val)).map
        (fun rj => (lagrangeFactorD (0 :: roots).zipIdx tau rj).2) from
          congrArg _ (zipIdx_eq_ofFn (0 :: roots) 0), List.map_ofFn]
    congr 1
    funext j
    have := lagrangeFactorD_eq (0 :: roots) tau j
    simpa using this
  rw [h1, polyRow_ofFn, Spec.through, Lagrange.interpolate_apply, Polynomial.derivative_sum,
    Polynomial.eval_finsetSum]
  apply Finset.sum_congr rfl
  intro j _
  rw [Polynomial.derivative_C_mul, Polynomial.eval_mul, Polynomial.eval_C, mul_comm]
  congr 1
  exact flatten_entry n 0 cols _ h s j (List.mem_range.mp hs)

end Field

/-! ## Times -/

section Times

variable [LinearOrder K]

/-- Keeping, of the sorted times, those that a strictly increasing list has gives that list. -/
theorem filter_sorted (l times : List K) (hs : times.Pairwise (· < ·)) (hsub : ∀ t ∈ times, t ∈ l) :
    ((l.dedup).insertionSort (fun a b => a ≤ b)).filter (fun t => decide (t ∈ times)) = times := by
  have hn : ((l.dedup).insertionSort (fun a b => a ≤ b)).Nodup :=
    (List.perm_insertionSort _ _).nodup_iff.mpr (List.nodup_dedup l)
  have hp : (((l.dedup).insertionSort (fun a b => a ≤ b)).filter
      fun t => decide (t ∈ times)).Perm times := by
    rw [List.perm_ext_iff_of_nodup (hn.filter _) (hs.imp fun h => ne_of_lt h)]
    intro t
    rw [List.mem_filter, (List.perm_insertionSort _ _).mem_iff, List.mem_dedup]
    simp only [decide_eq_true_eq]
    exact ⟨fun h => h.2, fun h => ⟨hsub t h, h⟩⟩
  exact hp.eq_of_pairwise' ((List.pairwise_insertionSort _ _).filter _) (hs.imp fun h => le_of_lt h)

end Times

end Verif
