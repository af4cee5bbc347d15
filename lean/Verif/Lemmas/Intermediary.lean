import Verif.Model.Intermediary
import Verif.Spec.Intermediary
import Verif.Lemmas.Py
import Verif.Lemmas.AugLag
import Mathlib.Tactic.Ring
import Mathlib.Tactic.Linarith
import Mathlib.Tactic.FieldSimp
namespace Verif.Intermediary
open Verif Verif.Spec Verif.AugLag

set_option linter.unusedSectionVars false
variable {K : Type} [Field K] [LinearOrder K]

theorem mapM_ok {α β : Type} (l : List α) (f : α → Except Err β) (g : α → β)
    (h : ∀ a ∈ l, f a = .ok (g a)) : l.mapM f = .ok (l.map g) := by
  induction l with
  | nil => rfl
  | cons a l ih =>
    rw [List.mapM_cons, h a (by simp), ih fun a ha => h a (by simp [ha])]
    rfl

/-- Chunk `i` of a concatenation of rows of equal size. -/
theorem chunk_flatten (degree : Nat) (hd : 0 < degree) (rows : List (List K))
    (h : ∀ r ∈ rows, r.length = degree) (i : Nat) (hi : i < rows.length) :
    chunk degree rows.flatten i = .ok rows[i] := by
  have key : ∀ (rows : List (List K)) (h : ∀ r ∈ rows, r.length = degree) (i : Nat)
      (hi : i < rows.length), i * degree < rows.flatten.length ∧
        (rows.flatten.drop (i * degree)).take degree = rows[i] := by
    intro rows
    induction rows with
    | nil => intro _ i hi; simp at hi
    | cons r rows ih =>
      intro h i hi
      have hr := h r (by simp)
      cases i with
      | zero =>
        refine ⟨by simp only [List.flatten_cons, List.length_append]; omega, ?_⟩
        simp only [Nat.zero_mul, List.drop_zero, List.flatten_cons, List.getElem_cons_zero]
        rw [← hr, List.take_left]
      | succ i =>
        obtain ⟨h1, h2⟩ := ih (fun r hr => h r (by simp [hr])) i (by simpa using hi)
        have hmul : (i + 1) * degree = r.length + i * degree := by rw [hr]; ring
        refine ⟨by simp only [List.flatten_cons, List.length_append, hmul]; omega, ?_⟩
        rw [hmul, List.flatten_cons, ← List.drop_drop, List.drop_left]
        simpa using h2
  obtain ⟨h1, h2⟩ := key rows h i hi
  unfold chunk
  rw [if_pos h1, h2]

theorem splitVector_rows (degree elements : Nat) (hd : 0 < degree)
    (rows : Nat → List (Nat → K)) (i : Nat) (n : Nat) (hn : ∀ el, (rows el).length = n) (hi : i < n)
    (theta : List (List K))
    (ht : theta = (List.range elements).map fun el =>
      ((rows el).map fun f => (List.range degree).map f).flatten) :
    splitVector degree theta i = .ok ((List.range elements).flatMap fun el =>
      (List.range degree).map fun j => ((rows el)[i]?.getD fun _ => 0) j) := by
  subst ht
  unfold splitVector
  rw [mapM_ok _ _ (fun v => (v.drop (i * degree)).take degree)]
  · simp only [Except.map, List.map_map, List.flatMap]
    congr 2
    apply List.map_congr_left
    intro el _
    have := chunk_flatten degree hd ((rows el).map fun f => (List.range degree).map f)
      (by simp) i (by simp [hn, hi])
    unfold chunk at this
    split at this
    · simp only [Except.ok.injEq] at this
      simp only [Function.comp_def, this, List.getElem_map]
      rw [List.getElem?_eq_getElem (by rw [hn]; exact hi)]
      simp
    · cases this
  · intro v hv
    obtain ⟨el, _, rfl⟩ := List.mem_map.1 hv
    have := chunk_flatten degree hd ((rows el).map fun f => (List.range degree).map f)
      (by simp) i (by simp [hn, hi])
    rw [this]
    unfold chunk at this
    split at this
    · simpa using this.symm
    · cases this

theorem getElem?_points (elements degree : Nat) (f : Nat → Nat → K) (el j : Nat) (hel : el < elements)
    (hj : j < degree) :
    ((List.range elements).flatMap fun el => (List.range degree).map (f el))[el * degree + j]? =
      some (f el j) := by
  have key : ∀ (l : List Nat) (el : Nat),
      (l.flatMap fun el => (List.range degree).map (f el))[el * degree + j]? =
        l[el]?.map fun e => f e j := by
    intro l
    induction l with
    | nil => intro el; simp
    | cons a l ih =>
      intro el
      rw [List.flatMap_cons]
      cases el with
      | zero =>
        rw [List.getElem?_append_left (by simpa using hj)]
        simp [hj]
      | succ el =>
        have : (el + 1) * degree + j = degree + (el * degree + j) := by ring
        rw [this, List.getElem?_append_right (by simp)]
        simp [ih]
  rw [key, List.getElem?_range hel]; rfl

theorem length_points (elements degree : Nat) (f : Nat → Nat → K) :
    ((List.range elements).flatMap fun el => (List.range degree).map (f el)).length =
      elements * degree := by
  simp [List.length_flatMap]

theorem point_of_index (elements degree i : Nat) (h : i < elements * degree) :
    ∃ el j, el < elements ∧ j < degree ∧ i = el * degree + j := by
  have hd : 0 < degree := by
    rcases Nat.eq_zero_or_pos degree with h0 | h0
    · simp [h0] at h
    · exact h0
  exact ⟨i / degree, i % degree, Nat.div_lt_of_lt_mul (by rwa [Nat.mul_comm] at h),
    Nat.mod_lt _ hd, by rw [Nat.mul_comm]; exact (Nat.div_add_mod i degree).symm⟩

/-- Values at all points, element after element. -/
def points (elements degree : Nat) (f : Nat → Nat → K) : List K :=
  (List.range elements).flatMap fun el => (List.range degree).map (f el)

/-- The parts of four rows for each element. -/
theorem parts_rows (degree elements : Nat) (hd : 0 < degree) (a b c d : Nat → Nat → K)
    (theta nu : List (List K)) (h : List.zipWith (· ++ ·) theta nu =
      (List.range elements).map fun el => (([a el, b el, c el, d el] : List (Nat → K)).map
        fun f => (List.range degree).map f).flatten ++ []) :
    parts degree theta nu = .ok
      ⟨points elements degree a, points elements degree b, points elements degree c,
       points elements degree d⟩ := by
  have hs := fun i hi => splitVector_rows degree elements hd
    (fun el => [a el, b el, c el, d el]) i 4 (fun _ => rfl) hi (List.zipWith (· ++ ·) theta nu)
    (by simpa using h)
  unfold parts
  simp only [hs 0 (by omega), hs 1 (by omega), hs 2 (by omega), hs 3 (by omega), bind, Except.bind]
  rfl

theorem getElem?_values (mu : K) (elements degree : Nat) (a b c d : Nat → Nat → K) (el j : Nat)
    (hel : el < elements) (hj : j < degree) :
    (values mu ⟨points elements degree a, points elements degree b, points elements degree c,
      points elements degree d⟩)[el * degree + j]? =
      some (value mu (a el j) (b el j) (c el j) (d el j)) := by
  have hlt : el * degree + j < elements * degree := by
    have : (el + 1) * degree ≤ elements * degree := Nat.mul_le_mul_right _ hel
    rw [Nat.add_mul, Nat.one_mul] at this
    omega
  simp only [values, points, length_points, List.getElem?_map, List.getElem?_range hlt,
    Option.map_some, getElem?_points elements degree _ el j hel hj, Option.getD_some]

theorem length_values (mu : K) (elements degree : Nat) (a b c d : Nat → Nat → K) :
    (values mu ⟨points elements degree a, points elements degree b, points elements degree c,
      points elements degree d⟩).length = elements * degree := by
  simp [values, points]

theorem chunk_append (degree : Nat) (v w : List K) (i : Nat) (h : (i + 1) * degree ≤ v.length)
    (hd : 0 < degree) : chunk degree (v ++ w) i = chunk degree v i := by
  rw [Nat.add_mul, Nat.one_mul] at h
  unfold chunk
  rw [if_pos (by rw [List.length_append]; omega), if_pos (by omega),
    List.drop_append_of_le_length (by omega), List.take_append_of_le_length (by simp; omega)]

theorem splitVector_prefix (degree elements : Nat) (hd : 0 < degree)
    (rows : Nat → List (Nat → K)) (i : Nat) (n : Nat) (hn : ∀ el, (rows el).length = n) (hi : i < n)
    (theta nu : List (List K)) (hnu : nu.length = elements)
    (ht : theta = (List.range elements).map fun el =>
      ((rows el).map fun f => (List.range degree).map f).flatten) :
    splitVector degree (List.zipWith (· ++ ·) theta nu) i =
      .ok ((List.range elements).flatMap fun el =>
        (List.range degree).map fun j => ((rows el)[i]?.getD fun _ => 0) j) := by
  rw [← splitVector_rows degree elements hd rows i n hn hi theta ht]
  have hlen : ∀ v ∈ theta, (i + 1) * degree ≤ v.length := by
    subst ht
    intro v hv
    obtain ⟨el, _, rfl⟩ := List.mem_map.1 hv
    have : (((rows el).map fun f => (List.range degree).map f).flatten).length = n * degree := by
      rw [List.length_flatten]
      simp [Function.comp_def, hn]
    rw [this]
    exact Nat.mul_le_mul_right _ hi
  have hl : theta.length = nu.length := by rw [ht, hnu]; simp
  clear ht hnu
  unfold splitVector
  congr 1
  induction theta generalizing nu with
  | nil => rfl
  | cons v theta ih =>
    cases nu with
    | nil => simp at hl
    | cons w nu =>
      rw [List.zipWith_cons_cons, List.mapM_cons, List.mapM_cons,
        chunk_append degree v w i (hlen v (by simp)) hd,
        ih nu (fun v hv => hlen v (by simp [hv])) (by simpa using hl)]

theorem storeNu_nu (o : Opts K) (e : List K) (tilde nu : List (List K)) :
    Py.Always (fun s : St K => s.nu = nu) (storeNu o e tilde) := by
  unfold storeNu
  refine Py.Always.bind Py.Always.get fun s => ?_
  split
  · apply Py.Always.forEach
    intro e _
    unfold improveEntry
    split
    · refine Py.Always.bind (Py.Always.modify _ fun _ h => h) fun _ => ?_
      unfold copyEntry
      refine Py.Always.bind Py.Always.get fun s => ?_
      split
      · exact Py.Always.throw _
      · exact Py.Always.modify _ fun _ h => h
    · exact Py.Always.pure _
  · exact Py.Always.modify _ fun _ h => h

theorem computeNu_nu (o : Opts K) (theta : List (List K)) (p : Option (List K)) (uc : List K)
    (nu : List (List K)) : Py.Always (fun s : St K => s.nu = nu) (computeNu o theta p uc) := by
  unfold computeNu
  split
  · exact Py.Always.pure _
  · refine Py.Always.bind Py.Always.get fun s => Py.Always.bind (Py.Always.lift _) fun x =>
      Py.Always.bind (Py.Always.lift _) fun m => ?_
    split
    · exact Py.Always.pure _
    · exact Py.Always.bind (storeNu_nu _ _ _ _) fun _ => Py.Always.pure _

theorem updateMu_nu (o : Opts K) (e : List K) (last : Option (List K)) (nu : List (List K)) :
    Py.Always (fun s : St K => s.nu = nu) (updateMu o e last) := by
  unfold updateMu
  split
  · exact Py.Always.pure _
  split
  · exact Py.Always.pure _
  split
  · exact Py.Always.whenSome _ _ fun _ _ => Py.Always.modify _ fun _ h => h
  split
  · exact Py.Always.pure _
  split
  · exact Py.Always.modify _ fun _ h => h
  · exact Py.Always.throw _

theorem run_nu (o : Opts K) (op : Op K) (nu : List (List K)) :
    Py.Always (fun s : St K => s.nu = nu) (op.run o) := by
  cases op with
  | update theta p uc =>
    refine Py.Always.bind ?_ fun _ => Py.Always.pure _
    exact Py.Always.bind (computeNu_nu _ _ _ _ _) fun _ => Py.Always.bind Py.Always.get fun s =>
      Py.Always.bind (updateMu_nu _ _ _ _) fun _ =>
        Py.Always.bind (Py.Always.modify _ fun _ h => h) fun _ => Py.Always.pure _
  | compute theta p uc => exact Py.Always.bind (computeNu_nu _ _ _ _ _) fun _ => Py.Always.pure _
  | setMu mu =>
    unfold Op.run AugLag.setMu
    refine Py.Always.bind Py.Always.get fun s => ?_
    split
    · exact Py.Always.modify _ fun _ h => h
    · split
      · exact Py.Always.modify _ fun _ h => h
      · exact Py.Always.throw _

theorem after_nu (o : Opts K) (ops : List (Op K)) (s : St K) : (after o ops s).nu = s.nu := by
  unfold after
  induction ops generalizing s with
  | nil => rfl
  | cons op ops ih =>
    rw [List.foldl_cons, ih]
    exact run_nu o op s.nu s rfl

/-- Differences of values at all points. -/
theorem zipWith_points (elements degree : Nat) (f g : Nat → Nat → K) :
    List.zipWith (· - ·) (points elements degree f) (points elements degree g) =
      points elements degree fun el j => f el j - g el j := by
  have key : ∀ l : List Nat, List.zipWith (· - ·)
      (l.flatMap fun el => (List.range degree).map (f el))
      (l.flatMap fun el => (List.range degree).map (g el)) =
      l.flatMap fun el => (List.range degree).map fun j => f el j - g el j := by
    intro l
    induction l with
    | nil => rfl
    | cons a l ih =>
      simp only [List.flatMap_cons]
      rw [List.zipWith_append (by simp), ih]
      simp [List.zipWith_map_left, List.zipWith_map_right, List.zipWith_self]
  exact key _

/-- The error of one constraint of the intermediary node. -/
theorem largestDifference [IsStrictOrderedRing K] (elements degree : Nat) (f g : Nat → Nat → K) :
    Spec.LargestDifference elements degree f g
      (maxAbs (List.zipWith (· - ·) (points elements degree f) (points elements degree g))) := by
  rw [zipWith_points]
  have hmem : ∀ x, x ∈ points elements degree (fun el j => f el j - g el j) ↔
      ∃ el < elements, ∃ j < degree, f el j - g el j = x := by
    intro x
    simp [points]
  obtain ⟨h1, h2, h3⟩ := le_foldl_max (points elements degree fun el j => f el j - g el j) (0 : K)
  refine ⟨h1, fun el he j hj => h2 _ ((hmem _).2 ⟨el, he, j, hj, rfl⟩), fun hne => ?_⟩
  rcases h3 with h3 | ⟨v, hv, h3⟩
  · exact absurd h3 hne
  · obtain ⟨el, he, j, hj, rfl⟩ := (hmem v).1 hv
    exact ⟨el, he, j, hj, h3⟩

end Verif.Intermediary
