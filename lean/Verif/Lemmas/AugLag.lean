import Verif.Spec.AugLag
import Verif.Lemmas.Py
import Verif.Props.Poly
import Mathlib.Tactic.Ring
import Mathlib.Tactic.FieldSimp
import Mathlib.Tactic.Linarith
namespace Verif.AugLag
open Verif Verif.Spec

set_option linter.unusedSectionVars false

variable {K : Type} [Field K] [LinearOrder K]

theorem tau_timeNu (o : Opts K) (hd : o.deltaT ≠ 0) (el j : Nat) :
    (o.timeNu el j - o.breakpoint el) / (o.breakpoint (el + 1) - o.breakpoint el) =
      (o.roots o.degree)[j]?.getD 0 := by
  have h : o.breakpoint (el + 1) - o.breakpoint el = o.deltaT := by
    simp only [Opts.breakpoint]; push_cast; ring
  rw [h, Opts.timeNu]
  field_simp
  ring

theorem nuAt_timeNu (o : Opts K) (h : Discretised o) (v : List K) (el j : Nat)
    (hj : j < o.degree) :
    nuAt o v el (o.timeNu el j) = (List.range o.nRelax).map fun i => entryOf o.nRelax v i j := by
  rw [nuAt, tau_timeNu o h.length, h.same]
  by_cases h1 : o.degree = 1
  · have : j = 0 := by omega
    subst this
    rw [polyApproxUtil, if_pos h1]
  · have hj' : j < (interpolationNodes (o.roots o.degree) false).length := by
      simpa [interpolationNodes, h.points] using hj
    have := C06_util_interpolates (o.roots o.degree) o.nRelax o.degree false
      (entryOf o.nRelax v) h1 (by simpa [interpolationNodes] using h.distinct) j hj'
    rw [← this]
    congr 1
    have hj2 : j < (o.roots o.degree).length := by rw [h.points]; exact hj
    simp [interpolationNodes, hj2]

theorem getElem?_flatMap_blocks {α : Type} (n m : Nat) (B : Nat → List α)
    (hB : ∀ j < m, (B j).length = n) (i j : Nat) (hi : i < n) (hj : j < m) :
    ((List.range m).flatMap B)[j * n + i]? = (B j)[i]? := by
  induction m generalizing j B with
  | zero => omega
  | succ m ih =>
    rw [List.range_succ_eq_map, List.flatMap_cons, List.flatMap_map]
    have h0 := hB 0 (by omega)
    cases j with
    | zero => rw [List.getElem?_append_left (by omega)]; simp
    | succ j =>
      have : (j + 1) * n + i - n = j * n + i := by rw [Nat.add_mul]; omega
      rw [List.getElem?_append_right (by rw [h0, Nat.add_mul]; omega), h0, this]
      exact ih (fun j => B (j + 1)) (fun j hj => hB (j + 1) (by omega)) j (by omega)

theorem violAt_length (o : Opts K) (viol : List (List (List K))) (h : Violations o viol)
    (el j : Nat) (he : el < o.elements) (hj : j < o.degree) :
    (violAt viol el j).length = o.nRelax := by
  obtain ⟨row, r, h1, h2, h3⟩ := h el he j hj
  simp [violAt, h1, h2, h3]

theorem nuAt_length (o : Opts K) (v : List K) (el : Nat) (t : K) :
    (nuAt o v el t).length = o.nRelax := by
  unfold nuAt polyApproxUtil
  split <;> simp

theorem newNuAt_length (o : Opts K) (mu v r : List K) (el j : Nat) (hm : mu.length = o.nRelax)
    (hr : r.length = o.nRelax) : (newNuAt o mu v r el j).length = o.nRelax := by
  simp [newNuAt, nuAt_length, hm, hr]

theorem violation_eq (viol : List (List (List K))) (el j i : Nat) :
    violation viol el j i = (violAt viol el j)[i]? := by
  unfold violation violAt
  cases viol[el]?.bind (·[j]?) <;> simp

/-- The new multipliers are a first-order step. -/
theorem firstOrderStep (o : Opts K) (h : Discretised o) (nu : List (List K)) (mu : List K)
    (viol : List (List (List K))) (hm : mu.length = o.nRelax) (hv : Violations o viol) :
    FirstOrderStep o nu mu viol (newNu o mu nu viol) := by
  intro el he j hj i hi
  have hr := violAt_length o viol hv el j he hj
  have hi1 : i < (nuAt o (nu[el]?.getD []) el (o.timeNu el j)).length := by
    rw [nuAt_length]; exact hi
  refine ⟨_, mu[i], (violAt viol el j)[i], List.getElem?_eq_getElem hi1,
    List.getElem?_eq_getElem (by omega), ?_, ?_⟩
  · rw [violation_eq]; exact List.getElem?_eq_getElem (by omega)
  · unfold multiplier pointTime
    rw [nuAt_timeNu o h _ el j hj]
    simp only [List.getElem?_map, List.getElem?_range hi, Option.map_some]
    congr 1
    have hel : (newNu o mu nu viol)[el]?.getD [] = (List.range o.degree).flatMap fun j =>
        newNuAt o mu (nu[el]?.getD []) (violAt viol el j) el j := by
      simp [newNu, he]
    unfold entryOf
    rw [hel, getElem?_flatMap_blocks o.nRelax o.degree _ (fun j hj => newNuAt_length o _ _ _ _ _ hm
      (violAt_length o viol hv el j he hj)) i j hi hj]
    simp only [newNuAt, List.getElem?_zipWith, List.getElem?_eq_getElem hi1,
      List.getElem?_eq_getElem (show i < mu.length by omega),
      List.getElem?_eq_getElem (show i < (violAt viol el j).length by omega)]
    rfl

/-! ### Errors -/

theorem le_foldl_max [IsStrictOrderedRing K] (l : List K) (a : K) :
    a ≤ l.foldl (fun m v => max m |v|) a ∧ (∀ v ∈ l, |v| ≤ l.foldl (fun m v => max m |v|) a) ∧
      (l.foldl (fun m v => max m |v|) a = a ∨
        ∃ v ∈ l, |v| = l.foldl (fun m v => max m |v|) a) := by
  induction l generalizing a with
  | nil => simp
  | cons x l ih =>
    simp only [List.foldl_cons]
    obtain ⟨h1, h2, h3⟩ := ih (max a |x|)
    refine ⟨le_trans (le_max_left _ _) h1, ?_, ?_⟩
    · intro v hv
      rcases List.mem_cons.1 hv with rfl | hv
      · exact le_trans (le_max_right _ _) h1
      · exact h2 v hv
    · rcases h3 with h3 | ⟨v, hv, h3⟩
      · rcases le_total a |x| with h | h
        · right; exact ⟨x, by simp, by rw [h3, max_eq_right h]⟩
        · left; rw [h3, max_eq_left h]
      · right; exact ⟨v, by simp [hv], h3⟩

theorem rowErrors_getElem (o : Opts K) (viol : List (List (List K))) (i : Nat) (hi : i < o.nRelax) :
    (rowErrors o viol)[i]? = some (maxAbs (rowOf o viol i)) := by
  simp [rowErrors, hi]

theorem mem_rowOf (o : Opts K) (viol : List (List (List K))) (h : Violations o viol) (i : Nat)
    (hi : i < o.nRelax) (v : K) : v ∈ rowOf o viol i ↔
      ∃ el < o.elements, ∃ j < o.degree, violation viol el j i = some v := by
  unfold rowOf
  simp only [List.mem_flatMap, List.mem_range, List.mem_map]
  constructor
  · rintro ⟨el, he, j, hj, rfl⟩
    refine ⟨el, he, j, hj, ?_⟩
    have := violAt_length o viol h el j he hj
    rw [violation_eq, List.getElem?_eq_getElem (by omega)]; simp
  · rintro ⟨el, he, j, hj, hv⟩
    refine ⟨el, he, j, hj, ?_⟩
    rw [violation_eq] at hv
    rw [hv]; rfl

theorem largest (o : Opts K) [IsStrictOrderedRing K] (viol : List (List (List K)))
    (h : Violations o viol) (i : Nat) (hi : i < o.nRelax) :
    LargestViolation o viol i (maxAbs (rowOf o viol i)) := by
  obtain ⟨h1, h2, h3⟩ := le_foldl_max (rowOf o viol i) (0 : K)
  refine ⟨h1, ?_, ?_⟩
  · intro el he j hj r hr
    exact h2 r ((mem_rowOf o viol h i hi r).2 ⟨el, he, j, hj, hr⟩)
  · intro hne
    rcases h3 with h3 | ⟨v, hv, h3⟩
    · exact absurd h3 hne
    · obtain ⟨el, he, j, hj, hr⟩ := (mem_rowOf o viol h i hi v).1 hv
      exact ⟨el, he, j, hj, v, hr, h3⟩

/-! ### Running the updates -/

theorem computeNu_plain (o : Opts K) (viol : List (List (List K))) (s : St K)
    (hc : o.skipCompute = false) (hn : o.skipUpdateNu = false) (hi : o.onlyImprove = false) :
    computeNu o viol s =
      (.ok (rowErrors o viol), { s with nuTilde := some (newNu o s.mu s.nu viol) }) := by
  unfold computeNu storeNu
  simp only [hc, hn, hi, Bool.false_and, Bool.false_eq_true, if_false]
  rfl

/-- One constraint of the loop of `only_update_if_improve`, on the values alone. -/
def improveLast (e : (K × K) × Nat) (l : List K) : List K :=
  if e.1.1 - e.1.2 < 0 then l.set e.2 e.1.1 else l

def improveRow (t : List K) (e : (K × K) × Nat) (l : List K) : List K :=
  if e.1.1 - e.1.2 < 0 then l.set e.2 (t[e.2]?.getD 0) else l

def improveTilde (tilde : List (List K)) (e : (K × K) × Nat) (own : List (List K)) :
    List (List K) :=
  if e.1.1 - e.1.2 < 0 then List.zipWith (fun o n => o.set e.2 (n[e.2]?.getD 0)) own tilde else own

theorem improve_run (tilde : List (List K)) (l : List ((K × K) × Nat)) (s : St K)
    (own : List (List K)) (h : s.nuTilde = some own) :
    Py.forEach l (improveEntry tilde) s = (.ok (), { s with
      lastError := s.lastError.map fun L => l.foldl (fun L e => improveLast e L) L
      nuTilde := some (l.foldl (fun w e => improveTilde tilde e w) own) }) := by
  induction l generalizing s own with
  | nil =>
    cases s
    simp only at h
    subst h
    simp [Py.forEach]
  | cons e l ih =>
    simp only [Py.forEach, List.foldl_cons]
    by_cases hc : e.1.1 - e.1.2 < 0
    · have : improveEntry tilde e s = (.ok (), { s with
          lastError := s.lastError.map (·.set e.2 e.1.1)
          nuTilde := some (improveTilde tilde e own) }) := by
        simp [improveEntry, copyEntry, hc, h, improveTilde]
      refine (Py.bind_ok this).trans ((ih _ _ rfl).trans ?_)
      simp [improveLast, hc, Option.map_map, Function.comp_def]
    · have : improveEntry tilde e s = (.ok (), s) := by simp [improveEntry, hc]
      refine (Py.bind_ok this).trans ((ih _ _ h).trans ?_)
      simp [improveLast, improveTilde, hc]

theorem improveTilde_row (tilde : List (List K)) (l : List ((K × K) × Nat)) (own : List (List K))
    (el : Nat) (r t : List K) (hr : own[el]? = some r) (ht : tilde[el]? = some t) :
    (l.foldl (fun w e => improveTilde tilde e w) own)[el]? =
      some (l.foldl (fun w e => improveRow t e w) r) := by
  induction l generalizing own r with
  | nil => simpa using hr
  | cons e l ih =>
    simp only [List.foldl_cons]
    apply ih
    unfold improveTilde improveRow
    split
    · simp [List.getElem?_zipWith, hr, ht]
    · exact hr

theorem foldl_set_zipIdx {α β : Type} (l : List β) (a : Nat) (c : β → Bool) (f : β → Nat → α)
    (row : List α) (k : Nat) :
    ((l.zipIdx a).foldl (fun w e => if c e.1 then w.set e.2 (f e.1 e.2) else w) row)[k]? =
      match (if a ≤ k then l[k - a]? else none) with
      | some b => if c b then row[k]?.map fun _ => f b k else row[k]?
      | none => row[k]? := by
  induction l generalizing a row with
  | nil => simp
  | cons b l ih =>
    simp only [List.zipIdx_cons, List.foldl_cons]
    rw [ih (a + 1)]
    by_cases h1 : a + 1 ≤ k
    · have h2 : a ≤ k := by omega
      have h3 : k - a = (k - (a + 1)) + 1 := by omega
      have h4 : (if c b then row.set a (f b a) else row)[k]? = row[k]? := by
        split
        · rw [List.getElem?_set_ne (by omega)]
        · rfl
      rw [if_pos h1, if_pos h2, h3, List.getElem?_cons_succ, h4]
    · rw [if_neg h1]
      by_cases h2 : a ≤ k
      · have : k = a := by omega
        subst this
        simp only [le_refl, if_true, Nat.sub_self, List.getElem?_cons_zero]
        split
        · by_cases hk : k < row.length
          · simp [hk]
          · simp [hk]
        · rfl
      · rw [if_neg h2]
        simp only
        split
        · rw [List.getElem?_set_ne (by omega)]
        · rfl

theorem improveLast_getElem (e last : List K) (i : Nat) (x y : K) (hx : e[i]? = some x)
    (hy : last[i]? = some y) :
    ((e.zip last).zipIdx.foldl (fun L e => improveLast e L) last)[i]? =
      some (if x - y < 0 then x else y) := by
  have h := foldl_set_zipIdx (e.zip last) 0 (fun p => decide (p.1 - p.2 < 0)) (fun p _ => p.1) last i
  simp only [decide_eq_true_eq] at h
  unfold improveLast
  refine h.trans ?_
  have hz : (e.zip last)[i]? = some (x, y) := by
    simp [List.getElem?_zip_eq_some, hx, hy]
  simp only [Nat.zero_le, if_true, Nat.sub_zero, hz, hy]
  by_cases hc : x - y < 0 <;> simp [hc]

theorem improveRow_getElem (e last t row : List K) (k : Nat) :
    ((e.zip last).zipIdx.foldl (fun w e => improveRow t e w) row)[k]? =
      match (e.zip last)[k]? with
      | some b => if b.1 - b.2 < 0 then row[k]?.map fun _ => t[k]?.getD 0 else row[k]?
      | none => row[k]? := by
  have h := foldl_set_zipIdx (e.zip last) 0 (fun p => decide (p.1 - p.2 < 0))
    (fun _ k => t[k]?.getD 0) row k
  simp only [decide_eq_true_eq, Nat.zero_le, if_true, Nat.sub_zero] at h
  unfold improveRow
  refine h.trans ?_
  cases (e.zip last)[k]? <;> rfl

/-- The new multipliers are stored entry by entry when some error is positive. -/
theorem computeNu_improve (o : Opts K) (viol : List (List (List K))) (s : St K)
    (own : List (List K)) (last : List K)
    (hc : o.skipCompute = false) (hn : o.skipUpdateNu = false) (hi : o.onlyImprove = true)
    (ho : s.nuTilde = some own) (hl : s.lastError = some last)
    (hp : ∃ e ∈ rowErrors o viol, 0 < e) :
    computeNu o viol s = (.ok (rowErrors o viol), { s with
      lastError := some (((rowErrors o viol).zip last).zipIdx.foldl (fun L e => improveLast e L) last)
      nuTilde := some (((rowErrors o viol).zip last).zipIdx.foldl
        (fun w e => improveTilde (newNu o s.mu s.nu viol) e w) own) }) := by
  have hp' : (rowErrors o viol).any (fun e => decide (0 < e)) = true := by
    rw [List.any_eq_true]
    obtain ⟨e, he, h0⟩ := hp
    exact ⟨e, he, by simpa using h0⟩
  have hst : storeNu o (rowErrors o viol) (newNu o s.mu s.nu viol) s = (.ok (), { s with
      lastError := some (((rowErrors o viol).zip last).zipIdx.foldl (fun L e => improveLast e L) last)
      nuTilde := some (((rowErrors o viol).zip last).zipIdx.foldl
        (fun w e => improveTilde (newNu o s.mu s.nu viol) e w) own) }) := by
    unfold storeNu
    simp only [Py.bind_eq, Py.get_bind, hi, hp', hl, Bool.true_and]
    rw [improve_run _ _ s own ho, hl]
    rfl
  unfold computeNu
  simp only [hc, hn, Py.bind_eq, Py.get_bind, Bool.false_eq_true, if_false]
  rw [Py.bind_ok hst]
  rfl

/-- Once an error has been stored there are new multipliers, unless they are switched off. -/
def Ready (o : Opts K) (s : St K) : Prop :=
  s.lastError.isSome → s.nuTilde.isSome ∨ o.skipCompute = true ∨ o.skipUpdateNu = true

/-- Computing the multipliers returns and changes only the multipliers and the last errors. -/
theorem computeNu_ok (o : Opts K) (viol : List (List (List K))) (s : St K) (h : Ready o s) :
    ∃ e tilde last, computeNu o viol s = (.ok e, { s with nuTilde := tilde, lastError := last }) ∧
      (tilde.isSome ∨ o.skipCompute = true ∨ o.skipUpdateNu = true) := by
  by_cases hc : o.skipCompute = true
  · exact ⟨[0], s.nuTilde, s.lastError, by unfold computeNu; simp [hc], by simp [hc]⟩
  · by_cases hn : o.skipUpdateNu = true
    · exact ⟨rowErrors o viol, s.nuTilde, s.lastError, by unfold computeNu; simp [hc, hn], by simp [hn]⟩
    · have hc' : o.skipCompute = false := by simpa using hc
      have hn' : o.skipUpdateNu = false := by simpa using hn
      have key : ∃ tilde last, storeNu o (rowErrors o viol) (newNu o s.mu s.nu viol) s =
          (.ok (), { s with nuTilde := tilde, lastError := last }) ∧ tilde.isSome := by
        unfold storeNu
        simp only [Py.bind_eq, Py.get_bind]
        rcases hx : (o.onlyImprove && (rowErrors o viol).any fun e => decide (0 < e)) with _ | _
        · exact ⟨some _, s.lastError, rfl, rfl⟩
        · rcases hl : s.lastError with _ | last
          · exact ⟨some (newNu o s.mu s.nu viol), s.lastError, by rw [hl]; simp only [Py.modify_apply, hl], rfl⟩
          · have := h (by rw [hl]; rfl)
            simp only [hc', hn'] at this
            obtain ⟨own, ho⟩ := Option.isSome_iff_exists.1 (by simpa using this)
            simp only
            rw [improve_run _ _ s own ho]
            exact ⟨_, _, rfl, rfl⟩
      obtain ⟨tilde, last, hs, ht⟩ := key
      refine ⟨rowErrors o viol, tilde, last, ?_, .inl ht⟩
      unfold computeNu
      simp only [hc', hn', Py.bind_eq, Py.get_bind, Bool.false_eq_true, if_false]
      rw [Py.bind_ok hs]
      rfl

end Verif.AugLag
