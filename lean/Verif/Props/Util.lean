import Verif.Model.Util
import Verif.Spec.Vectors
import Verif.Lemmas.Vectors
import Mathlib.Algebra.Order.Field.Rat
import Mathlib.Tactic.Positivity
/-!
# Properties C01-C04, C07, C09 (`util/util.py`)
-/
namespace Verif

/-! ## C01: variable lookup is exact and ordered -/

/-- The result is, for each symbol of `var` in turn, the increasing list of its positions. -/
theorem C01_lookup_positions {α : Type*} [DecidableEq α] (var vector : List α) :
    findIndices var vector = var.flatMap fun v => Spec.positions v vector := by
  unfold findIndices Spec.positions
  congr 1
  funext v
  rw [zipIdx_filterMap_eq_range (fun a i => if a == v then some i else none) vector]
  have h : ∀ i : Nat, ((vector[i]?).bind fun a => if a == v then some i else none)
      = if vector[i]? = some v then some i else none := by
    intro i
    cases vector[i]? <;> simp
  simp only [h]
  rw [filterMap_if (fun i : Nat => vector[i]? = some v) some]
  simp

/-- An index is returned iff the vector holds a symbol of `var` there. -/
theorem C01_lookup_mem {α : Type*} [DecidableEq α] (var vector : List α) (i : Nat) :
    i ∈ findIndices var vector ↔ ∃ v ∈ var, vector[i]? = some v := mem_findIndices

/-- No index is repeated when the symbols looked up are pairwise distinct. -/
theorem C01_lookup_nodup {α : Type*} [DecidableEq α] (var vector : List α) (h : var.Nodup) :
    (findIndices var vector).Nodup := by
  rw [C01_lookup_positions, List.nodup_flatMap]
  refine ⟨fun v _ => List.Nodup.filter _ List.nodup_range, ?_⟩
  refine h.imp ?_
  intro a b hab
  simp only [Function.onFun, List.disjoint_left, Spec.positions, List.mem_filter, decide_eq_true_eq]
  rintro i ⟨_, h1⟩ ⟨_, h2⟩
  rw [h1] at h2
  exact hab (by simpa using h2)

/-- In a vector of distinct symbols, reading the vector at the returned indices gives back the
found symbols in the order of `var`. -/
theorem C01_lookup_roundtrip {α : Type*} [DecidableEq α] (var vector : List α) (h : vector.Nodup) :
    (findIndices var vector).map (fun i => vector[i]?)
      = (var.filter fun v => decide (v ∈ vector)).map some := by
  rw [C01_lookup_positions]
  have hpos : ∀ v, (Spec.positions v vector).map (fun i => vector[i]?)
      = if v ∈ vector then [some v] else [] := by
    intro v
    by_cases hv : v ∈ vector
    · obtain ⟨i, hi, hiv⟩ := List.mem_iff_getElem.1 hv
      have hp : Spec.positions v vector = [i] := by
        have hnd : (Spec.positions v vector).Nodup := List.Nodup.filter _ List.nodup_range
        have hmem : ∀ j, j ∈ Spec.positions v vector ↔ j = i := by
          intro j
          simp only [Spec.positions, List.mem_filter, List.mem_range, decide_eq_true_eq]
          constructor
          · rintro ⟨hj, hj'⟩
            have h1 : vector[j]? = vector[i]? := by rw [hj', ← hiv]; simp [hi]
            exact (List.getElem?_inj hj h).1 h1
          · rintro rfl
            exact ⟨hi, by simp [hi, hiv]⟩
        exact List.perm_singleton.1
          ((List.perm_ext_iff_of_nodup hnd (List.nodup_singleton i)).2 (by simpa using hmem))
      rw [hp]
      simp [hv, hi, hiv]
    · have hp : Spec.positions v vector = [] := by
        rw [List.eq_nil_iff_forall_not_mem]
        intro i hi
        simp only [Spec.positions, List.mem_filter, decide_eq_true_eq] at hi
        exact hv (List.mem_iff_getElem?.2 ⟨i, hi.2⟩)
      rw [hp]
      simp [hv]
  induction var with
  | nil => rfl
  | cons v vs ih =>
      rw [List.flatMap_cons, List.map_append, ih, hpos]
      by_cases hv : v ∈ vector <;> simp [hv]

/-- Non-vacuity: two symbols found in reverse order, one absent. -/
example : findIndices [7, 3, 9] [3, 5, 7, 8] = [2, 0] ∧ [3, 5, 7, 8].Nodup := by decide

/-! ## C02: removing variables -/

/-- `ValueError` is raised iff no symbol of `var` occurs. -/
theorem C02_remove_error_iff {α : Type*} [DecidableEq α] (var vector : List α) (e : Err) :
    removeVars var vector = .error e ↔ e = .valueError ∧ ∀ v ∈ var, v ∉ vector := by
  rw [removeVars_eq]
  by_cases h : ∃ v ∈ var, v ∈ vector
  · rw [if_pos h]
    obtain ⟨v, hv, hv'⟩ := h
    simp only [reduceCtorEq, false_iff, not_and, not_forall]
    intro _
    exact ⟨v, hv, fun hc => hc hv'⟩
  · rw [if_neg h]
    simp only [Except.error.injEq]
    constructor
    · intro he
      exact ⟨he.symm, fun v hv hv' => h ⟨v, hv, hv'⟩⟩
    · exact fun he => he.1.symm

/-- Otherwise exactly the symbols of `var` disappear and the order is kept. -/
theorem C02_remove_ok_iff {α : Type*} [DecidableEq α] (var vector r : List α) :
    removeVars var vector = .ok r ↔ (∃ v ∈ var, v ∈ vector) ∧ r = Spec.without var vector := by
  rw [removeVars_eq]
  by_cases h : ∃ v ∈ var, v ∈ vector
  · rw [if_pos h]
    simp only [Except.ok.injEq, h, true_and, Spec.without]
    exact eq_comm
  · rw [if_neg h]
    simp [h]

/-- Removing a non-empty block that was just appended gives the old vector back. -/
theorem C02_remove_appended {α : Type*} [DecidableEq α] (vector block : List α)
    (hne : block ≠ []) (hdisj : ∀ v ∈ block, v ∉ vector) :
    removeVars block (vector ++ block) = .ok vector := by
  rw [C02_remove_ok_iff]
  obtain ⟨b, hb⟩ := List.exists_mem_of_ne_nil _ hne
  refine ⟨⟨b, hb, by simp [hb]⟩, ?_⟩
  unfold Spec.without
  rw [List.filter_append]
  have h1 : vector.filter (fun a => decide (a ∉ block)) = vector := by
    rw [List.filter_eq_self]
    intro a ha
    simp only [decide_eq_true_eq]
    exact fun hc => hdisj a hc ha
  have h2 : block.filter (fun a => decide (a ∉ block)) = [] := by
    rw [List.filter_eq_nil_iff]
    intro a ha
    simp [ha]
  rw [h1, h2, List.append_nil]

example : removeVars [7, 3] [3, 5, 7, 8, 7] = .ok [5, 8] := by decide
example : removeVars [4] [3, 5] = .error .valueError := by decide
example : ([1, 2] : List Nat) ≠ [] ∧ ∀ v ∈ [1, 2], v ∉ [3, 4] := by decide

/-! ## C03: removing by indices -/

/-- Exact error condition of the code: some index exceeds the length or is below minus the
length. -/
theorem C03_error_iff {α : Type*} (js : List Int) (l : List α) (e : Err) :
    removeByIndices js l = .error e ↔
      e = .valueError ∧ ∃ j ∈ js, j > (l.length : Int) ∨ j < -(l.length : Int) := by
  rw [removeByIndices_eq]
  split
  · next h =>
    simp only [Except.error.injEq]
    exact ⟨fun he => ⟨he.symm, h⟩, fun he => he.1.symm⟩
  · next h => simp [h]

/-- Partial: for index lists without negative indices and without the index equal to the length,
the code does what the specification asks, both when refusing and when deleting. -/
theorem C03_remove_by_indices_partial {α : Type*} (js : List Int) (l : List α)
    (hjs : ∀ j ∈ js, 0 ≤ j ∧ j ≠ (l.length : Int)) :
    removeByIndices js l = match Spec.deleteAt js l with
      | some r => .ok r
      | none => .error .valueError := by
  rw [removeByIndices_eq, Spec.deleteAt]
  by_cases h : ∀ j ∈ js, Spec.addresses l.length j
  · rw [if_pos h, if_neg, keepUnlisted_eq_range]
    · congr 2
      apply List.filter_congr
      intro i hi
      have : (i : Int) - (l.length : Int) ∉ js := by
        intro hc
        have := (hjs _ hc).1
        rw [List.mem_range] at hi
        omega
      simp [Spec.addressedBy, this]
    · rintro ⟨j, hj, hj'⟩
      have := h j hj
      unfold Spec.addresses at this
      omega
  · rw [if_neg h, if_pos]
    simp only [not_forall] at h
    obtain ⟨j, hj, hj'⟩ := h
    refine ⟨j, hj, ?_⟩
    have := hjs j hj
    unfold Spec.addresses at hj'
    omega

/-- The full statement is false of the code: the index equal to the length is accepted silently. -/
theorem C03_boundary_fails :
    ¬ ∀ (js : List Int) (l : List Nat), removeByIndices js l = match Spec.deleteAt js l with
      | some r => .ok r
      | none => .error .valueError := by
  intro h
  have := h [2] [10, 20]
  revert this
  decide

/-- And a legal negative index is accepted without removing anything, for every vector. -/
theorem C03_negative_fails {α : Type*} (l : List α) (j : Nat) (h0 : 0 < j) (h : j ≤ l.length) :
    removeByIndices [-(j : Int)] l = .ok l ∧ Spec.addresses l.length (-(j : Int)) := by
  refine ⟨?_, by unfold Spec.addresses; omega⟩
  rw [removeByIndices_eq, if_neg]
  · rw [keepUnlisted_eq_range]
    have : ((List.range l.length).filter fun i : Nat => decide ((i : Int) ∉ [-(j : Int)]))
        = List.range l.length := by
      rw [List.filter_eq_self]
      intro i _
      simp only [List.mem_singleton, decide_eq_true_eq]
      omega
    rw [this]
    congr 1
    apply List.ext_getElem?
    intro n
    have h1 : (List.range l.length).filterMap (fun i => l[i]?) = l := by
      have := zipIdx_filterMap_eq_range (fun a _ => some a) l
      have h2 : ∀ o : Option α, (o.bind fun a => some a) = o := by intro o; cases o <;> rfl
      simp only [h2] at this
      rw [← this, List.filterMap_eq_map' (f := fun p : α × Nat => p.1)]
      simp
    rw [h1]
  · rintro ⟨j', hj', hc⟩
    simp only [List.mem_singleton] at hj'
    omega

example : removeByIndices [0, 2, 2] [10, 20, 30] = .ok [20] ∧
    ∀ j ∈ ([0, 2, 2] : List Int), 0 ≤ j ∧ j ≠ (([10, 20, 30] : List Nat).length : Int) := by decide

/-! ## C07: operator tests -/

/-- Specification: the operators a user means by an inequality. -/
def Spec.isInequalityOp : Op → Prop
  | .le => True
  | .lt => True
  | _ => False

theorem C07_equality (op : Op) : isEquality op = true ↔ op = .eq := by
  cases op <;> decide

/-- Partial: everything except strict inequalities is classified correctly. -/
theorem C07_inequality_partial (op : Op) (h : op ≠ .lt) :
    isInequality op = true ↔ Spec.isInequalityOp op := by
  cases op <;> simp_all [isInequality, Spec.isInequalityOp]

/-- `x < 1` is not recognised as an inequality. -/
theorem C07_strict_fails : ¬ ∀ op, isInequality op = true ↔ Spec.isInequalityOp op := by
  intro h
  have := (h .lt).2 trivial
  revert this
  decide

example : isInequality .le = true ∧ (Op.le ≠ .lt) := by decide

/-! ## C09: timer -/

/-- Calls on a timer; the number is the clock reading during the call. -/
inductive TimerCall
  | enter (now : Rat)
  | exit (now : Rat)

/-- Effect of a call on the timer (an `exit` without `enter` raises and changes nothing). -/
def timerStep : TimerCall → Timer Rat → Timer Rat
  | .enter now, t => t.enter now
  | .exit now, t => (Timer.exit now t).2

/-- Specification: the duration of the most recently finished block of a call history, scanning
from the left. `open_` is the start of the block currently open or last opened. -/
def Spec.lastBlock : Option Rat → Option Rat → List TimerCall → Option Rat
  | _, done, [] => done
  | _, done, .enter now :: cs => Spec.lastBlock (some now) done cs
  | none, done, .exit _ :: cs => Spec.lastBlock none done cs
  | some s, _, .exit now :: cs => Spec.lastBlock (some s) (some (now - s)) cs

/-- After any history of calls, `elapsed` is the duration of the most recently finished block, and
raises `ValueError` when there is none; milliseconds are a thousand times that. -/
theorem C09_elapsed (cs : List TimerCall) :
    (runHistory timerStep cs {}).readElapsed = (match Spec.lastBlock none none cs with
      | none => .error .valueError
      | some d => .ok d) ∧
    (runHistory timerStep cs {}).readMillis = (match Spec.lastBlock none none cs with
      | none => .error .valueError
      | some d => .ok (d * 1000)) := by
  have key : ∀ (cs : List TimerCall) (t : Timer Rat),
      (runHistory timerStep cs t).elapsed = Spec.lastBlock t.start t.elapsed cs := by
    intro cs
    induction cs with
    | nil => intro t; cases h : t.start <;> simp [runHistory, Spec.lastBlock]
    | cons c cs ih =>
        intro t
        obtain ⟨s, e⟩ := t
        cases c with
        | enter now =>
            simp only [runHistory, timerStep, Timer.enter, ih]
            cases s <;> simp [Spec.lastBlock]
        | exit now =>
            cases s <;> simp [runHistory, timerStep, Timer.exit, ih, Spec.lastBlock]
  have := key cs {}
  simp only at this
  unfold Timer.readElapsed Timer.readMillis
  rw [this]
  cases Spec.lastBlock none none cs <;> exact ⟨rfl, rfl⟩

/-- The end of a block that was never begun is an `AttributeError` and changes nothing; otherwise it
succeeds. -/
theorem C09_exit (now : Rat) (t : Timer Rat) :
    (t.start = none → Timer.exit now t = (.error .attributeError, t)) ∧
    (t.start ≠ none → (Timer.exit now t).1 = .ok ()) := by
  unfold Timer.exit
  cases h : t.start <;> simp

/-- Clock readings of a history. -/
def TimerCall.now : TimerCall → Rat
  | .enter n => n
  | .exit n => n

/-- With a monotone clock the reported duration is never negative. -/
theorem C09_elapsed_nonneg (cs : List TimerCall) (hmono : (cs.map TimerCall.now).Pairwise (· ≤ ·))
    (d : Rat) (h : (runHistory timerStep cs {}).readElapsed = .ok d) : 0 ≤ d := by
  have key : ∀ (cs : List TimerCall) (s done : Option Rat),
      (cs.map TimerCall.now).Pairwise (· ≤ ·) →
      (∀ s', s = some s' → ∀ c ∈ cs, s' ≤ c.now) → (∀ d, done = some d → 0 ≤ d) →
      ∀ d, Spec.lastBlock s done cs = some d → 0 ≤ d := by
    intro cs
    induction cs with
    | nil =>
        intro s done _ _ hd d h
        cases s <;> exact hd d (by simpa [Spec.lastBlock] using h)
    | cons c cs ih =>
        intro s done hp hs hd d h
        rw [List.map_cons, List.pairwise_cons] at hp
        cases c with
        | enter now =>
            have h' : Spec.lastBlock (some now) done cs = some d := by
              cases s <;> simpa [Spec.lastBlock] using h
            refine ih (some now) done hp.2 ?_ hd d h'
            intro s' hs' c hc
            cases hs'
            exact hp.1 _ (List.mem_map_of_mem hc)
        | exit now =>
            cases s with
            | none => exact ih none done hp.2 (by simp) hd d (by simpa [Spec.lastBlock] using h)
            | some s =>
                refine ih (some s) (some (now - s)) hp.2 ?_ ?_ d (by simpa [Spec.lastBlock] using h)
                · intro s' hs' c hc
                  exact hs s' hs' c (List.mem_cons_of_mem _ hc)
                · intro d' hd'
                  cases hd'
                  have := hs s rfl (.exit now) (by simp)
                  simp only [TimerCall.now] at this
                  linarith
  have h1 := (C09_elapsed cs).1
  rw [h] at h1
  cases h2 : Spec.lastBlock none none cs with
  | none => rw [h2] at h1; simp at h1
  | some d' =>
      rw [h2] at h1
      cases h1
      exact key cs none none hmono (by simp) (by simp) d h2

example : (runHistory timerStep [.enter 1, .exit 3, .enter 4] {}).readElapsed = .ok 2 := by
  norm_num [runHistory, timerStep, Timer.enter, Timer.exit, Timer.readElapsed]

end Verif
