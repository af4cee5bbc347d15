import Verif.Spec.SolverOptions
import Verif.Lemmas.Dict
import Mathlib.Data.List.Basic
/-!
# Lemmas about the options of the solver
-/
namespace Verif
open SolverOptions Spec
variable {V : Type}

namespace SolverOptions

theorem get?_addDefault (d : Dict String V) (kv : String × V) (k : String) :
    (addDefault d kv).get? k = (d.get? k).or (if k = kv.1 then some kv.2 else none) := by
  unfold addDefault
  by_cases h : d.has kv.1 = true
  · rw [if_pos h]
    by_cases hk : k = kv.1
    · rw [if_pos hk]
      cases hg : d.get? k with
      | some v => rfl
      | none =>
        rw [Dict.has_iff] at h
        exact absurd (hk ▸ h) ((Dict.get?_eq_none_iff d k).mp hg)
    · rw [if_neg hk, Option.or_none]
  · rw [if_neg h, Dict.get?_set]
    by_cases hk : k = kv.1
    · have hn : d.get? k = none := by
        rw [Dict.get?_eq_none_iff, ← Dict.has_iff, hk]
        exact h
      simp [hk ▸ hn, hk]
    · simp [hk]

theorem get?_withDefaults (d config : Dict String V) (k : String) :
    (withDefaults d config).get? k = (d.get? k).or (config.get? k) := by
  unfold withDefaults
  induction config generalizing d with
  | nil => simp [Dict.get?]
  | cons kv config ih =>
    rw [List.foldl_cons, ih, get?_addDefault]
    obtain ⟨k', v⟩ := kv
    by_cases h : k = k'
    · cases d.get? k <;> simp [Dict.get?, h]
    · cases d.get? k <;> simp [Dict.get?, h]

theorem dict_set (w : World V) (r r' : DictRef) (d : Dict String V) (ms : List (Method V))
    (ps : List (Problem V)) (h : r < w.heap.length) :
    World.dict ⟨w.heap.set r d, ms, ps⟩ r' = if r' = r then d else w.dict r' := by
  unfold World.dict
  by_cases hr : r' = r
  · subst hr
    simp [h]
  · rw [if_neg hr]
    simp [List.getElem?_set, Ne.symm hr]

theorem dict_set_ne (w : World V) (r r' : DictRef) (d : Dict String V) (ms : List (Method V))
    (ps : List (Problem V)) (h : r' ≠ r) :
    World.dict ⟨w.heap.set r d, ms, ps⟩ r' = w.dict r' := by
  unfold World.dict
  simp [List.getElem?_set, Ne.symm h]

theorem dict_run (w : World V) (c : Call V) (r : DictRef) (hr : r < w.heap.length)
    (hc : ¬ Writes r c) : (c.run w).dict r = w.dict r ∧ r < (c.run w).heap.length := by
  cases c with
  | dictionary d => exact ⟨by simp [Call.run, World.dict, List.getElem?_append_left hr], by
      simpa [Call.run] using Nat.lt_succ_of_lt hr⟩
  | assign r' k v =>
    exact ⟨dict_set_ne w r' r _ _ _ fun e => hc e.symm, by simpa [Call.run, World.setItem] using hr⟩
  | method given =>
    exact ⟨dict_set_ne w _ r _ _ _ fun e => hc e.symm, by simpa [Call.run, World.newMethod] using hr⟩
  | solve i => exact ⟨rfl, hr⟩
  | problem given => exact ⟨rfl, hr⟩
  | solveProblem i => exact ⟨rfl, hr⟩

/-- A method with its options, not solved yet or solved with these options. -/
structure Holds (r : DictRef) (i : Nat) (D : Dict String V) (w : World V) : Prop where
  lt : r < w.heap.length
  dict : w.dict r = D
  method : ∃ m, w.methods[i]? = some m ∧ m.opts = r ∧ (m.solver = none ∨ m.solver = some D)

theorem holds_run {r : DictRef} {i : Nat} {D : Dict String V} {w : World V} (h : Holds r i D w)
    (c : Call V) (hc : ¬ Writes r c) : Holds r i D (c.run w) := by
  obtain ⟨m, hm, ho, hs⟩ := h.method
  obtain ⟨h1, h2⟩ := dict_run w c r h.lt hc
  refine ⟨h2, h1.trans h.dict, ?_⟩
  cases c with
  | solve j =>
    by_cases hj : j = i
    · subst hj
      refine ⟨w.solved m, by simp [Call.run, hm], ho, .inr ?_⟩
      rcases hs with hs | hs
      · simp [World.solved, hs, solverOf, ho, h.dict]
      · simp [World.solved, hs, solverOf]
    · exact ⟨m, by simp [Call.run, hj, hm], ho, hs⟩
  | method given =>
    refine ⟨m, ?_, ho, hs⟩
    show (w.methods ++ _)[i]? = _
    rw [List.getElem?_append_left (List.getElem?_eq_some_iff.mp hm).1, hm]
  | dictionary d => exact ⟨m, hm, ho, hs⟩
  | assign r' k v => exact ⟨m, hm, ho, hs⟩
  | problem given => exact ⟨m, hm, ho, hs⟩
  | solveProblem j => exact ⟨m, hm, ho, hs⟩

theorem holds_all {r : DictRef} {i : Nat} {D : Dict String V} (cs : List (Call V)) {w : World V}
    (h : Holds r i D w) (hc : ∀ c ∈ cs, ¬ Writes r c) : Holds r i D (runAll w cs) := by
  induction cs generalizing w with
  | nil => exact h
  | cons c cs ih =>
    exact ih (holds_run h c (hc c (by simp))) fun c' hc' => hc c' (by simp [hc'])

theorem holds_solve {r : DictRef} {i : Nat} {D : Dict String V} {w : World V} (h : Holds r i D w) :
    SolvesWith (Call.run w (.solve i)) i D := by
  obtain ⟨m, hm, ho, hs⟩ := h.method
  refine ⟨w.solved m, by simp [Call.run, hm], ?_⟩
  rcases hs with hs | hs
  · simp [World.solved, hs, solverOf, ho, h.dict]
  · simp [World.solved, hs, solverOf]

theorem holds_new (w : World V) (given : Option DictRef)
    (hr : given.getD defaultArgument < w.heap.length) :
    Holds (given.getD defaultArgument) w.methods.length
      (withDefaults (w.dict (given.getD defaultArgument)) (w.dict configDict))
      (Call.run w (.method given)) := by
  refine ⟨by simpa [Call.run, World.newMethod] using hr, ?_, ⟨{ opts := _ }, ?_, rfl, .inl rfl⟩⟩
  · show World.dict ⟨w.heap.set _ _, _, _⟩ _ = _
    rw [dict_set _ _ _ _ _ _ hr, if_pos rfl]
  · show (w.methods ++ _)[w.methods.length]? = _
    cases given <;> simp

theorem runAll_append (w : World V) (a b : List (Call V)) :
    runAll w (a ++ b) = runAll (runAll w a) b := List.foldl_append ..

/-- An optimisation problem with its options, not solved yet or solved with these options. -/
structure HoldsProblem (r : DictRef) (i : Nat) (D : Dict String V) (w : World V) : Prop where
  lt : r < w.heap.length
  dict : w.dict r = D
  problem : ∃ q, w.problems[i]? = some q ∧ q.opts = r ∧ (q.solver = none ∨ q.solver = some D)

theorem holdsProblem_run {r : DictRef} {i : Nat} {D : Dict String V} {w : World V}
    (h : HoldsProblem r i D w) (c : Call V) (hc : ¬ Writes r c) : HoldsProblem r i D (c.run w) := by
  obtain ⟨q, hq, ho, hs⟩ := h.problem
  obtain ⟨h1, h2⟩ := dict_run w c r h.lt hc
  refine ⟨h2, h1.trans h.dict, ?_⟩
  cases c with
  | solveProblem j =>
    by_cases hj : j = i
    · subst hj
      refine ⟨w.solvedProblem q, by simp [Call.run, hq], ho, .inr ?_⟩
      rcases hs with hs | hs
      · simp [World.solvedProblem, hs, solverOf, ho, h.dict]
      · simp [World.solvedProblem, hs, solverOf]
    · exact ⟨q, by simp [Call.run, hj, hq], ho, hs⟩
  | problem given =>
    refine ⟨q, ?_, ho, hs⟩
    show (w.problems ++ _)[i]? = _
    rw [List.getElem?_append_left (List.getElem?_eq_some_iff.mp hq).1, hq]
  | dictionary d => exact ⟨q, hq, ho, hs⟩
  | assign r' k v => exact ⟨q, hq, ho, hs⟩
  | method given => exact ⟨q, hq, ho, hs⟩
  | solve j => exact ⟨q, hq, ho, hs⟩

theorem holdsProblem_all {r : DictRef} {i : Nat} {D : Dict String V} (cs : List (Call V)) {w : World V}
    (h : HoldsProblem r i D w) (hc : ∀ c ∈ cs, ¬ Writes r c) : HoldsProblem r i D (runAll w cs) := by
  induction cs generalizing w with
  | nil => exact h
  | cons c cs ih =>
    exact ih (holdsProblem_run h c (hc c (by simp))) fun c' hc' => hc c' (by simp [hc'])

theorem holdsProblem_solve {r : DictRef} {i : Nat} {D : Dict String V} {w : World V}
    (h : HoldsProblem r i D w) : ProblemSolvesWith (Call.run w (.solveProblem i)) i D := by
  obtain ⟨q, hq, ho, hs⟩ := h.problem
  refine ⟨w.solvedProblem q, by simp [Call.run, hq], ?_⟩
  rcases hs with hs | hs
  · simp [World.solvedProblem, hs, solverOf, ho, h.dict]
  · simp [World.solvedProblem, hs, solverOf]

end SolverOptions

end Verif
