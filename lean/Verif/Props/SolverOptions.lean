import Verif.Lemmas.SolverOptions
/-!
# C149: the options of the solver
-/
namespace Verif
open SolverOptions Spec
variable {V : Type}

/-- C149, proved part. A method made with a dictionary of options calls the solver with the options
given and the configured ones for all others, whatever else the program does in between, as long as it
does not write to the dictionary. -/
theorem C149_options_partial (w : World V) (r : DictRef) (hr : r < w.heap.length)
    (cs : List (Call V)) (hc : ∀ c ∈ cs, ¬ Writes r c) :
    ∃ d, SolvesWith (runAll w (.method (some r) :: cs ++ [.solve w.methods.length]))
        w.methods.length d ∧ IsGivenOrConfigured (w.dict r) (w.dict configDict) d := by
  refine ⟨withDefaults (w.dict r) (w.dict configDict), ?_, get?_withDefaults _ _⟩
  rw [runAll_append]
  exact holds_solve (holds_all cs (holds_new w (some r) hr) hc)

/-- C149 fails for methods made without a dictionary of options: they all have the same one, an option
set for one method is an option of all others. -/
theorem C149_shared_fails (w : World V) (h : 0 < w.heap.length) (k : String) (v : V) :
    ∃ d, SolvesWith (runAll w [.method none, .method none, .assign defaultArgument k v,
        .solve (w.methods.length + 1)]) (w.methods.length + 1) d ∧ d.get? k = some v := by
  have h1 := holds_new (Call.run w (.method none)) none
    (by simpa [Call.run, World.newMethod, defaultArgument] using h)
  obtain ⟨m, hm, ho, -⟩ := h1.method
  have hl : (Call.run w (.method none)).methods.length = w.methods.length + 1 := by
    simp [Call.run, World.newMethod]
  rw [hl] at hm
  generalize hw : Call.run (Call.run w (.method none)) (.method none) = w₂ at *
  have hlt : defaultArgument < w₂.heap.length := h1.lt
  have hd : (w₂.setItem defaultArgument k v).dict defaultArgument =
      (w₂.dict defaultArgument).set k v := by
    show World.dict ⟨w₂.heap.set _ _, _, _⟩ _ = _
    rw [dict_set _ _ _ _ _ _ hlt, if_pos rfl]
  have hn : m.solver = none := by
    rw [← hw] at hm
    have : (Call.run (Call.run w (.method none)) (.method none)).methods[w.methods.length + 1]? =
        some { opts := defaultArgument } := by
      simp [Call.run, World.newMethod]
    rw [this] at hm
    cases hm; rfl
  refine ⟨(w₂.dict defaultArgument).set k v, ?_, by rw [Dict.get?_set]; simp⟩
  have hrun : runAll w [.method none, .method none, .assign defaultArgument k v,
      .solve (w.methods.length + 1)] =
      Call.run (w₂.setItem defaultArgument k v) (.solve (w.methods.length + 1)) := by
    rw [← hw]; rfl
  rw [hrun]
  refine ⟨(w₂.setItem defaultArgument k v).solved m, ?_, ?_⟩
  · simp only [Call.run, List.getElem?_modify_eq]
    show Option.map _ w₂.methods[w.methods.length + 1]? = _
    rw [hm]; rfl
  · have ho' : m.opts = defaultArgument := ho
    simp only [World.solved, hn, solverOf, ho', hd]

/-- C149 fails after the first method with a dictionary (the same one for all methods made without
one): the configured options are written into it, so a later change of the configuration is ignored by
every other method made with it. -/
theorem C149_frozen_fails (w : World V) (given : Option DictRef)
    (hr : given.getD defaultArgument < w.heap.length) (hg : given.getD defaultArgument ≠ configDict)
    (k : String) (v v' : V) (hn : (w.dict (given.getD defaultArgument)).get? k = none)
    (hv : (w.dict configDict).get? k = some v) :
    ∃ d, SolvesWith (runAll w [.method given, .assign configDict k v', .method given,
        .solve (w.methods.length + 1)]) (w.methods.length + 1) d ∧ d.get? k = some v := by
  have h1 := holds_new w given hr
  have h2 := holds_run h1 (.assign configDict k v') (fun e => hg e.symm)
  have hl : (Call.run (Call.run w (.method given)) (.assign configDict k v')).methods.length =
      w.methods.length + 1 := by
    simp [Call.run, World.newMethod, World.setItem]
  have h3 := holds_new (Call.run (Call.run w (.method given)) (.assign configDict k v')) given h2.lt
  rw [hl] at h3
  have h4 := holds_solve h3
  refine ⟨_, h4, ?_⟩
  rw [get?_withDefaults, h2.dict, get?_withDefaults, hn, hv]
  rfl

/-- C149 fails: the dictionary given by the user is changed, it has every configured option
afterwards. -/
theorem C149_given_fails (w : World V) (r : DictRef) (hr : r < w.heap.length) (k : String) (v : V)
    (hn : (w.dict r).get? k = none) (hv : (w.dict configDict).get? k = some v) :
    ((Call.run w (.method (some r))).dict r).get? k = some v := by
  have h := (holds_new w (some r) hr).dict
  simp only [Option.getD_some] at h
  rw [h, get?_withDefaults, hn, hv]
  rfl

/-- C149 fails for an optimisation problem made without options: it has the configuration itself, so an
option set for it is an option of methods made later. -/
theorem C149_problem_fails (w : World V) (h : configDict < w.heap.length) (r : DictRef)
    (hr : r < w.heap.length) (hg : r ≠ configDict) (k : String) (v : V)
    (hn : (w.dict r).get? k = none) :
    ∃ q, (runAll w [.problem none]).problems[w.problems.length]? = some q ∧
      ∃ d, SolvesWith (runAll w [.problem none, .assign q.opts k v, .method (some r),
        .solve w.methods.length]) w.methods.length d ∧ d.get? k = some v := by
  refine ⟨{ opts := configDict }, by simp [runAll, Call.run, World.newProblem], ?_⟩
  have h1 : configDict < (Call.run w (.problem none)).heap.length := h
  obtain ⟨d1, l1⟩ := dict_run (Call.run w (.problem none)) (.assign configDict k v) r hr
    (fun e => hg e.symm)
  have h3 := holds_new (Call.run (Call.run w (.problem none)) (.assign configDict k v)) (some r) l1
  refine ⟨_, holds_solve h3, ?_⟩
  rw [get?_withDefaults]
  simp only [Option.getD_some]
  rw [d1]
  have hd : ((Call.run (Call.run w (.problem none)) (.assign configDict k v)).dict configDict) =
      (w.dict configDict).set k v := by
    show World.dict ⟨w.heap.set _ _, _, _⟩ _ = _
    rw [dict_set _ _ _ _ _ _ h, if_pos rfl]
    rfl
  rw [hd, Dict.get?_set]
  have : (Call.run w (.problem none)).dict r = w.dict r := rfl
  rw [this, hn]
  simp

/-- C149 for optimisation problems made by the user: with a dictionary that is not empty the solver is
called with exactly these options, whatever else the program does in between, as long as it does not write
to the dictionary. -/
theorem C149_own_problem (w : World V) (r : DictRef) (hr : r < w.heap.length) (hd : w.dict r ≠ [])
    (cs : List (Call V)) (hc : ∀ c ∈ cs, ¬ Writes r c) :
    ProblemSolvesWith (runAll w (.problem (some r) :: cs ++ [.solveProblem w.problems.length]))
      w.problems.length (w.dict r) := by
  rw [runAll_append]
  refine holdsProblem_solve (holdsProblem_all cs ?_ hc)
  exact ⟨hr, rfl, { opts := r }, by simp [Call.run, World.newProblem, hd], rfl, .inl rfl⟩

/-- C149: without options, or with an empty dictionary, the solver of an optimisation problem is called
with the configured options. -/
theorem C149_default_problem (w : World V) (hr : configDict < w.heap.length) (given : Option DictRef)
    (hg : ∀ r, given = some r → w.dict r = []) (cs : List (Call V))
    (hc : ∀ c ∈ cs, ¬ Writes configDict c) :
    ProblemSolvesWith (runAll w (.problem given :: cs ++ [.solveProblem w.problems.length]))
      w.problems.length (w.dict configDict) := by
  rw [runAll_append]
  refine holdsProblem_solve (holdsProblem_all cs ?_ hc)
  refine ⟨hr, rfl, { opts := configDict }, ?_, rfl, .inl rfl⟩
  cases given with
  | none => simp [Call.run, World.newProblem]
  | some r => simp [Call.run, World.newProblem, hg r rfl]

/-- C149 fails for optimisation problems too: options set after the first call of the solver are
ignored. -/
theorem C149_cached_problem_fails (w : World V) (i : Nat) (d : Dict String V)
    (h : ProblemSolvesWith w i d) (cs : List (Call V)) : ProblemSolvesWith (runAll w cs) i d := by
  induction cs generalizing w with
  | nil => exact h
  | cons c cs ih =>
    refine ih (c.run w) ?_
    obtain ⟨q, hq, hs⟩ := h
    cases c with
    | solveProblem j =>
      by_cases hj : j = i
      · subst hj
        exact ⟨w.solvedProblem q, by simp [Call.run, hq], by simp [World.solvedProblem, hs, solverOf]⟩
      · exact ⟨q, by simp [Call.run, hj, hq], hs⟩
    | problem given =>
      refine ⟨q, ?_, hs⟩
      show (w.problems ++ _)[i]? = _
      rw [List.getElem?_append_left (List.getElem?_eq_some_iff.mp hq).1, hq]
    | dictionary d => exact ⟨q, hq, hs⟩
    | assign r' k v => exact ⟨q, hq, hs⟩
    | method given => exact ⟨q, hq, hs⟩
    | solve j => exact ⟨q, hq, hs⟩

/-- C149: options set after the first call of the solver are ignored. -/
theorem C149_cached_fails (w : World V) (i : Nat) (d : Dict String V) (h : SolvesWith w i d)
    (cs : List (Call V)) : SolvesWith (runAll w cs) i d := by
  induction cs generalizing w with
  | nil => exact h
  | cons c cs ih =>
    refine ih (c.run w) ?_
    obtain ⟨m, hm, hs⟩ := h
    cases c with
    | solve j =>
      by_cases hj : j = i
      · subst hj
        exact ⟨w.solved m, by simp [Call.run, hm], by simp [World.solved, hs, solverOf]⟩
      · exact ⟨m, by simp [Call.run, hj, hm], hs⟩
    | method given =>
      refine ⟨m, ?_, hs⟩
      show (w.methods ++ _)[i]? = _
      rw [List.getElem?_append_left (List.getElem?_eq_some_iff.mp hm).1, hm]
    | dictionary d => exact ⟨m, hm, hs⟩
    | assign r' k v => exact ⟨m, hm, hs⟩
    | problem given => exact ⟨m, hm, hs⟩
    | solveProblem j => exact ⟨m, hm, hs⟩

/-! ## The hypotheses are met -/

/-- The start of a program with two configured options. -/
def Example.optionWorld : World Nat := World.start [("print", 0), ("max_iter", 1000)]

/-- The user's dictionary has the reference 2. -/
example : (runAll Example.optionWorld [.dictionary [("max_iter", 5)], .method (some 2),
    .method none, .assign 0 "print" 7, .solve 0, .solve 1]).methods.map (·.solver) =
    [some [("max_iter", 5), ("print", 0)], some [("print", 7), ("max_iter", 1000)]] := by
  decide +kernel

/-- Problems with own options, with an empty dictionary and without options. -/
example : (runAll Example.optionWorld [.dictionary [("max_iter", 5)], .dictionary [], .problem (some 2),
    .problem (some 3), .problem none, .solveProblem 0, .solveProblem 1, .solveProblem 2]).problems.map
      (·.solver) =
    [some [("max_iter", 5)], some [("print", 0), ("max_iter", 1000)],
      some [("print", 0), ("max_iter", 1000)]] := by
  decide +kernel

example : 2 < (runAll Example.optionWorld [.dictionary [("max_iter", 5)]]).heap.length ∧
    ∀ c ∈ [Call.method none, .assign 0 "print" 7], ¬ Writes 2 c := by
  refine ⟨by decide, ?_⟩
  simp [Writes, defaultArgument]

example : (Example.optionWorld.dict defaultArgument).get? "print" = none ∧
    (Example.optionWorld.dict configDict).get? "print" = some 0 := by decide +kernel

end Verif
