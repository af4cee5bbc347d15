import Verif.Lemmas.NodeData
import Verif.Props.DistAL
/-!
# What a node is told about its neighbours (C147)
-/
namespace Verif
open Verif.Spec Verif.DistAL

namespace Example

/-- A result with two elements of two collocation points, and one control column in each. -/
def nodeResult : OptResult where
  finiteElements := 2
  degreeControl := 1
  tf := 1
  breakpoints := [0, 1 / 2, 1]
  xNames := []
  yNames := ["a", "b"]
  uNames := ["u"]
  thetaOptNames := []
  x := ⟨[], []⟩
  y := ⟨[[[1, 2], [3, 4]], [[5, 6], [7, 8]]], []⟩
  u := ⟨[[[9]], [[10]]], []⟩
  thetaOpt := []
  other := []

/-- A predecessor that was solved, coupled by the second of its algebraic variables. -/
def solvedPred : Neighbour where
  vars := [11]
  vector := [10, 11]
  kind := "y"
  block := 1
  last := some nodeResult

/-- It before it was solved. -/
def unsolvedPred : Neighbour where
  vars := [11]
  vector := [10, 11]
  kind := "y"
  block := 1
  guess := none

/-- A successor that was not solved yet, with a guess. -/
def guessedSucc : Neighbour where
  vars := [20]
  vector := [20]
  kind := "u"
  block := 0
  guess := some [7]

/-- The successor after it was solved. -/
def solvedSucc : Neighbour where
  vars := [20]
  vector := [20]
  kind := "u"
  block := 0
  last := some nodeResult
  guess := some [7]

theorem neighbours_coupled : ∀ n ∈ [solvedPred, guessedSucc], CoupledTo n := by
  intro n hn
  simp only [List.mem_cons, List.not_mem_nil, or_false] at hn
  rcases hn with rfl | rfl
  · exact ⟨Or.inl rfl, by decide, by decide, fun g hg => by cases hg⟩
  · exact ⟨Or.inr rfl, by decide, by decide, fun g hg => by cases hg; rfl⟩

theorem neighbours_report : ∀ n ∈ [solvedPred, guessedSucc], ReportsAt 2 2 n := by
  intro n hn
  simp only [List.mem_cons, List.not_mem_nil, or_false] at hn
  rcases hn with rfl | rfl
  · intro r hr; cases hr; decide +kernel
  · intro r hr; cases hr

end Example

/-- C147: if the results of all neighbours have as many points in each element as the method's degree,
then in each element the approximation of a coupled variable is, at each collocation point, the value
of the neighbour's last result, or its guess before there is a result, or zero. The vector has as many
entries as there are parameters. -/
theorem C147_told_partial (roots : List Rat) (degree elements : Nat) (ns : List Neighbour)
    (h : ∀ n ∈ ns, CoupledTo n) (hr : ∀ n ∈ ns, ReportsAt elements degree n)
    (hl : roots.length = degree) (hn : roots.Nodup) :
    ∃ theta, thetaData degree elements ns = .ok theta ∧ ∀ el < elements,
      (theta[el]?.getD []).length = parameterCount degree ns ∧
      ∀ (a k j : Nat) (n : Neighbour) (v : Sym), ns[a]? = some n → n.vars[k]? = some v → j < degree →
        approximation roots degree (ns.map Neighbour.slot) (theta[el]?.getD []) a k
          (roots[j]?.getD 0) = some (told n (n.vector.idxOf v) el j) := by
  obtain ⟨theta, h₁, h₂⟩ := thetaData_nodeTheta degree elements ns h hr
  obtain ⟨theta', h₃, h₄⟩ := thetaData_ok degree elements (fun _ => degree) ns h hr
  rw [h₁] at h₃
  cases h₃
  refine ⟨theta, h₁, fun el hel => ⟨?_, fun a k j n v ha hk hj => ?_⟩⟩
  · rw [h₄ el hel]
    simp [List.length_flatMap, known, parameterCount, List.sum_map_mul_right]
  · have := C71_layout_partial roots degree el (ns.map Neighbour.link) (fun l hl => by
      obtain ⟨n, hn, rfl⟩ := List.mem_map.1 hl
      exact ⟨(h n hn).distinct, (h n hn).found⟩) hl hn a k j n.link v (by simp [ha]) hk hj
    rw [← h₂ el hel] at this
    have hs : offset (ns.map Neighbour.slot) a = offset (ns.map Neighbour.link) a := by
      rw [slot_offset]
      simp [offset, ← List.map_take, List.map_map, Function.comp_def, Neighbour.slot]
    unfold approximation at this ⊢
    rw [hs, this]
    rfl

example : (thetaData 2 2 [Example.solvedPred, Example.guessedSucc]).toOption =
    some [[2, 4, 7, 7], [6, 8, 7, 7]] := by decide +kernel

example : ∃ theta, thetaData 2 2 [Example.solvedPred, Example.guessedSucc] = .ok theta ∧
    ∀ el < 2, (theta[el]?.getD []).length = 4 := by
  obtain ⟨theta, h₁, h₂⟩ := C147_told_partial [1 / 3, 1] 2 2 _ Example.neighbours_coupled
    Example.neighbours_report rfl (by decide +kernel)
  exact ⟨theta, h₁, fun el hel => (h₂ el hel).1⟩

/-- C147: fails if a neighbour's result has fewer points in each element: the control of a successor
has `degree_control` of them, everything after multiple shooting one. Then the vector is too short. -/
theorem C147_points_fails (degree elements : Nat) (pts : Neighbour → Nat) (ns : List Neighbour)
    (h : ∀ n ∈ ns, CoupledTo n) (hr : ∀ n ∈ ns, ReportsAt elements (pts n) n)
    (hle : ∀ n ∈ ns, pts n ≤ degree) (n : Neighbour) (hn : n ∈ ns) (hv : n.vars ≠ [])
    (hs : n.last.isSome) (hlt : pts n < degree) :
    ∃ theta, thetaData degree elements ns = .ok theta ∧ ∀ el < elements,
      (theta[el]?.getD []).length < parameterCount degree ns := by
  obtain ⟨theta, h₁, h₂⟩ := thetaData_ok degree elements pts ns h hr
  refine ⟨theta, h₁, fun el hel => ?_⟩
  rw [h₂ el hel]
  simp only [List.length_flatMap, List.length_map, List.length_range, parameterCount,
    ← List.sum_map_mul_right, List.map_const', List.sum_replicate, smul_eq_mul]
  apply List.sum_lt_sum
  · intro m hm
    apply Nat.mul_le_mul_left
    unfold known
    split
    · exact hle m hm
    · exact Nat.le_refl _
  · refine ⟨n, hn, ?_⟩
    apply Nat.mul_lt_mul_of_pos_left _ (List.length_pos_iff.2 hv)
    unfold known
    rw [if_pos hs]
    exact hlt

example : (thetaData 2 2 [Example.guessedSucc]).toOption = some [[7, 7], [7, 7]] ∧
    (thetaData 2 2 [Example.solvedSucc]).toOption = some [[9], [10]] := by decide +kernel

/-- C147: the block of a node is the first one that contains it, and `ValueError` is raised exactly if
there is none. -/
theorem C147_block {N : Type} [DecidableEq N] (blocks : List (Nat × List N)) (n : N) :
    (∀ b, blockNumber blocks n = .ok b ↔ ∃ (i : Nat) (nodes : List N),
      blocks[i]? = some (b, nodes) ∧ n ∈ nodes ∧
      ∀ i' < i, ∀ x : Nat × List N, blocks[i']? = some x → n ∉ x.2) ∧
    (blockNumber blocks n = .error .valueError ↔ ∀ x ∈ blocks, n ∉ x.2) := by
  refine ⟨fun b => blockNumber_ok blocks n b, fun h x hx hn => ?_, blockNumber_error blocks n⟩
  induction blocks with
  | nil => cases hx
  | cons y blocks ih =>
    obtain ⟨b, nodes⟩ := y
    rw [blockNumber] at h
    by_cases hm : n ∈ nodes
    · rw [if_pos hm] at h; cases h
    · rw [if_neg hm] at h
      rcases List.mem_cons.1 hx with rfl | hx
      · exact hm hn
      · exact ih h hx

example : (blockNumber [(0, [1, 2]), (3, [4, 5])] 5).toOption = some 3 := by decide

/-- C147: with different names and results at the method's points, the dual residual is the largest
change, since the last update, of the values told about the outputs of the predecessors in the own
block or a later one. -/
theorem C147_dual_partial (nm : Sym → String) (degree elements own : Nat) (ns : List Neighbour)
    (prev : Neighbour → Neighbour) (hd : 0 < degree) (he : 0 < elements)
    (h : ∀ n ∈ ns, CoupledTo n) (hr : ∀ n ∈ ns, ReportsAt elements degree n)
    (hp : ∀ n ∈ ns, Earlier n (prev n)) (hpr : ∀ n ∈ ns, ReportsAt elements degree (prev n))
    (hnm : DistinctNames nm ns) :
    ∃ new old s, exogenousData nm degree elements ns = .ok new ∧
      exogenousData nm degree elements (ns.map prev) = .ok old ∧
      dualOf own new (some old) = .ok s ∧ LargestChange degree elements own ns prev s := by
  have hpc : ∀ n ∈ ns.map prev, CoupledTo n := by
    intro m hm
    obtain ⟨n, hn, rfl⟩ := List.mem_map.1 hm
    have e := hp n hn
    have c := h n hn
    exact ⟨by rw [e.kind]; exact c.kind, by rw [e.vector]; exact c.distinct,
      by rw [e.vars, e.vector]; exact c.found, by rw [e.guess, e.vector]; exact c.guess⟩
  have hpr' : ∀ n ∈ ns.map prev, ReportsAt elements degree n := by
    intro m hm
    obtain ⟨n, hn, rfl⟩ := List.mem_map.1 hm
    exact hpr n hn
  have hkeys : ((ns.map prev).flatMap fun n => n.vars.map nm) = ns.flatMap fun n => n.vars.map nm := by
    rw [List.flatMap_map]
    apply List.flatMap_congr
    intro n hn
    rw [(hp n hn).vars]
  have hk₁ : ((entries nm degree elements (fun _ => degree) ns).map (·.1)).Nodup := by
    rw [entries_keys]; exact hnm
  have hk₂ : ((entries nm degree elements (fun _ => degree) (ns.map prev)).map (·.1)).Nodup := by
    rw [entries_keys, hkeys]; exact hnm
  have hx₁ := exogenousData_ok nm degree elements (fun _ => degree) ns h hr
  have hx₂ := exogenousData_ok nm degree elements (fun _ => degree) (ns.map prev) hpc hpr'
  rw [update_nil _ hk₁] at hx₁
  rw [update_nil _ hk₂] at hx₂
  -- the data of one variable
  have hone : ∀ n ∈ ns, ∀ v ∈ n.vars, ∃ p,
      Dict.get? (entries nm degree elements (fun _ => degree) (ns.map prev)) (nm v) = some p ∧
      p.2.flatten = grid elements degree (told (prev n) (n.vector.idxOf v)) := by
    intro n hn v hv
    refine ⟨_, get?_of_mem _ hk₂ (nm v) ((prev n).block,
      toldRows degree elements degree (prev n) ((prev n).vector.idxOf v)) ?_, ?_⟩
    · simp only [entries, List.mem_flatMap, List.mem_map]
      exact ⟨prev n, ⟨n, hn, rfl⟩, v, by rw [(hp n hn).vars]; exact hv, rfl⟩
    · simp only [toldRows_flatten, (hp n hn).vector, known, ite_self]
  let d : String × (Nat × List (List Rat)) → List Rat := fun kv =>
    List.zipWith (fun x y => x - y) kv.2.2.flatten
      (((Dict.get? (entries nm degree elements (fun _ => degree) (ns.map prev)) kv.1).map
        fun p => p.2.flatten).getD [])
  have hdn : ∀ n ∈ ns, ∀ v ∈ n.vars,
      d (nm v, (n.block, toldRows degree elements degree n (n.vector.idxOf v))) =
        grid elements degree fun el j =>
          told n (n.vector.idxOf v) el j - told (prev n) (n.vector.idxOf v) el j := by
    intro n hn v hv
    obtain ⟨p, hp₁, hp₂⟩ := hone n hn v hv
    simp only [d, hp₁, Option.map_some, Option.getD_some, hp₂, toldRows_flatten, known, ite_self]
    exact zipWith_grid ..
  have hmem : ∀ kv, kv ∈ entries nm degree elements (fun _ => degree) ns ↔ ∃ n ∈ ns, ∃ v ∈ n.vars,
      (nm v, (n.block, toldRows degree elements degree n (n.vector.idxOf v))) = kv := by
    intro kv
    simp only [entries, List.mem_flatMap, List.mem_map]
  obtain ⟨s, hs₁, -, hs₃, hs₄⟩ := fold_dual own
    (entries nm degree elements (fun _ => degree) (ns.map prev)) d
    (entries nm degree elements (fun _ => degree) ns) (fun kv hkv => by
      obtain ⟨n, hn, v, hv, rfl⟩ := (hmem kv).1 hkv
      obtain ⟨p, hp₁, hp₂⟩ := hone n hn v hv
      refine ⟨p, hp₁, ?_⟩
      rw [hdn n hn v hv]
      simp only [toldRows_flatten, known, ite_self, hp₂]
      rw [subColumns_eq (by simp [length_grid]), zipWith_grid]) ⊥
  have hne : ∀ f : Nat → Nat → Rat, grid elements degree f ≠ [] := by
    intro f hf
    have := length_grid elements degree f
    rw [hf] at this
    simp only [List.length_nil] at this
    have := Nat.mul_pos he hd
    omega
  refine ⟨_, _, s, hx₁, hx₂, hs₁, ?_, ?_⟩
  · rintro x ⟨n, hn, ho, v, hv, el, hel, j, hj, rfl⟩
    refine le_trans ?_ (hs₃ _ ((hmem _).2 ⟨n, hn, v, hv, rfl⟩) ho)
    rw [hdn n hn v hv]
    exact_mod_cast (maxAbs_attained _ (hne _)).1 _ ((mem_grid ..).2 ⟨el, hel, j, hj, rfl⟩)
  · rcases hs₄ with hs₄ | ⟨kv, hkv, ho, hs₄⟩
    · exact Or.inl hs₄
    · obtain ⟨n, hn, v, hv, rfl⟩ := (hmem kv).1 hkv
      rw [hdn n hn v hv] at hs₄
      obtain ⟨x, hx, hxe⟩ := (maxAbs_attained _ (hne fun el j =>
        told n (n.vector.idxOf v) el j - told (prev n) (n.vector.idxOf v) el j)).2
      obtain ⟨el, hel, j, hj, rfl⟩ := (mem_grid ..).1 hx
      exact Or.inr ⟨_, hs₄, n, hn, ho, v, hv, el, hel, j, hj, hxe.symm⟩

example : ∃ s, LargestChange 2 2 1 [Example.solvedPred] (fun _ => Example.unsolvedPred) s ∧
    s = ((8 : Rat) : WithBot Rat) := by
  obtain ⟨new, old, s, h₁, h₂, h₃, h₄⟩ := C147_dual_partial (fun _ => "b") 2 2 1
    [Example.solvedPred] (fun _ => Example.unsolvedPred) (by omega) (by omega)
    (fun n hn => Example.neighbours_coupled n (by simp at hn; simp [hn]))
    (fun n hn => Example.neighbours_report n (by simp at hn; simp [hn]))
    (fun n hn => by
      simp only [List.mem_cons, List.not_mem_nil, or_false] at hn
      subst hn
      exact ⟨rfl, rfl, rfl, rfl, rfl⟩)
    (fun n hn r hr => by cases hr) (by simp [DistinctNames, Example.solvedPred])
  refine ⟨s, h₄, ?_⟩
  have e₁ : exogenousData (fun _ => "b") 2 2 [Example.solvedPred] =
      .ok [("b", (1, [[2, 4], [6, 8]]))] := by rfl
  have e₂ : exogenousData (fun _ => "b") 2 2 [Example.unsolvedPred] =
      .ok [("b", (1, [[0, 0], [0, 0]]))] := by rfl
  rw [e₁] at h₁
  rw [List.map_cons, List.map_nil, e₂] at h₂
  cases h₁
  cases h₂
  have e₃ : (dualOf 1 [("b", (1, [[2, 4], [6, 8]]))] (some [("b", (1, [[0, 0], [0, 0]]))])).toOption =
      some ((8 : Rat) : WithBot Rat) := by decide +kernel
  rw [h₃] at e₃
  simpa [Except.toOption] using e₃

/-- C147: fails if two coupled variables have the same name: only the data of the last one are kept. -/
theorem C147_names_fails (nm : Sym → String) (degree elements : Nat) (before : List Neighbour)
    (n : Neighbour) (v : Sym) (h : ∀ m ∈ before ++ [n], CoupledTo m)
    (hr : ∀ m ∈ before ++ [n], ReportsAt elements degree m) (hv : n.vars = [v]) :
    ∃ data, exogenousData nm degree elements (before ++ [n]) = .ok data ∧
      data.get? (nm v) = some (n.block, (List.range elements).map fun el =>
        (List.range degree).map fun j => told n (n.vector.idxOf v) el j) := by
  refine ⟨_, exogenousData_ok nm degree elements (fun _ => degree) _ h hr, ?_⟩
  rw [Dict.get?_update]
  simp [entries, hv, List.filter_append, toldRows, known]

namespace Example

/-- Two predecessors with a coupled variable of the same name. The first one changes. -/
def sameName (first : OptResult) : List Neighbour :=
  [{ solvedPred with last := some first }, { solvedPred with vars := [13], vector := [12, 13] }]

/-- Another result. -/
def nodeResult' : OptResult := { nodeResult with
  y := ⟨[[[1, 12], [3, 14]], [[5, 16], [7, 18]]], []⟩ }

end Example

example : ((do
    let new ← exogenousData (fun _ => "y") 2 2 (Example.sameName Example.nodeResult')
    let old ← exogenousData (fun _ => "y") 2 2 (Example.sameName Example.nodeResult)
    dualOf 0 new (some old)) : Except Err (WithBot Rat)).toOption = some ((0 : Rat) : WithBot Rat) := by
  decide +kernel

example : ((do
    let new ← exogenousData (fun v => if v = 11 then "a" else "b") 2 2
      (Example.sameName Example.nodeResult')
    let old ← exogenousData (fun v => if v = 11 then "a" else "b") 2 2
      (Example.sameName Example.nodeResult)
    dualOf 0 new (some old)) : Except Err (WithBot Rat)).toOption =
      some ((10 : Rat) : WithBot Rat) := by
  decide +kernel

end Verif
