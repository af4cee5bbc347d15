import Verif.Spec.SolveAugLag
import Verif.Lemmas.RelaxDirect
import Verif.Lemmas.RelaxOptimal
/-! # A direct method can work with the relaxed problem -/
namespace Verif.RelaxDirect
open Spec SolveDirect
open Relax hiding newSyms

/-- The entries at the positions and the others are all entries. -/
theorem entries_perm {α : Type} (l : List α) (ind : List Nat) (h : Positions l ind) :
    (otherEntries l ind ++ entriesAt l ind).Perm l := by
  unfold otherEntries entriesAt
  rw [← List.filterMap_append]
  have h₁ : (((List.range l.length).filter fun i => decide (i ∉ ind)) ++ ind).Perm (List.range l.length) := by
    rw [List.perm_ext_iff_of_nodup]
    · intro i
      simp only [List.mem_append, List.mem_filter, List.mem_range, decide_eq_true_eq]
      constructor
      · rintro (h' | h')
        · exact h'.1
        · exact h.2 i h'
      · intro h'
        by_cases hi : i ∈ ind
        · exact .inr hi
        · exact .inl ⟨h', hi⟩
    · rw [List.nodup_append]
      refine ⟨List.nodup_range.filter _, h.1, ?_⟩
      intro i hi j hj hij
      simp only [List.mem_filter, decide_eq_true_eq] at hi
      exact hi.2 (hij ▸ hj)
    · exact List.nodup_range
  refine (h₁.filterMap _).trans (List.Perm.of_eq ?_)
  have := otherEntries_nil l
  unfold otherEntries at this
  simpa using this

theorem pairFits_zip {n : Nat} {lo hi : List XRat} :
    PairFits n lo hi ↔ lo.length = n ∧ hi.length = n ∧ ∀ q ∈ lo.zip hi, q.1 ≤ q.2 := by
  constructor
  · intro h
    refine ⟨h.lower, h.upper, ?_⟩
    rintro ⟨a, b⟩ hq
    obtain ⟨i, hi⟩ := List.getElem?_of_mem hq
    obtain ⟨h₁, h₂⟩ := List.getElem?_zip_eq_some.1 hi
    exact h.uncrossed i a b h₁ h₂
  · rintro ⟨h₁, h₂, h₃⟩
    refine ⟨h₁, h₂, fun i a b ha hb => ?_⟩
    exact h₃ (a, b) (List.mem_of_getElem? (List.getElem?_zip_eq_some.2 ⟨ha, hb⟩))

theorem pairFits_append {n m : Nat} {lo hi lo' hi' : List XRat} (h : PairFits n lo hi)
    (h' : PairFits m lo' hi') : PairFits (n + m) (lo ++ lo') (hi ++ hi') := by
  rw [pairFits_zip] at h h' ⊢
  obtain ⟨h₁, h₂, h₃⟩ := h
  obtain ⟨k₁, k₂, k₃⟩ := h'
  refine ⟨by simp [h₁, k₁], by simp [h₂, k₂], ?_⟩
  rw [List.zip_append (by rw [h₁, h₂])]
  intro q hq
  rcases List.mem_append.1 hq with hq | hq
  · exact h₃ q hq
  · exact k₃ q hq

theorem pairFits_entries {n : Nat} {lo hi : List XRat} {ind : List Nat} (h : PairFits n lo hi)
    (hi' : ∀ i ∈ ind, i < n) : PairFits ind.length (entriesAt lo ind) (entriesAt hi ind) := by
  rw [pairFits_zip] at h ⊢
  obtain ⟨h₁, h₂, h₃⟩ := h
  have l₁ : ∀ i ∈ ind, i < lo.length := fun i hm => h₁ ▸ hi' i hm
  have l₂ : ∀ i ∈ ind, i < hi.length := fun i hm => h₂ ▸ hi' i hm
  refine ⟨entriesAt_length _ _ l₁, entriesAt_length _ _ l₂, fun q hq => h₃ q ?_⟩
  rw [zip_entriesAt lo hi (h₁.trans h₂.symm) ind l₁] at hq
  exact mem_of_entriesAt hq

theorem pairFits_others {n : Nat} {lo hi : List XRat} {ind : List Nat} (h : PairFits n lo hi)
    (hn : ind.Nodup) (hi' : ∀ i ∈ ind, i < n) :
    PairFits (n - ind.length) (otherEntries lo ind) (otherEntries hi ind) := by
  rw [pairFits_zip] at h ⊢
  obtain ⟨h₁, h₂, h₃⟩ := h
  have l₁ : Positions lo ind := ⟨hn, fun i hm => h₁ ▸ hi' i hm⟩
  have l₂ : Positions hi ind := ⟨hn, fun i hm => h₂ ▸ hi' i hm⟩
  refine ⟨by rw [otherEntries_length _ _ l₁, h₁], by rw [otherEntries_length _ _ l₂, h₂], fun q hq => h₃ q ?_⟩
  rw [zip_otherEntries lo hi (h₁.trans h₂.symm) ind] at hq
  exact mem_of_otherEntries hq

theorem newSyms_nodup (base : Sym) (n : Nat) : (newSyms base n).Nodup := by
  unfold newSyms
  exact List.nodup_range.map fun a b h => Nat.add_left_cancel h

/-- The symbols of the relaxed problem: those of the user, the penalties and the values of the
multipliers. -/
theorem symbols_perm {roots : List Rat} {degree : Nat} {idx vidx : List Nat} {next : Sym} {o q : Ocp}
    (hc : Constructed roots degree idx vidx next o q) (hv : Positions o.model.y vidx) :
    (problemSymbols q).Perm (problemSymbols o ++ (newSyms (next + idx.length) idx.length ++
      newSyms (next + idx.length + idx.length) (idx.length * degree))) := by
  unfold problemSymbols
  rw [hc.untouched.clock.1, hc.untouched.clock.2, hc.relaxed.x, hc.relaxed.y, hc.relaxed.u, hc.p, hc.theta,
    hc.untouched.starts, hc.untouched.eta]
  generalize newSyms (next + idx.length) idx.length = mu
  generalize newSyms (next + idx.length + idx.length) (idx.length * degree) = nu
  have hy := entries_perm o.model.y vidx hv
  rw [List.perm_iff_count]
  intro s
  have hs := (List.perm_iff_count.1 hy) s
  simp only [List.count_append] at hs ⊢
  omega

/-- The symbols of the relaxed problem are different and lie below the symbols created later. -/
theorem symbols_relaxed {roots : List Rat} {degree : Nat} {idx vidx : List Nat} {next : Sym} {o q : Ocp}
    (hc : Constructed roots degree idx vidx next o q) (hv : Positions o.model.y vidx)
    (hn : (problemSymbols o).Nodup) (hb : ∀ s ∈ problemSymbols o, s < next) :
    (problemSymbols q).Nodup ∧ ∀ s ∈ problemSymbols q,
      s < next + idx.length + idx.length + idx.length * degree := by
  have hp := symbols_perm hc hv
  refine ⟨hp.nodup_iff.2 ?_, ?_⟩
  · rw [List.nodup_append, List.nodup_append]
    refine ⟨hn, ⟨newSyms_nodup _ _, newSyms_nodup _ _, ?_⟩, ?_⟩
    · intro s hs t ht hst
      have h₁ := (mem_newSyms hs).2
      have h₂ := (mem_newSyms ht).1
      rw [hst] at h₁
      exact absurd (Nat.lt_of_le_of_lt h₂ h₁) (Nat.lt_irrefl _)
    · intro s hs t ht hst
      have h₁ := hb s hs
      rw [hst] at h₁
      rcases List.mem_append.1 ht with ht | ht
      · have h₂ := (mem_newSyms ht).1
        exact absurd (Nat.lt_of_lt_of_le h₁ (Nat.le_trans (Nat.le_add_right _ _) h₂)) (Nat.lt_irrefl _)
      · have h₂ := (mem_newSyms ht).1
        exact absurd (Nat.lt_of_lt_of_le h₁ (Nat.le_trans (Nat.le_trans (Nat.le_add_right _ _)
          (Nat.le_add_right _ _)) h₂)) (Nat.lt_irrefl _)
  · intro s hs
    rcases List.mem_append.1 (hp.mem_iff.1 hs) with h | h
    · have := hb s h
      calc s < next := this
        _ ≤ next + idx.length + idx.length + idx.length * degree :=
          Nat.le_trans (Nat.le_add_right _ _) (Nat.le_trans (Nat.le_add_right _ _) (Nat.le_add_right _ _))
    · rcases List.mem_append.1 h with h | h
      · exact Nat.lt_of_lt_of_le (mem_newSyms h).2 (Nat.le_add_right _ _)
      · exact (mem_newSyms h).2

theorem dims_relaxed {roots : List Rat} {degree : Nat} {idx vidx : List Nat} {next : Sym} {o q : Ocp}
    (hc : Constructed roots degree idx vidx next o q) (h : Relaxable o idx vidx) (M : Mesh) :
    directDims q M = relaxedDims o M idx.length := by
  unfold directDims relaxedDims
  rw [hc.relaxed.x, hc.relaxed.y, hc.relaxed.u, hc.untouched.eta, hc.untouched.pOpt.1,
    hc.untouched.thetaOpt.1, otherEntries_length _ _ h.chosen, List.length_append,
    entriesAt_length _ _ h.chosen.2, h.same]

/-- A direct method can work with the relaxed problem. -/
theorem wellPosed {K : Type} [Field K] [LinearOrder K] {opts : Options} {names : NewNames} {next : Sym}
    {o q : Ocp} {a : Args} (h : RelaxDeclared K opts names next o a)
    (hc : Constructed opts.roots opts.roots.length (a.alg o) (a.algVar o) next o q) :
    WellPosed K opts names q := by
  obtain ⟨hnodup, hbelow⟩ := symbols_relaxed hc h.relaxable.chosen h.symbols h.below
  have hperm := symbols_perm hc h.relaxable.chosen
  have hR := hc.relaxed
  have hU := hc.untouched
  have hlen : (entriesAt o.model.y (a.algVar o)).length = (a.algVar o).length :=
    entriesAt_length _ _ h.relaxable.chosen.2
  have hnov : 0 < (a.algVar o).length := by
    rw [← h.relaxable.same]
    exact List.length_pos_iff.2 h.relaxable.nonempty
  have hP := h.problem
  have hsub : ∀ s : Sym, s ∈ o.model.y → s ∈ otherEntries o.model.y (a.algVar o) ∨
      s ∈ entriesAt o.model.y (a.algVar o) := fun s hs => (mem_entries_or_other hs).symm
  have hpath : ∀ s : Sym, s ∈ [o.model.t, o.model.tau] ++ o.model.x ++ o.model.y ++ o.model.u ++ o.model.p ++
      o.model.theta → s ∈ [q.model.t, q.model.tau] ++ q.model.x ++ q.model.y ++ q.model.u ++ q.model.p ++
      q.model.theta := by
    intro s hs
    rw [hU.clock.1, hU.clock.2, hR.x, hR.y, hR.u, hc.p, hc.theta]
    simp only [List.mem_append] at hs ⊢
    have := hsub s
    tauto
  refine ⟨⟨h.mesh, h.controlRoots, ?_, ?_, hnodup, ?_, ?_, ?_, ?_, ?_, h.initial⟩, ?_⟩
  · -- the form of the problem
    have hn' := hnodup
    unfold problemSymbols at hn'
    refine ⟨?_, ?_, ?_, ?_, ?_, ?_, ?_, ?_, ?_, ?_⟩
    · rw [hU.horizon.1, hU.horizon.2]; exact hP.horizon
    · unfold Complete at *
      have := hP.complete
      unfold Complete at this
      rw [hR.x, hR.ode]
      exact this
    · rw [hU.starts, hR.x]; exact hP.starts
    · simp only [List.nodup_append] at hn'
      tauto
    · intro s hs
      have h₁ : List.count s (problemSymbols q) ≤ 1 := List.nodup_iff_count_le_one.1 hnodup s
      have h₂ : 0 < List.count s q.model.u := List.count_pos_iff.2 hs
      unfold problemSymbols at h₁
      rw [← List.count_eq_zero]
      simp only [List.count_append] at h₁ ⊢
      omega
    · refine ⟨?_, ?_, ?_⟩
      · simp only [List.nodup_append] at hn'
        tauto
      · rw [hU.pOpt.1]; exact hP.parameters.2.1
      · intro s hs
        rw [hU.pOpt.1] at hs
        rw [hc.p]
        exact List.mem_append_left _ (hP.parameters.2.2 s hs)
    · refine ⟨?_, ?_, ?_⟩
      · simp only [List.nodup_append] at hn'
        tauto
      · rw [hU.thetaOpt.1]; exact hP.thetas.2.1
      · intro s hs
        rw [hU.thetaOpt.1] at hs
        rw [hc.theta]
        exact List.mem_append_left _ (hP.thetas.2.2 s hs)
    · rw [hR.timeGIneq, hR.timeGEq]; exact hP.tags
    · rw [hR.timeGIneq, hR.timeGEq, hR.gIneq, hR.gEq]; exact hP.tagged
    · intro hy
      rw [hR.y] at hy
      have h₁ := otherEntries_length _ _ h.relaxable.chosen
      have h₂ := otherEntries_length _ _ h.relaxable.equations
      rw [hy, ← h.relaxable.same, ← h.relaxable.square] at h₁
      rw [hR.alg]
      exact List.length_eq_zero_iff.1 (h₂.trans h₁.symm)
  · -- the symbols of the expressions
    refine ⟨?_, ?_, ?_, ?_, ?_⟩
    · intro e he s hs
      have hold : e ∈ alongPath o ∨ e = q.L := by
        unfold alongPath at he ⊢
        have ho : q.model.odeVec = o.model.odeVec := by unfold SysModel.odeVec; rw [hR.ode]
        rw [ho, hR.alg, hR.gIneq, hR.gEq, hR.S] at he
        simp only [List.mem_append, List.mem_cons, List.not_mem_nil, or_false] at he ⊢
        rcases he with (((he | he) | he) | he) | he | he
        · tauto
        · have := mem_of_otherEntries he
          tauto
        all_goals tauto
      rcases hold with he | rfl
      · exact hpath s (h.scope.path e he s hs)
      · rcases hc.costSyms s hs with h₁ | ⟨e, he, h₁⟩ | rfl | h₁ | h₁
        · exact hpath s (h.scope.path _ (by simp [alongPath]) s h₁)
        · refine hpath s (h.scope.path e ?_ s h₁)
          have := mem_of_entriesAt he
          simp [alongPath, this]
        · rw [hU.clock.2]; simp
        · rw [hc.p]; simp only [List.mem_append]; tauto
        · rw [hc.theta]; simp only [List.mem_append]; tauto
    · rw [hR.hInitial, hR.x, hU.starts]; exact h.scope.initial
    · intro e he s hs
      rw [hR.hFinal] at he
      have := h.scope.final e he s hs
      rw [hR.x, hU.eta, hc.p]
      simp only [List.mem_append] at this ⊢
      tauto
    · intro e he s hs
      rw [hR.h] at he
      have := h.scope.timeless e he s hs
      rw [hc.p]
      exact List.mem_append_left _ this
    · intro s hs
      rw [hR.V] at hs
      have := h.scope.cost s hs
      rw [hR.x, hc.p]
      simp only [List.mem_append] at this ⊢
      tauto
  · rw [hR.u, List.length_append, hlen]
    omega
  · -- bounds
    have hy := h.bounds.y
    refine ⟨?_, ?_, ?_, ?_, ?_⟩
    · rw [hR.x, hR.xMin, hR.xMax]; exact h.bounds.x
    · rw [hR.y, hR.yMin, hR.yMax, otherEntries_length _ _ h.relaxable.chosen]
      exact pairFits_others hy h.relaxable.chosen.1 h.relaxable.chosen.2
    · rw [hR.u, hR.uMin, hR.uMax, List.length_append, hlen]
      exact pairFits_append h.bounds.u (pairFits_entries hy h.relaxable.chosen.2)
    · rw [hU.pOpt.1, hU.pOpt.2.1, hU.pOpt.2.2]; exact h.bounds.pOpt
    · rw [hU.thetaOpt.1, hU.thetaOpt.2.1, hU.thetaOpt.2.2]; exact h.bounds.thetaOpt
  · -- limits
    have hf : PairFits (o.model.u.length + (a.algVar o).length)
        (o.duMin ++ List.replicate (a.algVar o).length ⊥) (o.duMax ++ List.replicate (a.algVar o).length ⊤) := by
      refine pairFits_append ⟨h.limits.min, h.limits.max, h.limits.uncrossed⟩ ?_
      refine ⟨by simp, by simp, fun i x y hx hy => ?_⟩
      rw [List.getElem?_replicate] at hx
      split at hx
      · cases hx; exact bot_le
      · cases hx
    have e₁ : q.duMin = o.duMin ++ List.replicate (a.algVar o).length ⊥ := by rw [hR.duMin, hlen]
    have e₂ : q.duMax = o.duMax ++ List.replicate (a.algVar o).length ⊤ := by rw [hR.duMax, hlen]
    have e₃ : q.model.u.length = o.model.u.length + (a.algVar o).length := by
      rw [hR.u, List.length_append, hlen]
    refine ⟨?_, ?_, ?_, ?_⟩
    · rw [e₁, e₃]; exact hf.lower
    · rw [e₂, e₃]; exact hf.upper
    · rw [e₁, e₂]; exact hf.uncrossed
    · intro u hu
      unfold lastOf at hu
      rw [hU.lastU, h.last.1] at hu
      cases hu
  · -- the symbols of the direct method are new
    have hl := h.later
    have l₁ := hl names.xc (by simp)
    have l₂ := hl names.fresh (by simp)
    refine ⟨?_, ?_, h.different, ?_⟩
    · intro hm
      exact absurd (Nat.lt_of_lt_of_le (hbelow _ hm) l₁) (Nat.lt_irrefl _)
    · intro hm
      exact absurd (Nat.lt_of_lt_of_le (hbelow _ hm) l₂) (Nat.lt_irrefl _)
    · intro s hs
      simp only [List.mem_cons] at hs
      rcases hs with rfl | rfl | hs
      · exact h.base.1
      · exact h.base.2
      · exact Nat.lt_trans (Nat.lt_of_lt_of_le (hbelow _ hs) l₁) h.base.1
  · rw [dims_relaxed hc h.relaxable]; exact h.newVars
  · -- no last control
    refine ⟨?_, ?_⟩
    · intro hask
      rw [h.last.2.2] at hask
      cases hask
    · right
      have hn := h.last.2.1
      constructor
      · intro x hx
        rw [hR.duMin] at hx
        rcases List.mem_append.1 hx with hx | hx
        · exact hn.1 x hx
        · exact List.eq_of_mem_replicate hx
      · intro x hx
        rw [hR.duMax] at hx
        rcases List.mem_append.1 hx with hx | hx
        · exact hn.2 x hx
        · exact List.eq_of_mem_replicate hx

end Verif.RelaxDirect
