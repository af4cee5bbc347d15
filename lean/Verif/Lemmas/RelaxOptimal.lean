import Verif.Spec.RelaxOptimal
import Verif.Lemmas.Relax
import Mathlib.Algebra.Order.BigOperators.Group.Finset
import Mathlib.Algebra.Order.Field.Basic
import Mathlib.Tactic.Linarith
import Mathlib.Tactic.Ring
/-!
# Lemmas on the optimality of relaxed problems
-/
namespace Verif
open Spec Relax

theorem mem_entries_or_other {α : Type} {l : List α} {ind : List Nat} {a : α} (h : a ∈ l) :
    a ∈ entriesAt l ind ∨ a ∈ otherEntries l ind := by
  obtain ⟨i, hi, rfl⟩ := List.getElem_of_mem h
  by_cases hm : i ∈ ind
  · exact .inl (mem_entriesAt.2 ⟨i, hm, List.getElem?_eq_getElem hi⟩)
  · right
    simp only [otherEntries, List.mem_filterMap, List.mem_filter, List.mem_range, decide_eq_true_eq]
    exact ⟨i, ⟨hi, hm⟩, List.getElem?_eq_getElem hi⟩

theorem mem_of_entriesAt {α : Type} {l : List α} {ind : List Nat} {a : α} (h : a ∈ entriesAt l ind) :
    a ∈ l := by
  obtain ⟨i, -, hi⟩ := mem_entriesAt.1 h
  exact List.mem_of_getElem? hi

theorem mem_of_otherEntries {α : Type} {l : List α} {ind : List Nat} {a : α}
    (h : a ∈ otherEntries l ind) : a ∈ l := by
  simp only [otherEntries, List.mem_filterMap] at h
  obtain ⟨i, -, hi⟩ := h
  exact List.mem_of_getElem? hi

theorem filterMap_zip {α β : Type} (a : List α) (b : List β) (h : a.length = b.length) (is : List Nat)
    (hi : ∀ i ∈ is, i < a.length) :
    (is.filterMap fun i => a[i]?).zip (is.filterMap fun i => b[i]?) =
      is.filterMap fun i => (a.zip b)[i]? := by
  induction is with
  | nil => rfl
  | cons i is ih =>
    have h1 := hi i (by simp)
    have h2 : i < b.length := by omega
    have := ih fun j hj => hi j (by simp [hj])
    simp only [List.filterMap_cons, List.getElem?_eq_getElem h1, List.getElem?_eq_getElem h2,
      List.zip_cons_cons, this]
    rw [List.getElem?_eq_getElem (by simp; omega)]
    simp

theorem zip_entriesAt {α β : Type} (a : List α) (b : List β) (h : a.length = b.length) (is : List Nat)
    (hi : ∀ i ∈ is, i < a.length) :
    (entriesAt a is).zip (entriesAt b is) = entriesAt (a.zip b) is := filterMap_zip a b h is hi

theorem zip_otherEntries {α β : Type} (a : List α) (b : List β) (h : a.length = b.length)
    (is : List Nat) : (otherEntries a is).zip (otherEntries b is) = otherEntries (a.zip b) is := by
  unfold otherEntries
  rw [← h, List.length_zip, ← h, Nat.min_self]
  exact filterMap_zip a b h _ (by simp only [List.mem_filter, List.mem_range]; exact fun i hi => hi.1)

section
variable {K : Type} [Field K] [LinearOrder K] {n : Nat}

theorem allWithin_append {lo lo' hi hi' : List XRat} {vars vars' : List Sym} {val : Sym → K}
    (h₁ : lo.length = vars.length) (h₂ : hi.length = vars.length) :
    AllWithin (lo ++ lo') (hi ++ hi') (vars ++ vars') val ↔
      AllWithin lo hi vars val ∧ AllWithin lo' hi' vars' val := by
  unfold AllWithin
  rw [List.zip_append (by omega), List.zip_append (by simp; omega)]
  simp only [List.mem_append]
  constructor
  · exact fun h => ⟨fun p hp => h p (.inl hp), fun p hp => h p (.inr hp)⟩
  · rintro ⟨h, h'⟩ p (hp | hp)
    · exact h p hp
    · exact h' p hp

theorem allWithin_split {lo hi : List XRat} {vars : List Sym} {val : Sym → K} {is : List Nat}
    (h₁ : lo.length = vars.length) (h₂ : hi.length = vars.length) (hi' : ∀ i ∈ is, i < vars.length) :
    AllWithin lo hi vars val ↔
      AllWithin (entriesAt lo is) (entriesAt hi is) (entriesAt vars is) val ∧
      AllWithin (otherEntries lo is) (otherEntries hi is) (otherEntries vars is) val := by
  unfold AllWithin
  rw [zip_entriesAt lo hi (by omega) is (by rw [h₁]; exact hi'), zip_entriesAt vars _ (by simp; omega) is hi',
    zip_otherEntries lo hi (by omega), zip_otherEntries vars _ (by simp; omega)]
  constructor
  · exact fun h => ⟨fun p hp => h p (mem_of_entriesAt hp), fun p hp => h p (mem_of_otherEntries hp)⟩
  · rintro ⟨h, h'⟩ p hp
    rcases mem_entries_or_other (ind := is) hp with hp | hp
    · exact h p hp
    · exact h' p hp

theorem allWithin_free {vars : List Sym} {val : Sym → K} {a b : Nat} :
    AllWithin (List.replicate a ⊥) (List.replicate b ⊤) vars val := by
  intro p hp
  have h := (List.of_mem_zip hp).2
  have h1 := List.eq_of_mem_replicate (List.of_mem_zip h).1
  have h2 := List.eq_of_mem_replicate (List.of_mem_zip h).2
  rw [h1, h2]
  exact ⟨by simp, by simp, (by intro q hq; cases hq), (by intro q hq; cases hq)⟩

end

/-- What the constructor leaves of the problem before it relaxes bounds of states. -/
structure RelaxedParts (o : Ocp) (next : Sym) (s' : Relax) (idx vidx time : List Nat) (o₁ : Ocp) : Prop where
  relaxed : AlgebraicRelaxed o o₁ idx vidx
  same : s'.problem.model.x = o₁.model.x ∧ s'.problem.model.y = o₁.model.y ∧
    s'.problem.model.u = o₁.model.u ∧ s'.problem.model.ode = o₁.model.ode ∧
    s'.problem.model.alg = o₁.model.alg
  bounds : s'.problem.xMin = o₁.xMin ∧ s'.problem.xMax = o₁.xMax ∧ s'.problem.yMin = o₁.yMin ∧
    s'.problem.yMax = o₁.yMax ∧ s'.problem.uMin = o₁.uMin ∧ s'.problem.uMax = o₁.uMax ∧
    s'.problem.duMin = o₁.duMin ∧ s'.problem.duMax = o₁.duMax
  rest : s'.problem.gIneq = o₁.gIneq ∧ s'.problem.timeGIneq = o₁.timeGIneq ∧
    s'.problem.h = o₁.h ∧ s'.problem.hInitial = o₁.hInitial ∧ s'.problem.hFinal = o₁.hFinal ∧
    s'.problem.x0 = o₁.x0 ∧ s'.problem.V = o₁.V ∧ s'.problem.S = o₁.S
  gEq : s'.problem.gEq = otherEntries o.gEq time
  timeGEq : s'.problem.timeGEq = otherEntries o.timeGEq time
  relaxedAlg : s'.relaxedAlg = entriesAt o.model.alg idx
  relaxedEq : s'.relaxedEq = entriesAt o.gEq time
  vars : ∀ i ∈ vidx, i < o.model.y.length
  fresh : ∀ s ∈ s'.nuSym ++ s'.muSym, next ≤ s ∧ s < s'.next
  after : next ≤ s'.next
  guess : o.uGuess = none → (idx = [] ∨ o.yGuess = none) → s'.problem.uGuess = none

theorem otherEntries_nil {α : Type} (l : List α) : otherEntries l [] = l := by
  rw [otherEntries_eq]
  exact keepFrom _ 0 [] (by simp)

theorem algebraicRelaxed_refl (o : Ocp) : AlgebraicRelaxed o o [] [] := by
  constructor <;> simp [otherEntries_nil, entriesAt]

theorem relaxedParts {o : Ocp} {next : Sym} {mu0 : Rat} {a : Args} {s' : Relax}
    (h : RelaxableCall o a) (hr : relax mu0 a (start o next) = (.ok (), s')) :
    ∃ s₂ vidx o₁, RelaxedParts o next s₂ (a.alg o) vidx a.time o₁ ∧
      (if a.alg o = [] then [] else entriesAt o.model.y (a.algVar o)) = entriesAt o.model.y vidx ∧
      (a.stateBounds = false → s' = s₂) ∧
      (a.stateBounds = true → relaxStates mu0 s₂ = (.ok (), s')) := by
  have h₁ : ∃ s₁ vidx, ifEquations (a.alg o) (relaxAlgebraic mu0 (a.alg o) (a.algVar o))
      (start o next) = (.ok (), s₁) ∧ AlgebraicRelaxed o s₁.problem (a.alg o) vidx ∧
      (∀ i ∈ vidx, i < o.model.y.length) ∧ s₁.relaxedAlg = entriesAt o.model.alg (a.alg o) ∧
      s₁.relaxedEq = [] ∧ (∀ i ∈ a.time, i < s₁.problem.model.alg.length) ∧
      (∀ s ∈ s₁.nuSym ++ s₁.muSym, next ≤ s ∧ s < s₁.next) ∧ next ≤ s₁.next ∧
      (o.uGuess = none → (a.alg o = [] ∨ o.yGuess = none) → s₁.problem.uGuess = none) ∧
      (if a.alg o = [] then [] else entriesAt o.model.y (a.algVar o)) = entriesAt o.model.y vidx := by
    rcases h.algebraic with ha | ha
    · rw [ha]
      refine ⟨start o next, [], rfl, algebraicRelaxed_refl o, by simp,
        by simp [entriesAt, start], rfl, fun i hi => ?_, by simp [start], le_refl _, fun hu _ => hu, rfl⟩
      have := h.left i hi
      simp only [start]; omega
    · obtain ⟨s₁, hr, hs⟩ := relaxAlgebraic_run mu0 (a.alg o) (a.algVar o) (start o next) ha
      refine ⟨s₁, a.algVar o, ?_, hs.relaxed, ha.chosen.2, hs.relaxedAlg, hs.relaxedEq,
        fun i hi => ?_, ?_, ?_, fun hu hy => ?_, if_neg ha.nonempty⟩
      · rw [ifEquations_run ha.nonempty ha.equations.2]; exact hr
      · have hp : Positions (start o next).problem.model.alg (a.alg o) := ha.equations
        rw [hs.relaxed.alg, otherEntries_length _ _ hp]
        have := h.left i hi
        simp only [start]; omega
      · rw [hs.nuSym, hs.muSym, hs.next]
        intro s hm
        simp only [included, start, List.nil_append, List.mem_append, List.mem_map,
          List.mem_range] at hm ⊢
        rcases hm with ⟨i, hi, rfl⟩ | ⟨i, hi, rfl⟩
        · exact ⟨Nat.le_add_right _ _, lt_of_lt_of_le (Nat.add_lt_add_left hi _) (Nat.le_add_right _ _)⟩
        · exact ⟨le_trans (Nat.le_add_right _ _) (Nat.le_add_right _ _), Nat.add_lt_add_left hi _⟩
      · rw [hs.next]
        exact le_trans (Nat.le_add_right _ _) (Nat.le_add_right _ _)
      · rcases hy with hy | hy
        · exact absurd hy ha.nonempty
        · rw [hs.uGuess]
          simp only [start, hu, hy]
          rfl
  obtain ⟨s₁, vidx, h₁, hrel, hv, ea, ee, hl, hf, hnx, hgu, hfr⟩ := h₁
  have fin : ∀ s₂, (if a.stateBounds = true then relaxStates mu0 else Py.pure ()) s₂ = (.ok (), s') →
      (a.stateBounds = false → s' = s₂) ∧
      (a.stateBounds = true → relaxStates mu0 s₂ = (.ok (), s')) := by
    intro s₂ h₂
    constructor
    · intro hb
      rw [hb] at h₂
      exact (congrArg Prod.snd h₂).symm
    · intro hb
      rw [hb] at h₂
      exact h₂
  unfold relax at hr
  simp only [Py.bind_eq, Py.get_bind] at hr
  rw [show (start o next).problem = o from rfl, Py.bind_ok h₁] at hr
  by_cases hn : a.time = []
  · rw [hn, Py.bind_ok (ifEquations_nil ..)] at hr
    exact ⟨s₁, vidx, s₁.problem,
      ⟨hrel, by simp, by simp, by simp, by rw [hn, otherEntries_nil]; exact hrel.gEq,
      by rw [hn, otherEntries_nil]; exact hrel.timeGEq, ea, by rw [hn, ee]; rfl, hv, hf, hnx, hgu⟩,
      hfr, fin _ hr⟩
  · have h₂ := relaxTime_run mu0 a.time s₁ (by rw [hrel.gEq]; exact h.time)
      (by rw [hrel.gEq, hrel.timeGEq]; exact h.tags)
    have h₃ : ifEquations a.time (relaxTimeEqualities mu0 a.time) s₁ =
        (.ok (), afterTime mu0 a.time s₁) := by rw [ifEquations_run hn hl]; exact h₂
    rw [Py.bind_ok h₃] at hr
    refine ⟨afterTime mu0 a.time s₁, vidx, s₁.problem,
      ⟨hrel, ?_, ?_, ?_, ?_, ?_, ?_, ?_, hv, ?_, ?_, ?_⟩, hfr, fin _ hr⟩
    · simp [afterTime, included]
    · simp [afterTime, included]
    · simp [afterTime, included]
    · simp only [afterTime]; rw [hrel.gEq]
    · simp only [afterTime]; rw [hrel.timeGEq]
    · simp only [afterTime, included]; exact ea
    · simp only [afterTime, included]; rw [ee, hrel.gEq, List.nil_append]
    · intro s hm
      have hge : s₁.next ≤ (afterTime mu0 a.time s₁).next :=
        le_trans (Nat.le_add_right _ _) (Nat.le_add_right _ _)
      simp only [afterTime, included, List.mem_append, List.mem_map, List.mem_range] at hm
      rcases hm with (hm | ⟨i, hi, rfl⟩) | (hm | ⟨i, hi, rfl⟩)
      · have := hf s (List.mem_append_left _ hm)
        exact ⟨this.1, lt_of_lt_of_le this.2 hge⟩
      · exact ⟨le_trans hnx (Nat.le_add_right _ _),
          lt_of_lt_of_le (Nat.add_lt_add_left hi _) (Nat.le_add_right _ _)⟩
      · have := hf s (List.mem_append_right _ hm)
        exact ⟨this.1, lt_of_lt_of_le this.2 hge⟩
      · exact ⟨le_trans hnx (le_trans (Nat.le_add_right _ _) (Nat.le_add_right _ _)),
          Nat.add_lt_add_left hi _⟩
    · exact le_trans hnx (le_trans (Nat.le_add_right _ _) (Nat.le_add_right _ _))
    · exact hgu

/-! ### Bounds of states -/

theorem stateAt_ok {mu0 : Rat} {i : Nat} {s s' : Relax} (h : relaxStateAt mu0 i s = (.ok (), s')) :
    s' = s ∨ ∃ x lo hi, s' = afterState mu0 i x lo hi s := by
  unfold relaxStateAt at h
  simp only [Py.bind_eq, Py.get_bind, Py.lift_bind_ok] at h
  obtain ⟨hi, -, lo, -, x, -, h⟩ := h
  split at h
  · cases hg : s.problem.uGuess with
    | none =>
      rw [relaxState_run _ _ _ _ _ _ hg] at h
      simp only [Prod.mk.injEq, true_and] at h
      exact .inr ⟨x, lo, hi, h.symm⟩
    | some g =>
      have := relaxState_guess mu0 i x lo hi s g hg
      rw [h] at this
      simp at this
  · simp only [Py.pure_apply, Prod.mk.injEq, true_and] at h
    exact .inl h.symm

/-- What relaxing bounds of states does not touch, and that the new symbols are new. -/
structure StatesRest (s s' : Relax) : Prop where
  rest : s'.problem.gIneq = s.problem.gIneq ∧ s'.problem.timeGIneq = s.problem.timeGIneq ∧
    s'.problem.h = s.problem.h ∧ s'.problem.hInitial = s.problem.hInitial ∧
    s'.problem.hFinal = s.problem.hFinal ∧ s'.problem.x0 = s.problem.x0 ∧
    s'.problem.V = s.problem.V ∧ s'.problem.S = s.problem.S ∧
    s'.problem.yMin = s.problem.yMin ∧ s'.problem.yMax = s.problem.yMax
  duMin : ∃ a, s'.problem.duMin = s.problem.duMin ++ List.replicate a ⊥
  duMax : ∃ a, s'.problem.duMax = s.problem.duMax ++ List.replicate a ⊤
  next : s.next ≤ s'.next
  par : ∀ v ∈ s'.nuSym ++ s'.muSym, v < s'.next ∧ (v ∈ s.nuSym ++ s.muSym ∨ s.next ≤ v)
  copies : ∀ c ∈ s'.problem.model.u, c ∈ s.problem.model.u ∨
    (s.next ≤ c ∧ c < s'.next ∧ c ∉ s'.nuSym ++ s'.muSym)

theorem statesRest_refl {s : Relax} (h : ∀ v ∈ s.nuSym ++ s.muSym, v < s.next) : StatesRest s s :=
  ⟨by simp, ⟨0, by simp⟩, ⟨0, by simp⟩, le_refl _, fun v hv => ⟨h v hv, .inl hv⟩, fun _ hc => .inl hc⟩

theorem statesRest_step {mu0 : Rat} {i : Nat} {x : Sym} {lo hi : XRat} {s : Relax}
    (h : ∀ v ∈ s.nuSym ++ s.muSym, v < s.next) : StatesRest s (afterState mu0 i x lo hi s) := by
  have l1 : s.next < s.next + 1 := Nat.lt_succ_self _
  have l2 : s.next + 1 < s.next + 2 := Nat.lt_succ_self _
  have l3 : s.next + 2 < s.next + 3 := Nat.lt_succ_self _
  refine ⟨by simp [afterState], ⟨1, rfl⟩, ⟨1, rfl⟩, (l1.trans (l2.trans l3)).le, ?_, ?_⟩
  · intro v hv
    simp only [afterState, List.mem_append, List.mem_singleton] at hv ⊢
    rcases hv with (hv | rfl) | (hv | rfl)
    · exact ⟨(h v (List.mem_append_left _ hv)).trans (l1.trans (l2.trans l3)), .inl (.inl hv)⟩
    · exact ⟨l2.trans l3, .inr l1.le⟩
    · exact ⟨(h v (List.mem_append_right _ hv)).trans (l1.trans (l2.trans l3)), .inl (.inr hv)⟩
    · exact ⟨l3, .inr (l1.trans l2).le⟩
  · intro c hc
    simp only [afterState, List.mem_append, List.mem_singleton] at hc ⊢
    rcases hc with hc | rfl
    · exact .inl hc
    · refine .inr ⟨le_refl _, l1.trans (l2.trans l3), ?_⟩
      rintro ((hv | hv) | (hv | hv))
      · exact absurd (h _ (List.mem_append_left _ hv)) (lt_irrefl _)
      · exact absurd hv l1.ne
      · exact absurd (h _ (List.mem_append_right _ hv)) (lt_irrefl _)
      · exact absurd hv (l1.trans l2).ne

theorem statesRest_trans {s₁ s₂ s₃ : Relax} (h : StatesRest s₁ s₂) (h' : StatesRest s₂ s₃) :
    StatesRest s₁ s₃ := by
  obtain ⟨⟨r1, r2, r3, r4, r5, r6, r7, r8, r9, r10⟩, ⟨a, ha⟩, ⟨b, hb⟩, hn, hp, hc⟩ := h
  obtain ⟨⟨q1, q2, q3, q4, q5, q6, q7, q8, q9, q10⟩, ⟨a', ha'⟩, ⟨b', hb'⟩, hn', hp', hc'⟩ := h'
  refine ⟨⟨q1.trans r1, q2.trans r2, q3.trans r3, q4.trans r4, q5.trans r5, q6.trans r6, q7.trans r7,
    q8.trans r8, q9.trans r9, q10.trans r10⟩, ⟨a + a', ?_⟩, ⟨b + b', ?_⟩, hn.trans hn', ?_, ?_⟩
  · rw [ha', ha, List.append_assoc, List.replicate_append_replicate]
  · rw [hb', hb, List.append_assoc, List.replicate_append_replicate]
  · intro v hv
    obtain ⟨l, hv' | hv'⟩ := hp' v hv
    · exact ⟨l, (hp v hv').2⟩
    · exact ⟨l, .inr (hn.trans hv')⟩
  · intro c hcm
    rcases hc' c hcm with hcm | ⟨l1, l2, l3⟩
    · rcases hc c hcm with hcm | ⟨l1, l2, l3⟩
      · exact .inl hcm
      · refine .inr ⟨l1, l2.trans_le hn', fun hv => ?_⟩
        rcases (hp' c hv).2 with hv | hv
        · exact l3 hv
        · exact absurd l2 (not_lt.2 hv)
    · exact .inr ⟨hn.trans l1, l2, l3⟩

theorem statesRest_loop {mu0 : Rat} (is : List Nat) {s s' : Relax}
    (h : Py.forEach is (relaxStateAt mu0) s = (.ok (), s'))
    (hp : ∀ v ∈ s.nuSym ++ s.muSym, v < s.next) : StatesRest s s' := by
  induction is generalizing s with
  | nil =>
    simp only [Py.forEach, Py.pure_apply, Prod.mk.injEq, true_and] at h
    exact h ▸ statesRest_refl hp
  | cons i is ih =>
    unfold Py.forEach at h
    obtain ⟨_, s₁, h₁, h₂⟩ := Py.bind_eq_ok.mp h
    have hs : StatesRest s s₁ := by
      rcases stateAt_ok h₁ with rfl | ⟨x, lo, hi, rfl⟩
      · exact statesRest_refl hp
      · exact statesRest_step hp
    exact statesRest_trans hs (ih h₂ fun v hv => (hs.par v hv).1)

/-- What the constructor leaves of the problem. `copies` are the copies of the states `bs`. -/
structure BoundsRelaxed (s s' : Relax) (copies : List Sym) (bs : List Nat) : Prop where
  rest : StatesRest s s'
  bounded : ∀ i, i < s.problem.model.x.length → i ∉ bs →
    s.problem.xMax[i]? = some ⊤ ∧ s.problem.xMin[i]? = some ⊥
  within : ∀ i ∈ bs, i < s.problem.model.x.length
  length : copies.length = bs.length
  fresh : ∀ c ∈ copies, s.next ≤ c
  nodup : copies.Nodup
  u : s'.problem.model.u = s.problem.model.u ++ copies
  uMin : s'.problem.uMin = s.problem.uMin ++ entriesAt s.problem.xMin bs
  uMax : s'.problem.uMax = s.problem.uMax ++ entriesAt s.problem.xMax bs
  free : s'.problem.xMin = List.replicate s.problem.model.x.length ⊥ ∧
    s'.problem.xMax = List.replicate s.problem.model.x.length ⊤
  relaxedAlg : s'.relaxedAlg = s.relaxedAlg ++ copyEquations s.problem copies bs
  relaxedEq : s'.relaxedEq = s.relaxedEq
  same : s'.problem.model.x = s.problem.model.x ∧ s'.problem.model.y = s.problem.model.y ∧
    s'.problem.model.alg = s.problem.model.alg ∧ s'.problem.model.ode = s.problem.model.ode ∧
    s'.problem.gEq = s.problem.gEq ∧ s'.problem.timeGEq = s.problem.timeGEq

theorem all_replicate {l : List XRat} {n : Nat} {v : XRat} (hl : l.length = n)
    (h : ∀ i : Nat, l[i]? = if i ∈ List.range n then some v else none) : l = List.replicate n v := by
  apply List.ext_getElem?
  intro i
  rw [h i, List.getElem?_replicate]
  simp

theorem boundsRelaxed_run {mu0 : Rat} {s s' : Relax} (hr : relaxStates mu0 s = (.ok (), s'))
    (hp : ∀ v ∈ s.nuSym ++ s.muSym, v < s.next) (hg : s.problem.uGuess = none)
    (hmin : s.problem.xMin.length = s.problem.model.x.length)
    (hmax : s.problem.xMax.length = s.problem.model.x.length) :
    ∃ copies, BoundsRelaxed s s' copies (boundedStates s.problem) := by
  unfold relaxStates at hr
  simp only [Py.bind_eq, Py.get_bind] at hr
  obtain ⟨s'', hr', h⟩ := relaxStates_loop mu0 (List.range s.problem.model.x.length) s
    List.nodup_range hg (by simp) hmin hmax
  have e : s'' = s' := by
    rw [hr'] at hr
    exact congrArg Prod.snd hr
  subst e
  obtain ⟨copies, c₁, c₂, c₃, -, c₅, c₆, -⟩ := h.added
  refine ⟨copies, statesRest_loop _ hr' hp, ?_, ?_, c₁, c₂, c₃, c₅, h.uMin, h.uMax, ⟨?_, ?_⟩,
    c₆, h.relaxedEq, h.x, h.y, h.alg, h.ode, h.gEq, h.timeGEq⟩
  · intro i hi hb
    simp only [boundedStates, List.mem_filter, List.mem_range, hi, true_and, BoundedState] at hb
    simpa using hb
  · intro i hi
    simp only [boundedStates, List.mem_filter, List.mem_range] at hi
    exact hi.1
  · refine all_replicate (h.lengthMin.trans hmin) fun i => ?_
    rw [h.xMin i]
    split
    · rfl
    · rename_i hi
      rw [List.mem_range] at hi
      exact List.getElem?_eq_none (by omega)
  · refine all_replicate (h.lengthMax.trans hmax) fun i => ?_
    rw [h.xMax i]
    split
    · rfl
    · rename_i hi
      rw [List.mem_range] at hi
      exact List.getElem?_eq_none (by omega)

section
variable {K : Type} [Field K] [LinearOrder K] {n : Nat}

/-- The constraints of the original problem are those of the relaxed one and the relaxed equations. -/
theorem feasible_iff {o : Ocp} {next : Sym} {s' : Relax} {idx vidx time : List Nat} {o₁ : Ocp}
    (hs : Sized o) (htag : o.timeGEq.length = o.gEq.length) (htime : ∀ i ∈ time, i < o.gEq.length)
    (h : RelaxedParts o next s' idx vidx time o₁) (ops : Expr.Ops K) (sch : Scheme K n)
    (tr : GridValues K n) :
    (SatisfiesAll ops sch o tr ∧ ∀ v ∈ entriesAt o.model.y vidx, sch.control fun k => tr k v) ↔
      SatisfiesAll ops sch s'.problem tr ∧
      (∀ k, ∀ e ∈ s'.relaxedAlg, e.eval ops (tr k) = 0) ∧
      ∀ p ∈ s'.relaxedEq.zip (entriesAt o.timeGEq time), ∀ k, sch.holds p.2 k →
        p.1.eval ops (tr k) = 0 := by
  obtain ⟨sx, sy, su, so, sa⟩ := h.same
  obtain ⟨b1, b2, b3, b4, b5, b6, b7, b8⟩ := h.bounds
  obtain ⟨r1, r2, r3, r4, r5, r6, -, -⟩ := h.rest
  have hr := h.relaxed
  have hy : ∀ k, (AllWithin o.yMin o.yMax o.model.y (tr k) ∧ AllWithin o.uMin o.uMax o.model.u (tr k)) ↔
      AllWithin s'.problem.yMin s'.problem.yMax s'.problem.model.y (tr k) ∧
      AllWithin s'.problem.uMin s'.problem.uMax s'.problem.model.u (tr k) := by
    intro k
    rw [b3, b4, b5, b6, sy, su, hr.y, hr.yMin, hr.yMax, hr.u, hr.uMin, hr.uMax,
      allWithin_append hs.uMin hs.uMax, allWithin_split hs.yMin hs.yMax h.vars]
    tauto
  have hdu : ∀ val : Sym → K, AllWithin o.duMin o.duMax o.model.u val ↔
      AllWithin s'.problem.duMin s'.problem.duMax s'.problem.model.u val := by
    intro val
    rw [b7, b8, su, hr.u, hr.duMin, hr.duMax, allWithin_append hs.duMin hs.duMax]
    exact ⟨fun h => ⟨h, allWithin_free⟩, fun h => h.1⟩
  have halg : ∀ P : Expr → Prop, (∀ e ∈ o.model.alg, P e) ↔
      (∀ e ∈ s'.problem.model.alg, P e) ∧ ∀ e ∈ s'.relaxedAlg, P e := by
    intro P
    rw [sa, hr.alg, h.relaxedAlg]
    constructor
    · exact fun h => ⟨fun e he => h e (mem_of_otherEntries he), fun e he => h e (mem_of_entriesAt he)⟩
    · rintro ⟨h1, h2⟩ e he
      rcases mem_entries_or_other (ind := idx) he with he | he
      · exact h2 e he
      · exact h1 e he
  have heq : ∀ P : Expr × String → Prop, (∀ e ∈ o.gEq.zip o.timeGEq, P e) ↔
      (∀ e ∈ s'.problem.gEq.zip s'.problem.timeGEq, P e) ∧
        ∀ e ∈ s'.relaxedEq.zip (entriesAt o.timeGEq time), P e := by
    intro P
    rw [h.gEq, h.timeGEq, h.relaxedEq, zip_otherEntries _ _ htag.symm,
      zip_entriesAt _ _ htag.symm _ htime]
    constructor
    · exact fun h => ⟨fun e he => h e (mem_of_otherEntries he), fun e he => h e (mem_of_entriesAt he)⟩
    · rintro ⟨h1, h2⟩ e he
      rcases mem_entries_or_other (ind := time) he with he | he
      · exact h2 e he
      · exact h1 e he
  have hcu : ((∀ v ∈ o.model.u, sch.control fun k => tr k v) ∧
      ∀ v ∈ entriesAt o.model.y vidx, sch.control fun k => tr k v) ↔
      ∀ v ∈ s'.problem.model.u, sch.control fun k => tr k v := by
    rw [su, hr.u]
    simp only [List.mem_append]
    exact ⟨fun h v hv => hv.elim (h.1 v) (h.2 v), fun h => ⟨fun v hv => h v (.inl hv),
      fun v hv => h v (.inr hv)⟩⟩
  constructor
  · rintro ⟨f, fc⟩
    refine ⟨⟨?_, fun k => ((hy k).1 ⟨f.y k, f.u k⟩).1, fun k => ((hy k).1 ⟨f.y k, f.u k⟩).2,
      hcu.1 ⟨f.control, fc⟩, fun s hs => (hdu _).1 (f.du s hs), fun k => ((halg _).1 (f.alg k)).1, ((heq _).1 f.eq).1,
      ?_, ?_, ?_⟩, fun k => ((halg _).1 (f.alg k)).2, ((heq _).1 f.eq).2⟩
    · rw [b1, b2, sx, hr.xMin, hr.xMax, hr.x]; exact f.x
    · rw [r1, r2, hr.gIneq, hr.timeGIneq]; exact f.ineq
    · rw [sx, so, hr.x, hr.ode]; exact f.dynamics
    · rw [r3, r4, r5, r6, sx, hr.h, hr.hInitial, hr.hFinal, hr.x0, hr.x]; exact f.boundary
  · rintro ⟨f, g1, g2⟩
    refine ⟨⟨?_, fun k => ((hy k).2 ⟨f.y k, f.u k⟩).1, fun k => ((hy k).2 ⟨f.y k, f.u k⟩).2,
      (hcu.2 f.control).1, fun s hs => (hdu _).2 (f.du s hs), fun k => (halg _).2 ⟨f.alg k, g1 k⟩, (heq _).2 ⟨f.eq, g2⟩,
      ?_, ?_, ?_⟩, (hcu.2 f.control).2⟩
    · have := f.x; rw [b1, b2, sx, hr.xMin, hr.xMax, hr.x] at this; exact this
    · have := f.ineq; rw [r1, r2, hr.gIneq, hr.timeGIneq] at this; exact this
    · have := f.dynamics; rw [sx, so, hr.x, hr.ode] at this; exact this
    · have := f.boundary; rw [r3, r4, r5, r6, sx, hr.h, hr.hInitial, hr.hFinal, hr.x0, hr.x] at this; exact this


theorem allWithin_same {lo hi : List XRat} {as bs : List Sym} {val : Sym → K}
    (hl : as.length = bs.length) (hv : ∀ p ∈ as.zip bs, val p.1 = val p.2) :
    AllWithin lo hi as val ↔ AllWithin lo hi bs val := by
  induction as generalizing bs lo hi with
  | nil =>
    have : bs = [] := List.length_eq_zero_iff.1 hl.symm
    subst this; rfl
  | cons a as ih =>
    cases bs with
    | nil => simp at hl
    | cons b bs =>
      cases lo with
      | nil => simp [AllWithin]
      | cons l lo =>
        cases hi with
        | nil => simp [AllWithin]
        | cons u hi =>
          have := @ih lo hi bs (by simpa using hl) fun p hp => hv p (by simp [hp])
          have e := hv (a, b) (by simp)
          simp only [AllWithin, List.zip_cons_cons, List.mem_cons, forall_eq_or_imp] at this e ⊢
          rw [this, e]

theorem allWithin_congr {lo hi : List XRat} {vars : List Sym} {val val' : Sym → K}
    (h : ∀ v ∈ vars, val v = val' v) (hw : AllWithin lo hi vars val) : AllWithin lo hi vars val' := by
  intro p hp
  rw [← h p.1 (List.of_mem_zip hp).1]
  exact hw p hp

theorem copyEquations_zero (o : Ocp) (copies : List Sym) (bs : List Nat) (ops : Expr.Ops K)
    (val : Sym → K) : (∀ e ∈ copyEquations o copies bs, e.eval ops val = 0) ↔
      ∀ p ∈ copies.zip (entriesAt o.model.x bs), val p.1 = val p.2 := by
  unfold copyEquations
  rw [← List.map_uncurry_zip_eq_zipWith]
  simp only [List.mem_map, forall_exists_index, and_imp, forall_apply_eq_imp_iff₂,
    Function.uncurry_def, Expr.eval, sub_eq_zero]

theorem otherEntries_all {α : Type} {l : List α} {is : List Nat} {v : α}
    (h : ∀ i, i < l.length → i ∉ is → l[i]? = some v) : ∃ m, otherEntries l is = List.replicate m v := by
  refine ⟨(otherEntries l is).length, List.eq_replicate_iff.2 ⟨rfl, fun a ha => ?_⟩⟩
  simp only [otherEntries, List.mem_filterMap, List.mem_filter, List.mem_range,
    decide_eq_true_eq] at ha
  obtain ⟨i, ⟨h1, h2⟩, h3⟩ := ha
  have := h i h1 h2
  rw [h3] at this
  exact Option.some.inj this

/-- Where the copies agree with the states, the problems with and without relaxed bounds have the same
constraints. -/
theorem states_iff {s s' : Relax} {copies : List Sym} {bs : List Nat} (h : BoundsRelaxed s s' copies bs)
    (l1 : s.problem.xMin.length = s.problem.model.x.length)
    (l2 : s.problem.xMax.length = s.problem.model.x.length)
    (l3 : s.problem.uMin.length = s.problem.model.u.length)
    (l4 : s.problem.uMax.length = s.problem.model.u.length)
    (l5 : s.problem.duMin.length = s.problem.model.u.length)
    (l6 : s.problem.duMax.length = s.problem.model.u.length)
    (ops : Expr.Ops K) (sch : Scheme K n) (tr : GridValues K n)
    (hz : ∀ k, ∀ e ∈ copyEquations s.problem copies bs, e.eval ops (tr k) = 0) :
    (SatisfiesAll ops sch s.problem tr ∧ ∀ v ∈ entriesAt s.problem.model.x bs, sch.control fun k => tr k v)
      ↔ SatisfiesAll ops sch s'.problem tr := by
  have hz' := fun k => (copyEquations_zero s.problem copies bs ops (tr k)).1 (hz k)
  obtain ⟨⟨r1, r2, r3, r4, r5, r6, -, -, r9, r10⟩, ⟨a, ha⟩, ⟨b, hb⟩, -, -, -⟩ := h.rest
  obtain ⟨e1, e2, e3, e4, e5, e6⟩ := h.same
  have hlen : copies.length = (entriesAt s.problem.model.x bs).length := by
    rw [entriesAt_length _ _ h.within, h.length]
  obtain ⟨m1, o1⟩ := otherEntries_all (l := s.problem.xMin) (is := bs) (v := ⊥)
    fun i hi hn => (h.bounded i (by omega) hn).2
  obtain ⟨m2, o2⟩ := otherEntries_all (l := s.problem.xMax) (is := bs) (v := ⊤)
    fun i hi hn => (h.bounded i (by omega) hn).1
  have hxu : ∀ k, (AllWithin s.problem.xMin s.problem.xMax s.problem.model.x (tr k) ∧
      AllWithin s.problem.uMin s.problem.uMax s.problem.model.u (tr k)) ↔
      AllWithin s'.problem.xMin s'.problem.xMax s'.problem.model.x (tr k) ∧
      AllWithin s'.problem.uMin s'.problem.uMax s'.problem.model.u (tr k) := by
    intro k
    rw [h.free.1, h.free.2, h.u, h.uMin, h.uMax, allWithin_append l3 l4,
      allWithin_same hlen (hz' k), allWithin_split l1 l2 h.within, o1, o2]
    constructor
    · exact fun g => ⟨allWithin_free, g.2, g.1.1⟩
    · exact fun g => ⟨⟨g.2.2, allWithin_free⟩, g.2.1⟩
  have hdu : ∀ val : Sym → K, AllWithin s.problem.duMin s.problem.duMax s.problem.model.u val ↔
      AllWithin s'.problem.duMin s'.problem.duMax s'.problem.model.u val := by
    intro val
    rw [ha, hb, h.u, allWithin_append l5 l6]
    exact ⟨fun g => ⟨g, allWithin_free⟩, fun g => g.1⟩
  have hcu : ((∀ v ∈ s.problem.model.u, sch.control fun k => tr k v) ∧
      ∀ v ∈ entriesAt s.problem.model.x bs, sch.control fun k => tr k v) ↔
      ∀ v ∈ s'.problem.model.u, sch.control fun k => tr k v := by
    rw [h.u]
    have : (∀ v ∈ entriesAt s.problem.model.x bs, sch.control fun k => tr k v) ↔
        ∀ v ∈ copies, sch.control fun k => tr k v := by
      constructor
      · intro g v hv
        obtain ⟨i, hi, rfl⟩ := List.getElem_of_mem hv
        have hi' : i < (entriesAt s.problem.model.x bs).length := by omega
        have hp : (copies[i], (entriesAt s.problem.model.x bs)[i]) ∈
            copies.zip (entriesAt s.problem.model.x bs) := by
          rw [List.mem_iff_getElem]
          exact ⟨i, by simp; omega, by simp⟩
        have := g _ (List.getElem_mem hi')
        have e : (fun k => tr k copies[i]) = fun k => tr k (entriesAt s.problem.model.x bs)[i] :=
          funext fun k => hz' k _ hp
        rw [e]; exact this
      · intro g v hv
        obtain ⟨i, hi', rfl⟩ := List.getElem_of_mem hv
        have hi : i < copies.length := by omega
        have hp : (copies[i], (entriesAt s.problem.model.x bs)[i]) ∈
            copies.zip (entriesAt s.problem.model.x bs) := by
          rw [List.mem_iff_getElem]
          exact ⟨i, by simp; omega, by simp⟩
        have := g _ (List.getElem_mem hi)
        have e : (fun k => tr k copies[i]) = fun k => tr k (entriesAt s.problem.model.x bs)[i] :=
          funext fun k => hz' k _ hp
        rw [← e]; exact this
    rw [this]
    simp only [List.mem_append]
    exact ⟨fun h v hv => hv.elim (h.1 v) (h.2 v), fun h => ⟨fun v hv => h v (.inl hv),
      fun v hv => h v (.inr hv)⟩⟩
  constructor
  · rintro ⟨f, fc⟩
    refine ⟨fun k => ((hxu k).1 ⟨f.x k, f.u k⟩).1, ?_, fun k => ((hxu k).1 ⟨f.x k, f.u k⟩).2,
      hcu.1 ⟨f.control, fc⟩, fun s hs => (hdu _).1 (f.du s hs), ?_, ?_, ?_, ?_, ?_⟩
    · rw [r9, r10, e2]; exact f.y
    · rw [e3]; exact f.alg
    · rw [e5, e6]; exact f.eq
    · rw [r1, r2]; exact f.ineq
    · rw [e1, e4]; exact f.dynamics
    · rw [r3, r4, r5, r6, e1]; exact f.boundary
  · intro f
    refine ⟨⟨fun k => ((hxu k).2 ⟨f.x k, f.u k⟩).1, ?_, fun k => ((hxu k).2 ⟨f.x k, f.u k⟩).2,
      (hcu.2 f.control).1, fun s hs => (hdu _).2 (f.du s hs), ?_, ?_, ?_, ?_, ?_⟩, (hcu.2 f.control).2⟩
    · have := f.y; rw [r9, r10, e2] at this; exact this
    · have := f.alg; rw [e3] at this; exact this
    · have := f.eq; rw [e5, e6] at this; exact this
    · have := f.ineq; rw [r1, r2] at this; exact this
    · have := f.dynamics; rw [e1, e4] at this; exact this
    · have := f.boundary; rw [r3, r4, r5, r6, e1] at this; exact this

theorem augmentedTerms_zero (nu mu r : List K) (h : ∀ e ∈ r, e = 0) : augmentedTerms nu mu r = 0 := by
  unfold augmentedTerms
  apply List.sum_eq_zero
  intro x hx
  obtain ⟨p, hp, rfl⟩ := List.mem_map.1 hx
  rw [h p.2.2 (List.of_mem_zip (List.of_mem_zip hp).2).2]
  simp

theorem augmentedTerms_ge [IsStrictOrderedRing K] {N ε : K} (hN : 0 ≤ N) (hε : 0 ≤ ε) (nu mu r : List K)
    (h₁ : ∀ v ∈ nu, |v| ≤ N) (h₂ : ∀ v ∈ mu, 0 ≤ v) (h₃ : ∀ e ∈ r, |e| ≤ ε) :
    -(N * ε * r.length) ≤ augmentedTerms nu mu r := by
  induction r generalizing nu mu with
  | nil => simp [augmentedTerms]
  | cons e r ih =>
    have hNe : 0 ≤ N * ε := mul_nonneg hN hε
    have hl : (0 : K) ≤ N * ε * ((e :: r).length : K) := mul_nonneg hNe (Nat.cast_nonneg _)
    cases nu with
    | nil => simpa [augmentedTerms] using hl
    | cons v nu =>
      cases mu with
      | nil => simpa [augmentedTerms] using hl
      | cons m mu =>
        have h := ih nu mu (fun v hv => h₁ v (by simp [hv])) (fun v hv => h₂ v (by simp [hv]))
          fun v hv => h₃ v (by simp [hv])
        have e₁ : augmentedTerms (v :: nu) (m :: mu) (e :: r) =
            v * e + m / 2 * e ^ 2 + augmentedTerms nu mu r := by simp [augmentedTerms]
        have e₂ : |v * e| ≤ N * ε := by
          rw [abs_mul]
          exact mul_le_mul (h₁ v (by simp)) (h₃ e (by simp)) (abs_nonneg _) hN
        have e₃ : 0 ≤ m / 2 * e ^ 2 := mul_nonneg (div_nonneg (h₂ m (by simp)) zero_le_two) (sq_nonneg _)
        have e₄ := (abs_le.1 e₂).1
        rw [e₁, List.length_cons]
        push_cast
        nlinarith

/-! ### The whole constructor -/

theorem relaxedParts_sizes {o : Ocp} {next : Sym} {s : Relax} {idx vidx time : List Nat} {o₁ : Ocp}
    (hs : Sized o) (h : RelaxedParts o next s idx vidx time o₁) :
    s.problem.xMin.length = s.problem.model.x.length ∧
    s.problem.xMax.length = s.problem.model.x.length ∧
    s.problem.uMin.length = s.problem.model.u.length ∧
    s.problem.uMax.length = s.problem.model.u.length ∧
    s.problem.duMin.length = s.problem.model.u.length ∧
    s.problem.duMax.length = s.problem.model.u.length := by
  obtain ⟨sx, sy, su, so, sa⟩ := h.same
  obtain ⟨b1, b2, b3, b4, b5, b6, b7, b8⟩ := h.bounds
  have hr := h.relaxed
  have k1 : ∀ i ∈ vidx, i < o.yMin.length := fun i hi => hs.yMin ▸ h.vars i hi
  have k2 : ∀ i ∈ vidx, i < o.yMax.length := fun i hi => hs.yMax ▸ h.vars i hi
  rw [sx, su, b1, b2, b5, b6, b7, b8, hr.x, hr.xMin, hr.xMax, hr.u, hr.uMin, hr.uMax, hr.duMin,
    hr.duMax]
  simp only [List.length_append, entriesAt_length _ _ h.vars, entriesAt_length _ _ k1,
    entriesAt_length _ _ k2, hs.xMin, hs.xMax, hs.uMin, hs.uMax, hs.duMin, hs.duMax,
    List.length_replicate, and_self]

theorem boundedStates_eq {o : Ocp} {next : Sym} {s : Relax} {idx vidx time : List Nat} {o₁ : Ocp}
    (h : RelaxedParts o next s idx vidx time o₁) :
    boundedStates s.problem = boundedStates o ∧ s.problem.model.x = o.model.x := by
  obtain ⟨sx, -, -, -, -⟩ := h.same
  obtain ⟨b1, b2, -⟩ := h.bounds
  have hr := h.relaxed
  have e : s.problem.model.x = o.model.x := sx.trans hr.x
  refine ⟨?_, e⟩
  unfold boundedStates
  rw [e]
  apply List.filter_congr
  intro i _
  unfold BoundedState
  rw [b1, b2, hr.xMin, hr.xMax]

/-- A trajectory that satisfies the relaxed problem, and the relaxed equations, satisfies the original
problem. -/
theorem feasible_of_relaxed {o : Ocp} {next : Sym} {mu0 : Rat} {a : Args} {s' : Relax}
    (h : RelaxableCall o a) (hr : relax mu0 a (start o next) = (.ok (), s')) (ops : Expr.Ops K)
    (sch : Scheme K n) (tr : GridValues K n) (hf : SatisfiesAll ops sch s'.problem tr)
    (hz : ∀ k, ∀ e ∈ s'.relaxedAlg ++ s'.relaxedEq, e.eval ops (tr k) = 0) :
    SatisfiesAll ops sch o tr := by
  obtain ⟨s, vidx, o₁, hp, -, hno, hyes⟩ := relaxedParts h hr
  have key : SatisfiesAll ops sch s.problem tr ∧
      ∀ k, ∀ e ∈ s.relaxedAlg ++ s.relaxedEq, e.eval ops (tr k) = 0 := by
    cases hb : a.stateBounds with
    | false => rw [hno hb] at hf hz; exact ⟨hf, hz⟩
    | true =>
      obtain ⟨l1, l2, l3, l4, l5, l6⟩ := relaxedParts_sizes h.sized hp
      obtain ⟨copies, hc⟩ := boundsRelaxed_run (hyes hb) (fun v hv => (hp.fresh v hv).2)
        (hp.guess (h.bounds hb).1 (h.bounds hb).2) l1 l2
      rw [hc.relaxedAlg, hc.relaxedEq] at hz
      refine ⟨((states_iff hc l1 l2 l3 l4 l5 l6 ops sch tr fun k e he =>
        hz k e (by simp [he])).2 hf).1, fun k e he => hz k e ?_⟩
      rcases List.mem_append.1 he with he | he
      · simp [he]
      · simp [he]
  refine ((feasible_iff h.sized h.tags h.time.2 hp ops sch tr).2 ⟨key.1, fun k e he => ?_,
    fun p hp k _ => ?_⟩).1
  · exact key.2 k e (List.mem_append_left _ he)
  · exact key.2 k p.1 (List.mem_append_right _ (List.of_mem_zip hp).1)

theorem lookup_of_mem {α β : Type} [BEq α] [LawfulBEq α] {l : List (α × β)}
    (h : (l.map Prod.fst).Nodup) {p : α × β} (hp : p ∈ l) : l.lookup p.1 = some p.2 := by
  induction l with
  | nil => simp at hp
  | cons q l ih =>
    rw [List.map_cons, List.nodup_cons] at h
    rcases List.mem_cons.1 hp with rfl | hp'
    · simp [List.lookup]
    · have hne : p.1 ≠ q.1 := fun e => h.1 (e ▸ List.mem_map_of_mem hp')
      obtain ⟨q1, q2⟩ := q
      rw [List.lookup_cons]
      have : (p.1 == q1) = false := by simpa using hne
      rw [this]
      exact ih h.2 hp'

/-- The trajectory in which the copies have the values of the states. -/
def withCopies (pairs : List (Sym × Sym)) (tr : GridValues K n) : GridValues K n :=
  fun k s => tr k ((pairs.lookup s).getD s)

theorem satisfies_congr {o : Ocp} {next : Sym} (hb : Below next o) (ops : Expr.Ops K) {sch : Scheme K n}
    (hbl : Blind sch next o) {tr tr' : GridValues K n} (he : ∀ k, ∀ s < next, tr k s = tr' k s)
    (hf : SatisfiesAll ops sch o tr) : SatisfiesAll ops sch o tr' := by
  obtain ⟨h1, h2, h3⟩ := hbl tr tr' he
  have hv : ∀ v ∈ o.model.x ++ o.model.y ++ o.model.u, ∀ k, tr k v = tr' k v :=
    fun v hv k => he k v (hb.2 v hv)
  have ev : ∀ e ∈ o.L :: o.V :: o.S :: (o.model.alg ++ o.gEq), ∀ k,
      e.eval ops (tr' k) = e.eval ops (tr k) := fun e hm k =>
    Expr.eval_congr ops _ _ _ fun s hs => (he k s (hb.1 e hm s hs)).symm
  refine ⟨fun k => allWithin_congr (fun v hm => hv v (by simp [hm]) k) (hf.x k),
    fun k => allWithin_congr (fun v hm => hv v (by simp [hm]) k) (hf.y k),
    fun k => allWithin_congr (fun v hm => hv v (by simp [hm]) k) (hf.u k), ?_, ?_, ?_, ?_,
    h1 hf.ineq, h2 hf.dynamics, h3 hf.boundary⟩
  · intro v hm
    have := hf.control v hm
    rwa [show (fun k => tr k v) = fun k => tr' k v from funext fun k => hv v (by simp [hm]) k] at this
  · intro s hs
    refine allWithin_congr (fun v hm => ?_) (hf.du s hs)
    rw [hv v (by simp [hm]), hv v (by simp [hm])]
  · intro k e hm
    rw [ev e (by simp [hm])]
    exact hf.alg k e hm
  · intro p hm k hk
    rw [ev p.1 (by simp [(List.of_mem_zip hm).1])]
    exact hf.eq p hm k hk

theorem cost_congr {o : Ocp} {next : Sym} (hb : Below next o) (ops : Expr.Ops K) (sch : Scheme K n)
    {tr tr' : GridValues K n} (he : ∀ k, ∀ s < next, tr k s = tr' k s) :
    costOf ops sch o tr = costOf ops sch o tr' := by
  have ev : ∀ e ∈ o.L :: o.V :: o.S :: (o.model.alg ++ o.gEq), ∀ k,
      e.eval ops (tr k) = e.eval ops (tr' k) := fun e hm k =>
    Expr.eval_congr ops _ _ _ fun s hs => he k s (hb.1 e hm s hs)
  unfold costOf
  rw [ev o.V (by simp)]
  have e1 : (fun k => o.S.eval ops (tr k)) = fun k => o.S.eval ops (tr' k) :=
    funext fun k => ev o.S (by simp) k
  have e2 : ∀ k, o.L.eval ops (tr k) = o.L.eval ops (tr' k) := fun k => ev o.L (by simp) k
  rw [e1]
  simp only [e2]

/-- A trajectory that satisfies the original problem, with copies of the states, satisfies the relaxed
problem and the relaxed equations, provided that the variables that become controls are as controls have
to be. -/
theorem relaxed_of_feasible {o : Ocp} {next : Sym} {mu0 : Rat} {a : Args} {s' : Relax}
    (h : RelaxableCall o a) (hb : Below next o) (hr : relax mu0 a (start o next) = (.ok (), s'))
    (ops : Expr.Ops K) (sch : Scheme K n) (he : Everywhere sch o a.time) (hbl : Blind sch next o)
    (tr : GridValues K n) (hf : SatisfiesAll ops sch o tr)
    (hc : ∀ v ∈ freed o a, sch.control fun k => tr k v) :
    ∃ tr', SatisfiesAll ops sch s'.problem tr' ∧ (∀ k, ∀ s < next, tr k s = tr' k s) ∧
      ∀ k, ∀ e ∈ s'.relaxedAlg ++ s'.relaxedEq, e.eval ops (tr' k) = 0 := by
  obtain ⟨s, vidx, o₁, hp, hfr, hno, hyes⟩ := relaxedParts h hr
  have key : ∀ t : GridValues K n, (∀ k, ∀ s < next, tr k s = t k s) →
      SatisfiesAll ops sch s.problem t ∧ ∀ k, ∀ e ∈ s.relaxedAlg ++ s.relaxedEq, e.eval ops (t k) = 0 := by
    intro t ht
    have hcy : ∀ v ∈ entriesAt o.model.y vidx, sch.control fun k => t k v := by
      intro v hv
      have h1 := hc v (by unfold freed; rw [hfr]; exact List.mem_append_left _ hv)
      have h2 : v < next := hb.2 v (by simp [mem_of_entriesAt hv])
      rwa [show (fun k => tr k v) = fun k => t k v from funext fun k => ht k v h2] at h1
    obtain ⟨f, g₁, g₂⟩ := (feasible_iff h.sized h.tags h.time.2 hp ops sch t).1
      ⟨satisfies_congr hb ops hbl ht hf, hcy⟩
    refine ⟨f, fun k e hm => ?_⟩
    rcases List.mem_append.1 hm with hm | hm
    · exact g₁ k e hm
    · rw [hp.relaxedEq] at hm g₂
      obtain ⟨i, hi, hei⟩ := mem_entriesAt.1 hm
      have hi' : i < o.timeGEq.length := by rw [h.tags]; exact h.time.2 i hi
      refine g₂ (e, o.timeGEq[i]) ?_ k (he _ (mem_entriesAt.2 ⟨i, hi, List.getElem?_eq_getElem hi'⟩) k)
      rw [zip_entriesAt _ _ h.tags.symm _ h.time.2]
      refine mem_entriesAt.2 ⟨i, hi, ?_⟩
      rw [List.getElem?_zip_eq_some]
      exact ⟨hei, List.getElem?_eq_getElem hi'⟩
  cases hbd : a.stateBounds with
  | false =>
    rw [hno hbd]
    exact ⟨tr, (key tr fun _ _ _ => rfl).1, fun _ _ _ => rfl, (key tr fun _ _ _ => rfl).2⟩
  | true =>
    obtain ⟨l1, l2, l3, l4, l5, l6⟩ := relaxedParts_sizes h.sized hp
    obtain ⟨copies, hcp⟩ := boundsRelaxed_run (hyes hbd) (fun v hv => (hp.fresh v hv).2)
      (hp.guess (h.bounds hbd).1 (h.bounds hbd).2) l1 l2
    obtain ⟨eb, ex⟩ := boundedStates_eq hp
    have hlen : copies.length = (entriesAt s.problem.model.x (boundedStates s.problem)).length := by
      rw [entriesAt_length _ _ hcp.within, hcp.length]
    let pairs := copies.zip (entriesAt s.problem.model.x (boundedStates s.problem))
    have hfst : pairs.map Prod.fst = copies := List.map_fst_zip (by omega)
    have same : ∀ k, ∀ v < next, tr k v = withCopies pairs tr k v := by
      intro k v hv
      have : pairs.lookup v = none := by
        rw [List.lookup_eq_none_iff]
        intro p hpm
        have hm := hcp.fresh p.1 (List.of_mem_zip hpm).1
        have : v ≠ p.1 := (lt_of_lt_of_le hv (hp.after.trans hm)).ne
        simpa using this
      simp only [withCopies, this, Option.getD_none]
    have below : ∀ v ∈ entriesAt s.problem.model.x (boundedStates s.problem), v < next := by
      intro v hv
      rw [ex] at hv
      exact hb.2 v (by simp [mem_of_entriesAt hv])
    have copy : ∀ k, ∀ p ∈ pairs, withCopies pairs tr k p.1 = withCopies pairs tr k p.2 := by
      intro k p hpm
      rw [← same k p.2 (below p.2 (List.of_mem_zip hpm).2)]
      simp only [withCopies, lookup_of_mem (by rw [hfst]; exact hcp.nodup) hpm, Option.getD_some]
    have hz : ∀ k, ∀ e ∈ copyEquations s.problem copies (boundedStates s.problem),
        e.eval ops (withCopies pairs tr k) = 0 := fun k =>
      (copyEquations_zero s.problem copies _ ops _).2 (copy k)
    obtain ⟨f, g⟩ := key _ same
    refine ⟨withCopies pairs tr, (states_iff hcp l1 l2 l3 l4 l5 l6 ops sch _ hz).1 ⟨f, ?_⟩, same, ?_⟩
    · intro v hv
      have h2 := below v hv
      have h1 := hc v (by
        unfold freed
        rw [hbd, if_pos rfl, ← eb, ← ex]
        exact List.mem_append_right _ hv)
      rwa [show (fun k => tr k v) = fun k => withCopies pairs tr k v from
        funext fun k => same k v h2] at h1
    · intro k e hm
      rw [hcp.relaxedAlg, hcp.relaxedEq] at hm
      simp only [List.mem_append] at hm
      rcases hm with (hm | hm) | hm
      · exact g k e (by simp [hm])
      · exact hz k e hm
      · exact g k e (by simp [hm])

/-- The multipliers and penalties are not symbols of the relaxed equations. -/
theorem relaxed_fresh {o : Ocp} {next : Sym} {mu0 : Rat} {a : Args} {s' : Relax}
    (h : RelaxableCall o a) (hb : Below next o) (hr : relax mu0 a (start o next) = (.ok (), s')) :
    (∀ v ∈ s'.nuSym ++ s'.muSym, next ≤ v) ∧
    (∀ e ∈ s'.relaxedAlg ++ s'.relaxedEq, ∀ v ∈ e.syms, v ∉ s'.nuSym ++ s'.muSym) ∧
    s'.problem.V = o.V ∧ s'.problem.S = o.S := by
  obtain ⟨s, vidx, o₁, hp, -, hno, hyes⟩ := relaxedParts h hr
  obtain ⟨-, -, -, -, -, -, rV, rS⟩ := hp.rest
  have lt : ∀ e ∈ s.relaxedAlg ++ s.relaxedEq, ∀ v ∈ e.syms, v < next := by
    intro e he
    apply hb.1
    rw [hp.relaxedAlg, hp.relaxedEq] at he
    simp only [List.mem_cons, List.mem_append]
    rcases List.mem_append.1 he with he | he
    · exact .inr (.inr (.inr (.inl (mem_of_entriesAt he))))
    · exact .inr (.inr (.inr (.inr (mem_of_entriesAt he))))
  cases hbd : a.stateBounds with
  | false =>
    rw [hno hbd]
    exact ⟨fun v hv => (hp.fresh v hv).1, fun e he v hv hm =>
      absurd (lt e he v hv) (not_lt.2 (hp.fresh v hm).1), rV.trans hp.relaxed.V, rS.trans hp.relaxed.S⟩
  | true =>
    obtain ⟨l1, l2, l3, l4, l5, l6⟩ := relaxedParts_sizes h.sized hp
    obtain ⟨copies, hc⟩ := boundsRelaxed_run (hyes hbd) (fun v hv => (hp.fresh v hv).2)
      (hp.guess (h.bounds hbd).1 (h.bounds hbd).2) l1 l2
    obtain ⟨-, ex⟩ := boundedStates_eq hp
    have hge : ∀ v ∈ s'.nuSym ++ s'.muSym, next ≤ v := by
      intro v hv
      rcases (hc.rest.par v hv).2 with hv | hv
      · exact (hp.fresh v hv).1
      · exact hp.after.trans hv
    obtain ⟨-, -, -, -, -, -, qV, qS, -, -⟩ := hc.rest.rest
    refine ⟨hge, ?_, qV.trans (rV.trans hp.relaxed.V), qS.trans (rS.trans hp.relaxed.S)⟩
    intro e he v hv hm
    rw [hc.relaxedAlg, hc.relaxedEq] at he
    have old : e ∈ s.relaxedAlg ++ s.relaxedEq → False := fun he =>
      absurd (lt e he v hv) (not_lt.2 (hge v hm))
    simp only [List.mem_append] at he
    rcases he with (he | he) | he
    · exact old (by simp [he])
    · unfold copyEquations at he
      rw [← List.map_uncurry_zip_eq_zipWith] at he
      obtain ⟨p, hpm, rfl⟩ := List.mem_map.1 he
      simp only [Function.uncurry_def, Expr.syms, List.mem_append, List.mem_singleton] at hv
      rcases hv with rfl | rfl
      · have h1 := hc.fresh p.1 (List.of_mem_zip hpm).1
        rcases hc.rest.copies p.1 (by rw [hc.u]; exact List.mem_append_right _ (List.of_mem_zip hpm).1)
          with h2 | h2
        · have : ∀ u ∈ s.problem.model.u, u < next := by
            intro u hu
            rw [hp.same.2.2.1, hp.relaxed.u] at hu
            rcases List.mem_append.1 hu with hu | hu
            · exact hb.2 u (by simp [hu])
            · exact hb.2 u (by simp [mem_of_entriesAt hu])
          exact absurd (this p.1 h2) (not_lt.2 (hp.after.trans h1))
        · exact h2.2.2 (by simpa using hm)
      · have := (List.of_mem_zip hpm).2
        rw [ex] at this
        exact absurd (hb.2 p.2 (by simp [mem_of_entriesAt this])) (not_lt.2 (hge p.2 (by simpa using hm)))
    · exact old (by simp [he])

theorem eval_withValues (ops : Expr.Ops K) {par : List Sym} {e : Expr} (h : ∀ s ∈ e.syms, s ∉ par)
    (mult tr : GridValues K n) (k : Fin n) :
    e.eval ops (withValues par mult tr k) = e.eval ops (tr k) := by
  apply Expr.eval_congr
  intro s hs
  simp only [withValues, if_neg (h s hs)]

theorem map_withValues {par l : List Sym} (h : ∀ s ∈ l, s ∈ par)
    (mult tr : GridValues K n) (k : Fin n) :
    l.map (withValues par mult tr k) = l.map (mult k) := by
  apply List.map_congr_left
  intro s hs
  simp only [withValues, if_pos (h s hs)]

/-- The cost of the relaxed problem is the original one and the terms of the relaxed equations `r`. -/
theorem costOf_relaxed [CharZero K] {o : Ocp} {next : Sym} {mu0 : Rat} {a : Args} {s' : Relax}
    (h : RelaxableCall o a) (hb : Below next o) (hr : relax mu0 a (start o next) = (.ok (), s')) :
    ∃ r, (∀ e, e ∈ r ↔ e ∈ s'.relaxedAlg ++ s'.relaxedEq) ∧
      r.length = (s'.relaxedAlg ++ s'.relaxedEq).length ∧
      (a.stateBounds = false → r = s'.relaxedAlg ++ s'.relaxedEq) ∧
      ∀ (ops : Expr.Ops K) (sch : Scheme K n) (mult tr : GridValues K n),
        costOf ops sch s'.problem (withValues (s'.nuSym ++ s'.muSym) mult tr) = costOf ops sch o tr +
          ∑ k, sch.weight k * augmentedTerms (s'.nuSym.map (mult k)) (s'.muSym.map (mult k))
            (r.map (Expr.eval ops (tr k))) := by
  obtain ⟨hge, hns, rV, rS⟩ := relaxed_fresh h hb hr
  obtain ⟨r₁, r₂, r₃, ⟨⟨nu, mu, e₁, e₂, e₃, -, e₅, hc⟩, ea, ee⟩, h₂, h₃⟩ := grows_relax hr
  simp only [start, List.nil_append] at e₁ e₂ ea ee
  have hmem : ∀ e, e ∈ r₁ ++ r₂ ++ r₃ ↔ e ∈ s'.relaxedAlg ++ s'.relaxedEq := by
    intro e
    rw [ea, ee]
    simp only [List.mem_append]
    tauto
  refine ⟨r₁ ++ r₂ ++ r₃, hmem, by rw [ea, ee]; simp only [List.length_append]; omega, fun hf => ?_,
    fun ops sch mult tr => ?_⟩
  · rw [h₃ hf, ea, ee, h₃ hf]; simp
  have old : ∀ e ∈ o.L :: o.V :: o.S :: (o.model.alg ++ o.gEq), ∀ s ∈ e.syms,
      s ∉ s'.nuSym ++ s'.muSym := fun e he s hs hm =>
    absurd (hb.1 e he s hs) (not_lt.2 (hge s hm))
  have eL : ∀ k, s'.problem.L.eval ops (withValues (s'.nuSym ++ s'.muSym) mult tr k) =
      o.L.eval ops (tr k) +
      augmentedTerms (s'.nuSym.map (mult k)) (s'.muSym.map (mult k))
        ((r₁ ++ r₂ ++ r₃).map (Expr.eval ops (tr k))) := by
    intro k
    rw [hc.2.2 K ops, ← e₁, ← e₂]
    simp only [start]
    rw [eval_withValues ops (old o.L (by simp)),
      map_withValues (fun s hs => List.mem_append_left _ hs),
      map_withValues (fun s hs => List.mem_append_right _ hs)]
    congr 2
    apply List.map_congr_left
    intro e he
    exact eval_withValues ops (hns e ((hmem e).1 he)) mult tr k
  have eS : (fun k => s'.problem.S.eval ops (withValues (s'.nuSym ++ s'.muSym) mult tr k)) =
      fun k => o.S.eval ops (tr k) := by
    funext k
    rw [rS]
    exact eval_withValues ops (old o.S (by simp)) mult tr k
  unfold costOf
  rw [rV, eval_withValues ops (old o.V (by simp)), eS]
  simp only [eL, mul_add, Finset.sum_add_distrib]
  ring

end
end Verif
