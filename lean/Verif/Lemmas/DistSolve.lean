import Verif.Spec.DistSolve
import Mathlib.Algebra.BigOperators.Group.List.Basic
import Mathlib.Tactic.Ring
/-! # Facts about the outer loop -/
namespace Verif.DistAL
open Verif Spec

variable {N R S K : Type} [DecidableEq N] [Field K] [LinearOrder K]

omit [Field K] in
theorem foldl_max_mem (l : List K) (a : K) : l.foldl max a ∈ a :: l := by
  induction l generalizing a with
  | nil => simp
  | cons b l ih =>
    rw [List.foldl_cons]
    rcases List.mem_cons.1 (ih (max a b)) with h | h
    · rcases max_choice a b with h' | h'
      · rw [h, h']; simp
      · rw [h, h']; simp
    · simp [h]

omit [Field K] in
theorem foldl_max_le (l : List K) (a v : K) (h : v ∈ a :: l) : v ≤ l.foldl max a := by
  have start : ∀ (l : List K) (a : K), a ≤ l.foldl max a := by
    intro l
    induction l with
    | nil => intro a; exact le_refl a
    | cons b l ih => intro a; exact (le_max_left a b).trans (ih _)
  induction l generalizing a with
  | nil => simp at h; simp [h]
  | cons b l ih =>
    rw [List.foldl_cons]
    rcases List.mem_cons.1 h with rfl | h
    · exact (le_max_left _ b).trans (start l _)
    · rcases List.mem_cons.1 h with rfl | h
      · exact (le_max_right a _).trans (start l _)
      · exact ih _ (by simp [h])

theorem maxStar_largest {rows : List (N × List K)} {m : K}
    (h : maxStar (rows.flatMap Prod.snd) = .ok m) : LargestEntry (rows.map Prod.snd) m := by
  have key : ∀ l : List K, maxStar l = .ok m → m ∈ l ∧ ∀ v ∈ l, v ≤ m := by
    intro l hl
    match l with
    | [] => cases hl
    | [_] => cases hl
    | a :: b :: l =>
      simp only [maxStar, Except.ok.injEq] at hl
      subst hl
      exact ⟨foldl_max_mem _ _, fun v hv => foldl_max_le _ _ _ hv⟩
  obtain ⟨h₁, h₂⟩ := key _ h
  rw [List.mem_flatMap] at h₁
  obtain ⟨p, hp, hm⟩ := h₁
  refine ⟨⟨p.2, List.mem_map_of_mem hp, hm⟩, fun r hr v hv => ?_⟩
  obtain ⟨q, hq, rfl⟩ := List.mem_map.1 hr
  exact h₂ v (List.mem_flatMap.2 ⟨q, hq, hv⟩)

theorem outerStep_ok {c : Setup N R S K} {i : Nat} {l l' : Loop N R S K} {e : K}
    (h : c.outerStep i l = .ok (l', e)) :
    ∃ l₁ s', c.inner (innerLimit c.maxInner c.maxInnerFirst i) 0 none { l with outerIt := i } =
        .ok l₁ ∧ c.update l₁.methods l₁.last = .ok (l'.errors, s') ∧
      l' = { l₁ with methods := s', errors := l'.errors } ∧
      LargestEntry (l'.errors.map Prod.snd) e := by
  unfold Setup.outerStep at h
  cases h₁ : c.inner (innerLimit c.maxInner c.maxInnerFirst i) 0 none { l with outerIt := i } with
  | error e => rw [h₁] at h; cases h
  | ok l₁ =>
    rw [h₁] at h
    simp only [bind, Except.bind] at h
    cases h₂ : c.update l₁.methods l₁.last with
    | error e => rw [h₂] at h; cases h
    | ok u =>
      rw [h₂] at h
      simp only at h
      cases h₃ : maxStar (u.1.flatMap Prod.snd) with
      | error e => rw [h₃] at h; cases h
      | ok m =>
        rw [h₃] at h
        simp only [Except.ok.injEq, Prod.mk.injEq] at h
        obtain ⟨rfl, rfl⟩ := h
        exact ⟨l₁, u.2, rfl, h₂, rfl, maxStar_largest h₃⟩

/-- What an inner loop keeps, and what it counts. -/
theorem inner_ok {c : Setup N R S K} {n k : Nat} {o : Option K} {l l' : Loop N R S K}
    (h : c.inner n k o l = .ok l') :
    l'.methods = l.methods ∧ l'.errors = l.errors ∧ l'.outerIt = l.outerIt ∧
      ∃ j ≤ n, l'.total = l.total + j ∧
        l'.blockIterations = l.blockIterations + c.blocks.length * j ∧ (0 < n → 0 < j) ∧
        (0 < j → l'.innerIt = k + j - 1) := by
  induction n generalizing k o l with
  | zero => cases h; exact ⟨rfl, rfl, rfl, 0, by omega, by simp, by simp, by omega, by omega⟩
  | succ n ih =>
    simp only [Setup.inner, bind, Except.bind] at h
    cases h₁ : c.innerStep k l with
    | error e => rw [h₁] at h; cases h
    | ok l₁ =>
      rw [h₁] at h
      simp only at h
      have hs : l₁.methods = l.methods ∧ l₁.errors = l.errors ∧ l₁.outerIt = l.outerIt ∧
          l₁.total = l.total + 1 ∧ l₁.blockIterations = l.blockIterations + c.blocks.length ∧
          l₁.innerIt = k := by
        simp only [Setup.innerStep, bind, Except.bind] at h₁
        cases h₂ : blockIterator c.method c.blocks (c.choices l.total) (c.sample l.total) with
        | error e => rw [h₂] at h₁; cases h₁
        | ok it =>
          rw [h₂] at h₁
          simp only [Except.ok.injEq] at h₁
          subst h₁
          exact ⟨rfl, rfl, rfl, rfl, rfl, rfl⟩
      obtain ⟨a₁, a₂, a₃, a₄, a₅, a₆⟩ := hs
      split at h
      · cases h
        exact ⟨a₁, a₂, a₃, 1, by omega, a₄, by rw [a₅, Nat.mul_one], by omega, fun _ => by
          rw [a₆]; omega⟩
      · obtain ⟨b₁, b₂, b₃, j, hj, b₄, b₅, -, b₇⟩ := ih h
        refine ⟨b₁.trans a₁, b₂.trans a₂, b₃.trans a₃, j + 1, by omega, by omega, ?_, by omega, ?_⟩
        · rw [b₅, a₅, Nat.mul_add]; omega
        · intro _
          by_cases hj0 : 0 < j
          · rw [b₇ hj0]; push_cast; omega
          · have : j = 0 := by omega
            subst this
            -- no further iteration: then `n = 0`
            have hn : n = 0 := by
              by_contra hn
              obtain ⟨j', -, c₁, -, c₃, -⟩ := (ih h).2.2.2
              have := c₃ (by omega)
              omega
            subst hn
            cases h
            rw [a₆]; omega

/-- A property of the results kept by every solution of the nodes is kept by the loop. -/
theorem inner_results {c : Setup N R S K} (P : (N → Option R) → Prop)
    (hP : ∀ s it last, P last → P (c.solveNodes s it last)) {n k : Nat} {o : Option K}
    {l l' : Loop N R S K} (h : c.inner n k o l = .ok l') (hl : P l.last) : P l'.last := by
  induction n generalizing k o l with
  | zero => cases h; exact hl
  | succ n ih =>
    simp only [Setup.inner, bind, Except.bind] at h
    cases h₁ : c.innerStep k l with
    | error e => rw [h₁] at h; cases h
    | ok l₁ =>
      rw [h₁] at h
      simp only at h
      have hl₁ : P l₁.last := by
        simp only [Setup.innerStep, bind, Except.bind] at h₁
        cases h₂ : blockIterator c.method c.blocks (c.choices l.total) (c.sample l.total) with
        | error e => rw [h₂] at h₁; cases h₁
        | ok it =>
          rw [h₂] at h₁
          simp only [Except.ok.injEq] at h₁
          subst h₁
          exact hP _ _ _ hl
      split at h
      · cases h; exact hl₁
      · exact ih h hl₁

/-- The outer loop as a sequence of iterations. -/
theorem outer_ok {c : Setup N R S K} {n k : Nat} {l l' : Loop N R S K}
    (h : c.outer n k l = .ok l') : ∃ j ≤ n, ∃ x : Nat → Loop N R S K, ∃ e : Nat → K,
      x 0 = l ∧ (∀ i < j, c.outerStep (k + i) (x i) = .ok (x (i + 1), e i)) ∧
      (∀ i, i + 1 < j → c.absTol ≤ e i) ∧ (j = n ∨ 0 < j ∧ e (j - 1) < c.absTol) ∧ x j = l' := by
  induction n generalizing k l with
  | zero =>
    cases h
    exact ⟨0, by omega, fun _ => l', fun _ => 0, rfl, by omega, by omega, .inl rfl, rfl⟩
  | succ n ih =>
    simp only [Setup.outer, bind, Except.bind] at h
    cases h₁ : c.outerStep k l with
    | error e => rw [h₁] at h; cases h
    | ok r =>
      rw [h₁] at h
      simp only at h
      split at h
      · rename_i he
        cases h
        refine ⟨1, by omega, fun i => if i = 0 then l else r.1, fun _ => r.2, rfl, ?_, by omega,
          .inr ⟨by omega, he⟩, rfl⟩
        intro i hi
        have : i = 0 := by omega
        subst this
        simpa using h₁
      · rename_i he
        obtain ⟨j, hj, x, e, x₀, hs, ht, hl, hx⟩ := ih h
        refine ⟨j + 1, by omega, fun i => if i = 0 then l else x (i - 1),
          fun i => if i = 0 then r.2 else e (i - 1), rfl, ?_, ?_, ?_, ?_⟩
        · intro i hi
          match i with
          | 0 => simp [x₀, h₁]
          | i + 1 =>
            have := hs i (by omega)
            simp only [Nat.succ_ne_zero, if_false, Nat.add_sub_cancel]
            rw [show k + (i + 1) = k + 1 + i by omega]
            exact this
        · intro i hi
          match i with
          | 0 => simpa using not_lt.1 he
          | i + 1 =>
            simp only [Nat.succ_ne_zero, if_false, Nat.add_sub_cancel]
            exact ht i (by omega)
        · rcases hl with rfl | ⟨h₀, hl⟩
          · exact .inl rfl
          · refine .inr ⟨by omega, ?_⟩
            have : j + 1 - 1 ≠ 0 := by omega
            simp only [this, if_false]
            rwa [Nat.add_sub_cancel]
        · simpa using hx

theorem total_eq (c : Setup N R S K) (last : N → Option R) :
    c.total last = sumOfObjectives c.nodes last c.objective := by
  unfold Setup.total sumOfObjectives
  induction c.nodes with
  | nil => rfl
  | cons n ns ih =>
    rw [List.filterMap_cons]
    cases h : last n with
    | none => simp [h, ih]
    | some r => simp [h, ih]

theorem solveNodes_solved (c : Setup N R S K) (s : S) (it : List (List N)) (last : N → Option R)
    (h : ∀ n r, last n = some r → SolvedBy c n r) :
    ∀ n r, c.solveNodes s it last n = some r → SolvedBy c n r := by
  have key : ∀ (f : N → (N → Option R) → Option R), (∀ n new r, f n new = some r → SolvedBy c n r) →
      ∀ (ns : List N) (new : N → Option R), (∀ n r, new n = some r → SolvedBy c n r) →
      ∀ n r, ns.foldl (fun new n => store new n (f n new)) new n = some r → SolvedBy c n r := by
    intro f hf ns
    induction ns with
    | nil => intro new hn; simpa using hn
    | cons m ns ih =>
      intro new hn
      rw [List.foldl_cons]
      refine ih _ ?_
      intro n r hr
      unfold store at hr
      split at hr
      · rename_i hnm
        subst hnm
        cases hfn : f n new with
        | none => rw [hfn] at hr; exact hn n r (by simpa using hr)
        | some q =>
          rw [hfn] at hr
          simp at hr
          subst hr
          exact hf n new q hfn
      · exact hn n r hr
  unfold Setup.solveNodes
  split
  · exact key (fun n _ => c.solver s n last) (fun n _ r hr => ⟨s, last, hr⟩) _ _ h
  · exact key (fun n new => c.solver s n new) (fun n new r hr => ⟨s, new, hr⟩) _ _ h

theorem solveNodes_keeps (c : Setup N R S K) (s : S) (it : List (List N)) (last : N → Option R) (n : N)
    (h : (last n).isSome) : (c.solveNodes s it last n).isSome := by
  have key : ∀ (f : N → (N → Option R) → Option R) (ns : List N) (new : N → Option R),
      (new n).isSome → (ns.foldl (fun new n => store new n (f n new)) new n).isSome := by
    intro f ns
    induction ns with
    | nil => intro new hn; exact hn
    | cons m ns ih =>
      intro new hn
      rw [List.foldl_cons]
      refine ih _ ?_
      unfold store
      split
      · cases f m new with
        | none => simpa using hn
        | some q => simp
      · exact hn
  unfold Setup.solveNodes
  split
  · exact key (fun m _ => c.solver s m last) _ _ h
  · exact key (fun m new => c.solver s m new) _ _ h

theorem solveNodes_all (c : Setup N R S K) (s : S) (it : List (List N)) (last : N → Option R) (n : N)
    (hn : n ∈ it.flatten) (h : ∀ s last, (c.solver s n last).isSome) :
    (c.solveNodes s it last n).isSome := by
  have key : ∀ (f : N → (N → Option R) → Option R), (∀ new, (f n new).isSome) →
      ∀ (ns : List N) (new : N → Option R), (n ∈ ns ∨ (new n).isSome) →
      (ns.foldl (fun new n => store new n (f n new)) new n).isSome := by
    intro f hf ns
    induction ns with
    | nil => intro new hn; simpa using hn
    | cons m ns ih =>
      intro new hn
      rw [List.foldl_cons]
      refine ih _ ?_
      by_cases hm : n = m
      · subst hm
        right
        obtain ⟨r, hr⟩ := Option.isSome_iff_exists.1 (hf new)
        simp [store, hr]
      · rcases hn with hn | hn
        · left
          simpa [hm] using hn
        · right
          simp [store, hm, hn]
  unfold Setup.solveNodes
  split
  · exact key (fun m _ => c.solver s m last) (fun _ => h _ _) _ _ (.inl hn)
  · exact key (fun m new => c.solver s m new) (fun _ => h _ _) _ _ (.inl hn)

end Verif.DistAL
