import Verif.Model.Saving
import Mathlib.Data.List.Basic
/-!
# C203: saving a data set never loses the one saved before

The claim would be: whenever a process is stopped while it saves, the file holds the earlier data set or the new
one; and processes that save to different files do not disturb each other. The file is emptied before anything is
written, so the earlier data set can be lost without the new one being there; and of two processes that find the
directory missing one raises.
-/
namespace Verif
open Saving

namespace Saving

/-- What a call of `save` knows of its file; `old` is what was there before. -/
def Known (old : Option Bytes) (s : Save) (d : Disk) : Prop :=
  match s.stage with
  | .writing rest => ∃ written, s.pieces = written ++ rest ∧ s.position = written.flatten.length ∧
      d.files s.path = some written.flatten
  | .done => d.files s.path = some s.pieces.flatten
  | _ => d.files s.path = old

theorem writeAt_append (w g b : Bytes) : writeAt (w ++ g) w.length b = w ++ b ++ g.drop b.length := by
  by_cases hb : b = []
  · simp [writeAt, hb]
  · simp [writeAt, hb]

theorem writeAt_end (w b : Bytes) : writeAt w w.length b = w ++ b := by
  simpa using writeAt_append w [] b

theorem step_fixed (s : Save) (d : Disk) : (step s d).1.path = s.path ∧ (step s d).1.pieces = s.pieces := by
  unfold step
  split <;> (try split) <;> exact ⟨rfl, rfl⟩

theorem step_inv {old : Option Bytes} {s : Save} {d : Disk} (h : Known old s d) : Known old (step s d).1 (step s d).2 := by
  obtain ⟨path, pieces, stage, pos⟩ := s
  cases stage with
  | start => exact h
  | seen p =>
    cases p with
    | true => exact h
    | false =>
      unfold step
      by_cases hd : d.dir = true
      · simpa [hd, Known] using h
      · simpa [hd, Known] using h
  | ready =>
    unfold step
    by_cases hd : d.dir = true
    · simp only [hd, if_true]
      exact ⟨[], rfl, rfl, by simp [Disk.put]⟩
    · simpa [hd, Known] using h
  | writing rest =>
    obtain ⟨w, hw, hp, hf⟩ := h
    cases rest with
    | nil =>
      show d.files path = some pieces.flatten
      simp only [List.append_nil] at hw
      rw [hw]
      exact hf
    | cons b rest =>
      have hf : d.files path = some w.flatten := hf
      have hp : pos = w.flatten.length := hp
      subst hp
      exact ⟨w ++ [b], by simpa [step] using hw, by simp [step], by
        simp only [step, Disk.put, hf, if_true, Option.getD_some, writeAt_end]
        simp⟩
  | done => exact h
  | raised => exact h

theorem step_other (s : Save) (d : Disk) {q : String} (hq : q ≠ s.path) : (step s d).2.files q = d.files q := by
  unfold step
  split <;> (try split) <;> simp [Disk.put, hq]

theorem inv_other {old : Option Bytes} {s t : Save} {d : Disk} (hp : s.path ≠ t.path) (h : Known old s d) :
    Known old s (step t d).2 := by
  unfold Known at h ⊢
  rw [step_other t d hp]
  exact h

/-- A directory that is there stays. -/
theorem step_dir (s : Save) {d : Disk} (h : d.dir = true) : (step s d).2.dir = true := by
  unfold step
  split <;> (try split) <;> simp_all [Disk.put]

/-- The system calls left in a directory that is there. -/
def left (s : Save) : Nat :=
  match s.stage with
  | .start => s.pieces.length + 4
  | .seen _ => s.pieces.length + 3
  | .ready => s.pieces.length + 2
  | .writing rest => rest.length + 1
  | .done => 0
  | .raised => 0

/-- Not on the way to an exception. -/
def Fine (s : Save) : Prop := s.stage ≠ .raised ∧ s.stage ≠ .seen false

theorem step_fine {s : Save} {d : Disk} (h : d.dir = true) (hs : Fine s) :
    Fine (step s d).1 ∧ left (step s d).1 = left s - 1 := by
  obtain ⟨path, pieces, stage, pos⟩ := s
  unfold Fine at *
  cases stage with
  | start => simp [step, left, h]
  | seen p =>
    cases p with
    | true => simp [step, left]
    | false => exact absurd rfl hs.2
  | ready => simp [step, left, h]
  | writing rest => cases rest <;> simp [step, left]
  | done => simp [step, left]
  | raised => exact absurd rfl hs.1

theorem done_of_left {s : Save} (hs : Fine s) (h : left s = 0) : s.stage = .done := by
  obtain ⟨path, pieces, stage, pos⟩ := s
  cases stage <;> simp_all [left, Fine]

theorem run_keep (n : Nat) (old : Option Bytes) (c : Save × Disk) (h : Known old c.1 c.2) :
    Known old (run n c).1 (run n c).2 ∧ (run n c).1.path = c.1.path ∧ (run n c).1.pieces = c.1.pieces ∧
      ∀ q, q ≠ c.1.path → (run n c).2.files q = c.2.files q := by
  induction n generalizing c with
  | zero => exact ⟨h, rfl, rfl, fun _ _ => rfl⟩
  | succ n ih =>
    obtain ⟨h₁, h₂, h₃, h₄⟩ := ih (step c.1 c.2) (step_inv h)
    have hf := step_fixed c.1 c.2
    refine ⟨h₁, h₂.trans hf.1, h₃.trans hf.2, fun q hq => ?_⟩
    rw [run, h₄ q (by rw [hf.1]; exact hq)]
    exact step_other _ _ hq

theorem run_add (m n : Nat) (c : Save × Disk) : run (m + n) c = run n (run m c) := by
  induction m generalizing c with
  | zero => rw [Nat.zero_add]; rfl
  | succ m ih => rw [Nat.succ_add]; exact ih _

theorem run_fine (n : Nat) (c : Save × Disk) (hd : c.2.dir = true) (hs : Fine c.1) :
    Fine (run n c).1 ∧ left (run n c).1 = left c.1 - n := by
  induction n generalizing c with
  | zero => exact ⟨hs, rfl⟩
  | succ n ih =>
    obtain ⟨h₁, h₂⟩ := step_fine hd hs
    obtain ⟨h₃, h₄⟩ := ih (step c.1 c.2) (step_dir _ hd) h₁
    exact ⟨h₃, by rw [run, h₄, h₂]; omega⟩

/-- The steps of one process in a race. -/
theorem race_first (n : Nat) (l : List Bool) (a b : Save) (d : Disk) :
    race (List.replicate n true ++ l) (a, b, d) = race l ((run n (a, d)).1, b, (run n (a, d)).2) := by
  induction n generalizing a d with
  | zero => rfl
  | succ n ih => exact ih _ _

theorem race_second (n : Nat) (l : List Bool) (a b : Save) (d : Disk) :
    race (List.replicate n false ++ l) (a, b, d) = race l (a, (run n (b, d)).1, (run n (b, d)).2) := by
  induction n generalizing b d with
  | zero => rfl
  | succ n ih => exact ih _ _

/-- All writes and closing, when something else is in the file from the position on. -/
theorem run_writing (rest : List Bytes) (s : Save) (d : Disk) (w g : Bytes) (hs : s.stage = .writing rest)
    (hp : s.position = w.length) (hf : d.files s.path = some (w ++ g)) :
    (run (rest.length + 1) (s, d)).1.stage = .done ∧
      (run (rest.length + 1) (s, d)).2.files s.path =
        some (w ++ rest.flatten ++ g.drop rest.flatten.length) := by
  induction rest generalizing s d w g with
  | nil => simp [run, step, hs, hf]
  | cons b rest ih =>
    have h := ih { s with stage := .writing rest, position := s.position + b.length }
      (d.put s.path (writeAt ((d.files s.path).getD []) s.position b)) (w ++ b) (g.drop b.length) rfl
      (by simp [hp]) (by simp [Disk.put, hf, hp, writeAt_append])
    have hstep : step s d = ({ s with stage := .writing rest, position := s.position + b.length },
        d.put s.path (writeAt ((d.files s.path).getD []) s.position b)) := by
      simp only [step, hs]
    rw [List.length_cons, run, hstep]
    refine ⟨h.1, h.2.trans ?_⟩
    simp [List.drop_drop]

/-- Some of the writes of a call that is alone. -/
theorem run_pieces (x rest : List Bytes) (s : Save) (d : Disk) (w : Bytes) (hs : s.stage = .writing (x ++ rest))
    (hp : s.position = w.length) (hf : d.files s.path = some w) :
    (run x.length (s, d)).1 = { s with stage := .writing rest, position := (w ++ x.flatten).length } ∧
      (run x.length (s, d)).2.dir = d.dir := by
  induction x generalizing s d w with
  | nil =>
    obtain ⟨path, pieces, stage, pos⟩ := s
    simp only at hs hp
    subst hs hp
    simp [run]
  | cons b x ih =>
    have h := ih { s with stage := .writing (x ++ rest), position := s.position + b.length }
      (d.put s.path (writeAt ((d.files s.path).getD []) s.position b)) (w ++ b) rfl
      (by simp [hp]) (by simp [Disk.put, hf, hp, writeAt_end])
    have hstep : step s d = ({ s with stage := .writing (x ++ rest), position := s.position + b.length },
        d.put s.path (writeAt ((d.files s.path).getD []) s.position b)) := by
      simp only [step, hs, List.cons_append]
    rw [List.length_cons, run, hstep]
    refine ⟨h.1.trans ?_, h.2⟩
    simp

/-- Writing nothing and closing. -/
theorem run_nothing (n : Nat) (s : Save) (d : Disk) (f : Bytes) (hs : s.stage = .writing (List.replicate n []))
    (hf : d.files s.path = some f) :
    (run (n + 1) (s, d)).1.stage = .done ∧ (run (n + 1) (s, d)).2.files s.path = some f := by
  induction n generalizing s d with
  | zero => simp [run, step, hs, hf]
  | succ n ih =>
    have hstep : step s d = ({ s with stage := .writing (List.replicate n []), position := s.position + 0 },
        d.put s.path f) := by
      simp [step, hs, List.replicate_succ, hf, writeAt]
    rw [run, hstep]
    exact ih { s with stage := .writing (List.replicate n []), position := s.position + 0 } (d.put s.path f) rfl
      (by simp [Disk.put])

end Saving

/-- The claim is false for every disk with the directory and every data set: there is a point at which the file is
empty, whatever it held. -/
theorem C203_fails (path : String) (pieces : List Bytes) (d : Disk) (hd : d.dir = true) :
    ∃ n, (run n ({ path := path, pieces := pieces }, d)).2.files path = some [] := by
  refine ⟨3, ?_⟩
  simp [run, step, hd, Disk.put]

/-- Wherever a process is stopped, the file is as it was or holds the first pieces of the new data set, and other
files are as they were. -/
theorem C203_point (path : String) (pieces : List Bytes) (d : Disk) (n : Nat) :
    ((run n ({ path := path, pieces := pieces }, d)).2.files path = d.files path ∨
      ∃ k, (run n ({ path := path, pieces := pieces }, d)).2.files path = some (pieces.take k).flatten) ∧
    ∀ q, q ≠ path → (run n ({ path := path, pieces := pieces }, d)).2.files q = d.files q := by
  obtain ⟨h, hp, hc, ho⟩ := run_keep n (d.files path) ({ path := path, pieces := pieces }, d) rfl
  refine ⟨?_, ho⟩
  generalize run n ({ path := path, pieces := pieces }, d) = c at h hp hc
  obtain ⟨⟨p, ps, stage, pos⟩, d'⟩ := c
  simp only at hp hc
  subst hp hc
  cases stage with
  | writing rest =>
    obtain ⟨w, hw, -, hf⟩ := h
    exact .inr ⟨w.length, by simp only at hw; rw [hw, List.take_left]; exact hf⟩
  | done => exact .inr ⟨ps.length, by rw [List.take_length]; exact h⟩
  | start => exact .inl h
  | seen b => exact .inl h
  | ready => exact .inl h
  | raised => exact .inl h

/-- So when no beginning of a pickle can be read but the whole one, loading the file after a stop gives what it
gave before, the new data set, or raises: never another data set. -/
theorem C203_partial {α : Type} (load : Bytes → Option α) (path : String) (pieces : List Bytes) (d : Disk) (n : Nat)
    (hload : ∀ k, (pieces.take k).flatten ≠ pieces.flatten → load (pieces.take k).flatten = none) (b : Bytes)
    (hb : (run n ({ path := path, pieces := pieces }, d)).2.files path = some b) :
    d.files path = some b ∨ load b = load pieces.flatten ∨ load b = none := by
  rcases (C203_point path pieces d n).1 with h | ⟨k, h⟩
  · exact .inl (h.symm.trans hb)
  · have : (pieces.take k).flatten = b := Option.some.inj (h.symm.trans hb)
    by_cases he : (pieces.take k).flatten = pieces.flatten
    · exact .inr (.inl (by rw [← this, he]))
    · exact .inr (.inr (by rw [← this]; exact hload k he))

/-- A process that is not stopped saves the whole data set, whether the directory is there or not. -/
theorem C203_saved (path : String) (pieces : List Bytes) (d : Disk) (n : Nat) (hn : pieces.length + 4 ≤ n) :
    (run n ({ path := path, pieces := pieces }, d)).1.stage = .done ∧
      (run n ({ path := path, pieces := pieces }, d)).2.files path = some pieces.flatten := by
  have hdone : (run n ({ path := path, pieces := pieces }, d)).1.stage = .done := by
    obtain ⟨m, rfl⟩ := Nat.exists_eq_add_of_le (show 2 ≤ n by omega)
    rw [run_add]
    have h₂ : (run 2 ({ path := path, pieces := pieces }, d)).1.stage = .ready ∧
        (run 2 ({ path := path, pieces := pieces }, d)).2.dir = true ∧
        (run 2 ({ path := path, pieces := pieces }, d)).1.pieces = pieces := by
      cases hd : d.dir <;> simp [run, step, hd]
    obtain ⟨hs, hd, hp⟩ := h₂
    have hf : Fine (run 2 ({ path := path, pieces := pieces }, d)).1 := by simp [Fine, hs]
    obtain ⟨h₃, h₄⟩ := run_fine m _ hd hf
    refine done_of_left h₃ ?_
    rw [h₄]
    simp only [left, hs, hp]
    omega
  refine ⟨hdone, ?_⟩
  obtain ⟨h, hp, hc, -⟩ := run_keep n (d.files path) ({ path := path, pieces := pieces }, d) rfl
  unfold Known at h
  rw [hdone, hp, hc] at h
  exact h

/-- Two processes that save to different files of a missing directory: there is an order in which one of them
raises. -/
theorem C203_race_fails (p q : String) (a b : List Bytes) (d : Disk) (hd : d.dir = false) :
    ∃ schedule, (race schedule ({ path := p, pieces := a }, { path := q, pieces := b }, d)).2.1.stage = .raised := by
  refine ⟨[true, false, true, false], ?_⟩
  simp [race, step, hd]

/-- Two processes that save to one file: there is an order in which both come to their end without an exception
and the file holds the second data set followed by the end of the first, if that is longer. -/
theorem C203_same_fails (p : String) (a b : List Bytes) (d : Disk) (hd : d.dir = true) :
    ∃ schedule s t e, race schedule ({ path := p, pieces := a }, { path := p, pieces := b }, d) = (s, t, e) ∧
      s.stage = .done ∧ t.stage = .done ∧
      e.files p = some (b.flatten ++ a.flatten.drop b.flatten.length) := by
  have h₁ : run 3 (({ path := p, pieces := a } : Save), d) =
      ({ path := p, pieces := a, stage := .writing a }, d.put p []) := by simp [run, step, hd]
  have h₂ : run 3 (({ path := p, pieces := b } : Save), d.put p []) =
      ({ path := p, pieces := b, stage := .writing b }, (d.put p []).put p []) := by
    simp [run, step, hd, Disk.put]
  obtain ⟨h₃, h₄⟩ := run_writing a { path := p, pieces := a, stage := .writing a } ((d.put p []).put p []) [] []
    rfl rfl (by simp [Disk.put])
  obtain ⟨h₅, h₆⟩ := run_writing b { path := p, pieces := b, stage := .writing b }
    (run (a.length + 1) ({ path := p, pieces := a, stage := .writing a }, (d.put p []).put p [])).2 [] a.flatten
    rfl rfl (by simpa using h₄)
  refine ⟨List.replicate 3 true ++ (List.replicate 3 false ++ (List.replicate (a.length + 1) true ++
    (List.replicate (b.length + 1) false ++ []))),
    (run (a.length + 1) ({ path := p, pieces := a, stage := .writing a }, (d.put p []).put p [])).1,
    (run (b.length + 1) ({ path := p, pieces := b, stage := .writing b },
      (run (a.length + 1) ({ path := p, pieces := a, stage := .writing a }, (d.put p []).put p [])).2)).1,
    (run (b.length + 1) ({ path := p, pieces := b, stage := .writing b },
      (run (a.length + 1) ({ path := p, pieces := a, stage := .writing a }, (d.put p []).put p [])).2)).2,
    ?_, h₃, h₅, by simpa using h₆⟩
  rw [race_first, race_second, race_first, race_second, h₁]
  simp only [h₂]
  rfl

/-- And when the second process is stopped after it has opened the file, the first one ends without an exception
and the file holds zeros in place of what it had written before. -/
theorem C203_gap_fails (p : String) (x rest b : List Bytes) (c : Bytes) (hc : c ≠ []) (d : Disk) (hd : d.dir = true) :
    ∃ schedule s t e, race schedule ({ path := p, pieces := x ++ c :: rest }, { path := p, pieces := b }, d) =
        (s, t, e) ∧ s.stage = .done ∧
      e.files p = some (List.replicate x.flatten.length 0 ++ c ++ rest.flatten) := by
  have h₁ : run 3 (({ path := p, pieces := x ++ c :: rest } : Save), d) =
      ({ path := p, pieces := x ++ c :: rest, stage := .writing (x ++ c :: rest) }, d.put p []) := by
    simp [run, step, hd]
  obtain ⟨h₂, h₃⟩ := run_pieces x (c :: rest)
    { path := p, pieces := x ++ c :: rest, stage := .writing (x ++ c :: rest) } (d.put p []) [] rfl rfl
    (by simp [Disk.put])
  generalize hr : run x.length (({ path := p, pieces := x ++ c :: rest, stage := .writing (x ++ c :: rest) } : Save),
    d.put p []) = r at h₂ h₃
  have h₄ : run 3 (({ path := p, pieces := b } : Save), r.2) =
      ({ path := p, pieces := b, stage := .writing b }, r.2.put p []) := by
    have : r.2.dir = true := h₃.trans hd
    simp [run, step, this]
  have hw : ∀ k, writeAt [] k c = List.replicate k 0 ++ c := by
    intro k
    simp [writeAt, hc]
  have h₅ : step r.1 (r.2.put p []) = ({ r.1 with stage := .writing rest, position := r.1.position + c.length },
      (r.2.put p []).put p (List.replicate x.flatten.length 0 ++ c)) := by
    rw [h₂]
    simp [step, Disk.put, hw]
  obtain ⟨h₆, h₇⟩ := run_writing rest { r.1 with stage := .writing rest, position := r.1.position + c.length }
    ((r.2.put p []).put p (List.replicate x.flatten.length 0 ++ c)) (List.replicate x.flatten.length 0 ++ c) [] rfl
    (by rw [h₂]; simp) (by rw [h₂]; simp [Disk.put])
  refine ⟨List.replicate 3 true ++ (List.replicate x.length true ++ (List.replicate 3 false ++
    (List.replicate (rest.length + 1 + 1) true ++ []))),
    (run (rest.length + 1 + 1) (r.1, r.2.put p [])).1, { path := p, pieces := b, stage := .writing b },
    (run (rest.length + 1 + 1) (r.1, r.2.put p [])).2, ?_, ?_⟩
  · rw [race_first, h₁, race_first, hr, race_second, h₄, race_first]
    rfl
  · rw [run, h₅]
    refine ⟨h₆, ?_⟩
    have hp : r.1.path = p := by rw [h₂]
    simpa [hp] using h₇

/-- When the second process opens the file after the last byte of the first was written and is stopped then, the
first one ends without an exception and the file is empty. -/
theorem C203_lost_fails (p : String) (x b : List Bytes) (n : Nat) (d : Disk) (hd : d.dir = true) :
    ∃ schedule s t e, race schedule ({ path := p, pieces := x ++ List.replicate n [] }, { path := p, pieces := b }, d) =
        (s, t, e) ∧ s.stage = .done ∧ e.files p = some [] := by
  have h₁ : run 3 (({ path := p, pieces := x ++ List.replicate n [] } : Save), d) =
      ({ path := p, pieces := x ++ List.replicate n [], stage := .writing (x ++ List.replicate n []) }, d.put p []) := by
    simp [run, step, hd]
  obtain ⟨h₂, h₃⟩ := run_pieces x (List.replicate n [])
    { path := p, pieces := x ++ List.replicate n [], stage := .writing (x ++ List.replicate n []) } (d.put p []) []
    rfl rfl (by simp [Disk.put])
  generalize hr : run x.length
    (({ path := p, pieces := x ++ List.replicate n [], stage := .writing (x ++ List.replicate n []) } : Save),
      d.put p []) = r at h₂ h₃
  have h₄ : run 3 (({ path := p, pieces := b } : Save), r.2) =
      ({ path := p, pieces := b, stage := .writing b }, r.2.put p []) := by
    have : r.2.dir = true := h₃.trans hd
    simp [run, step, this]
  have hp : r.1.path = p := by rw [h₂]
  obtain ⟨h₅, h₆⟩ := run_nothing n r.1 (r.2.put p []) [] (by rw [h₂]) (by simp [hp, Disk.put])
  refine ⟨List.replicate 3 true ++ (List.replicate x.length true ++ (List.replicate 3 false ++
    (List.replicate (n + 1) true ++ []))), (run (n + 1) (r.1, r.2.put p [])).1,
    { path := p, pieces := b, stage := .writing b }, (run (n + 1) (r.1, r.2.put p [])).2, ?_, h₅, hp ▸ h₆⟩
  rw [race_first, h₁, race_first, hr, race_second, h₄, race_first]
  rfl

/-- When the directory is there they save both data sets, in any order in which both come to their end. -/
theorem C203_race_partial (p q : String) (hpq : p ≠ q) (a b : List Bytes) (d : Disk) (hd : d.dir = true)
    (schedule : List Bool) (ha : a.length + 4 ≤ schedule.count true) (hb : b.length + 4 ≤ schedule.count false) :
    (race schedule ({ path := p, pieces := a }, { path := q, pieces := b }, d)).2.2.files p = some a.flatten ∧
    (race schedule ({ path := p, pieces := a }, { path := q, pieces := b }, d)).2.2.files q = some b.flatten := by
  have key : ∀ (l : List Bool) (s t : Save) (d : Disk) (o₁ o₂ : Option Bytes), s.path ≠ t.path → d.dir = true →
      Fine s → Fine t → Known o₁ s d → Known o₂ t d → left s ≤ l.count true → left t ≤ l.count false →
      (race l (s, t, d)).2.2.files s.path = some s.pieces.flatten ∧
      (race l (s, t, d)).2.2.files t.path = some t.pieces.flatten := by
    intro l
    induction l with
    | nil =>
      intro s t d o₁ o₂ _ _ hs ht is it ls lt
      have es := done_of_left hs (by simpa using ls)
      have et := done_of_left ht (by simpa using lt)
      unfold Known at is it
      rw [es] at is
      rw [et] at it
      exact ⟨is, it⟩
    | cons x l ih =>
      intro s t d o₁ o₂ hne hd hs ht is it ls lt
      cases x with
      | true =>
        obtain ⟨f₁, f₂⟩ := step_fixed s d
        obtain ⟨g₁, g₂⟩ := step_fine hd hs
        have := ih (step s d).1 t (step s d).2 o₁ o₂ (by rw [f₁]; exact hne) (step_dir s hd) g₁ ht (step_inv is)
          (inv_other (Ne.symm hne) it) (by rw [g₂]; simp at ls; omega) (by simpa using lt)
        rw [f₁, f₂] at this
        exact this
      | false =>
        obtain ⟨f₁, f₂⟩ := step_fixed t d
        obtain ⟨g₁, g₂⟩ := step_fine hd ht
        have := ih s (step t d).1 (step t d).2 o₁ o₂ (by rw [f₁]; exact hne) (step_dir t hd) hs g₁
          (inv_other hne is) (step_inv it) (by simpa using ls) (by rw [g₂]; simp at lt; omega)
        rw [f₁, f₂] at this
        exact this
  exact key schedule { path := p, pieces := a } { path := q, pieces := b } d (d.files p) (d.files q) hpq hd
    (by simp [Fine]) (by simp [Fine]) rfl rfl ha hb

/-- A file with an earlier data set, stopped after the first of two pieces: neither is there. -/
example : (run 4 ({ path := "r.p", pieces := [[1, 2], [3, 0]] },
    { dir := true, files := fun _ => some [9, 0] })).2.files "r.p" = some [1, 2] := by decide +kernel

/-- Pickles that end with a stop sign cannot be read in part. -/
example : ∀ k, ([[1, 2], [3, 0]].take k).flatten ≠ [1, 2, 3, 0] →
    (fun b : Bytes => if b.getLast? = some 0 then some b else none) ([[1, 2], [3, 0]].take k).flatten = none := by
  intro k h
  match k with
  | 0 => rfl
  | 1 => rfl
  | k + 2 => simp at h

example : (race (List.replicate 6 true ++ List.replicate 5 false) ({ path := "a", pieces := [[1], [0]] },
    { path := "b", pieces := [[0]] }, { dir := true, files := fun _ => none })).2.2.files "a" = some [1, 0] :=
  (C203_race_partial "a" "b" (by decide) [[1], [0]] [[0]] _ rfl _ (by decide) (by decide)).1

end Verif
