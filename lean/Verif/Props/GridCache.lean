import Verif.Model.GridCache
import Verif.Lemmas.Py
import Verif.Spec.Ocp
import Mathlib.Data.Rat.Defs
import Mathlib.Algebra.Field.Rat
import Mathlib.Tactic.FieldSimp
import Mathlib.Tactic.Ring
import Mathlib.Tactic.Linarith
/-!
# C195: the grid follows the horizon and the number of elements
-/
namespace Verif
open Spec GridCache

/-- The grid from 0 with `n` steps of the length `len / n`. -/
def Spec.evenGrid (len : Rat) (n : Nat) : List Rat :=
  (List.range (n + 1)).map fun (k : Nat) => len / n * k

/-- The times of the points `taus` inside the steps of that grid. -/
def Spec.evenTimes (len : Rat) (n : Nat) (taus : List Rat) : List (List Rat) :=
  (List.range n).map fun (k : Nat) => taus.map fun tau => len / n * (k + tau)

/-- What is read belongs to the present horizon and number of elements. -/
def Spec.GridUpToDate (g : Grid) : Prop :=
  0 < g.elements →
    (breakpoints g).1 = .ok (evenGrid (g.tf - g.t0) g.elements) ∧
    (∀ taus, (pointTimes taus g).1 = .ok (evenTimes (g.tf - g.t0) g.elements taus)) ∧
    (controlTimes g).1 = .ok (evenTimes (g.tf - g.t0) g.elements g.taus)

/-- Nothing has been read. -/
def Spec.Unread (g : Grid) : Prop := g.points = none ∧ g.controls = none

/-- A change of the horizon or the number of elements. -/
def Spec.changesGrid : GridCache.Call → Bool
  | .setT0 _ | .setTf _ | .setElements _ => true
  | _ => false

namespace GridCache

/-- What is cached belongs to the present horizon and number of elements. -/
def Fresh (g : Grid) : Prop :=
  (∀ l, g.points = some l → l = evenGrid (g.tf - g.t0) g.elements) ∧
  ∀ l, g.controls = some l → l = evenTimes (g.tf - g.t0) g.elements g.taus

/-- The same horizon and number of elements. -/
def SameMesh (g g' : Grid) : Prop :=
  g'.t0 = g.t0 ∧ g'.tf = g.tf ∧ g'.elements = g.elements ∧ g'.taus = g.taus

theorem deltaT_ok {g : Grid} (h : 0 < g.elements) :
    deltaT g = (.ok ((g.tf - g.t0) / g.elements), g) := by
  unfold deltaT
  rw [if_neg (Nat.pos_iff_ne_zero.mp h)]

theorem deltaT_zero {g : Grid} (h : g.elements = 0) : deltaT g = (.error .exception, g) := by
  unfold deltaT
  rw [if_pos h]

theorem breakpoints_ok {g : Grid} (hf : Fresh g) (h : 0 < g.elements) :
    ∃ g', breakpoints g = (.ok (evenGrid (g.tf - g.t0) g.elements), g') ∧ SameMesh g g' ∧ Fresh g' ∧
      g'.points = some (evenGrid (g.tf - g.t0) g.elements) ∧ g'.controls = g.controls := by
  unfold breakpoints
  cases hp : g.points with
  | some l =>
    obtain rfl := hf.1 l hp
    exact ⟨g, rfl, ⟨rfl, rfl, rfl, rfl⟩, hf, hp, rfl⟩
  | none =>
    refine ⟨{ g with points := some (evenGrid (g.tf - g.t0) g.elements) }, ?_, ⟨rfl, rfl, rfl, rfl⟩,
      ⟨fun l hl => (Option.some.inj hl).symm, hf.2⟩, rfl, rfl⟩
    show computePoints g = _
    unfold computePoints
    simp only [Py.bind_eq]
    rw [Py.bind_ok (deltaT_ok h)]
    rfl

theorem dropLast_evenGrid (len : Rat) (n : Nat) (taus : List Rat) :
    ((evenGrid len n).dropLast.map fun t => taus.map fun tau => t + len / n * tau) =
      evenTimes len n taus := by
  unfold evenGrid evenTimes
  rw [List.range_succ, List.map_append, List.map_singleton, List.dropLast_concat, List.map_map]
  refine List.map_congr_left fun k _ => ?_
  simp only [Function.comp]
  exact List.map_congr_left fun tau _ => by ring

theorem pointTimes_ok {g : Grid} (taus : List Rat) (hf : Fresh g) (h : 0 < g.elements) :
    ∃ g', pointTimes taus g = (.ok (evenTimes (g.tf - g.t0) g.elements taus), g') ∧ SameMesh g g' ∧
      Fresh g' ∧ g'.controls = g.controls := by
  obtain ⟨g', h₁, hm, hf', -, hc⟩ := breakpoints_ok hf h
  refine ⟨g', ?_, hm, hf', hc⟩
  unfold pointTimes
  simp only [Py.bind_eq]
  rw [Py.bind_ok h₁, Py.bind_ok (deltaT_ok (hm.2.2.1 ▸ h))]
  rw [hm.1, hm.2.1, hm.2.2.1]
  exact congrArg (fun l => (Except.ok l, g')) (dropLast_evenGrid _ _ _)

theorem controlTimes_ok {g : Grid} (hf : Fresh g) (h : 0 < g.elements) :
    ∃ g', controlTimes g = (.ok (evenTimes (g.tf - g.t0) g.elements g.taus), g') ∧ SameMesh g g' ∧
      Fresh g' := by
  unfold controlTimes
  cases hp : g.controls with
  | some l =>
    obtain rfl := hf.2 l hp
    exact ⟨g, rfl, ⟨rfl, rfl, rfl, rfl⟩, hf⟩
  | none =>
    obtain ⟨g', h₁, hm, hf', hc⟩ := pointTimes_ok g.taus hf h
    refine ⟨{ g' with controls := some (evenTimes (g.tf - g.t0) g.elements g.taus) }, ?_, hm, ?_⟩
    · show computeControls g = _
      unfold computeControls
      simp only [Py.bind_eq, Py.get_bind]
      rw [Py.bind_ok h₁]
      rfl
    · refine ⟨hf'.1, fun l hl => ?_⟩
      obtain rfl := Option.some.inj hl
      show _ = evenTimes (g'.tf - g'.t0) g'.elements g'.taus
      rw [hm.1, hm.2.1, hm.2.2.1, hm.2.2.2]

theorem Fresh.upToDate {g : Grid} (hf : Fresh g) : GridUpToDate g := by
  intro h
  obtain ⟨_, h₁, -⟩ := breakpoints_ok hf h
  obtain ⟨_, h₃, -⟩ := controlTimes_ok hf h
  refine ⟨by rw [h₁], fun taus => ?_, by rw [h₃]⟩
  obtain ⟨_, h₂, -⟩ := pointTimes_ok taus hf h
  rw [h₂]

/-- Reading does not change the number of elements. -/
theorem always_elements {n : Nat} (c : Call) (hc : changesGrid c = false) :
    Py.Always (fun g => g.elements = n) c.run := by
  have h₁ : Py.Always (fun g : Grid => g.elements = n) deltaT := by
    intro g hg
    unfold deltaT
    split <;> exact hg
  have h₂ : Py.Always (fun g : Grid => g.elements = n) breakpoints := by
    intro g hg
    unfold breakpoints
    split
    · exact hg
    · have : Py.Always (fun g : Grid => g.elements = n) computePoints := by
        unfold computePoints
        py_always [h₁]
      exact this g hg
  have h₃ : ∀ taus, Py.Always (fun g : Grid => g.elements = n) (pointTimes taus) := by
    intro taus
    unfold pointTimes
    py_always [h₁, h₂]
  have h₄ : Py.Always (fun g : Grid => g.elements = n) controlTimes := by
    intro g hg
    unfold controlTimes
    split
    · exact hg
    · have : Py.Always (fun g : Grid => g.elements = n) computeControls := by
        unfold computeControls
        py_always [h₃]
      exact this g hg
  cases c with
  | setT0 | setTf | setElements => cases hc
  | readPoints => exact Py.Always.bind h₂ fun _ => Py.Always.pure _
  | readTimes taus => exact Py.Always.bind (h₃ taus) fun _ => Py.Always.pure _
  | readControls => exact Py.Always.bind h₄ fun _ => Py.Always.pure _

theorem read_fresh (c : Call) (hc : changesGrid c = false) {g : Grid} (hf : Fresh g)
    (h : 0 < g.elements) : Fresh (c.run g).2 := by
  cases c with
  | setT0 | setTf | setElements => cases hc
  | readPoints =>
    obtain ⟨g', h₁, -, hf', -⟩ := breakpoints_ok hf h
    simp only [Call.run]
    rw [Py.bind_ok h₁]
    exact hf'
  | readTimes taus =>
    obtain ⟨g', h₁, -, hf', -⟩ := pointTimes_ok taus hf h
    simp only [Call.run]
    rw [Py.bind_ok h₁]
    exact hf'
  | readControls =>
    obtain ⟨g', h₁, -, hf'⟩ := controlTimes_ok hf h
    simp only [Call.run]
    rw [Py.bind_ok h₁]
    exact hf'

theorem reads_fresh (reads : List Call) (hr : ∀ c ∈ reads, changesGrid c = false) (g : Grid)
    (hf : Fresh g) : GridUpToDate (runHistory (fun c => Py.stateAfter c.run) reads g) := by
  rcases Nat.eq_zero_or_pos g.elements with h | h
  · intro hpos
    have : (runHistory (fun (c : Call) => Py.stateAfter c.run) reads g).elements = 0 := by
      clear hf hpos
      induction reads generalizing g with
      | nil => exact h
      | cons c cs ih =>
        exact ih (fun c hc => hr c (List.mem_cons_of_mem _ hc)) _
          (always_elements c (hr c List.mem_cons_self) g h)
    exact absurd hpos (by rw [this]; exact Nat.lt_irrefl 0)
  · induction reads generalizing g with
    | nil => exact hf.upToDate
    | cons c cs ih =>
      exact ih (fun c hc => hr c (List.mem_cons_of_mem _ hc)) _
        (read_fresh c (hr c List.mem_cons_self) hf h)
        (by
          have := always_elements c (hr c List.mem_cons_self) g rfl
          exact this ▸ h)

theorem changes_unread (changes : List Call) (hc : ∀ c ∈ changes, changesGrid c = true) (g : Grid)
    (hg : Unread g) : Unread (runHistory (fun c => Py.stateAfter c.run) changes g) := by
  induction changes generalizing g with
  | nil => exact hg
  | cons c cs ih =>
    refine ih (fun c h => hc c (List.mem_cons_of_mem _ h)) _ ?_
    have := hc c List.mem_cons_self
    cases c with
    | setT0 => exact hg
    | setTf => exact hg
    | setElements => exact hg
    | readPoints | readTimes | readControls => cases this

end GridCache

/-- C195, proved part. As long as all changes of the horizon and of the number of elements come before
the first reading, everything that is read belongs to the present horizon and number of elements. -/
theorem C195_partial (changes reads : List GridCache.Call) (g : Grid) (hg : Unread g)
    (hc : ∀ c ∈ changes, changesGrid c = true) (hr : ∀ c ∈ reads, changesGrid c = false) :
    GridUpToDate (runHistory (fun c => Py.stateAfter c.run) reads
      (runHistory (fun c => Py.stateAfter c.run) changes g)) := by
  have := GridCache.changes_unread changes hc g hg
  refine GridCache.reads_fresh reads hr _ ⟨fun l hl => ?_, fun l hl => ?_⟩
  · rw [this.1] at hl; cases hl
  · rw [this.2] at hl; cases hl

/-- C195 is false. Once the breakpoints have been read, a change of the end of the horizon changes the
length of an element but not the breakpoints: these end where the horizon ended before, and no element
between two of them has the length of an element. -/
theorem C195_fails (g : Grid) (hg : Unread g) (h : 0 < g.elements) (t : Rat) (ht : t ≠ g.tf) :
    let g' := runHistory (fun c => Py.stateAfter c.run) [GridCache.Call.readPoints, .setTf t] g
    (breakpoints g').1 = .ok (evenGrid (g.tf - g.t0) g.elements) ∧
    (deltaT g').1 = .ok ((t - g.t0) / g.elements) ∧
    (t - g.t0) / g.elements ≠ (g.tf - g.t0) / g.elements ∧
    (evenGrid (g.tf - g.t0) g.elements).getLast? = some (g.tf - g.t0) ∧
    (breakpoints g').1 ≠ .ok (evenGrid (t - g.t0) g.elements) ∧ ¬ GridUpToDate g' := by
  have hf : GridCache.Fresh g :=
    ⟨fun l hl => (by rw [hg.1] at hl; cases hl), fun l hl => (by rw [hg.2] at hl; cases hl)⟩
  obtain ⟨g₁, h₁, hm, -, hp, -⟩ := GridCache.breakpoints_ok hf h
  have hrun : runHistory (fun c => Py.stateAfter c.run) [GridCache.Call.readPoints, .setTf t] g =
      { g₁ with tf := t } := by
    show { (Py.bind breakpoints (fun _ => Py.pure ()) g).2 with tf := t } = _
    rw [Py.bind_ok h₁]
    rfl
  have hn : (g.elements : Rat) ≠ 0 := Nat.cast_ne_zero.mpr (Nat.pos_iff_ne_zero.mp h)
  have hread : breakpoints { g₁ with tf := t } =
      (.ok (evenGrid (g.tf - g.t0) g.elements), { g₁ with tf := t }) := by
    unfold breakpoints
    rw [hp]
  have hne : (t - g.t0) / g.elements ≠ (g.tf - g.t0) / g.elements := by
    intro he
    apply ht
    have := (div_left_inj' hn).mp he
    linarith
  have hlast : ∀ len : Rat, (evenGrid len g.elements).getLast? = some len := by
    intro len
    unfold evenGrid
    rw [List.range_succ, List.map_append, List.map_singleton, List.getLast?_concat]
    congr 1
    field_simp
  have hdiff : evenGrid (g.tf - g.t0) g.elements ≠ evenGrid (t - g.t0) g.elements := by
    intro he
    have := congrArg List.getLast? he
    rw [hlast, hlast] at this
    have := Option.some.inj this
    apply ht
    linarith
  intro g'
  have hg' : g' = { g₁ with tf := t } := hrun
  rw [hg']
  refine ⟨by rw [hread], ?_, hne, hlast _, ?_, ?_⟩
  · rw [GridCache.deltaT_ok (show 0 < ({ g₁ with tf := t } : Grid).elements from hm.2.2.1 ▸ h)]
    simp only [hm.1, hm.2.2.1]
  · rw [hread]
    exact fun he => hdiff (Except.ok.inj he)
  · intro hu
    have := (hu (show 0 < ({ g₁ with tf := t } : Grid).elements from hm.2.2.1 ▸ h)).1
    rw [hread] at this
    simp only [hm.1, hm.2.2.1] at this
    exact hdiff (Except.ok.inj this)

/-- C195 is false for the number of elements too: once the breakpoints have been read their number does
not change any more. -/
theorem C195_elements_fails (g : Grid) (hg : Unread g) (h : 0 < g.elements) (n : Nat) :
    ∃ l, (breakpoints (runHistory (fun c => Py.stateAfter c.run)
        [GridCache.Call.readPoints, .setElements n] g)).1 = .ok l ∧ l.length = g.elements + 1 := by
  have hf : GridCache.Fresh g :=
    ⟨fun l hl => (by rw [hg.1] at hl; cases hl), fun l hl => (by rw [hg.2] at hl; cases hl)⟩
  obtain ⟨g₁, h₁, hm, -, hp, -⟩ := GridCache.breakpoints_ok hf h
  have hrun : runHistory (fun c => Py.stateAfter c.run) [GridCache.Call.readPoints, .setElements n] g =
      { g₁ with elements := n } := by
    show { (Py.bind breakpoints (fun _ => Py.pure ()) g).2 with elements := n } = _
    rw [Py.bind_ok h₁]
    rfl
  refine ⟨evenGrid (g.tf - g.t0) g.elements, ?_, by simp [evenGrid]⟩
  rw [hrun]
  unfold breakpoints
  rw [hp]

/-- The hypotheses are met, and what is read: four elements on [0, 2], then the horizon is doubled. -/
example :
    let g : Grid := { t0 := 0, tf := 2, elements := 4, taus := [0] }
    Unread g ∧ (breakpoints g).1 = .ok [0, 1 / 2, 1, 3 / 2, 2] ∧
    (breakpoints (runHistory (fun c => Py.stateAfter c.run) [GridCache.Call.readPoints, .setTf 4] g)).1 =
      .ok [0, 1 / 2, 1, 3 / 2, 2] ∧
    (breakpoints (runHistory (fun c => Py.stateAfter c.run) [GridCache.Call.setTf 4] g)).1 =
      .ok [0, 1, 2, 3, 4] := by
  refine ⟨⟨rfl, rfl⟩, ?_⟩
  decide +kernel

end Verif
