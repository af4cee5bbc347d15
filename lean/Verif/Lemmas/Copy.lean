import Verif.Model.Copy
import Verif.Lemmas.SystemModel
/-! Lemmas on aliasing of models. -/
namespace Verif
open SysModel

/-- The two objects hold different dictionaries. -/
structure Separate (w : World) : Prop where
  ne : (w.obj false).cell ≠ (w.obj true).cell
  valid : ∀ b, (w.obj b).cell < w.heap.length

theorem Separate.cells (w : World) (h : Separate w) (b : Bool) :
    (w.obj b).cell ≠ (w.obj (!b)).cell := by
  cases b
  · exact h.ne
  · exact h.ne.symm

theorem effect_separate (b : Bool) (e : Effect) (w : World) (h : Separate w) :
    Separate (e.apply b w) ∧ (e.apply b w).view (!b) = w.view (!b) := by
  have hv := h.valid
  have hcell := h.cells w b
  have hv2 := hv (!b)
  cases e with
  | assign m =>
    refine ⟨⟨?_, fun c => ?_⟩, ?_⟩
    · cases b <;> exact h.ne
    · have := hv c
      simp only [Effect.apply, World.setObj]
      split
      · next hc => exact hc ▸ this
      · exact this
    · simp [Effect.apply, World.setObj, World.view]
  | mutate d =>
    refine ⟨⟨h.ne, fun c => by simpa [Effect.apply] using hv c⟩, ?_⟩
    simp [Effect.apply, World.view, List.getElem?_set_ne hcell]
  | rebind d =>
    refine ⟨⟨?_, fun c => ?_⟩, ?_⟩
    · have h0 := hv false
      have h1 := hv true
      cases b
      · simp only [Effect.apply, World.setObj]; simp; omega
      · simp only [Effect.apply, World.setObj]; simp; omega
    · have := hv c
      simp only [Effect.apply, World.setObj, List.length_append, List.length_cons,
        List.length_nil]
      split
      · simp
      · simp; omega
    · simp [Effect.apply, World.setObj, World.view, List.getElem?_append_left hv2]

theorem effects_separate (b : Bool) (es : List Effect) (w : World) (h : Separate w) :
    Separate (es.foldl (fun w e => e.apply b w) w) ∧
      (es.foldl (fun w e => e.apply b w) w).view (!b) = w.view (!b) := by
  induction es generalizing w with
  | nil => exact ⟨h, rfl⟩
  | cons e es ih =>
    obtain ⟨h₁, h₂⟩ := effect_separate b e w h
    obtain ⟨h₃, h₄⟩ := ih _ h₁
    exact ⟨h₃, h₄.trans h₂⟩

theorem view_assign (b : Bool) (m : SysModel) (w : World) :
    ((Effect.assign m).apply b w).view b = { m with ode := (w.view b).ode } := by
  simp [Effect.apply, World.setObj, World.view]

theorem view_mutate (b : Bool) (d : Table) (w : World) (h : (w.obj b).cell < w.heap.length) :
    ((Effect.mutate d).apply b w).view b = { w.view b with ode := d } := by
  simp [Effect.apply, World.view, h]

theorem view_rebind (b : Bool) (d : Table) (w : World) :
    ((Effect.rebind d).apply b w).view b = { w.view b with ode := d } := by
  simp [Effect.apply, World.setObj, World.view]

/-- Calls without a table effect do not change the table. -/
theorem no_table_effect (c : Call) (m : SysModel) (h : ∀ m', tableEffects c m m' = []) :
    (c.run m).2.ode = m.ode := by
  have keep : ∀ {α} {f : Py SysModel α} {d : Table},
      Py.Always (fun m => m.ode = d) f → ∀ m, m.ode = d → (f m).2.ode = d := fun h m hm => h m hm
  cases c with
  | includeAlgebraic v a =>
    cases a with
    | none => simp [Call.run, includeAlgebraic]
    | some a => simp [Call.run, includeAlgebraic, includeEquations_alg]
  | removeAlgebraic v e =>
    refine keep (d := m.ode) ?_ m rfl
    simp only [Call.run, removeAlgebraic]
    py_always []
  | includeControl v => rfl
  | removeControl v =>
    refine keep (d := m.ode) ?_ m rfl
    simp only [Call.run, removeControl]
    py_always []
  | includeParameter v => rfl
  | removeParameter v =>
    refine keep (d := m.ode) ?_ m rfl
    simp only [Call.run, removeParameter]
    py_always []
  | includeTheta v => rfl
  | removeTheta v =>
    refine keep (d := m.ode) ?_ m rfl
    simp only [Call.run, removeTheta]
    py_always []
  | includeState v o x f => cases o <;> exact absurd (h m) (by simp [tableEffects])
  | _ => exact absurd (h m) (by simp [tableEffects])

/-- A method called on an object changes what the object reads as exactly as in the model without
heap. -/
theorem view_call (w : World) (h : Separate w) (b : Bool) (c : Call) :
    (w.call b c).view b = (c.run (w.view b)).2 := by
  have hv := h.valid b
  have hlast : ∀ (w : World) (m m' : SysModel) (es : List Effect) (last : Effect),
      Separate w → w.view b = { m with ode := (w.view b).ode } →
      (last = .mutate m.ode ∨ last = .rebind m.ode) →
      (∀ e ∈ es, ∃ d, e = .mutate d) →
      ((es ++ [last]).foldl (fun w e => e.apply b w) w).view b = m := by
    intro w m m' es
    induction es generalizing w with
    | nil =>
      intro last hw hm hl _
      rcases hl with rfl | rfl
      · rw [List.nil_append, List.foldl_cons, List.foldl_nil, view_mutate b _ w (hw.valid b), hm]
      · rw [List.nil_append, List.foldl_cons, List.foldl_nil, view_rebind, hm]
    | cons e es ih =>
      intro last hw hm hl he
      obtain ⟨d, rfl⟩ := he e (by simp)
      refine ih _ last (effect_separate b _ w hw).1 ?_ hl fun e he' => he e (by simp [he'])
      rw [view_mutate b d w (hw.valid b), hm]
  have hstep : ∀ (es : List Effect) (last : Effect),
      tableEffects c (w.view b) (c.run (w.view b)).2 = es ++ [last] →
      (last = .mutate (c.run (w.view b)).2.ode ∨ last = .rebind (c.run (w.view b)).2.ode) →
      (∀ e ∈ es, ∃ d, e = .mutate d) → (w.call b c).view b = (c.run (w.view b)).2 := by
    intro es last he hl hes
    rw [World.call, effects, he, List.foldl_cons]
    refine hlast _ _ (w.view b) es last (effect_separate b _ w h).1 ?_ hl hes
    rw [view_assign]
  have hone : ∀ (last : Effect), tableEffects c (w.view b) (c.run (w.view b)).2 = [last] →
      (last = .mutate (c.run (w.view b)).2.ode ∨ last = .rebind (c.run (w.view b)).2.ode) →
      (w.call b c).view b = (c.run (w.view b)).2 :=
    fun last he hl => hstep [] last he hl (by simp)
  have hnone : (∀ m', tableEffects c (w.view b) m' = []) →
      (w.call b c).view b = (c.run (w.view b)).2 := by
    intro hn
    rw [World.call, effects, hn, List.foldl_cons, List.foldl_nil, view_assign,
      ← no_table_effect c _ hn]
  cases c with
  | includeState v o x f =>
    cases o with
    | none => exact hstep [_] _ rfl (.inl rfl) (by simp)
    | some e => exact hstep [_] _ rfl (.inr rfl) (by simp)
  | includeVariables => exact hone _ rfl (.inl rfl)
  | removeState => exact hone _ rfl (.inl rfl)
  | replaceVariable => exact hone _ rfl (.inl rfl)
  | parametrizeControl => exact hone _ rfl (.inl rfl)
  | connect => exact hone _ rfl (.inl rfl)
  | includeEquations => exact hone _ rfl (.inr rfl)
  | includeModels => exact hstep [_] _ rfl (.inr rfl) (by simp)
  | merge => exact hstep [_] _ rfl (.inr rfl) (by simp)
  | _ => exact hnone fun _ => rfl

theorem separate_getCopy (w : World) (h : (w.obj false).cell < w.heap.length) :
    Separate w.getCopy := by
  refine ⟨?_, fun b => ?_⟩
  · simp [World.getCopy, World.setObj]; omega
  · cases b <;> simp [World.getCopy, World.setObj]; omega

end Verif
