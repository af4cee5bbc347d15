import Verif.Props.OdeVector
/-!
# C198: differential equations in equation form belong to their own states

The claim would be: `include_equations(der(x) == f, der(z) == g, ...)` gives the states of every equation the
entries of its own right-hand side, and rejects an equation whose sides have different sizes. It is false: the
left-hand sides and the right-hand sides are put together first, and only the totals are compared.
-/
namespace Verif
open SysModel

/-- Both sides of an equation have the same size. -/
def Spec.SidesFit (args : List EqArg) : Prop := ∀ xs es, EqArg.diff xs es ∈ args → xs.length = es.length

/-- What the equations say: each state and the entry of its own equation, in order. -/
def Spec.equationPairs : List EqArg → List (Sym × Expr)
  | [] => []
  | .diff xs es :: l => xs.zip es ++ equationPairs l
  | _ :: l => equationPairs l

namespace DiffEquations

theorem sides {args : List EqArg} (h : Spec.SidesFit args) {a : EqArg} (ha : a ∈ args) :
    a.states.length = a.rhss.length := by
  cases a with
  | diff xs es => exact h xs es ha
  | equality => rfl
  | other => rfl

theorem zip_flat (args : List EqArg) (h : Spec.SidesFit args) :
    (args.flatMap EqArg.states).zip (args.flatMap EqArg.rhss) = Spec.equationPairs args := by
  induction args with
  | nil => rfl
  | cons a l ih =>
    have := ih fun xs es hb => h xs es (by simp [hb])
    simp only [List.flatMap_cons]
    rw [List.zip_append (sides h (by simp)), this]
    cases a <;> rfl

theorem length_flat (args : List EqArg) (h : Spec.SidesFit args) :
    (args.flatMap EqArg.rhss).length = (args.flatMap EqArg.states).length := by
  induction args with
  | nil => rfl
  | cons a l ih =>
    simp only [List.flatMap_cons, List.length_append]
    rw [ih fun xs es hb => h xs es (by simp [hb]), sides h (by simp)]

end DiffEquations

/-- Two equations whose sides do not fit are taken for two other equations whose sides fit: the states `ys` of
the first equation get the beginning `fs` of the right-hand side of the second one. -/
theorem C198_same_fails (xs ys zs : List Sym) (es fs gs : List Expr) :
    includeEquations [.diff (xs ++ ys) es, .diff zs (fs ++ gs)] none none [] =
      includeEquations [.diff (xs ++ ys) (es ++ fs), .diff zs gs] none none [] := by
  simp [includeEquations, includeAlgEquations, includeArgs, includeFromDiff, EqArg.states, EqArg.rhss,
    EqArg.residuals]

/-- Any equations that fit in total are accepted: in a model with at least three states, an equation for two
of them with one right-hand side and one for the third with two give the second state an entry of the equation
of the third. -/
theorem C198_fails (m : SysModel) (a b c : Sym) (e f g : Expr) (hab : a ≠ b) (hbc : b ≠ c)
    (ha : a ∈ m.ode.keys) (hb : b ∈ m.ode.keys) (hc : c ∈ m.ode.keys) :
    ∃ m', includeEquations [.diff [a, b] [e], .diff [c] [f, g]] none none [] m = (.ok (), m') ∧
      ¬ Spec.SidesFit [.diff [a, b] [e], .diff [c] [f, g]] ∧ m'.ode.get? b = some (some f) := by
  have hd := fun s hs => (Dict.has_iff m.ode s).2 hs
  refine ⟨{ m with alg := m.alg, ode := m.ode.update [(a, some e), (b, some f), (c, some g)] }, ?_, ?_, ?_⟩
  · simp [includeEquations, includeAlgEquations, includeArgs, includeFromDiff, includeFromKwargs, EqArg.states,
      EqArg.rhss, EqArg.residuals, Py.bind_eq, Py.modify_bind, hd a ha, hd b hb, hd c hc]
  · intro h
    have := h [a, b] [e] (by simp)
    simp at this
  · rw [Dict.get?_update]
    have h₁ : ¬ c = b := fun h => hbc h.symm
    simp [hab, h₁]

/-- When the sides of every equation fit, every state has the entry of the last equation for it, and the other
states keep theirs. -/
theorem C198_partial (args : List EqArg) (m m' : SysModel) (hf : Spec.SidesFit args)
    (h : includeEquations args none none [] m = (.ok (), m')) (s : Sym) :
    m'.x = m.x ∧
    (∀ e, Spec.lastGiven (Spec.equationPairs args) s = some e → m'.ode.get? s = some (some e)) ∧
    (Spec.lastGiven (Spec.equationPairs args) s = none → m'.ode.get? s = m.ode.get? s) := by
  have := C14_last_given [⟨args, none⟩] m m' (by
    simp only [Py.forEach, Inclusion.run, Option.map_none]
    exact Py.bind_eq_ok.mpr ⟨(), m', h, rfl⟩) s
  simpa [Inclusion.pairs, DiffEquations.zip_flat args hf] using this

/-- When the sides of every equation fit, the equations are accepted exactly when all their states are states
with a place for an equation; otherwise `KeyError`, and no equation of a state changes. -/
theorem C198_accepts_partial (args : List EqArg) (m : SysModel) (hf : Spec.SidesFit args) :
    ((∃ m', includeEquations args none none [] m = (.ok (), m')) ↔
      ∀ xs es, .diff xs es ∈ args → ∀ s ∈ xs, s ∈ m.ode.keys) ∧
    ((∃ xs es, .diff xs es ∈ args ∧ ∃ s ∈ xs, s ∉ m.ode.keys) →
      ∃ m', includeEquations args none none [] m = (.error .keyError, m') ∧ m'.ode = m.ode ∧ m'.x = m.x) := by
  have hl := DiffEquations.length_flat args hf
  have hany : ((args.flatMap EqArg.states).any fun xi => !m.ode.has xi) = true ↔
      ∃ xs es, .diff xs es ∈ args ∧ ∃ s ∈ xs, s ∉ m.ode.keys := by
    simp only [List.any_eq_true, List.mem_flatMap, Bool.not_eq_true', Dict.has_eq_false_iff]
    constructor
    · rintro ⟨s, ⟨a, ha, hs⟩, h⟩
      cases a with
      | diff xs es => exact ⟨xs, es, ha, s, hs, h⟩
      | equality => cases hs
      | other => cases hs
    · rintro ⟨xs, es, ha, s, hs, h⟩
      exact ⟨s, ⟨_, ha, hs⟩, h⟩
  by_cases hk : ∃ xs es, .diff xs es ∈ args ∧ ∃ s ∈ xs, s ∉ m.ode.keys
  · have hrun : ∃ m', includeEquations args none none [] m = (.error .keyError, m') ∧ m'.ode = m.ode ∧
        m'.x = m.x := by
      obtain ⟨xs, es, ha, -⟩ := id hk
      have hpos : 0 < args.length := List.length_pos_of_mem ha
      refine ⟨{ m with alg := m.alg ++ ([] ++ args.flatMap EqArg.residuals) }, ?_, rfl, rfl⟩
      simp only [includeEquations, includeAlgEquations, Py.bind_eq, Py.modify_bind, includeArgs, if_pos hpos,
        includeFromDiff, includeFromKwargs]
      rw [if_neg (by simpa using hl), if_pos (hany.2 hk)]
    refine ⟨⟨?_, ?_⟩, fun _ => hrun⟩
    · rintro ⟨m', h⟩
      obtain ⟨m₂, h₂, -⟩ := hrun
      rw [h] at h₂
      cases h₂
    · intro h
      obtain ⟨xs, es, ha, s, hs, hn⟩ := hk
      exact absurd (h xs es ha s hs) hn
  · refine ⟨⟨fun _ xs es ha s hs => not_not.1 fun hn => hk ⟨xs, es, ha, s, hs, hn⟩, fun _ => ?_⟩, fun h => absurd h hk⟩
    simp only [includeEquations, includeAlgEquations, Py.bind_eq, Py.modify_bind, includeArgs]
    split
    · simp only [includeFromDiff, includeFromKwargs]
      rw [if_neg (by simpa using hl), if_neg fun h => hk (hany.1 h)]
      exact ⟨_, rfl⟩
    · exact ⟨_, rfl⟩

/-- A single equation whose sides do not fit is rejected, and the model is as before. -/
theorem C198_single (m : SysModel) (xs : List Sym) (es : List Expr) (h : es.length ≠ xs.length) :
    includeEquations [.diff xs es] none none [] m = (.error .assertionError, m) := by
  simp [includeEquations, includeAlgEquations, includeArgs, includeFromDiff, includeFromKwargs, EqArg.states,
    EqArg.rhss, EqArg.residuals, Py.bind_eq, Py.modify_bind, h]

/-- Two equations, the first one for a vector of two states. -/
example : includeEquations [.diff [2, 3] [.sym 4, .const 1], .diff [4] [.sym 2]] none none []
    { t := 0, tau := 1, x := [2, 3, 4], ode := [(2, none), (3, none), (4, none)] } =
    (.ok (), { t := 0, tau := 1, x := [2, 3, 4],
               ode := [(2, some (.sym 4)), (3, some (.const 1)), (4, some (.sym 2))] }) := by
  decide +kernel

example : Spec.SidesFit [.diff [2, 3] [.sym 4, .const 1], .diff [4] [.sym 2]] := by
  intro xs es h
  simp only [List.mem_cons, EqArg.diff.injEq, List.not_mem_nil, or_false] at h
  rcases h with ⟨rfl, rfl⟩ | ⟨rfl, rfl⟩ <;> rfl

/-- The same with an entry on the wrong side is accepted and has the same effect. -/
example : includeEquations [.diff [2, 3] [.sym 4], .diff [4] [.const 1, .sym 2]] none none []
    { t := 0, tau := 1, x := [2, 3, 4], ode := [(2, none), (3, none), (4, none)] } =
    (.ok (), { t := 0, tau := 1, x := [2, 3, 4],
               ode := [(2, some (.sym 4)), (3, some (.const 1)), (4, some (.sym 2))] }) := by
  decide +kernel

end Verif
