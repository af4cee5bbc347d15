import Verif.Lemmas.Controls
import Verif.Spec.Calls
/-!
# C15: controls and their expressions
-/
namespace Verif
open SysModel

/-- C15. In every history of control calls (the caller may catch exceptions and go on) the control
vector and the expression vector have the same length, and a control that has not been
parametrised has itself as expression. -/
theorem C15_controls_aligned (t tau : Sym) (calls : List Call)
    (hc : ∀ c ∈ calls, Call.isControlCall c = true) :
    let m := runHistory (fun c => Py.stateAfter (Call.run c)) calls (SysModel.new t tau)
    m.u.length = m.uExpr.length ∧
    ∀ i (h₁ : i < m.u.length) (h₂ : i < m.uExpr.length),
      m.u[i] ∉ m.parametrized → m.uExpr[i] = .sym m.u[i] := by
  have key : ∀ (calls : List Call) (m : SysModel), (∀ c ∈ calls, Call.isControlCall c = true) →
      ControlsOk m → ControlsOk (runHistory (fun c => Py.stateAfter (Call.run c)) calls m) := by
    intro calls
    induction calls with
    | nil => intro m _ h; exact h
    | cons c calls ih =>
      intro m hc h
      exact ih _ (fun c hm => hc c (by simp [hm])) (controls_call c (hc c (by simp)) m h)
  have hok := key calls (SysModel.new t tau) hc .nil
  intro m
  refine ⟨hok.length_eq, fun i h₁ h₂ hp => ?_⟩
  exact (List.forall₂_iff_get.mp hok).2 i h₁ h₂ hp

/-- C15. Parametrising again: if any of the controls is parametrised already (or listed twice), or
the sizes differ, the call raises `ValueError` and the control vector, the expression vector, the
parameters and the equations are what they were. -/
theorem C15_second_parametrisation (u : List Sym) (e : List Expr) (up : Option (List Sym))
    (m : SysModel)
    (h : u.length ≠ e.length ∨ ¬ u.Nodup ∨ ∃ s ∈ u, s ∈ m.parametrized) :
    let r := parametrizeControl u e up m
    r.1 = .error .valueError ∧ r.2.u = m.u ∧ r.2.uExpr = m.uExpr ∧ r.2.uPar = m.uPar ∧
      r.2.ode = m.ode ∧ r.2.alg = m.alg := by
  simp only [parametrize_run]
  by_cases h₀ : u.length = e.length
  · rw [if_neg (not_not.mpr h₀), if_pos]
    · obtain ⟨pre, hpre, _⟩ := register_loop u m
      simp only [hpre, and_self]
    · rintro ⟨hn, hp⟩
      rcases h with h | h | ⟨s, hs, hsp⟩
      · exact h h₀
      · exact h hn
      · exact hp s hs hsp
  · rw [if_pos h₀]
    simp

/-- C15. A first parametrisation of controls that are free parameters succeeds, registers them,
and replaces them by the expressions in the expression vector. -/
theorem C15_first_parametrisation (u : List Sym) (e : List Expr) (up : List Sym) (m : SysModel)
    (hlen : u.length = e.length) (hn : u.Nodup) (hp : ∀ s ∈ u, s ∉ m.parametrized)
    (hfree : ∃ s ∈ u, s ∈ m.uPar) :
    ∃ m', parametrizeControl u e (some up) m = (.ok (), m') ∧
      m'.parametrized = m.parametrized ++ u ∧ m'.u = m.u ∧
      m'.uPar = (m.uPar.filter fun a => decide (a ∉ u)) ++ up ∧
      m'.uExpr.length = m.uExpr.length ∧
      (∀ i j, (hi : i < u.length) → (hj : j < m.uExpr.length) →
        m.uExpr[j] = .sym u[i] → m'.uExpr[j]? = e[i]?) ∧
      (∀ j s, (hj : j < m.uExpr.length) → m.uExpr[j] = .sym s → s ∉ u →
        m'.uExpr[j]? = some (.sym s)) := by
  rw [parametrize_run, if_neg (not_not.mpr hlen), if_neg (not_not.mpr ⟨hn, hp⟩),
    if_neg (not_not.mpr hfree), replaceVariable, if_neg (not_not.mpr hlen)]
  refine ⟨_, rfl, rfl, rfl, rfl, by simp, fun i j hi hj hs => ?_, fun j s hj hs hsu => ?_⟩
  · simp only [List.getElem?_map, List.getElem?_eq_getElem hj, hs, Option.map_some]
    have := Expr.replacementOf_get u e hn i hi (hlen ▸ hi)
    simp only [Expr.subst, Expr.mapSyms, this]
    rw [List.getElem?_eq_getElem (hlen ▸ hi)]
  · simp only [List.getElem?_map, List.getElem?_eq_getElem hj, hs, Option.map_some]
    simp [Expr.subst, Expr.mapSyms, Expr.replacementOf_not_mem u e s hsu]

/-- A finding next to C15: the rejected call is not without effect. Asking for `[a, b]` when `b` is
parametrised registers `a`, and from then on `a` itself can not be parametrised. -/
theorem C15_rejected_call_blocks_others : ∃ (m : SysModel),
    m.uExpr = [.sym 2, .sym 9] ∧ m.u = [2, 3] ∧ m.parametrized = [3] ∧
    (parametrizeControl [2] [.sym 7] (some [7]) m).1 = .ok () ∧
    (parametrizeControl [2]  [.sym 7] (some [7])
      (Py.stateAfter (parametrizeControl [2, 3] [.sym 7, .sym 8] none) m)).1 =
        .error .valueError :=
  ⟨{ t := 0, tau := 1, u := [2, 3], uExpr := [.sym 2, .sym 9], uPar := [2, 9],
     parametrized := [3] }, rfl, rfl, rfl, by decide +kernel, by decide +kernel⟩

/-- Non-vacuity: a history with a parametrisation, a failing second one and a removal. -/
example :
    runHistory (fun c => Py.stateAfter (Call.run c))
      [.includeControl [2, 3, 4], .parametrizeControl [3] [.add (.sym 9) (.sym 10)] (some [9, 10]),
       .parametrizeControl [3] [.sym 11] none, .removeControl [2]] (SysModel.new 0 1) =
    { t := 0, tau := 1, u := [3, 4], uExpr := [.add (.sym 9) (.sym 10), .sym 4],
      uPar := [4, 9, 10], parametrized := [3] } := by decide +kernel

end Verif
