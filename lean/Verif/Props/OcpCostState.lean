import Verif.Props.OcpCost
import Mathlib.MeasureTheory.Integral.IntervalIntegral.FundThmCalculus
import Mathlib.Analysis.Calculus.Deriv.Mul
/-!
# C41: the cost state
-/
namespace Verif
open Spec

/-- C41. `create_cost_state` adds one state whose equation is the running cost, with initial value
zero, bounded below by zero exactly when the objective was declared positive; nothing else of the
model changes. -/
theorem C41_added (xc fresh : Sym) (o o' : Ocp) (hr : o.createCostState xc fresh = (.ok (), o')) :
    o'.xCost = some xc ∧ o'.model.x = o.model.x ++ [xc] ∧
    o'.model.ode.get? xc = some (some o.L) ∧
    (∀ s ≠ xc, o'.model.ode.get? s = o.model.ode.get? s) ∧
    o'.x0 = o.x0 ++ [0] ∧ o'.model.x0 = o.model.x0 ++ [fresh] ∧
    o'.hInitial = o.hInitial ++ [.sub (.sym fresh) (.sym xc)] ∧
    o'.xMin = o.xMin ++ [if o.positiveObjective then XRat.fin 0 else ⊥] ∧
    o'.xMax = o.xMax ++ [⊤] ∧ o'.model.y = o.model.y ∧ o'.model.u = o.model.u ∧ o'.L = o.L ∧
    o'.V = o.V := by
  obtain ⟨o₁, h₁, rfl⟩ := Ocp.createCostState_ok_iff.mp hr
  obtain ⟨-, lo, hi, m', hh, hlo, hhi, -, -, -, h₆, h₇, rfl⟩ := Ocp.includeState_ok_iff.mp h₁
  obtain ⟨-, -, hk, -, rfl⟩ := (SysModel.includeState_ok_iff ..).mp h₆
  cases hlo
  cases hhi
  cases h₇
  have hode : SysModel.tableWith o.model.ode [xc] (some [o.L]) =
      (o.model.ode ++ [(xc, none)]).set xc (some o.L) := rfl
  refine ⟨rfl, rfl, ?_, fun s hs => ?_, rfl, ?_, ?_, rfl, rfl, rfl, rfl, rfl, rfl⟩
  · show (SysModel.tableWith o.model.ode [xc] (some [o.L])).get? xc = _
    rw [hode, Dict.get?_set, if_pos rfl]
  · show (SysModel.tableWith o.model.ode [xc] (some [o.L])).get? s = _
    rw [hode, Dict.get?_set, if_neg hs, Dict.get?_append]
    cases h : o.model.ode.get? s with
    | none => simp [Dict.get?, hs]
    | some v => rfl
  · simp [SysModel.newX0]
  · simp [Ocp.x0Symbols]

open MeasureTheory in
/-- C41. Along every exact trajectory of the extended model that meets the initial constraints, with
the initial condition symbols at the recorded initial values, the final value of the new state is
the accumulated running cost. -/
theorem C41_accumulates (xc fresh : Sym) (o o' : Ocp)
    (hr : o.createCostState xc fresh = (.ok (), o')) (hl : o.x0.length = o.model.x0.length)
    (ops : Expr.Ops ℝ) (X : ℝ → Sym → ℝ) (t0 tf : ℝ)
    (hode : ∀ t ∈ Set.uIcc t0 tf, ∀ s ∈ o'.model.x, ∀ e, o'.model.ode.get? s = some (some e) →
      HasDerivAt (fun τ => X τ s) (e.eval ops (X t)) t)
    (hint : IntervalIntegrable (fun t => o.L.eval ops (X t)) volume t0 tf)
    (hinit : ∀ e ∈ o'.hInitial, e.eval ops (X t0) = 0)
    (hval : ∀ p ∈ o'.model.x0.zip o'.x0, X t0 p.1 = (p.2 : ℝ)) :
    X tf xc = ∫ t in t0..tf, o.L.eval ops (X t) := by
  obtain ⟨-, hx, he, -, h0, hx0, hI, -⟩ := C41_added xc fresh o o' hr
  have h₁ : X t0 fresh = 0 := by
    have := hval (fresh, 0) (by rw [hx0, h0, List.zip_append hl.symm]; simp)
    simpa using this
  have h₂ : X t0 xc = 0 := by
    have := hinit (.sub (.sym fresh) (.sym xc)) (by rw [hI]; simp)
    simp only [Expr.eval, h₁] at this
    linarith
  rw [intervalIntegral.integral_eq_sub_of_hasDerivAt
    (fun t ht => hode t ht xc (by rw [hx]; simp) o.L he) hint, h₂, sub_zero]

/-- The hypotheses are met: with the cost of a single input held at two, the trajectory with
`X t xc = 2 t`. -/
example :
    let o : Ocp := { Ocp.new (SysModel.new 0 1) (some []) 0 1 with
      L := .sym 6
      positiveObjective := true }
    let X : ℝ → Sym → ℝ := fun t s => if s = 6 then 2 else if s = 7 then 2 * t else 0
    (o.createCostState 7 8).1 = .ok () ∧ (o.createCostState 7 8).2.xMin = [XRat.fin 0] ∧
    (∀ t s, s ∈ (o.createCostState 7 8).2.model.x → ∀ e : Expr,
      (o.createCostState 7 8).2.model.ode.get? s = some (some e) →
      HasDerivAt (fun τ => X τ s) (e.eval ⟨fun _ a => a, fun _ a _ => a⟩ (X t)) t) := by
  intro o X
  refine ⟨by decide +kernel, by decide +kernel, ?_⟩
  intro t s hs e he
  have hx : (o.createCostState 7 8).2.model.x = [7] := by decide +kernel
  rw [hx, List.mem_singleton] at hs
  subst hs
  have h7 : (o.createCostState 7 8).2.model.ode.get? 7 = some (some (.sym 6)) := by decide +kernel
  rw [h7] at he
  cases he
  simp only [X, Expr.eval, if_true]
  simpa using HasDerivAt.const_mul (2 : ℝ) (hasDerivAt_id t)

end Verif
