import Verif.Model.OcpSimulate
import Verif.Props.Simulate
import Verif.Props.OcpSizes
/-!
# C38: simulating a problem
-/
namespace Verif
open Spec

/-- The `n + 1` equally spaced times from `t0` to `tf`. -/
def Spec.grid (t0 tf : Rat) (n : Nat) : List Rat :=
  (List.range (n + 1)).map fun k : Nat => t0 + (tf - t0) / (n : Rat) * (k : Rat)

theorem Ocp.simulate_ok {o : Ocp} {integ ty fu x0 tf t0 n u p theta y0} {r : SimOut}
    (h : o.simulate integ ty fu x0 tf t0 n u p theta y0 = .ok r) :
    Sized o ∧ ∃ ts, o.simulationTimes tf t0 n = .ok ts ∧
      o.model.simulate integ ty fu (x0.getD o.x0) ts o.t0
        (u.getD (.const (o.uGuess.getD []))) p theta (y0.or o.yGuess) = .ok r := by
  unfold Ocp.simulate at h
  simp only [bind, Except.bind] at h
  split at h
  · simp at h
  · next hc =>
    split at h
    · simp at h
    · next ts ht => exact ⟨(C30_check o).mp hc, ts, ht, h⟩

/-- C38. A simulation over a given list of times covers exactly those times, chained from the
problem's initial time and state. -/
theorem C38_given_times (o : Ocp) (integ : Plugin → Integrator) (ty : Option String)
    (fu : ControlFn) (x0 : Option Vec) (ts : List Rat) (t0 : Option Rat) (n : Option Nat)
    (u : Option UArg) (p : Vec) (theta : Option (Dict Nat Vec)) (y0 : Option Vec) (r : SimOut)
    (h : o.simulate integ ty fu x0 (.list ts) t0 n u p theta y0 = .ok r) :
    r.tx = o.t0 :: ts ∧ Chained o.model integ (ty.getD "implicit") fu (x0.getD o.x0) ts o.t0
      ((u.getD (.const (o.uGuess.getD []))).toDict ts.length).get? p
      (thetaOf theta ts.length).get? (y0.or o.yGuess) r := by
  obtain ⟨-, ts', ht, hm⟩ := Ocp.simulate_ok h
  simp only [Ocp.simulationTimes, Except.ok.injEq] at ht
  subst ht
  have := C24_chained _ _ _ _ _ _ _ _ _ _ _ _ hm
  exact ⟨this.times.1, this⟩

/-- C38, proved part. A simulation of a problem that starts at time zero over `n` elements samples
all the times of the grid but the final one. -/
theorem C38_grid_partial (o : Ocp) (integ : Plugin → Integrator) (ty : Option String)
    (fu : ControlFn) (x0 : Option Vec) (n : Nat) (u : Option UArg) (p : Vec)
    (theta : Option (Dict Nat Vec)) (y0 : Option Vec) (r : SimOut) (h0 : o.t0 = 0)
    (h : o.simulate integ ty fu x0 .absent none (some n) u p theta y0 = .ok r) :
    r.tx = (grid 0 o.tf n).dropLast := by
  obtain ⟨-, ts', ht, hm⟩ := Ocp.simulate_ok h
  have hc := (C24_chained _ _ _ _ _ _ _ _ _ _ _ _ hm).times.1
  cases n with
  | zero => simp [Ocp.simulationTimes] at ht
  | succ n =>
    simp only [Ocp.simulationTimes, Option.getD_none, h0, sub_zero, Except.ok.injEq] at ht
    rw [hc, ← ht, h0]
    unfold grid
    rw [← List.map_dropLast, List.range_succ, List.dropLast_concat, List.range_succ_eq_map,
      List.map_cons, List.map_map, List.range'_eq_map_range, List.map_map]
    congr 1
    · simp
    · apply List.map_congr_left
      intro k hk
      simp [add_comm]

/-- C38 fails. Over `n` elements the final time is not simulated, whatever the problem. -/
theorem C38_final_time_fails (o : Ocp) (integ : Plugin → Integrator) (ty : Option String)
    (fu : ControlFn) (x0 : Option Vec) (n : Nat) (u : Option UArg) (p : Vec)
    (theta : Option (Dict Nat Vec)) (y0 : Option Vec) (r : SimOut) (h0 : 0 ≤ o.t0)
    (hlt : o.t0 < o.tf)
    (h : o.simulate integ ty fu x0 .absent none (some n) u p theta y0 = .ok r) :
    o.tf ∉ r.tx := by
  obtain ⟨-, ts', ht, hm⟩ := Ocp.simulate_ok h
  have hc := (C24_chained _ _ _ _ _ _ _ _ _ _ _ _ hm).times.1
  cases n with
  | zero => simp [Ocp.simulationTimes] at ht
  | succ n =>
    simp only [Ocp.simulationTimes, Option.getD_none, Except.ok.injEq] at ht
    rw [hc, ← ht]
    intro hmem
    rcases List.mem_cons.mp hmem with e | hmem
    · exact hlt.ne' e
    · obtain ⟨k, hk, e⟩ := List.mem_map.mp hmem
      have hk' := (List.mem_range'_1.mp hk).2
      have hn : (0 : Rat) < ((n + 1 : Nat) : Rat) := by exact_mod_cast Nat.succ_pos n
      have h₁ : (k : Rat) < ((n + 1 : Nat) : Rat) := by exact_mod_cast (by omega : k < n + 1)
      have h₂ : 0 < o.tf - o.t0 := sub_pos.mpr hlt
      have h₃ : (o.tf - o.t0) / ((n + 1 : Nat) : Rat) * (k : Rat) < o.tf - o.t0 := by
        rw [div_mul_eq_mul_div, div_lt_iff₀ hn]
        exact mul_lt_mul_of_pos_left h₁ h₂
      rw [e] at h₃
      linarith

/-- C38 fails. One element is rejected with `IndexError`. -/
theorem C38_one_element_fails (o : Ocp) (integ : Plugin → Integrator) (ty : Option String)
    (fu : ControlFn) (x0 : Option Vec) (u : Option UArg) (p : Vec)
    (theta : Option (Dict Nat Vec)) (y0 : Option Vec) (hs : Sized o) :
    o.simulate integ ty fu x0 .absent none (some 1) u p theta y0 = .error .indexError := by
  unfold Ocp.simulate
  rw [(C30_check o).mpr hs]
  simp only [bind, Except.bind, Ocp.simulationTimes]
  exact (C24_rejected o.model integ ty fu (x0.getD o.x0) o.t0 p (y0.or o.yGuess)).2.2 _ theta

/-- A problem with one state on the horizon `[1, 3]`, or another one. -/
def Example.timed (t0 tf : Rat) : Ocp :=
  Ocp.new { SysModel.new 0 1 with
    x := [2]
    x0 := [3]
    ode := [(2, some (.sym 2))] } (some [1]) t0 tf

/-- An integrator that keeps the state. -/
def Example.still : Plugin → Integrator := fun _ _ _ x _ _ => (x, [])

/-- C38 fails. From a nonzero initial time the samples are not those of the horizon: the second is
already before the first. -/
theorem C38_start_fails : ∃ r, (Example.timed 1 3).simulate Example.still none
    (fun _ _ _ _ _ u => u) none .absent none (some 4) none [] none none = .ok r ∧
    r.tx = [1, 1 / 2, 1, 3 / 2] ∧ grid 1 3 4 = [1, 3 / 2, 2, 5 / 2, 3] := by
  refine ⟨⟨[1, 1 / 2, 1, 3 / 2], [1 / 2, 1, 3 / 2], [[1], [1], [1], [1]], [[], [], []],
    [[], [], []]⟩, by decide +kernel, rfl, by decide +kernel⟩

/-- C38 fails. An initial time given to the call only changes the spacing; the simulation starts at
the problem's initial time. -/
theorem C38_t0_argument_fails (o : Ocp) (integ : Plugin → Integrator) (ty : Option String)
    (fu : ControlFn) (x0 : Option Vec) (tf : TfArg) (t0 : Rat) (n : Option Nat) (u : Option UArg)
    (p : Vec) (theta : Option (Dict Nat Vec)) (y0 : Option Vec) (r : SimOut)
    (h : o.simulate integ ty fu x0 tf (some t0) n u p theta y0 = .ok r) :
    r.tx.head? = some o.t0 := by
  obtain ⟨-, ts', ht, hm⟩ := Ocp.simulate_ok h
  rw [(C24_chained _ _ _ _ _ _ _ _ _ _ _ _ hm).times.1]
  rfl

/-- A simulation from time zero that returns. -/
example : ∃ r, (Example.timed 0 1).simulate Example.still none
    (fun _ _ _ _ _ u => u) none .absent none (some 3) none [] none none = .ok r ∧
    r.tx = [0, 1 / 3, 2 / 3] := by
  refine ⟨⟨[0, 1 / 3, 2 / 3], [1 / 3, 2 / 3], [[1], [1], [1]], [[], []], [[], []]⟩,
    by decide +kernel, rfl⟩

end Verif
