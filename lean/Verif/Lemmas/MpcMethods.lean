import Verif.Spec.MpcMethods
import Verif.Lemmas.Mpc
import Verif.Lemmas.TranscribeIndirect
/-! Lemmas about controllers with any solution method. -/
namespace Verif
namespace MpcMethods
open Mpc Spec

variable {W : Type}

theorem getNewControl_collocation (c : Config W) :
    getNewControl .collocation c = Mpc.getNewControl c := rfl

theorem run_collocation (c : Config W) (n : Int) : run .collocation c n = Mpc.run c n := rfl

/-- A cycle in which no control is found. -/
theorem cycle_stuck {scheme : Scheme} {c : Config W} {S : State W} (P : State W → Prop)
    (X : List Rat → Prop) (h0 : P { S with iteration := S.iteration + 1 })
    (hstates : ∀ m s, P s → P (getStates c m s).2 ∧
      ∀ xp, (getStates c m s).1 = .ok xp → ∀ x, rearranged c xp.1 = .ok x → X x)
    (hpar : ∀ s p, P s → P { s with p := p })
    (hnew : ∀ x u p s, X x → P s → ∃ e s', getNewControl scheme c x u p s = (.error e, s') ∧ P s') :
    ∃ e s', cycle scheme c S = (.error e, s') ∧ P s' := by
  simp only [cycle, Py.bind_eq, Py.modify_bind]
  generalize ({ S with iteration := S.iteration + 1 } : State W) = s0 at h0
  cases h1 : getMeasurement s0 with
  | mk r1 s1 =>
  have P1 : P s1 := by simpa [h1] using keeps_getMeasurement (P := P) s0 h0
  cases r1 with
  | error e => exact ⟨e, s1, Py.bind_error h1, P1⟩
  | ok m =>
  rw [Py.bind_ok h1]
  obtain ⟨P2, X2⟩ := hstates m s1 P1
  cases h2 : getStates c m s1 with
  | mk r2 s2 =>
  rw [h2] at P2 X2
  cases r2 with
  | error e => exact ⟨e, s2, Py.bind_error h2, P2⟩
  | ok xp =>
  rw [Py.bind_ok h2]
  cases h3 : getParameter c xp.1 xp.2 s2 with
  | mk r3 s3 =>
  have P3 : P s3 := by simpa [h3] using keeps_getParameter c xp.1 xp.2 hpar s2 P2
  cases r3 with
  | error e => exact ⟨e, s3, Py.bind_error h3, P3⟩
  | ok p =>
  rw [Py.bind_ok h3]
  cases h4 : rearranged c xp.1 with
  | error e => exact ⟨e, s3, Py.bind_error (by simp [Py.lift]), P3⟩
  | ok x =>
  rw [Py.bind_ok (show Py.lift (Except.ok x) s3 = (.ok x, s3) from rfl)]
  obtain ⟨e, s', he, hs'⟩ := hnew x m.2.2 p s3 (X2 xp rfl x h4) P3
  exact ⟨e, s', Py.bind_error he, hs'⟩

theorem run_stuck {scheme : Scheme} {c : Config W} {S : State W} {e : Err} {S' : State W}
    (h : cycle scheme c S = (.error e, S')) (n : Int) : run scheme c n S = (.error e, S') := by
  unfold run countLoop
  exact Py.bind_error h

theorem warmStart_shooting (d : Dims) (v : List Rat) : ∃ e, warmStart .shooting d v = .error e := by
  unfold warmStart
  cases Layout.shootingBlocks d v with
  | error e => exact ⟨e, rfl⟩
  | ok b => exact ⟨.attributeError, rfl⟩

/-- The method is new, or it has prepared its problem. -/
def Ready (o q : Ocp) (st : SolveIndirect.State Rat) : Prop :=
  st = ⟨o, false, none⟩ ∨ st.problem = q ∧ st.prepared = true

section
variable {B : Backend} {ops : Expr.Ops Rat} {opts : SolveIndirect.Options}
  {names : SolveIndirect.NewNames} {o q : Ocp}

/-- After `opt_problem` is asked for, the problem is the prepared one. -/
theorem program_ready (h : Indirect.prepare B opts.createCostState false names.base names.xc names.fresh o =
    (.ok (), q)) {st : SolveIndirect.State Rat} (hst : Ready o q st) :
    (SolveIndirect.program B ops opts names st).2.problem = q ∧
      (SolveIndirect.program B ops opts names st).2.prepared = true := by
  have main : ∀ st' : SolveIndirect.State Rat, st'.problem = q ∧ st'.prepared = true →
      ∀ st₀, SolveIndirect.preparation B opts names st₀ = (.ok (), st') →
      (SolveIndirect.createProgram B ops opts names st₀).2.problem = q ∧
      (SolveIndirect.createProgram B ops opts names st₀).2.prepared = true := by
    intro st' h' st₀ h₀
    simp only [SolveIndirect.createProgram, Py.bind_eq]
    rw [Py.bind_ok h₀, Py.get_bind]
    cases hb : SolveIndirect.build ops opts names st'.problem with
    | error e => rw [Py.lift_error_bind]; exact h'
    | ok P => rw [Py.lift_ok_bind]; exact h'
  unfold SolveIndirect.program
  rcases hst with rfl | ⟨h₁, h₂⟩
  · refine main ⟨q, true, none⟩ ⟨rfl, rfl⟩ _ ?_
    simp only [SolveIndirect.preparation, Py.bind_eq, Py.get_bind, Bool.false_eq_true, if_false]
    rw [Py.bind_ok (show SolveIndirect.prepareProblem B opts names (⟨o, false, none⟩ : SolveIndirect.State Rat)
      = (.ok (), ⟨q, false, none⟩) by simp only [SolveIndirect.prepareProblem, h])]
    rfl
  · cases hp : st.program with
    | some P => exact ⟨h₁, h₂⟩
    | none =>
      refine main st ⟨h₁, h₂⟩ _ ?_
      simp only [SolveIndirect.preparation, Py.bind_eq, Py.get_bind, h₂, if_true]
      rfl

variable (sim info : List Rat → Theta Rat → Except Err (List Rat))
  (solver : SolveDirect.SolverCall Rat → Except Err (RawSolution Rat)) (a : SolveArgs Rat)

/-- What is left after `solve` is what asking for `opt_problem` leaves. -/
theorem solve_state (st : SolveIndirect.State Rat) :
    (SolveIndirect.solve B ops opts names sim info solver a st).2 =
      (SolveIndirect.program B ops opts names st).2 := by
  simp only [SolveIndirect.solve, Py.bind_eq]
  cases hp : SolveIndirect.program B ops opts names st with
  | mk r st' =>
  cases r with
  | error e => rw [Py.bind_error hp]
  | ok P =>
    rw [Py.bind_ok hp, Py.get_bind]
    cases h₁ : (SolveDirect.setup (K := Rat) opts.common st'.problem).callArgs sim info a with
    | error e => rfl
    | ok c =>
      rw [Py.lift_ok_bind]
      cases h₂ : P.call c with
      | error e => rfl
      | ok call =>
        rw [Py.lift_ok_bind]
        cases h₃ : solver call with
        | error e => rfl
        | ok raw => rfl

theorem used_ready (h : Indirect.prepare B opts.createCostState false names.base names.xc names.fresh o =
    (.ok (), q)) {st : SolveIndirect.State Rat} (hu : UsedIndirect B ops opts names o st) : Ready o q st := by
  induction hu with
  | new => exact .inl rfl
  | solved sim info solver a st _ ih =>
    rw [solve_state]
    exact .inr (program_ready h ih)

/-- An initial state of another size is rejected. -/
theorem solve_size (h : Indirect.prepare B opts.createCostState false names.base names.xc names.fresh o =
    (.ok (), q)) {st : SolveIndirect.State Rat} (hst : Ready o q st) (x : List Rat) (hx : a.x0 = some x)
    (hl : x.length ≠ q.model.x.length) :
    ∃ e, (SolveIndirect.solve B ops opts names sim info solver a st).1 = .error e := by
  have hq := program_ready (ops := ops) h hst
  simp only [SolveIndirect.solve, Py.bind_eq]
  cases hp : SolveIndirect.program B ops opts names st with
  | mk r st' =>
  rw [hp] at hq
  cases r with
  | error e => exact ⟨e, by rw [Py.bind_error hp]⟩
  | ok P =>
    refine ⟨.exception, ?_⟩
    rw [Py.bind_ok hp, Py.get_bind]
    have : (SolveDirect.setup (K := Rat) opts.common st'.problem).callArgs sim info a =
        .error .exception := by
      unfold MethodSetup.callArgs MethodSetup.initialCondition
      rw [hx, if_pos]
      · rfl
      · show x.length ≠ st'.problem.model.x.length
        rw [hq.1]
        exact hl
    rw [this]
    rfl

end
end MpcMethods
end Verif
