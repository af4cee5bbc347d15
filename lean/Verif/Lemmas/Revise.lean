import Verif.Spec.Revise
import Verif.Lemmas.Py
/-!
# Lemmas about calls of `solve` after changes of the problem
-/
namespace Verif
open Spec
variable {K : Type} [Field K] [LinearOrder K]

theorem Spec.RevisionOf.setup {o o' : Ocp} (h : RevisionOf o o') (opts : SolveDirect.Options) :
    SolveDirect.setup (K := K) opts o' = SolveDirect.setup opts o := by
  obtain ⟨ode, alg, hm⟩ := h.model
  unfold SolveDirect.setup
  rw [hm, h.optimised.1, h.optimised.2, h.initial, h.last]

theorem Spec.RevisionOf.breakpoint {o o' : Ocp} (h : RevisionOf o o') (n k : Nat) :
    o'.timeBreakpoint n k = o.timeBreakpoint n k := by
  unfold Ocp.timeBreakpoint
  rw [h.horizon.1, h.horizon.2]

theorem Spec.RevisionOf.controlLaw {o o' : Ocp} (h : RevisionOf o o') (ops : Expr.Ops K)
    (opts : SolveDirect.Options) : SolveDirect.controlLaw ops opts o' = SolveDirect.controlLaw ops opts o := by
  obtain ⟨ode, alg, hm⟩ := h.model
  unfold SolveDirect.controlLaw
  simp only [h.breakpoint, hm]

theorem Spec.RevisionOf.indirectLaw {o o' : Ocp} (h : RevisionOf o o') (ops : Expr.Ops K)
    (opts : SolveIndirect.Options) :
    SolveIndirect.controlLaw ops opts o' = SolveIndirect.controlLaw ops opts o := by
  obtain ⟨ode, alg, hm⟩ := h.model
  unfold SolveIndirect.controlLaw
  simp only [h.breakpoint, hm]
  rfl

theorem SolveDirect.setup_initial (opts : SolveDirect.Options) (o : Ocp) (x : List Rat)
    (sim info : List K → Theta K → Except Err (List K)) (a : SolveArgs K) (h : a.x0 = none) :
    (SolveDirect.setup (K := K) opts { o with x0 := x }).callArgs sim info a =
      (SolveDirect.setup (K := K) opts o).callArgs sim info
        { a with x0 := some (x.map (Rat.cast : Rat → K)) } := by
  unfold MethodSetup.callArgs
  rw [h]
  rfl

/-- The part of `solve` after the program is known. -/
theorem lifts_eq {σ α β γ δ : Type} (e : Except Err α) (f : α → Except Err β) (g : β → Except Err γ)
    (k : α → γ → Except Err δ) (st : σ) :
    ((Py.lift e).bind fun a => (Py.lift (f a)).bind fun b => (Py.lift (g b)).bind fun c =>
      Py.lift (k a c)) st = ((do
        let a ← e
        let b ← f a
        let c ← g b
        k a c), st) := by
  cases e with
  | error e => rfl
  | ok a =>
    rw [Py.lift_ok_bind]
    simp only [bind, Except.bind]
    cases f a with
    | error e => rfl
    | ok b =>
      rw [Py.lift_ok_bind]
      simp only
      cases g b with
      | error e => rfl
      | ok c => rfl

namespace SolveDirect

theorem program_kept {ops : Expr.Ops K} {opts : SolveDirect.Options} {names : SolveDirect.NewNames} {st st' : State K} {P} (h : program ops opts names st = (.ok P, st')) :
    st'.program = some P := by
  unfold program at h
  cases hp : st.program with
  | some Q =>
    rw [hp] at h
    cases h
    exact hp
  | none =>
    rw [hp] at h
    simp only [createProgram, Py.bind_eq] at h
    obtain ⟨_, _, -, h⟩ := Py.bind_eq_ok.mp h
    obtain ⟨_, _, -, h⟩ := Py.bind_eq_ok.mp h
    obtain ⟨Q, _, -, h⟩ := Py.bind_eq_ok.mp h
    obtain ⟨_, s₄, h₄, h⟩ := Py.bind_eq_ok.mp h
    cases h₄
    cases h
    rfl

theorem solve_kept {ops : Expr.Ops K} {opts : SolveDirect.Options} {names : SolveDirect.NewNames} {sim info : List K → Theta K → Except Err (List K)}
    {solver : SolveDirect.SolverCall K → Except Err (RawSolution K)} {a : SolveArgs K} {st st' : State K} {r}
    (h : solve ops opts names sim info solver a st = (.ok r, st')) : ∃ P, st'.program = some P := by
  simp only [solve, Py.bind_eq] at h
  obtain ⟨P, s₁, h₁, h⟩ := Py.bind_eq_ok.mp h
  rw [Py.get_bind, lifts_eq] at h
  have hst : s₁ = st' := congrArg Prod.snd h
  rw [← hst]
  exact ⟨P, program_kept h₁⟩

theorem solve_again {ops : Expr.Ops K} {opts : SolveDirect.Options} {names : SolveDirect.NewNames} {sim info : List K → Theta K → Except Err (List K)}
    {solver : SolveDirect.SolverCall K → Except Err (RawSolution K)} {a : SolveArgs K} {st : State K} {P}
    (h : st.program = some P) : solve ops opts names sim info solver a st = ((do
      let c ← (SolveDirect.setup opts st.method.problem).callArgs sim info a
      let call ← P.call c
      let raw ← solver call
      result ops opts st.method.problem P c raw), st) := by
  have hp : program ops opts names st = (.ok P, st) := by
    unfold program
    rw [h]
  simp only [solve, Py.bind_eq]
  rw [Py.bind_ok hp, Py.get_bind, lifts_eq]

theorem result_revised {o o' : Ocp} (h : RevisionOf o o') (ops : Expr.Ops K) (opts : SolveDirect.Options) :
    result (K := K) ops opts o' = result ops opts o := by
  obtain ⟨ode, alg, hm⟩ := h.model
  funext P c raw
  unfold result
  rw [h.controlLaw, h.costState, hm]

end SolveDirect

namespace SolveShooting

theorem program_kept {ops : Expr.Ops K} {integ : DaeIntegrator K} {opts : SolveDirect.Options} {sum : Bool}
    {names : SolveDirect.NewNames} {st st' : State K} {P} (h : program ops integ opts sum names st = (.ok P, st')) :
    st'.program = some P := by
  unfold program at h
  cases hp : st.program with
  | some Q =>
    rw [hp] at h
    cases h
    exact hp
  | none =>
    rw [hp] at h
    simp only [createProgram, Py.bind_eq] at h
    obtain ⟨_, _, -, h⟩ := Py.bind_eq_ok.mp h
    obtain ⟨_, _, -, h⟩ := Py.bind_eq_ok.mp h
    obtain ⟨Q, _, -, h⟩ := Py.bind_eq_ok.mp h
    obtain ⟨_, s₄, h₄, h⟩ := Py.bind_eq_ok.mp h
    cases h₄
    cases h
    rfl

theorem solve_kept {ops : Expr.Ops K} {integ : DaeIntegrator K} {opts : SolveDirect.Options} {sum : Bool}
    {names : SolveDirect.NewNames} {sim info : List K → Theta K → Except Err (List K)}
    {solver : SolveDirect.SolverCall K → Except Err (RawSolution K)} {a : SolveArgs K} {st st' : State K} {r}
    (h : solve ops integ opts sum names sim info solver a st = (.ok r, st')) : ∃ P, st'.program = some P := by
  simp only [solve, Py.bind_eq] at h
  obtain ⟨P, s₁, h₁, h⟩ := Py.bind_eq_ok.mp h
  rw [Py.get_bind, lifts_eq] at h
  have hst : s₁ = st' := congrArg Prod.snd h
  rw [← hst]
  exact ⟨P, program_kept h₁⟩

theorem solve_again {ops : Expr.Ops K} {integ : DaeIntegrator K} {opts : SolveDirect.Options} {sum : Bool}
    {names : SolveDirect.NewNames} {sim info : List K → Theta K → Except Err (List K)}
    {solver : SolveDirect.SolverCall K → Except Err (RawSolution K)} {a : SolveArgs K} {st : State K} {P}
    (h : st.program = some P) : solve ops integ opts sum names sim info solver a st = ((do
      let c ← (SolveDirect.setup opts st.method.problem).callArgs sim info a
      let call ← P.call c
      let raw ← solver call
      result ops opts st.method.problem P c raw), st) := by
  have hp : program ops integ opts sum names st = (.ok P, st) := by
    unfold program
    rw [h]
  simp only [solve, Py.bind_eq]
  rw [Py.bind_ok hp, Py.get_bind, lifts_eq]

theorem result_revised {o o' : Ocp} (h : RevisionOf o o') (ops : Expr.Ops K) (opts : SolveDirect.Options) :
    result (K := K) ops opts o' = result ops opts o := by
  obtain ⟨ode, alg, hm⟩ := h.model
  funext P c raw
  unfold result
  rw [h.controlLaw, h.costState, hm]

end SolveShooting

namespace SolveIndirect

theorem program_kept {B : Backend} {ops : Expr.Ops K} {opts : SolveIndirect.Options}
    {names : SolveIndirect.NewNames} {st st' : State K} {P} (h : program B ops opts names st = (.ok P, st')) :
    st'.program = some P := by
  unfold program at h
  cases hp : st.program with
  | some Q =>
    rw [hp] at h
    cases h
    exact hp
  | none =>
    rw [hp] at h
    simp only [createProgram, Py.bind_eq] at h
    obtain ⟨_, _, -, h⟩ := Py.bind_eq_ok.mp h
    obtain ⟨_, _, -, h⟩ := Py.bind_eq_ok.mp h
    obtain ⟨Q, _, -, h⟩ := Py.bind_eq_ok.mp h
    obtain ⟨_, s₄, h₄, h⟩ := Py.bind_eq_ok.mp h
    cases h₄
    cases h
    rfl

theorem solve_kept {B : Backend} {ops : Expr.Ops K} {opts : SolveIndirect.Options}
    {names : SolveIndirect.NewNames} {sim info : List K → Theta K → Except Err (List K)}
    {solver : SolveDirect.SolverCall K → Except Err (RawSolution K)} {a : SolveArgs K} {st st' : State K} {r}
    (h : solve B ops opts names sim info solver a st = (.ok r, st')) : ∃ P, st'.program = some P := by
  simp only [solve, Py.bind_eq] at h
  obtain ⟨P, s₁, h₁, h⟩ := Py.bind_eq_ok.mp h
  rw [Py.get_bind, lifts_eq] at h
  have hst : s₁ = st' := congrArg Prod.snd h
  rw [← hst]
  exact ⟨P, program_kept h₁⟩

theorem solve_again {B : Backend} {ops : Expr.Ops K} {opts : SolveIndirect.Options}
    {names : SolveIndirect.NewNames} {sim info : List K → Theta K → Except Err (List K)}
    {solver : SolveDirect.SolverCall K → Except Err (RawSolution K)} {a : SolveArgs K} {st : State K} {P}
    (h : st.program = some P) : solve B ops opts names sim info solver a st = ((do
      let c ← (SolveDirect.setup opts.common st.problem).callArgs sim info a
      let call ← P.call c
      let raw ← solver call
      result ops opts st.problem P c raw), st) := by
  have hp : program B ops opts names st = (.ok P, st) := by
    unfold program
    rw [h]
  simp only [solve, Py.bind_eq]
  rw [Py.bind_ok hp, Py.get_bind, lifts_eq]

theorem result_revised {o o' : Ocp} (h : RevisionOf o o') (ops : Expr.Ops K) (opts : SolveIndirect.Options) :
    result (K := K) ops opts o' = result ops opts o := by
  obtain ⟨ode, alg, hm⟩ := h.model
  funext P c raw
  unfold result
  rw [h.indirectLaw, h.costState, hm]

end SolveIndirect

namespace SolveShootIndirect

theorem program_kept {B : Backend} {ops : Expr.Ops K} {integ : DaeIntegrator K} {opts : SolveIndirect.Options}
    {names : SolveIndirect.NewNames} {st st' : State K} {P} (h : program B ops integ opts names st = (.ok P, st')) :
    st'.program = some P := by
  unfold program at h
  cases hp : st.program with
  | some Q =>
    rw [hp] at h
    cases h
    exact hp
  | none =>
    rw [hp] at h
    simp only [createProgram, Py.bind_eq] at h
    obtain ⟨_, _, -, h⟩ := Py.bind_eq_ok.mp h
    obtain ⟨_, _, -, h⟩ := Py.bind_eq_ok.mp h
    obtain ⟨Q, _, -, h⟩ := Py.bind_eq_ok.mp h
    obtain ⟨_, s₄, h₄, h⟩ := Py.bind_eq_ok.mp h
    cases h₄
    cases h
    rfl

theorem solve_kept {B : Backend} {ops : Expr.Ops K} {integ : DaeIntegrator K} {opts : SolveIndirect.Options}
    {names : SolveIndirect.NewNames} {sim info : List K → Theta K → Except Err (List K)}
    {solver : SolveDirect.SolverCall K → Except Err (RawSolution K)} {a : SolveArgs K} {st st' : State K} {r}
    (h : solve B ops integ opts names sim info solver a st = (.ok r, st')) : ∃ P, st'.program = some P := by
  simp only [solve, Py.bind_eq] at h
  obtain ⟨P, s₁, h₁, h⟩ := Py.bind_eq_ok.mp h
  rw [Py.get_bind, lifts_eq] at h
  have hst : s₁ = st' := congrArg Prod.snd h
  rw [← hst]
  exact ⟨P, program_kept h₁⟩

theorem solve_again {B : Backend} {ops : Expr.Ops K} {integ : DaeIntegrator K} {opts : SolveIndirect.Options}
    {names : SolveIndirect.NewNames} {sim info : List K → Theta K → Except Err (List K)}
    {solver : SolveDirect.SolverCall K → Except Err (RawSolution K)} {a : SolveArgs K} {st : State K} {P}
    (h : st.program = some P) : solve B ops integ opts names sim info solver a st = ((do
      let c ← (SolveDirect.setup opts.common st.problem).callArgs sim info a
      let call ← P.call c
      let raw ← solver call
      result ops opts st.problem P c raw), st) := by
  have hp : program B ops integ opts names st = (.ok P, st) := by
    unfold program
    rw [h]
  simp only [solve, Py.bind_eq]
  rw [Py.bind_ok hp, Py.get_bind, lifts_eq]

theorem result_revised {o o' : Ocp} (h : RevisionOf o o') (ops : Expr.Ops K) (opts : SolveIndirect.Options) :
    result (K := K) ops opts o' = result ops opts o := by
  obtain ⟨ode, alg, hm⟩ := h.model
  funext P c raw
  unfold result
  rw [h.indirectLaw, h.costState, hm]

end SolveShootIndirect

end Verif
