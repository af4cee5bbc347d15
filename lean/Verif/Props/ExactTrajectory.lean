import Verif.Props.SolveDirect
import Verif.Lemmas.ExactTrajectory
/-!
# C163: a direct method does at least as well as every trajectory its mesh can represent
-/
namespace Verif
open Spec Direct SolveDirect Polynomial

variable {K : Type} [Field K] [LinearOrder K] [IsStrictOrderedRing K]

/-- C163. A trajectory of the user's problem that the mesh can represent, sampled at the points of the
mesh, is a decision of the discretised problem with the same cost. -/
theorem C163_decision (ops : Expr.Ops K) (opts : Options) (names : NewNames) (o : Ocp) (x0 p : List K)
    (theta : List (List K)) (lastU : Option (List K)) (z : PolySolution K) (ρ : Nat → K → Sym → K)
    (hw : Declared K opts names o) (hc : ClockFree o)
    (hz : ExactTrajectory ops o (mesh opts) x0 p theta lastU z ρ) :
    ∃ ρ', Decision ops o (mesh opts) x0 p theta lastU (sampledAt o (mesh opts) z) ρ' ∧
      directCost ops o (mesh opts) (sampledAt o (mesh opts) z) ρ' = trajectoryCost ops o (mesh opts) z ρ :=
  ⟨_, ExactTraj.decision ops hw.mesh hw.symbols hw.problem hw.scope hc hz⟩

/-- C163. When the solver succeeds, `solve` returns an objective that is at most the cost of every
trajectory of the user's problem that the mesh can represent. -/
theorem C163_bound_partial (ops : Expr.Ops K) (opts : Options) (names : NewNames) (s : Method)
    (sim info : List K → Theta K → Except Err (List K))
    (solver : SolverCall K → Except Err (RawSolution K)) (a : SolveArgs K) (x0 p : List K)
    (theta : List (List K)) (hc : s.hasCostState = false) (hp : s.prepared = false)
    (h : (prepare opts.controlRoots opts.controlRoots.length names.xc names.fresh names.base s).1 = .ok ())
    (hw : WellPosed K opts names s.problem) (hd : DataFits s.problem (mesh opts) x0 p theta)
    (ha : ArgsFit s.problem opts a sim info x0 p theta) (hs : GoodSolver ops solver)
    (hclock : ClockFree s.problem) :
    ∃ r, (solve ops opts names sim info solver a ⟨s, none⟩).1 = .ok r ∧
      (r.report.success = true → ∀ z ρ,
        ExactTrajectory ops s.problem (mesh opts) x0 p theta (lastOf s.problem) z ρ →
        r.report.objective ≤ trajectoryCost ops s.problem (mesh opts) z ρ) := by
  obtain ⟨r, b, hr, -, -, -, -, -, hbest⟩ :=
    C161_solve ops opts names s sim info solver a x0 p theta hc hp h hw hd ha hs
  refine ⟨r, hr, fun hsucc z ρ hz => ?_⟩
  obtain ⟨ρ', hD, hcost⟩ := C163_decision ops opts names s.problem x0 p theta _ z ρ hw.toDeclared hclock hz
  rw [← hcost]
  exact (hbest hsucc).2.2 _ _ hD

/-- C163. Conversely, where the right-hand sides of the user along a decision are polynomials of degree
below the number of collocation points, the equations of the user hold at every position of the element,
not only at the collocation points. -/
theorem C163_between (ops : Expr.Ops K) (opts : Options) (names : NewNames) (o : Ocp) (x0 p : List K)
    (theta : List (List K)) (lastU : Option (List K)) (b : Blocks K) (ρ : Nat → K → Sym → K)
    (hw : Declared K opts names o) (hD : Decision ops o (mesh opts) x0 p theta lastU b ρ)
    (el : Nat) (he : el < opts.elements)
    (hpoly : ∀ e ∈ o.model.odeVec ++ o.model.alg ++ [o.L], ∃ Q : K[X],
      Q.natDegree < opts.roots.length ∧ ∀ tau, e.eval ops (ρ el tau) = Q.eval tau) (tau : K) :
    (∀ (i : Nat) (s : Sym) (e : Expr), o.model.x[i]? = some s → o.model.ode.get? s = some (some e) →
      (statePoly (mesh opts) b el i).derivative.eval tau = stepLength o (mesh opts) * e.eval ops (ρ el tau)) ∧
    (statePoly (mesh opts) b el o.model.x.length).derivative.eval tau =
      stepLength o (mesh opts) * o.L.eval ops (ρ el tau) ∧
    ∀ e ∈ o.model.alg, e.eval ops (ρ el tau) = 0 := by
  refine ⟨fun i s e hi hode => ?_, ?_, fun e hmem => ?_⟩
  · obtain ⟨Q, hQ, hv⟩ := hpoly e (by
      simp only [List.mem_append]
      exact .inl (.inl ((mem_odeVec _ _).2 ⟨s, ExactTraj.mem_ode hode⟩)))
    rw [hv, ExactTraj.derivative_poly hw.mesh b el i (stepLength o (mesh opts)) Q hQ fun t ht => by
      rw [hD.solution.dynamics el he t ht i s e hi hode, hv]]
    simp
  · obtain ⟨Q, hQ, hv⟩ := hpoly o.L (by simp)
    rw [hv, ExactTraj.derivative_poly hw.mesh b el _ (stepLength o (mesh opts)) Q hQ fun t ht => by
      rw [hD.solution.running el he t ht, hv]]
    simp
  · obtain ⟨Q, hQ, hv⟩ := hpoly e (by simp [hmem])
    have : Q = 0 := ExactTraj.zero_poly hw.mesh Q hQ fun t ht => by
      rw [← hv, hD.solution.algebraic el he t ht e hmem]
    rw [hv, this, eval_zero]

/-! ## Examples -/

namespace Example

/-- In `restProblem` (`x' = u`, running cost `u²`, from `x = 1`): the control is `-1/2` all the time. -/
noncomputable def driveSolution : PolySolution Rat where
  x := fun el i => if i = 0 then C (1 - (el : Rat) / 2) - C (1 / 2) * X else C ((el : Rat) / 4) + C (1 / 4) * X
  y := fun _ _ => 0
  u := [[[-1 / 2]], [[-1 / 2]]]
  eta := []
  pOpt := []
  thetaOpt := [[], []]

/-- The values of the symbols. -/
noncomputable def driveValues (el : Nat) (tau : Rat) (s : Sym) : Rat :=
  if s = 0 then (el : Rat) + tau else if s = 1 then tau else if s = 2 then 1 - (el : Rat) / 2 - tau / 2
  else if s = 3 then 1 else if s = 4 then -1 / 2 else 0

theorem drive_control (el : Nat) (he : el < 2) (tau : Rat) : driveValues el tau 4 =
    (through (inField (mesh restOptions).controlRoots) (driveSolution.u.getD el []) 0).eval tau := by
  have h := through_single ((1 / 2 : Rat) : Rat) [-1 / 2] 0 tau
  match el, he with
  | 0, _ => exact h.symm
  | 1, _ => exact h.symm

theorem drive_exact (ops : Expr.Ops Rat) :
    ExactTrajectory ops restProblem (mesh restOptions) [1] [] [[], []] (lastOf restProblem) driveSolution
      driveValues where
  fits := {
    x := fun el i => by
      show Polynomial.natDegree (if i = 0 then _ else _) ≤ 2
      split
      · compute_degree
        decide
      · compute_degree
        decide
    y := fun el i => by
      show Polynomial.natDegree 0 < 2
      simp
    shared := {
      u := by unfold Grid Columns; exact (by decide +kernel)
      eta := rfl
      pOpt := rfl
      thetaOpt := by unfold Columns; exact (by decide +kernel) } }
  values := fun el he tau => {
    time := by simp [restProblem, Ocp.new, driveValues, stepLength, mesh, restOptions, SysModel.new]
    position := by simp [restProblem, Ocp.new, driveValues, SysModel.new]
    states := fun i s hs => by
      match i, hs with
      | 0, hs =>
        cases hs
        simp [driveValues, driveSolution]
        ring
    algebraics := fun i s hs => by cases hs
    controls := fun i s hs => by
      match i, hs with
      | 0, hs =>
        cases hs
        exact drive_control el he tau
    parameters := fun i s hs => by cases hs
    optimised := fun i s hs => by cases hs
    thetas := fun i s hs => by cases hs
    optimisedThetas := fun i s hs => by cases hs
    starts := fun i s hs => by
      match i, hs with
      | 0, hs =>
        cases hs
        rfl
    etas := fun i s hs => by cases hs }
  within := {
    x := fun el he tau h0 h1 i a l h ha hl hh => by
      match i, ha, hl, hh with
      | 0, ha, hl, hh =>
        cases hl; cases hh
        exact ⟨bot_le, le_top⟩
      | 1, ha, hl, hh =>
        cases hl; cases hh; cases ha
        refine ⟨?_, le_top⟩
        have h₁ : (0 : Rat) ≤ (driveSolution.x el 1).eval tau := by
          simp only [driveSolution]
          simp
          positivity
        have h₂ : (extended (XRat.fin 0) : WithBot (WithTop Rat)) = finite (0 : Rat) := by decide +kernel
        show (extended (XRat.fin 0) : WithBot (WithTop Rat)) ≤ finite _
        rw [h₂]
        exact WithBot.coe_le_coe.2 (WithTop.coe_le_coe.2 h₁)
      | i + 2, ha, hl, hh => cases hl
    y := fun el he tau h0 h1 i a l h ha hl hh => by cases hl
    u := by
      intro el hel col hcol i a l h ha hl hh
      have hcol' : col = [-1 / 2] := by
        simp only [driveSolution, List.mem_cons, List.not_mem_nil, or_false] at hel
        rcases hel with rfl | rfl <;> simpa using hcol
      subst hcol'
      match i, ha with
      | 0, ha =>
        cases ha; cases hl; cases hh
        exact ⟨bot_le, by decide +kernel⟩
    pOpt := fun i a l h ha hl hh => by cases hl
    thetaOpt := fun col _ i a l h ha hl hh => by cases hl }
  initial := fun e he => by
    rw [List.mem_singleton.mp (show e ∈ [Expr.sub (.sym 2) (.sym 3)] from he)]
    simp [Expr.eval, driveValues]
  costStart := by simp [restProblem, Ocp.new, SysModel.new, driveSolution]
  continuous := fun el he i hi => by
    have : el = 0 := by
      have : el + 1 < 2 := he
      omega
    subst this
    match i, hi with
    | 0, _ => simp [driveSolution]
    | 1, _ => simp [driveSolution]
  dynamics := fun el he tau h0 h1 i s e hs hode => by
    match i, hs with
    | 0, hs =>
      cases hs
      cases hode
      simp [Expr.eval, driveValues, driveSolution, stepLength, restProblem, Ocp.new, mesh, restOptions]
      norm_num
  running := fun el he tau h0 h1 => by
    simp [Expr.eval, driveValues, driveSolution, stepLength, restProblem, Ocp.new, mesh, restOptions,
      SysModel.new]
    norm_num
  algebraic := fun el he tau h0 h1 e hmem => by cases hmem
  inequalities := fun el he i e tag hi => by cases hi
  equalities := fun el he i e tag hi => by cases hi
  rates := fun el he before now hb hn i a c lo hi ha hc hlo hhi => by
    match i, hlo, hhi with
    | 0, hlo, hhi =>
      cases hlo; cases hhi
      exact ⟨bot_le, le_top⟩
  final := fun e he => by cases he
  timeless := fun e he => by cases he

/-- Its cost is 1/2. -/
theorem drive_cost (ops : Expr.Ops Rat) :
    trajectoryCost ops restProblem (mesh restOptions) driveSolution driveValues = 1 / 2 := by
  simp [trajectoryCost, driveSolution, restProblem, Ocp.new, mesh, restOptions, SysModel.new,
    Expr.eval]
  norm_num

theorem rest_clock : ClockFree restProblem := .inl rfl

/-- The hypotheses of C163 are met: the result is at most 1/2. -/
example (ops : Expr.Ops Rat) (sim info : List Rat → Theta Rat → Except Err (List Rat)) :
    ∃ r, (solve ops restOptions restNames sim info (bestSolver ops) restArgs ⟨restMethod, none⟩).1 = .ok r ∧
      (r.report.success = true → r.report.objective ≤ 1 / 2) := by
  obtain ⟨r, hr, h⟩ := C163_bound_partial ops restOptions restNames restMethod sim info (bestSolver ops)
    restArgs [1] [] [[], []] rfl rfl restMethod_prepares restProblem_posed restProblem_data
    (restArgs_fit sim info) (bestSolver_good ops) rest_clock
  exact ⟨r, hr, fun hs => drive_cost ops ▸ h hs _ _ (drive_exact ops)⟩

/-- The horizon starts at 1: `x' = t`, and `-x` is the cost at the end. -/
def lateProblem : Ocp :=
  { Ocp.new { SysModel.new 0 1 with
      x := [2]
      x0 := [3]
      ode := [(2, some (.sym 0))]
      u := [4]
      uExpr := [.sym 4]
      uPar := [4] } (some [1]) 1 3 with
    V := .sub (.const 0) (.sym 2) }

theorem lateProblem_declared : Declared Rat restOptions restNames lateProblem where
  mesh := restProblem_declared.mesh
  controlRoots := by decide
  problem := {
    horizon := by decide +kernel
    complete := by unfold Complete; decide +kernel
    starts := rfl
    controls := by decide
    apart := by unfold ControlsApart; decide +kernel
    parameters := by decide
    thetas := by decide
    tags := by decide
    tagged := by decide
    equations := fun _ => rfl }
  scope := ⟨by decide +kernel, by decide +kernel, by decide, by decide, by decide +kernel⟩
  symbols := by decide
  controls := by decide
  bounds := ⟨pairFits_free 1, pairFits_free 0, pairFits_free 1, pairFits_free 0, pairFits_free 0⟩
  limits := ⟨rfl, rfl, (pairFits_free 1).uncrossed, by rintro u ⟨⟩⟩
  new := ⟨by decide, by decide, by decide, by decide⟩
  newVars := ⟨⟨fun _ _ => rfl, fun _ _ => rfl, fun _ _ => rfl, rfl, rfl, fun _ => rfl⟩, by decide⟩
  initial := rfl

/-- The solution: `x = 1 + (t² - 1) / 2`. -/
noncomputable def lateSolution : PolySolution Rat where
  x := fun el i => if i = 0 then C (1 + ((1 + (el : Rat)) ^ 2 - 1) / 2) + C (1 + (el : Rat)) * X +
    C (1 / 2) * X ^ 2 else 0
  y := fun _ _ => 0
  u := [[[0]], [[0]]]
  eta := []
  pOpt := []
  thetaOpt := [[], []]

/-- The values of the symbols. -/
noncomputable def lateValues (el : Nat) (tau : Rat) (s : Sym) : Rat :=
  if s = 0 then 1 + ((el : Rat) + tau) else if s = 1 then tau
  else if s = 2 then 1 + ((1 + ((el : Rat) + tau)) ^ 2 - 1) / 2 else if s = 3 then 1 else 0

theorem late_control (el : Nat) (he : el < 2) (tau : Rat) : lateValues el tau 4 =
    (through (inField (mesh restOptions).controlRoots) (lateSolution.u.getD el []) 0).eval tau := by
  have h := through_single ((1 / 2 : Rat) : Rat) [0] 0 tau
  match el, he with
  | 0, _ => exact h.symm
  | 1, _ => exact h.symm

theorem late_exact (ops : Expr.Ops Rat) :
    ExactTrajectory ops lateProblem (mesh restOptions) [1] [] [[], []] (lastOf lateProblem) lateSolution
      lateValues where
  fits := {
    x := fun el i => by
      show Polynomial.natDegree (if i = 0 then _ else _) ≤ 2
      split
      · compute_degree
      · simp
    y := fun el i => by
      show Polynomial.natDegree 0 < 2
      simp
    shared := {
      u := by unfold Grid Columns; exact (by decide +kernel)
      eta := rfl
      pOpt := rfl
      thetaOpt := by unfold Columns; exact (by decide +kernel) } }
  values := fun el he tau => {
    time := by
      simp [lateProblem, Ocp.new, lateValues, stepLength, mesh, restOptions, SysModel.new]
      norm_num
    position := by simp [lateProblem, Ocp.new, lateValues, SysModel.new]
    states := fun i s hs => by
      match i, hs with
      | 0, hs =>
        cases hs
        simp [lateValues, lateSolution]
        ring
    algebraics := fun i s hs => by cases hs
    controls := fun i s hs => by
      match i, hs with
      | 0, hs =>
        cases hs
        exact late_control el he tau
    parameters := fun i s hs => by cases hs
    optimised := fun i s hs => by cases hs
    thetas := fun i s hs => by cases hs
    optimisedThetas := fun i s hs => by cases hs
    starts := fun i s hs => by
      match i, hs with
      | 0, hs =>
        cases hs
        rfl
    etas := fun i s hs => by cases hs }
  within := {
    x := fun el he tau h0 h1 i a l h ha hl hh => by
      match i, ha, hl, hh with
      | 0, ha, hl, hh =>
        cases hl; cases hh
        exact ⟨bot_le, le_top⟩
      | 1, ha, hl, hh =>
        cases hl; cases hh
        exact ⟨bot_le, le_top⟩
      | i + 2, ha, hl, hh => cases hl
    y := fun el he tau h0 h1 i a l h ha hl hh => by cases hl
    u := fun el hel col hcol i a l h ha hl hh => by
      match i, hl, hh with
      | 0, hl, hh =>
        cases hl; cases hh
        exact ⟨bot_le, le_top⟩
    pOpt := fun i a l h ha hl hh => by cases hl
    thetaOpt := fun col _ i a l h ha hl hh => by cases hl }
  initial := fun e he => by
    rw [List.mem_singleton.mp (show e ∈ [Expr.sub (.sym 2) (.sym 3)] from he)]
    simp [Expr.eval, lateValues]
  costStart := by simp [lateProblem, Ocp.new, SysModel.new, lateSolution]
  continuous := fun el he i hi => by
    have : el = 0 := by
      have : el + 1 < 2 := he
      omega
    subst this
    match i, hi with
    | 0, _ => simp [lateSolution]; norm_num
    | 1, _ => simp [lateSolution]
  dynamics := fun el he tau h0 h1 i s e hs hode => by
    match i, hs with
    | 0, hs =>
      cases hs
      cases hode
      simp [Expr.eval, lateValues, lateSolution, stepLength, lateProblem, Ocp.new, mesh, restOptions]
      ring
  running := fun el he tau h0 h1 => by
    simp [Expr.eval, lateSolution, lateProblem, Ocp.new, SysModel.new]
  algebraic := fun el he tau h0 h1 e hmem => by cases hmem
  inequalities := fun el he i e tag hi => by cases hi
  equalities := fun el he i e tag hi => by cases hi
  rates := fun el he before now hb hn i a c lo hi ha hc hlo hhi => by
    match i, hlo, hhi with
    | 0, hlo, hhi =>
      cases hlo; cases hhi
      exact ⟨bot_le, le_top⟩
  final := fun e he => by cases he
  timeless := fun e he => by cases he

theorem late_cost (ops : Expr.Ops Rat) :
    trajectoryCost ops lateProblem (mesh restOptions) lateSolution lateValues = -5 := by
  simp [trajectoryCost, lateSolution, lateValues, lateProblem, Ocp.new, mesh, restOptions, SysModel.new,
    Expr.eval]
  norm_num

/-- In the discretised problem the time starts at 0: the state only reaches 3. -/
theorem late_decision (ops : Expr.Ops Rat) (b : Blocks Rat) (ρ : Nat → Rat → Sym → Rat)
    (hD : Decision ops lateProblem (mesh restOptions) [1] [] [[], []] (lastOf lateProblem) b ρ) :
    directCost ops lateProblem (mesh restOptions) b ρ = -3 := by
  have hm := lateProblem_declared.mesh
  have hstep : stepLength (K := Rat) lateProblem (mesh restOptions) = 1 := by
    simp [stepLength, lateProblem, Ocp.new, mesh, restOptions]
    norm_num
  have hx : ∀ el < 2, (statePoly (mesh restOptions) b el 0).eval 1 =
      (statePoly (mesh restOptions) b el 0).eval 0 + ((el : Rat) + 1 / 2) := by
    intro el he
    rw [ExactTraj.end_value hm b el 0 1 (C (el : Rat) * X + C (1 / 2) * X ^ 2)]
    · simp
    · refine lt_of_le_of_lt (b := 1) ?_ (by decide)
      rw [derivative_add, derivative_C_mul, derivative_X, derivative_C_mul, derivative_X_sq]
      compute_degree
    · intro tau ht
      rw [hD.solution.dynamics el he tau ht 0 2 (.sym 0) rfl rfl, hstep]
      have := (hD.reads el he tau).time
      rw [hstep, one_mul] at this
      simp only [Expr.eval]
      rw [show ρ el tau 0 = (el : Rat) + tau from this]
      simp
      ring
  have hcost : ∀ el < 2, (statePoly (mesh restOptions) b el 1).eval 1 =
      (statePoly (mesh restOptions) b el 1).eval 0 := by
    intro el he
    rw [ExactTraj.end_value hm b el 1 1 0 (by simp [mesh, restOptions])]
    · simp
    · intro tau ht
      have := hD.solution.running el he tau ht
      rw [hstep] at this
      rw [show (statePoly (mesh restOptions) b el 1).derivative.eval tau = 1 * lateProblem.L.eval ops (ρ el tau)
        from this]
      simp [lateProblem, Ocp.new, Expr.eval]
  have hc := fun i => ExactTraj.statePoly_continuous hm hD.data 0 i (by decide)
    (hD.solution.continuous 0 (by decide))
  have hstart : (statePoly (mesh restOptions) b 0 0).eval 0 = 1 := by
    have := hD.solution.initial (Expr.sub (.sym 2) (.sym 3)) (by
      show _ ∈ [Expr.sub (.sym 2) (.sym 3)]
      simp)
    simp only [Expr.eval] at this
    rw [(hD.reads 0 (by decide) 0).states 0 2 rfl, (hD.reads 0 (by decide) 0).starts 0 3 rfl] at this
    simpa [sub_eq_zero] using this
  have hend : (statePoly (mesh restOptions) b 1 0).eval 1 = 3 := by
    rw [hx 1 (by decide), ← hc 0, hx 0 (by decide), hstart]
    norm_num
  have hcend : (statePoly (mesh restOptions) b 1 1).eval 1 = 0 := by
    rw [hcost 1 (by decide), ← hc 1, hcost 0 (by decide)]
    exact hD.solution.costStart
  unfold directCost
  rw [show (statePoly (mesh restOptions) b ((mesh restOptions).elements - 1)
    lateProblem.model.x.length).eval 1 = 0 from hcend]
  have hfin := (hD.reads 1 (by decide) 1).states 0 2 rfl
  rw [hend] at hfin
  have hV : lateProblem.V.eval ops (ρ ((mesh restOptions).elements - 1) 1) = 0 - 3 := by
    show Expr.eval ops (ρ 1 1) (.sub (.const 0) (.sym 2)) = _
    simp [Expr.eval, hfin]
  rw [hV]
  simp [lateProblem, Ocp.new, Expr.eval, mesh, restOptions]

end Example

open Example in
/-- C163 fails if the horizon does not start at 0 and something depends on the time: there is a problem
with a trajectory that the mesh can represent, and every decision of the discretised problem costs
more. -/
theorem C163_start_fails (ops : Expr.Ops Rat) :
    ∃ (opts : Options) (names : NewNames) (o : Ocp) (z : PolySolution Rat) (ρ : Nat → Rat → Sym → Rat),
      WellPosed Rat opts names o ∧
      ExactTrajectory ops o (mesh opts) [1] [] [[], []] (lastOf o) z ρ ∧
      ∀ b ρ', Decision ops o (mesh opts) [1] [] [[], []] (lastOf o) b ρ' →
        trajectoryCost ops o (mesh opts) z ρ < directCost ops o (mesh opts) b ρ' := by
  refine ⟨restOptions, restNames, lateProblem, lateSolution, lateValues,
    ⟨lateProblem_declared, by decide, .inr (by unfold NoRateLimits; decide)⟩, late_exact ops,
    fun b ρ' hD => ?_⟩
  rw [late_cost, late_decision ops b ρ' hD]
  norm_num

end Verif
