import Verif.Lemmas.SessionDeclared
import Verif.Props.SolveShooting
/-!
# C169: a problem declared with the creating calls is solved as declared
-/
namespace Verif
open Spec Session

/-- What the problem says after an accepted program is what the statements declared: constraints with
their time tags, costs (the last assignment counts), initial values, algebraic equations, and the bounds
of algebraic variables, controls and optimised parameters. -/
theorem C169_declared (t0 tf : Rat) (sts : List Statement) (s : Session)
    (h : Session.program sts (Session.start t0 tf) = (.ok (), s)) : DeclaredBy t0 tf sts s.problem := by
  obtain ⟨h₀, h₁, h₂, h₃, h₄, h₅, h₆, h₇, h₈, h₉, h₁₀, h₁₁, h₁₂, h₁₃, h₁₄⟩ :=
    steps (built_start t0 tf).sized ⟨rfl, rfl⟩ h
  exact ⟨h₀, h₁, h₂, h₃, h₄, h₅, h₆, h₇, h₈, h₉, h₁₀, h₁₁, h₁₂, h₁₃, h₁₄⟩

/-- The variables of the problem are those the statements created, in this order and of these kinds. -/
theorem C169_variables (t0 tf : Rat) (sts : List Statement) (s : Session)
    (h : Session.program sts (Session.start t0 tf) = (.ok (), s)) : CreatedBy sts s.problem.model := by
  obtain ⟨h₁, h₂, h₃, h₄, h₅⟩ := steps_variables h
  exact ⟨h₁, h₂, h₃, h₄, h₅⟩

/-- The initial conditions are those of the statements, and that states created with an initial value
start there. -/
theorem C169_initial (t0 tf : Rat) (sts : List Statement) (s : Session)
    (h : Session.program sts (Session.start t0 tf) = (.ok (), s)) :
    s.problem.hInitial = initialConditions 2 sts := steps_initial h

/-- The differential equations are those given with the states, if none are included later. -/
theorem C169_equations_partial (t0 tf : Rat) (sts : List Statement) (s : Session)
    (h : Session.program sts (Session.start t0 tf) = (.ok (), s)) (he : EquationsWithStates sts) :
    s.problem.model.ode = stateEquations 2 sts := steps_states h he

/-- Equations included later may replace an equation given with a state: a first state without an
equation, a second one with one, and then two equations. -/
theorem C169_equations_fails (a b c : Expr) :
    let run := Session.program [.createState 1 none (some [0]) none none none,
      .createState 1 (some [a]) (some [0]) none none none, .systemEquations (some [b, c]) []]
      (Session.start 0 1)
    run.1 = .ok () ∧ run.2.problem.model.ode = [(2, some b), (4, some c)] := by
  intro run
  constructor
  · rfl
  · rfl

/-- Equations for the remaining states are rejected if the first state has its equation already. -/
theorem C169_remaining_fails (t0 tf : Rat) (a b : Expr) :
    (Session.program [.createState 1 (some [a]) (some [0]) none none none,
        .createState 1 none (some [0]) none none none, .systemEquations (some [b]) []]
        (Session.start t0 tf)).1 = .error .valueError := rfl

/-- An initial condition given together with an initial value is dropped. -/
theorem C169_initial_fails (t0 tf : Rat) (ode : Option (List Expr)) (x0 : List Rat) (hi lo : Option BArg)
    (n : Nat) (h h' : Option (List Expr)) :
    Session.program [.createState n ode (some x0) hi lo h] (Session.start t0 tf) =
      Session.program [.createState n ode (some x0) hi lo h'] (Session.start t0 tf) := by
  have : ∀ h h', Ocp.includeState (newSyms 2 n) ode (some x0) lo hi h none false (2 + n) =
      Ocp.includeState (newSyms 2 n) ode (some x0) lo hi h' none false (2 + n) := fun h h' => rfl
  have hr : ∀ h h', (Statement.createState n ode (some x0) hi lo h).run =
      (Statement.createState n ode (some x0) hi lo h').run := fun h h' => by
    funext s
    unfold Statement.run Statement.onProblem
    rfl
  unfold Session.program
  simp only [Py.forEach, hr h h']

/-- The bounds of states are those asked for, if they are not given as lists of several numbers. -/
theorem C169_state_bounds_partial (n : Nat) (ode : Option (List Expr)) (x0 : Option (List Rat))
    (hi lo : Option BArg) (h : Option (List Expr)) (s s' : Session)
    (hc : ColumnBounds (.createState n ode x0 hi lo h))
    (hr : (Statement.createState n ode x0 hi lo h).run s = (.ok (), s')) :
    s'.problem.xMin = s.problem.xMin ++ askedStateBound ⊥ n lo ∧
    s'.problem.xMax = s.problem.xMax ++ askedStateBound ⊤ n hi := by
  obtain ⟨hr, -⟩ := run_ok hr
  obtain ⟨-, lo', hi', m', h', hlo, hhi, hl₁, hl₂, -, -, -, ho⟩ := Ocp.includeState_ok_iff.mp hr
  simp only [length_newSyms] at hlo hhi hl₁ hl₂
  have key : ∀ (d : XRat) (b : Option BArg) (l : List XRat), (∀ v, b = some (.list v) → v.length ≤ 1) →
      stateBound d n b = .ok l → l = askedStateBound d n b := by
    intro d b l hb hl
    match b, hb, hl with
    | none, _, hl => cases hl; rfl
    | some (.dm v), _, hl => cases hl; rfl
    | some (.list []), _, hl => cases hl; rfl
    | some (.list [v]), _, hl => cases hl; rfl
    | some (.list (_ :: _ :: _)), hb, _ =>
      have := hb _ rfl
      simp at this
  rw [ho, ← key ⊥ lo lo' hc.2 hlo, ← key ⊤ hi hi' hc.1 hhi]
  exact ⟨rfl, rfl⟩

/-- Bounds of two states given as the list `[2, 1]` are taken for the size of a matrix of zeros. -/
theorem C169_state_bounds_fails (t0 tf : Rat) :
    ∃ s, Session.program [.createState 2 none (some [0, 0]) (some (.list [XRat.fin 2, XRat.fin 1])) none none]
        (Session.start t0 tf) = (.ok (), s) ∧ s.problem.xMax = [XRat.fin 0, XRat.fin 0] :=
  ⟨_, rfl, rfl⟩

namespace Example

/-- Drive a state from 1 with a bounded control, at a quadratic cost, to end below 1/2. -/
def driveProgram : List Statement :=
  [.createControl 1 (some [XRat.fin (-1)]) (some [XRat.fin 1]) none none none,
   .createState 1 (some [.sym 2]) (some [1]) none (some (.dm [XRat.fin 0])) none,
   .setL (.mul (.sym 3) (.sym 3)),
   .timeInequality [.sub (.sym 2) (.sym 3)] "end",
   .finalEquality [.sub (.sym 3) (.const (1 / 2))]]

/-- The problem it declares. -/
def driven : Session := (Session.program driveProgram (Session.start 0 2)).2

theorem drive_runs : Session.program driveProgram (Session.start 0 2) = (.ok (), driven) := rfl

theorem drive_declares : Declares driveProgram (Session.start 0 2) driven := by
  refine ⟨_, rfl, trivial, _, rfl, ?_, _, rfl, ?_, _, rfl, ?_, _, rfl, ?_, rfl⟩
  all_goals
    simp only [SoundArguments]
    unfold Mention
    decide +kernel

theorem drive_finished : FinishedForShooting driven.problem where
  horizon := by decide +kernel
  equations := fun v hv => by
    have : v ∈ ([3] : List Sym) := hv
    simp only [List.mem_singleton] at this
    subst this
    exact ⟨.sym 2, rfl⟩
  controls := by decide +kernel
  algebraic := fun _ => rfl
  x := fun i a b ha hb => by
    have hb : ([⊤] : List XRat)[i]? = some b := hb
    match i, hb with
    | 0, hb =>
      cases hb
      exact le_top
  y := fun i a b ha hb => by cases ha
  u := fun i a b ha hb => by
    have ha : ([XRat.fin (-1)] : List XRat)[i]? = some a := ha
    have hb : ([XRat.fin 1] : List XRat)[i]? = some b := hb
    match i, ha, hb with
    | 0, ha, hb =>
      cases ha
      cases hb
      decide +kernel
  du := fun i a b ha hb => by
    have hb : ([⊤] : List XRat)[i]? = some b := hb
    match i, hb with
    | 0, hb =>
      cases hb
      exact le_top
  pOpt := fun i a b ha hb => by cases ha
  thetaOpt := fun i a b ha hb => by cases ha
  last := fun u hu => by cases hu
  ends := by decide +kernel
  unknowns := fun _ => rfl

theorem drive_unused : UnusedNames driven restNames := ⟨by decide, by decide, by decide, by decide⟩

end Example

open Example in
/-- The hypotheses of `C169_declared`, `C169_variables`, `C169_initial` and `C169_equations_partial` are met. -/
example : driven.problem.hInitial = [.sub (.sym 4) (.sym 3)] ∧
    driven.problem.model.ode = [(3, some (.sym 2))] ∧
    driven.problem.L = .mul (.sym 3) (.sym 3) ∧
    driven.problem.uMin.zip driven.problem.uMax = [(XRat.fin (-1), XRat.fin 1)] :=
  ⟨C169_initial 0 2 driveProgram driven drive_runs,
    C169_equations_partial 0 2 driveProgram driven drive_runs (by
      intro ode alg h
      simp [driveProgram] at h),
    (C169_declared 0 2 driveProgram driven drive_runs).L, (C169_declared 0 2 driveProgram driven drive_runs).u⟩

open Example in
/-- The hypotheses of `C169_state_bounds_partial` are met. -/
example (s' : Session) (h : (Statement.createState 1 (some [.sym 2]) (some [1]) none
      (some (.dm [XRat.fin 0])) none).run (Session.start 0 2) = (.ok (), s')) :
    s'.problem.xMin = [XRat.fin 0] ∧ s'.problem.xMax = [⊤] :=
  C169_state_bounds_partial 1 (some [.sym 2]) (some [1]) none (some (.dm [XRat.fin 0])) none
    (Session.start 0 2) s' ⟨nofun, nofun⟩ h

section
variable {K : Type} [Field K] [LinearOrder K] [IsStrictOrderedRing K]
open SolveDirect

/-- A problem declared by a program is solved with a direct method (collocation) as declared: the
problem is accepted, and with a solver that returns minimisers the result shows trajectories that
satisfy what the user declared, at the least cost. -/
theorem C169_solve (ops : Expr.Ops K) (opts : Options) (names : NewNames)
    (sim info : List K → Theta K → Except Err (List K))
    (solver : SolverCall K → Except Err (RawSolution K)) (a : SolveArgs K) (x0 p : List K)
    (theta : List (List K)) (t0 tf : Rat) (sts : List Statement) (s : Session)
    (h : Declares sts (Session.start t0 tf) s) (hf : Finished s.problem) (ho : GoodOptions opts)
    (hn : UnusedNames s names) (hv : NewVariables (directDims s.problem (mesh opts)) names.var)
    (hl : LastFits s.problem opts) (hd : DataFits s.problem (mesh opts) x0 p theta)
    (ha : ArgsFit s.problem opts a sim info x0 p theta) (hs : GoodSolver ops solver) :
    ∃ r b, (solve ops opts names sim info solver a ⟨{ problem := s.problem }, none⟩).1 = .ok r ∧
      CollocationData (directDims s.problem (mesh opts)) b ∧ r.report.raw = Layout.stacked b ∧
      Shows s.problem (mesh opts) b r.report ∧
      (r.report.success = true →
        (∃ ρ, ReadsAll s.problem (mesh opts) b x0 p theta ρ) ∧
        (∀ ρ, ReadsAll s.problem (mesh opts) b x0 p theta ρ →
          Decision ops s.problem (mesh opts) x0 p theta (lastOf s.problem) b ρ ∧
          r.report.objective = directCost ops s.problem (mesh opts) b ρ) ∧
        ∀ b' ρ', Decision ops s.problem (mesh opts) x0 p theta (lastOf s.problem) b' ρ' →
          r.report.objective ≤ directCost ops s.problem (mesh opts) b' ρ') := by
  have hb := built_program h
  obtain ⟨r, b, h₁, h₂, h₃, h₄, -, -, h₅⟩ := C161_solve ops opts names { problem := s.problem } sim info
    solver a x0 p theta rfl rfl (Session.prepares hb opts names hn.costState)
    ⟨Session.declared hb hf ho hn hv, hl⟩ hd ha hs
  exact ⟨r, b, h₁, h₂, h₃, h₄, h₅⟩

end

section
open SolveShooting SolveDirect

/-- The same with multiple shooting and an exact integrator: the trajectories solve the differential
equations of the user, and no other ones with controls of this form cost less. -/
theorem C169_shooting (ops : Expr.Ops ℝ) (integ : DaeIntegrator ℝ) (opts : Options) (sum : Bool)
    (names : NewNames) (sim info : List ℝ → Theta ℝ → Except Err (List ℝ))
    (solver : SolverCall ℝ → Except Err (RawSolution ℝ)) (a : SolveArgs ℝ) (x0 p : List ℝ)
    (theta : List (List ℝ)) (t0 tf : Rat) (sts : List Statement) (s : Session)
    (h : Declares sts (Session.start t0 tf) s) (hf : FinishedForShooting s.problem)
    (ho : ShootingOptions opts) (hn : UnusedNames s names)
    (hv : NewShots (directDims s.problem (mesh opts)) names.var) (hl : LastFits s.problem opts)
    (hi : ExactElements ops integ s.problem (Direct.prepare opts.controlRoots opts.controlRoots.length
      names.xc names.fresh names.base { problem := s.problem }).2.problem (mesh opts))
    (hd : DataFits s.problem (mesh opts) x0 p theta)
    (ha : ArgsFit s.problem opts a sim info x0 p theta) (hs : GoodSolver ops solver) :
    ∃ r b, (SolveShooting.solve ops integ opts sum names sim info solver a
        ⟨{ problem := s.problem }, none⟩).1 = .ok r ∧
      ShootingShape (directDims s.problem (mesh opts)) b ∧ r.report.raw = Layout.stacked b ∧
      ShowsShots s.problem (mesh opts) b r.report ∧
      (r.report.success = true →
        (∀ X, Paths ops s.problem (mesh opts) b x0 p theta X →
          ShotDecision ops s.problem (mesh opts) x0 p theta (lastOf s.problem) sum b X ∧
          r.report.objective = shotCost ops s.problem (mesh opts) sum X) ∧
        ∀ b' X', ShotDecision ops s.problem (mesh opts) x0 p theta (lastOf s.problem) sum b' X' →
          r.report.objective ≤ shotCost ops s.problem (mesh opts) sum X') := by
  have hb := built_program h
  have hw : ShotWellPosed opts names s.problem :=
    { mesh := ho.mesh
      controlRoots := ho.controlRoots
      problem := { directProblem hb hf.toFinished with
        ends := hf.ends
        unknowns := hf.unknowns }
      scope := directScope hb
      symbols := hb.symbols
      controls := List.length_pos_iff.mpr hf.controls
      bounds := boundsFit hb hf.toFinished
      limits := limitsFit hb hf.toFinished
      new := newSymbols hb hn.costState hn.initial hn.different hn.points
      newVars := hv
      initial := ho.initial
      last := hl }
  obtain ⟨r, b, h₁, h₂, h₃, h₄, -, -, h₅⟩ := C166_solve ops integ opts sum names { problem := s.problem } sim
    info solver a x0 p theta rfl rfl (Session.prepares hb opts names hn.costState) hw hi hd ha hs
  exact ⟨r, b, h₁, h₂, h₃, h₄, h₅⟩

end

open Example SolveDirect in
/-- The hypotheses of `C169_solve` are met. -/
example (ops : Expr.Ops Rat) (sim info : List Rat → Theta Rat → Except Err (List Rat)) :
    ∃ r, (solve ops restOptions restNames sim info (bestSolver ops) restArgs
      ⟨{ problem := driven.problem }, none⟩).1 = .ok r := by
  obtain ⟨r, b, h, -⟩ := C169_solve ops restOptions restNames sim info (bestSolver ops) restArgs [1] [] [[], []]
    0 2 driveProgram driven drive_declares drive_finished.toFinished
    ⟨restProblem_declared.mesh, restProblem_declared.controlRoots, rfl⟩ drive_unused
    ⟨⟨fun _ _ => rfl, fun _ _ => rfl, fun _ _ => rfl, rfl, rfl, fun _ => rfl⟩, by decide⟩
    ⟨by decide, .inr (by unfold NoRateLimits; decide +kernel)⟩ ⟨rfl, rfl, by decide⟩
    ⟨.inr ⟨rfl, rfl⟩, .inr ⟨rfl, rfl, rfl⟩, .inr ⟨rfl, rfl, rfl⟩, .inl rfl, .inr (.inl (by decide))⟩
    (bestSolver_good ops)
  exact ⟨r, h⟩

namespace Example

/-- A state without an equation, a control, and then the equation. -/
def shotProgram : List Statement :=
  [.createState 1 none (some [1]) none none none,
   .createControl 1 none (some [XRat.fin 1]) none none none,
   .systemEquations (some [.sym 4]) [],
   .setL (.mul (.sym 4) (.sym 4)),
   .setV (.mul (.sym 2) (.sym 2))]

/-- The problem it declares. -/
def shotSession : Session := (Session.program shotProgram (Session.start 0 2)).2

theorem shotSession_declares : Declares shotProgram (Session.start 0 2) shotSession := by
  refine ⟨_, rfl, ?_, _, rfl, trivial, _, rfl, ?_, _, rfl, ?_, _, rfl, ?_, rfl⟩
  all_goals
    simp only [SoundArguments]
    unfold Mention
    decide +kernel

theorem shotSession_finished : FinishedForShooting shotSession.problem where
  horizon := by decide +kernel
  equations := fun v hv => by
    have : v ∈ ([2] : List Sym) := hv
    simp only [List.mem_singleton] at this
    subst this
    exact ⟨.sym 4, rfl⟩
  controls := by decide +kernel
  algebraic := fun _ => rfl
  x := (pairFits_free 1).uncrossed
  y := fun i a b ha hb => by cases ha
  u := fun i a b ha hb => by
    have ha : ([⊥] : List XRat)[i]? = some a := ha
    match i, ha with
    | 0, ha =>
      cases ha
      exact bot_le
  du := (pairFits_free 1).uncrossed
  pOpt := fun i a b ha hb => by cases ha
  thetaOpt := fun i a b ha hb => by cases ha
  last := fun u hu => by cases hu
  ends := by decide +kernel
  unknowns := fun _ => rfl

theorem shotSession_exact (ops : Expr.Ops ℝ) : ExactElements ops shotInteg shotSession.problem
    (Direct.prepare shotOptions.controlRoots shotOptions.controlRoots.length shotNames.xc shotNames.fresh
      shotNames.base { problem := shotSession.problem }).2.problem (mesh shotOptions) := by
  intro el hel d hd
  have : ((Direct.prepare shotOptions.controlRoots shotOptions.controlRoots.length shotNames.xc
      shotNames.fresh shotNames.base { problem := shotSession.problem }).2.problem.elementDae 2 el).toOption =
        some shotDae := by
    match el, hel with
    | 0, _ => decide +kernel
    | 1, _ => decide +kernel
  have hd' : (Direct.prepare shotOptions.controlRoots shotOptions.controlRoots.length shotNames.xc
      shotNames.fresh shotNames.base { problem := shotSession.problem }).2.problem.elementDae 2 el = .ok d := hd
  rw [hd'] at this
  obtain rfl := Option.some.inj this
  refine shotInteg_exact ops _ _ ?_
  unfold nodeTime
  have : stepLength shotSession.problem (mesh shotOptions) = (1 : ℝ) := by
    have h₁ : shotSession.problem.t0 = 0 := rfl
    have h₂ : shotSession.problem.tf = 2 := rfl
    have h₃ : (mesh shotOptions).elements = 2 := rfl
    simp [stepLength, h₁, h₂, h₃]
  rw [this]
  push_cast
  linarith

end Example

open Example SolveDirect in
/-- The hypotheses of `C169_shooting` are met. -/
example (ops : Expr.Ops ℝ) (sim info : List ℝ → Theta ℝ → Except Err (List ℝ)) :
    ∃ r, (SolveShooting.solve ops shotInteg shotOptions false shotNames sim info (bestSolver ops) shotArgs
      ⟨{ problem := shotSession.problem }, none⟩).1 = .ok r := by
  obtain ⟨r, b, h, -⟩ := C169_shooting ops shotInteg shotOptions false shotNames sim info (bestSolver ops)
    shotArgs [1] [] [[], []] 0 2 shotProgram shotSession shotSession_declares shotSession_finished
    ⟨shotProblem_declared.mesh, shotProblem_declared.controlRoots, rfl⟩
    ⟨by decide, by decide, by decide, by decide⟩
    ⟨⟨fun _ _ => rfl, fun _ _ => rfl, fun _ _ => rfl, rfl, rfl, fun _ => rfl⟩, by decide⟩
    ⟨by decide, .inr (by unfold NoRateLimits; decide +kernel)⟩ (shotSession_exact ops) ⟨rfl, rfl, by decide⟩
    ⟨.inr ⟨rfl, (by
        rw [show shotSession.problem.x0 = [1] from rfl]
        simp [inField])⟩, .inr ⟨rfl, rfl, rfl⟩,
      .inr ⟨rfl, rfl, rfl⟩, .inl rfl, .inr (.inl (by decide))⟩
    (bestSolver_good ops)
  exact ⟨r, h⟩

end Verif
