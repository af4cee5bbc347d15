import Verif.Lemmas.SolveShootingRun
import Verif.Props.SolveDirect
import Verif.Props.TranscribeShooting
/-!
# C166: solving with multiple shooting and a good solver gives the optimum of the user's problem
-/
namespace Verif
open Spec SolveDirect SolveShooting Direct

/-- Solving with multiple shooting, an integrator that is exact and a solver that returns minimisers: the
result shows a decision vector, and if the solver reports success then the trajectories of the user's
differential equations that start at its states fit together and satisfy the constraints and the bounds the
user declared, the objective of the result is the cost of the user (with the integral of the running
cost), and no other trajectories with controls of this form cost less. -/
theorem C166_solve (ops : Expr.Ops ℝ) (integ : DaeIntegrator ℝ) (opts : Options) (sum : Bool)
    (names : NewNames) (s : Method) (sim info : List ℝ → Theta ℝ → Except Err (List ℝ))
    (solver : SolverCall ℝ → Except Err (RawSolution ℝ)) (a : SolveArgs ℝ) (x0 p : List ℝ)
    (theta : List (List ℝ)) (hc : s.hasCostState = false) (hp : s.prepared = false)
    (h : (prepare opts.controlRoots opts.controlRoots.length names.xc names.fresh names.base s).1 = .ok ())
    (hw : ShotWellPosed opts names s.problem)
    (hi : ExactElements ops integ s.problem (prepare opts.controlRoots opts.controlRoots.length names.xc
      names.fresh names.base s).2.problem (mesh opts))
    (hd : DataFits s.problem (mesh opts) x0 p theta)
    (ha : ArgsFit s.problem opts a sim info x0 p theta) (hs : GoodSolver ops solver) :
    ∃ r b, (solve ops integ opts sum names sim info solver a ⟨s, none⟩).1 = .ok r ∧
      ShootingShape (directDims s.problem (mesh opts)) b ∧ r.report.raw = Layout.stacked b ∧
      ShowsShots s.problem (mesh opts) b r.report ∧ r.x0 = x0 ++ [0] ∧
      r.xCFinal = some [shotState b opts.elements s.problem.model.x.length] ∧
      (r.report.success = true →
        (∀ X, Paths ops s.problem (mesh opts) b x0 p theta X →
          ShotDecision ops s.problem (mesh opts) x0 p theta (lastOf s.problem) sum b X ∧
          r.report.objective = shotCost ops s.problem (mesh opts) sum X) ∧
        ∀ b' X', ShotDecision ops s.problem (mesh opts) x0 p theta (lastOf s.problem) sum b' X' →
          r.report.objective ≤ shotCost ops s.problem (mesh opts) sum X') := by
  obtain ⟨r, b, call, raw, h₁, h₂, h₃, h₄, h₅, h₆, h₇, h₈, h₉, h₁₀, hfe, -⟩ :=
    solve_core sum sim info solver a x0 p theta hc hp h hw hi hd ha hs
  refine ⟨r, b, h₁, h₂, h₃, h₄, h₅, h₆, fun hsucc => ?_⟩
  obtain ⟨raw', hr', -, hM⟩ := hs call
  obtain rfl : raw = raw' := Except.ok.inj (h₇.symm.trans hr')
  have hM := hM (h₉ ▸ hsucc)
  refine ⟨fun X hX => ?_, fun b' X' hD => ?_⟩
  · obtain ⟨hiff, hv⟩ := hfe b h₂ X hX
    rw [← h₈] at hiff hv
    obtain ⟨cons, f, hf, -⟩ := hM.feasible.constraints
    exact ⟨hiff.mp hM.feasible, (h₁₀.trans (hM.objective _ _ hf)).trans (hv _ _ hM.feasible hf)⟩
  · obtain ⟨hiff, hv⟩ := hfe b' hD.data X' hD.paths
    have hfeas := hiff.mpr hD
    obtain ⟨cons, f, hf, -⟩ := hfeas.constraints
    rw [h₁₀, ← hv _ _ hfeas hf]
    exact hM.minimal _ hfeas _ _ hf

/-- If moreover the solver finds a minimiser whenever there is one, the differential equations have
solutions, and the problem of the user has a best decision, then the call succeeds and returns the least
cost. -/
theorem C166_succeeds (ops : Expr.Ops ℝ) (integ : DaeIntegrator ℝ) (opts : Options) (sum : Bool)
    (names : NewNames) (s : Method) (sim info : List ℝ → Theta ℝ → Except Err (List ℝ))
    (solver : SolverCall ℝ → Except Err (RawSolution ℝ)) (a : SolveArgs ℝ) (x0 p : List ℝ)
    (theta : List (List ℝ)) (hc : s.hasCostState = false) (hp : s.prepared = false)
    (h : (prepare opts.controlRoots opts.controlRoots.length names.xc names.fresh names.base s).1 = .ok ())
    (hw : ShotWellPosed opts names s.problem)
    (hi : ExactElements ops integ s.problem (prepare opts.controlRoots opts.controlRoots.length names.xc
      names.fresh names.base s).2.problem (mesh opts))
    (hd : DataFits s.problem (mesh opts) x0 p theta)
    (ha : ArgsFit s.problem opts a sim info x0 p theta) (hs : GoodSolver ops solver)
    (hcs : CompleteSolver ops solver)
    (hex : ∀ b, ShootingShape (directDims s.problem (mesh opts)) b →
      ∃ X, Paths ops s.problem (mesh opts) b x0 p theta X)
    (best : Blocks ℝ) (X : Nat → ℝ → Sym → ℝ)
    (hbest : BestShots ops s.problem (mesh opts) x0 p theta (lastOf s.problem) sum best X) :
    ∃ r, (solve ops integ opts sum names sim info solver a ⟨s, none⟩).1 = .ok r ∧
      r.report.success = true ∧ r.report.objective = shotCost ops s.problem (mesh opts) sum X := by
  obtain ⟨r, b, call, raw, h₁, h₂, h₃, h₄, h₅, h₆, h₇, h₈, h₉, h₁₀, hfe, hall⟩ :=
    solve_core sum sim info solver a x0 p theta hc hp h hw hi hd ha hs
  obtain ⟨hiff, hv⟩ := hfe best hbest.data X hbest.paths
  have hfeas := hiff.mpr hbest.toShotDecision
  have hmin : CallMinimum ops call { raw with
      x := Layout.stacked best, f := shotCost ops s.problem (mesh opts) sum X } := by
    refine ⟨hfeas, fun cons f hf => (hv cons f hfeas hf).symm, fun v hvf cons f hf => ?_⟩
    obtain ⟨b', hb', rfl⟩ := hall v hvf.size
    obtain ⟨X', hX'⟩ := hex b' hb'
    obtain ⟨hiff', hv'⟩ := hfe b' hb' X' hX'
    rw [hv' _ _ hvf hf]
    exact hbest.best b' X' (hiff'.mp hvf)
  obtain ⟨raw', hr', hs'⟩ := hcs call _ hmin
  obtain rfl : raw = raw' := Except.ok.inj (h₇.symm.trans hr')
  refine ⟨r, h₁, h₉.trans hs', ?_⟩
  obtain ⟨raw'', hr'', -, hM⟩ := hs call
  obtain rfl : raw = raw'' := Except.ok.inj (h₇.symm.trans hr'')
  have hM := hM hs'
  rw [h₁₀]
  refine le_antisymm ?_ ?_
  · obtain ⟨cons, f, hf, -⟩ := hfeas.constraints
    rw [← hv _ _ hfeas hf]
    exact hM.minimal _ hfeas _ _ hf
  · obtain ⟨cons', f, hf, -⟩ := hM.feasible.constraints
    rw [hM.objective _ _ hf]
    exact hmin.minimal _ hM.feasible _ _ hf

/-- The final value of the cost state in the result is the integral of the running cost over the horizon,
unless the cost is a sum. -/
theorem C166_cost_state (ops : Expr.Ops ℝ) (o : Ocp) (M : Mesh) (x0 p : List ℝ) (theta : List (List ℝ))
    (lastU : Option (List ℝ)) (b : Blocks ℝ) (X : Nat → ℝ → Sym → ℝ)
    (h : ShotDecision ops o M x0 p theta lastU false b X) :
    shotState b M.elements o.model.x.length =
      ((List.range M.elements).map fun el => runningCost ops o M el (X el)).sum := by
  have : ∀ n ≤ M.elements, shotState b n o.model.x.length =
      ((List.range n).map fun el => runningCost ops o M el (X el)).sum := by
    intro n
    induction n with
    | zero => intro _; simpa using h.solution.costStart
    | succ n ih =>
      intro hn
      rw [h.solution.running n hn, List.range_succ]
      simp [ih (by omega)]
  exact this _ le_rfl

/-- With the cost as a sum the final value of the cost state is 0, whatever the running cost is. -/
theorem C166_cost_state_fails (ops : Expr.Ops ℝ) (o : Ocp) (M : Mesh) (x0 p : List ℝ)
    (theta : List (List ℝ)) (lastU : Option (List ℝ)) (b : Blocks ℝ) (X : Nat → ℝ → Sym → ℝ)
    (h : ShotDecision ops o M x0 p theta lastU true b X) :
    shotState b M.elements o.model.x.length = 0 := by
  cases hn : M.elements with
  | zero => exact h.solution.costStart
  | succ n => simpa using h.solution.running n (by omega)

/-- After a first call of `solve`, whatever it returned, further calls give what they would give as
first calls. -/
theorem C166_again (ops : Expr.Ops ℝ) (integ : DaeIntegrator ℝ) (opts : Options) (sum : Bool)
    (names : NewNames) (s : Method) (sim info sim' info' : List ℝ → Theta ℝ → Except Err (List ℝ))
    (solver solver' : SolverCall ℝ → Except Err (RawSolution ℝ)) (a a' : SolveArgs ℝ)
    (hc : s.hasCostState = false) (hp : s.prepared = false)
    (h : (prepare opts.controlRoots opts.controlRoots.length names.xc names.fresh names.base s).1 = .ok ())
    (hw : ShotWellPosed opts names s.problem)
    (hi : ExactElements ops integ s.problem (prepare opts.controlRoots opts.controlRoots.length names.xc
      names.fresh names.base s).2.problem (mesh opts)) :
    solve ops integ opts sum names sim' info' solver' a'
        (solve ops integ opts sum names sim info solver a ⟨s, none⟩).2 =
      solve ops integ opts sum names sim' info' solver' a' ⟨s, none⟩ := by
  obtain ⟨m, S, P, R, hP, hcr⟩ := created sum hc hp h hw hi
  have h₁ : program ops integ opts sum names ⟨s, none⟩ = (.ok P, (⟨m, some P⟩ : SolveShooting.State ℝ)) := by
    unfold SolveShooting.program; exact hcr
  have h₂ : program ops integ opts sum names ⟨m, some P⟩ =
    (.ok P, (⟨m, some P⟩ : SolveShooting.State ℝ)) := rfl
  rw [solve_eq h₁, solve_eq h₂, solve_eq h₁]

/-- `solve(x_0=...)` with an initial state of the model the user declared raises: the cost state was
added to the model, and the initial state must have an entry for it. -/
theorem C166_state_size_fails (ops : Expr.Ops ℝ) (integ : DaeIntegrator ℝ) (opts : Options) (sum : Bool)
    (names : NewNames) (s : Method) (sim info : List ℝ → Theta ℝ → Except Err (List ℝ))
    (solver : SolverCall ℝ → Except Err (RawSolution ℝ)) (a : SolveArgs ℝ) (x0 : List ℝ)
    (hc : s.hasCostState = false) (hp : s.prepared = false)
    (h : (prepare opts.controlRoots opts.controlRoots.length names.xc names.fresh names.base s).1 = .ok ())
    (hw : ShotWellPosed opts names s.problem)
    (hi : ExactElements ops integ s.problem (prepare opts.controlRoots opts.controlRoots.length names.xc
      names.fresh names.base s).2.problem (mesh opts))
    (hx : x0.length = s.problem.model.x.length) (ha : a.x0 = some x0) :
    (solve ops integ opts sum names sim info solver a ⟨s, none⟩).1 = .error .exception := by
  obtain ⟨m, S, P, R, hP, hcr⟩ := created sum hc hp h hw hi
  rw [solve_eq (m := m) (P := P) (by unfold SolveShooting.program; exact hcr)]
  have hn : m.problem.model.x.length = s.problem.model.x.length + 1 := congrArg Dims.nX R.dims_eq
  have h₁ : (setup (K := ℝ) opts m.problem).initialCondition a.x0 = .error .exception := by
    unfold MethodSetup.initialCondition
    rw [ha]
    refine if_pos ?_
    show x0.length ≠ m.problem.model.x.length
    rw [hn, hx]
    omega
  unfold MethodSetup.callArgs
  rw [h₁]
  rfl

/-- With a last control as a parameter, a `last_u` given to `solve` makes it raise: it is missing in the
vector of parameters. -/
theorem C166_last_control_fails (ops : Expr.Ops ℝ) (integ : DaeIntegrator ℝ) (opts : Options) (sum : Bool)
    (names : NewNames) (s : Method) (sim info : List ℝ → Theta ℝ → Except Err (List ℝ))
    (solver : SolverCall ℝ → Except Err (RawSolution ℝ)) (a : SolveArgs ℝ) (x0 p u : List ℝ)
    (theta : List (List ℝ)) (hc : s.hasCostState = false) (hp : s.prepared = false)
    (h : (prepare opts.controlRoots opts.controlRoots.length names.xc names.fresh names.base s).1 = .ok ())
    (hw : ShotWellPosed opts names s.problem)
    (hi : ExactElements ops integ s.problem (prepare opts.controlRoots opts.controlRoots.length names.xc
      names.fresh names.base s).2.problem (mesh opts))
    (hd : DataFits s.problem (mesh opts) x0 p theta)
    (ha : ArgsFit s.problem opts a sim info x0 p theta) (hlast : s.problem.lastU ≠ none) :
    (solve ops integ opts sum names sim info solver { a with lastU := some u } ⟨s, none⟩).1 =
      .error .valueError := by
  obtain ⟨m, S, P, R, hP, hcr⟩ := created sum hc hp h hw hi
  obtain ⟨c, hca, hcx, hcp, hcpar, hcth⟩ := R.args_ok (w := some u) hd ha rfl hw.initial
  rw [solve_eq (m := m) (P := P) (by unfold SolveShooting.program; exact hcr)]
  have hasPar : (setup (K := ℝ) opts m.problem).lastControlAsParameter = true := by
    unfold MethodSetup.lastControlAsParameter
    rw [Bool.or_eq_true]
    right
    show (m.problem.lastU.map _).isSome = true
    rw [R.kept.lastU]
    cases ho : s.problem.lastU with
    | none => exact absurd ho hlast
    | some _ => rfl
  obtain ⟨hlen, -⟩ := R.parameters_ok hd hw.initial (l := List.replicate s.problem.model.u.length (0 : ℝ))
    (by rw [if_pos hasPar, List.length_replicate])
  have herr : P.call c = .error .valueError := by
    unfold SolveShooting.Program.call
    refine if_pos ?_
    rw [hP.setup, ← hlen, hcpar]
    have := hw.controls
    simp only [List.length_append, List.length_replicate, List.length_nil]
    unfold thetaOf
    omega
  simp only [hca, herr, bind, Except.bind]

/-- With a limit on the changes of the controls and no last control, neither in the problem nor as a
parameter, `solve` raises: the last control the first change is taken from is an empty vector. -/
theorem C166_limits_fails (ops : Expr.Ops ℝ) (integ : DaeIntegrator ℝ) (opts : Options) (sum : Bool)
    (names : NewNames) (s : Method) (sim info : List ℝ → Theta ℝ → Except Err (List ℝ))
    (solver : SolverCall ℝ → Except Err (RawSolution ℝ)) (a : SolveArgs ℝ)
    (hc : s.hasCostState = false) (hp : s.prepared = false)
    (h : (prepare opts.controlRoots opts.controlRoots.length names.xc names.fresh names.base s).1 = .ok ())
    (hw : ShotDeclared opts names s.problem)
    (hi : ExactElements ops integ s.problem (prepare opts.controlRoots opts.controlRoots.length names.xc
      names.fresh names.base s).2.problem (mesh opts))
    (hlast : s.problem.lastU = none)
    (hopt : opts.lastControlAsParameter = false) (hlim : ¬ NoRateLimits s.problem) :
    (solve ops integ opts sum names sim info solver a ⟨s, none⟩).1 = .error .runtimeError := by
  obtain ⟨m, S, R, h₁⟩ := prepares hc hp h hw hi
  have hb := R.build_limited sum hw.limits hlast hopt hlim
  unfold SolveShooting.solve SolveShooting.program
  simp only [Py.bind_eq]
  refine congrArg Prod.fst (Py.bind_error (s' := ⟨m, none⟩) ?_)
  simp only
  unfold SolveShooting.createProgram
  simp only [Py.bind_eq]
  rw [Py.bind_ok h₁]
  simp only [Py.get_bind]
  rw [hb]
  rfl

/-! ## Example: `x' = u`, running cost `u²`, final cost `x²`, `u ≤ 1`, from 1 -/

namespace Example

/-- Two elements, one control value per element; the initial guess is given. -/
def shotOptions : Options := { elements := 2, roots := [1], controlRoots := [1 / 2] }

/-- The new symbols. -/
def shotNames : NewNames where
  xc := 6
  fresh := 7
  base := 10
  var := fun kind el _ => match kind with
    | .x => [20 + 10 * el, 21 + 10 * el]
    | .u => [60 + el]
    | _ => []

theorem shotProblem_declared : ShotDeclared shotOptions shotNames shotProblem where
  mesh := { elements := by decide, controls := by decide }
  controlRoots := by decide
  problem := shotProblem_problem
  scope := shotProblem_scope
  symbols := by decide
  controls := by decide
  bounds := ⟨pairFits_free 1, pairFits_free 0, pairFits_free 1, pairFits_free 0, pairFits_free 0⟩
  limits := ⟨rfl, rfl, (pairFits_free 1).uncrossed, by rintro u ⟨⟩⟩
  new := shotProblem_new
  newVars := ⟨⟨fun _ _ => rfl, fun _ _ => rfl, fun _ _ => rfl, rfl, rfl, fun _ => rfl⟩, by decide⟩
  initial := rfl

theorem shotProblem_posed : ShotWellPosed shotOptions shotNames shotProblem where
  toShotDeclared := shotProblem_declared
  last := ⟨by decide, .inr (by unfold NoRateLimits; decide)⟩

theorem shotMethod_prepares : (prepare shotOptions.controlRoots shotOptions.controlRoots.length
    shotNames.xc shotNames.fresh shotNames.base shotMethod).1 = .ok () := by decide +kernel

theorem shot_exact (ops : Expr.Ops ℝ) : ExactElements ops shotInteg shotProblem
    (prepare shotOptions.controlRoots shotOptions.controlRoots.length shotNames.xc shotNames.fresh
      shotNames.base shotMethod).2.problem (mesh shotOptions) := by
  intro el hel d hd
  have := shotPrepared_dae el hel d hd
  subst this
  refine shotInteg_exact ops _ _ ?_
  unfold nodeTime
  rw [show stepLength shotProblem (mesh shotOptions) = (1 : ℝ) from shot_step]
  push_cast
  linarith

theorem shotProblem_data : DataFits (K := ℝ) shotProblem (mesh shotOptions) [1] [] [[], []] :=
  ⟨rfl, rfl, by decide⟩

/-- The arguments: an initial guess. -/
noncomputable def shotArgs : SolveArgs ℝ := { initialGuess := some [] }

theorem shotArgs_fit (sim info : List ℝ → Theta ℝ → Except Err (List ℝ)) :
    ArgsFit shotProblem shotOptions shotArgs sim info [1] [] [[], []] where
  x0 := .inr ⟨rfl, by simp [shotProblem, Ocp.new, inField]⟩
  p := .inr ⟨rfl, rfl, rfl⟩
  theta := .inr ⟨rfl, rfl, rfl⟩
  lastU := .inl rfl
  guess := .inr (.inl (by decide))

/-- The best controls: -1/3, with values of the cost state. -/
noncomputable def shotBlocks (c c' : ℝ) : Blocks ℝ where
  x := [[[1, 0]], [[2 / 3, c]], [[1 / 3, c']]]
  y := [[[]], [[]]]
  u := [[[-1 / 3]], [[-1 / 3]]]
  eta := []
  pOpt := []
  thetaOpt := [[], []]

noncomputable abbrev shotBest : Blocks ℝ := shotBlocks (1 / 9) (2 / 9)

theorem shotBlocks_shape (c c' : ℝ) : ShootingShape (directDims shotProblem shotMesh) (shotBlocks c c') := by
  refine ⟨⟨?_, rfl, rfl, ?_⟩, ?_, ?_⟩
  · simp [Grid, Columns, directDims, shotProblem, shotMesh, controlPoints, SysModel.new, Ocp.new, shotBlocks]
  · simp [Columns, directDims, shotProblem, shotMesh, SysModel.new, Ocp.new, shotBlocks]
  · simp [Grid, Columns, directDims, shotProblem, shotMesh, SysModel.new, Ocp.new, shotBlocks]
  · simp [Grid, Columns, directDims, shotProblem, shotMesh, SysModel.new, Ocp.new, shotBlocks]

theorem shot_nodes (el : Nat) : nodeTime shotProblem shotMesh el = el := by
  rw [nodeTime, shot_step, one_mul]

theorem shot_running (ops : Expr.Ops ℝ) {b : Blocks ℝ} {el : Nat} {X : ℝ → Sym → ℝ}
    (h : ElementPath ops shotProblem shotMesh b [1] [] [[], []] el X) :
    (∀ t ∈ Set.Icc (el : ℝ) (el + 1), X t 4 = shotControl b el) ∧
    X (el + 1) 2 = shotState b el 0 + shotControl b el ∧
    runningCost ops shotProblem shotMesh el X = shotControl b el * shotControl b el := by
  have hn : nodeTime shotProblem shotMesh (el + 1) = (el : ℝ) + 1 := by rw [shot_nodes]; push_cast; rfl
  have hc : controlPoly shotMesh b el 0 = Polynomial.C (shotControl b el) := by
    refine Transcription.through_eq (by simp [inField, shotMesh]) (by simp [inField, shotMesh]) ?_
    intro j hj
    have : j = 0 := by simpa [inField, shotMesh] using hj
    subst this
    rw [Polynomial.eval_C]
    rfl
  have hu : ∀ t ∈ Set.Icc (el : ℝ) (el + 1), X t 4 = shotControl b el := by
    intro t ht
    have := (h.reads t (by rw [shot_nodes, hn]; exact ht)).controls 0 4 rfl
    rw [this, hc, Polynomial.eval_C]
  refine ⟨hu, ?_, ?_⟩
  · have := linear_of_derivative (f := fun r => X r 2) (a := el) (b := el + 1) (c := shotControl b el)
      (by linarith) (fun t ht => by
        have := h.ode t (by rw [shot_nodes, hn]; exact ht) 2 (.sym 4) rfl
        rw [shot_nodes, hn] at this
        simp only [Expr.eval] at this
        rwa [hu t ht] at this)
    have hs := h.start 0 2 rfl
    rw [shot_nodes] at hs
    rw [this, hs]
    ring
  · unfold runningCost
    rw [shot_nodes, hn]
    have : ∀ t ∈ Set.uIcc (el : ℝ) (el + 1), shotProblem.L.eval ops (X t) =
        shotControl b el * shotControl b el := by
      intro t ht
      rw [Set.uIcc_of_le (by linarith)] at ht
      show X t 4 * X t 4 = _
      rw [hu t ht]
    rw [intervalIntegral.integral_congr this, intervalIntegral.integral_const]
    simp

/-- The cost of the user in terms of the controls. -/
theorem shot_cost (ops : Expr.Ops ℝ) {b : Blocks ℝ} {X : Nat → ℝ → Sym → ℝ}
    (hX : Paths ops shotProblem shotMesh b [1] [] [[], []] X) :
    shotCost ops shotProblem shotMesh false X =
      (shotState b 1 0 + shotControl b 1) * (shotState b 1 0 + shotControl b 1) +
      (shotControl b 0 * shotControl b 0 + shotControl b 1 * shotControl b 1) := by
  obtain ⟨-, -, h₀⟩ := shot_running ops (hX 0 (by decide))
  obtain ⟨-, hx, h₁⟩ := shot_running ops (hX 1 (by decide))
  unfold shotCost userCost pathCost
  rw [shot_nodes]
  rw [show shotMesh.elements = 2 from rfl]
  have hx' : X 1 2 2 = shotState b 1 0 + shotControl b 1 := by
    rw [← hx]
    norm_num
  simp only [List.range_succ, List.range_zero, List.nil_append, List.map_append, List.map_cons,
    List.map_nil, List.sum_append, List.sum_cons, List.sum_nil, h₀, h₁]
  simp [shotProblem, Ocp.new, Expr.eval, hx']

theorem shotBlocks_decision (ops : Expr.Ops ℝ) (sum : Bool) (c c' : ℝ)
    (hc : c = if sum then 0 else 1 / 9) (hc' : c' = if sum then 0 else c + 1 / 9) :
    ShotDecision ops shotProblem shotMesh [1] [] [[], []] (lastOf shotProblem) sum (shotBlocks c c')
      (shotPath (shotBlocks c c')) where
  data := shotBlocks_shape c c'
  paths := fun el _ => shotPath_solves ops _ el
  bounds := by
    refine ⟨?_, ?_, ?_, ?_, ?_⟩
    · intro el hel col hcol i a l h ha hl hh
      have hl' : l = ⊥ := by
        match i, hl with
        | 0, hl => cases hl; rfl
        | 1, hl => cases hl; rfl
      have hh' : h = ⊤ := by
        match i, hh with
        | 0, hh => cases hh; rfl
        | 1, hh => cases hh; rfl
      subst hl' hh'
      exact ⟨bot_le, le_top⟩
    · intro el hel col hcol i a l h ha hl hh
      cases hl
    · intro el hel col hcol i a l h ha hl hh
      match i, hl, hh with
      | 0, hl, hh =>
        cases hl; cases hh
        exact ⟨bot_le, le_top⟩
    · intro i a l h ha hl hh
      cases hl
    · intro col _ i a l h ha hl hh
      cases hl
  solution := by
    have two : ∀ el < shotMesh.elements, el = 0 ∨ el = 1 := by
      intro el hel
      have : el < 2 := hel
      omega
    refine ⟨?_, rfl, ?_, ?_, ?_, ?_, ?_, ?_, ?_, ?_⟩
    · intro e he
      simp [shotProblem, SysModel.new, Ocp.new] at he
      subst he
      simp [Expr.eval, shotPath, shotState, shotBlocks]
    · intro el hel i s hs
      match i, hs with
      | 0, hs =>
        cases hs
        rw [shot_nodes]
        show _ = shotState _ _ _ + shotControl _ _ * (_ - _)
        rcases two el hel with rfl | rfl <;> norm_num [shotState, shotControl, shotBlocks]
    · intro el hel
      rw [(shot_running ops (shotPath_solves ops _ el)).2.2]
      rcases two el hel with rfl | rfl
      · refine Eq.trans (b := c) rfl (hc.trans ?_)
        norm_num [shotState, shotControl, shotProblem, Ocp.new, shotBlocks]
      · refine Eq.trans (b := c') rfl (hc'.trans ?_)
        norm_num [shotState, shotControl, shotProblem, Ocp.new, shotBlocks]
    · intro el _ i s hs
      simp [shotProblem, SysModel.new, Ocp.new] at hs
    · intro el hel e he
      have he : e = .sub (.sym 4) (.const 1) := by simpa [shotProblem] using he
      subst he
      show shotControl _ _ - ((1 : Rat) : ℝ) ≤ 0
      rcases two el hel with rfl | rfl <;> norm_num [shotControl, shotBlocks]
    · intro el hel e he
      simp [shotProblem, Ocp.new] at he
    · intro el hel before now hb hn i a c lo hi ha hc hlo hhi
      match i, ha, hc, hlo, hhi with
      | 0, ha, hc, hlo, hhi =>
        cases hlo
        cases hhi
        exact ⟨bot_le, le_top⟩
    · intro e he
      simp [shotProblem, Ocp.new] at he
    · intro e he
      simp [shotProblem, Ocp.new] at he

theorem shotBest_best (ops : Expr.Ops ℝ) :
    BestShots ops shotProblem shotMesh [1] [] [[], []] (lastOf shotProblem) false shotBest
      (shotPath shotBest) where
  toShotDecision := shotBlocks_decision ops false _ _ (by simp) (by norm_num)
  best := by
    intro b' X' hD
    rw [shot_cost ops hD.paths, shot_cost ops fun el _ => shotPath_solves ops shotBest el]
    have h₀ := (shot_running ops (hD.paths 0 (by decide))).2.1
    have hs := hD.solution.states 0 (by decide) 0 2 rfl
    rw [shot_nodes] at hs
    have hi := hD.solution.initial (.sub (.sym 2) (.sym 3)) (by
      simp [shotProblem, SysModel.new, Ocp.new])
    have h3 := ((hD.paths 0 (by decide)).reads 0 (by
      rw [shot_nodes, shot_nodes]; norm_num)).starts 0 3 rfl
    have hs0 := (hD.paths 0 (by decide)).start 0 2 rfl
    rw [shot_nodes] at hs0
    simp only [Expr.eval, sub_eq_zero] at hi
    have e₀ : shotState b' 0 0 = 1 := by
      rw [← hs0]
      push_cast
      rw [hi, h3]
      rfl
    have e₁ : shotState b' 1 0 = 1 + shotControl b' 0 := by
      rw [← e₀, ← h₀]
      refine hs.trans ?_
      norm_num
    rw [e₁]
    generalize shotControl b' 0 = u
    generalize shotControl b' 1 = v
    norm_num [shotState, shotControl, shotBlocks]
    nlinarith [sq_nonneg (u - v), sq_nonneg (u + v + 2 / 3)]

end Example

open Example in
/-- The hypotheses of `C166_solve` and `C166_succeeds` are met: the least cost 1/3 is found. -/
example (ops : Expr.Ops ℝ) (sim info : List ℝ → Theta ℝ → Except Err (List ℝ)) :
    ∃ r, (solve ops shotInteg shotOptions false shotNames sim info (bestSolver ops) shotArgs
        ⟨shotMethod, none⟩).1 = .ok r ∧ r.report.success = true ∧ r.report.objective = 1 / 3 := by
  obtain ⟨r, h₁, h₂, h₃⟩ := C166_succeeds ops shotInteg shotOptions false shotNames shotMethod sim info
    (bestSolver ops) shotArgs [1] [] [[], []] rfl rfl shotMethod_prepares shotProblem_posed (shot_exact ops)
    shotProblem_data (shotArgs_fit sim info) (bestSolver_good ops) (bestSolver_complete ops)
    (fun b _ => ⟨shotPath b, fun el _ => shotPath_solves ops b el⟩) shotBest (shotPath shotBest)
    (shotBest_best ops)
  refine ⟨r, h₁, h₂, h₃.trans ?_⟩
  refine (shot_cost ops fun el _ => shotPath_solves ops shotBest el).trans ?_
  norm_num [shotState, shotControl, shotBlocks]

open Example in
/-- The hypotheses of `C166_cost_state` are met. -/
example (ops : Expr.Ops ℝ) : (2 / 9 : ℝ) = ((List.range shotMesh.elements).map fun el =>
    runningCost ops shotProblem shotMesh el (shotPath shotBest el)).sum :=
  (show (2 / 9 : ℝ) = shotState shotBest 2 1 from rfl).trans
    (C166_cost_state ops shotProblem shotMesh _ _ _ _ shotBest _ (shotBest_best ops).toShotDecision)

open Example in
/-- The hypotheses of `C166_state_size_fails` are met. -/
example (ops : Expr.Ops ℝ) (sim info : List ℝ → Theta ℝ → Except Err (List ℝ)) :
    (solve ops shotInteg shotOptions true shotNames sim info (bestSolver ops)
      { shotArgs with x0 := some [1] } ⟨shotMethod, none⟩).1 = .error .exception :=
  C166_state_size_fails ops shotInteg shotOptions true shotNames shotMethod sim info (bestSolver ops) _ [1]
    rfl rfl shotMethod_prepares shotProblem_posed (shot_exact ops) rfl rfl

open Example in
/-- The hypotheses of `C166_cost_state_fails` are met. -/
example (ops : Expr.Ops ℝ) : ∃ b X,
    ShotDecision ops shotProblem shotMesh [1] [] [[], []] (lastOf shotProblem) true b X :=
  ⟨_, _, shotBlocks_decision ops true 0 0 rfl rfl⟩

/-- A problem with a last control. -/
theorem Example.shotLast_posed : ShotWellPosed Example.shotOptions Example.shotNames
    { Example.shotProblem with lastU := some [0] } := by
  open Example in
  have hd := shotProblem_declared
  refine ⟨⟨hd.mesh, hd.controlRoots, ?_, ?_, hd.symbols, hd.controls, ?_, ?_, ?_, hd.newVars, rfl⟩, ?_⟩
  · obtain ⟨⟨h₁, h₂, h₃, h₄, h₅, h₆, h₇, h₈, h₉, h₁₀⟩, h₁₁, h₁₂⟩ := hd.problem
    exact ⟨⟨h₁, h₂, h₃, h₄, h₅, h₆, h₇, h₈, h₉, h₁₀⟩, h₁₁, h₁₂⟩
  · obtain ⟨h₁, h₂, h₃, h₄, h₅⟩ := hd.scope
    exact ⟨h₁, h₂, h₃, h₄, h₅⟩
  · obtain ⟨h₁, h₂, h₃, h₄, h₅⟩ := hd.bounds
    exact ⟨h₁, h₂, h₃, h₄, h₅⟩
  · exact ⟨rfl, rfl, (Example.pairFits_free 1).uncrossed, by rintro u ⟨⟩; rfl⟩
  · obtain ⟨h₁, h₂, h₃, h₄⟩ := hd.new
    exact ⟨h₁, h₂, h₃, h₄⟩
  · exact ⟨by decide, .inl (by decide)⟩

open Example in
/-- The hypotheses of `C166_last_control_fails` are met: a problem with a last control. -/
example (ops : Expr.Ops ℝ) (sim info : List ℝ → Theta ℝ → Except Err (List ℝ)) :
    (solve ops shotInteg shotOptions true shotNames sim info (bestSolver ops)
      { shotArgs with lastU := some [0] }
      ⟨{ problem := { shotProblem with lastU := some [0] } }, none⟩).1 = .error .valueError :=
  C166_last_control_fails ops shotInteg shotOptions true shotNames
    { problem := { shotProblem with lastU := some [0] } } sim info (bestSolver ops) shotArgs [1] [] [0]
    [[], []] rfl rfl (by decide +kernel) shotLast_posed (shot_exact ops) ⟨rfl, rfl, by decide⟩
    ⟨(shotArgs_fit sim info).x0, .inr ⟨rfl, rfl, rfl⟩, .inr ⟨rfl, rfl, rfl⟩, .inl rfl,
      .inr (.inl (by decide))⟩ (by simp)

/-- A problem in which the change of the control is limited. -/
theorem Example.shotLimited_declared : ShotDeclared Example.shotOptions Example.shotNames
    { Example.shotProblem with duMax := [XRat.fin 1] } := by
  open Example in
  have hd := shotProblem_declared
  refine ⟨hd.mesh, hd.controlRoots, ?_, ?_, hd.symbols, hd.controls, ?_, ?_, ?_, hd.newVars, rfl⟩
  · obtain ⟨⟨h₁, h₂, h₃, h₄, h₅, h₆, h₇, h₈, h₉, h₁₀⟩, h₁₁, h₁₂⟩ := hd.problem
    exact ⟨⟨h₁, h₂, h₃, h₄, h₅, h₆, h₇, h₈, h₉, h₁₀⟩, h₁₁, h₁₂⟩
  · obtain ⟨h₁, h₂, h₃, h₄, h₅⟩ := hd.scope
    exact ⟨h₁, h₂, h₃, h₄, h₅⟩
  · obtain ⟨h₁, h₂, h₃, h₄, h₅⟩ := hd.bounds
    exact ⟨h₁, h₂, h₃, h₄, h₅⟩
  · refine ⟨rfl, rfl, fun i lo hi hlo _ => ?_, by rintro u ⟨⟩⟩
    match i, hlo with
    | 0, hlo =>
      cases hlo
      exact bot_le
  · obtain ⟨h₁, h₂, h₃, h₄⟩ := hd.new
    exact ⟨h₁, h₂, h₃, h₄⟩

open Example in
/-- The hypotheses of `C166_limits_fails` are met: the change of the control is limited. -/
example (ops : Expr.Ops ℝ) (sim info : List ℝ → Theta ℝ → Except Err (List ℝ)) :
    (solve ops shotInteg shotOptions true shotNames sim info (bestSolver ops) shotArgs
      ⟨{ problem := { shotProblem with duMax := [XRat.fin 1] } }, none⟩).1 = .error .runtimeError :=
  C166_limits_fails ops shotInteg shotOptions true shotNames
    { problem := { shotProblem with duMax := [XRat.fin 1] } } sim info (bestSolver ops) shotArgs rfl rfl
    (by decide +kernel) shotLimited_declared (shot_exact ops) rfl rfl (by unfold NoRateLimits; decide +kernel)

end Verif
