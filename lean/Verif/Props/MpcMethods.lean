import Verif.Lemmas.MpcMethods
import Verif.Props.MpcDirect
import Verif.Props.SolveIndirect
/-!
# C188: a controller with any solution method
-/
namespace Verif
open Spec MpcMethods

theorem MpcMethods.controller_direct {E : Type} (plant : Plant.Env) (dims : Dims) (ops : Expr.Ops Rat)
    (opts : SolveDirect.Options) (names : SolveDirect.NewNames)
    (sim info : List Rat → Theta Rat → Except Err (List Rat))
    (solver : SolveDirect.SolverCall Rat → Except Err (RawSolution Rat))
    (estimator : Rat → List Rat → List Rat → Py E (List Rat × List Rat)) (includeCost mean covariance : Bool)
    (meanIndices covIndices : List (Nat × Nat)) :
    controller plant dims opts.roots (SolveDirect.solve ops opts names sim info solver) estimator includeCost
      mean meanIndices covariance covIndices =
    MpcDirect.controller plant dims ops opts names sim info solver estimator includeCost mean meanIndices
      covariance covIndices := rfl

/-- C188 for direct methods with collocation. The estimator returns estimates of the size of the plant's
state, the sizes of the plant fit and its simulator answers: from a new plant, a run of `n ≥ 1` iterations
returns, and in every cycle the plant has gone on with the control polynomials of the best decision of the
user's problem from the estimated state, if the solver reported success. -/
theorem C188_direct_partial {E : Type} (plant : Plant.Env) (ops : Expr.Ops Rat) (opts : SolveDirect.Options)
    (names : SolveDirect.NewNames) (sim info : List Rat → Theta Rat → Except Err (List Rat))
    (solver : SolveDirect.SolverCall Rat → Except Err (RawSolution Rat))
    (estimator : Rat → List Rat → List Rat → Py E (List Rat × List Rat)) (s : Direct.Method)
    (S : Mpc.State (E × SolveDirect.State Rat)) (c : Mpc.Config (E × SolveDirect.State Rat)) (n : Nat)
    (hcon : c = controller plant (directDims s.problem (mesh opts)) opts.roots
      (SolveDirect.solve ops opts names sim info solver) estimator true)
    (hc : s.hasCostState = false) (hp : s.prepared = false)
    (h : (Direct.prepare opts.controlRoots opts.controlRoots.length names.xc names.fresh names.base s).1 =
      .ok ())
    (hw : WellPosed Rat opts names s.problem) (hs : GoodSolver ops solver)
    (hlast : s.problem.lastU = none) (hopt : opts.lastControlAsParameter = false)
    (htheta : s.problem.thetaOpt.length = s.problem.model.theta.length) (hn : 2 ≤ opts.elements)
    (hsend : Sendable s.problem opts) (hnu : plant.nU = s.problem.model.u.length) (hS : plant.tS ≠ 0)
    (hguess : S.initialGuess ≠ none ∨
      (opts.heuristic = "simulation" ∧ ∀ p th, ∃ g, sim p th = .ok g) ∨
      (opts.heuristic = "problem_info" ∧ ∀ p th, ∃ g, info p th = .ok g))
    (hused : Used ops opts names s S.world.2)
    (hest : ∀ t y u e, ∃ est cov e', estimator t y u e = (.ok (est, cov), e') ∧
      est.length = s.problem.model.x.length ∧ ParametersReady c s.problem S.p (est ++ [0]) cov)
    (hfits : PlantFits plant) (hpoints : ∃ d, plant.points.getLast? = some d) (hparU : plant.nUPar = plant.nU)
    (rows : String → List String) (t0 : Rat) (x0 u0 : List Rat)
    (hstart : Plant.new plant rows t0 x0 u0 none = .ok S.plant) (hx0 : x0.length = plant.nX)
    (hu0 : u0.length = plant.nU) (hy0 : plant.yGuess.length = plant.nY)
    (h1 : 1 ≤ n) :
    ∃ S', run .collocation c n S = (.ok (), S') ∧
      Repeated (SendsBest ops opts solver s.problem estimator c) n S S' := by
  rw [controller_direct] at hcon
  obtain ⟨d, hd⟩ := hpoints
  have hre : Plant.Reached plant d t0 0 S.plant := by
    obtain ⟨s', hs', hr, -⟩ := Plant.reached_new hfits rows d t0 (x0 := x0) (u0 := u0) none hx0 hy0 hu0
      (fun _ h => nomatch h)
    rw [hstart] at hs'
    rw [Except.ok.inj hs']
    exact hr
  clear hstart
  have key : ∃ S', Mpc.run c n S = (.ok (), S') := by
    rw [C56_run c n h1]
    clear h1
    generalize (0 : Nat) = k at hre
    induction n generalizing S k with
    | zero => exact ⟨S, rfl⟩
    | succ n ih =>
      obtain ⟨est, cov, e, he, hx, hpar⟩ := hest S.plant.t S.plant.measurement S.plant.u S.world.1
      obtain ⟨p, q, b, success, f, guess, uValues, st, -, -, hpl, -, hst, -, heq, hv⟩ :=
        C162_cycle plant ops opts names sim info solver estimator false false [] [] s
          S est cov e c hcon hc hp h hw hs hlast hopt htheta hn hsend hnu hS hguess hused he hx hpar
      have hff : FunctionFits plant f := by
        intro t
        have := hv ((t - S.plant.t) / plant.tS)
        rw [div_mul_cancel₀ _ hS, add_sub_cancel] at this
        rw [this, List.length_map, List.length_range, hparU]
      have hgo := Plant.reached_call hfits hd hre (.function f) (fun g hg => by cases hg; exact hff)
      have hgoes : (Plant.setControlFunction plant f S.plant).1 = .ok () := by
        obtain ⟨lx, ly, lu, lm, lc, hrun, -⟩ := hre.run
        have hne : plant.points ≠ [] := by rintro h0; rw [h0] at hd; simp at hd
        rcases Plant.call_run hfits hrun hne (.function f) (fun g hg => by cases hg; exact hff) with
          ⟨hacc, -⟩ | ⟨-, s', _, _, _, _, _, _, hr, -⟩
        · cases hacc
        · exact congrArg Prod.fst hr
      have hest' : ∀ t y u e, ∃ est cov e', estimator t y u e = (.ok (est, cov), e') ∧
          est.length = s.problem.model.x.length ∧ ParametersReady c s.problem p (est ++ [0]) cov := by
        intro t y u e'
        obtain ⟨est', cov', e'', h₁, h₂, h₃⟩ := hest t y u e'
        refine ⟨est', cov', e'', h₁, h₂, ?_⟩
        rcases h₃ with ⟨p0, hp0, hl, hf⟩ | ⟨hp0, hr⟩
        · rw [hp0] at hpl
          cases p with
          | none => cases hpl
          | some p' => exact .inl ⟨p', rfl, by simpa [hl, eq_comm] using hpl, hf⟩
        · rw [hp0] at hpl
          cases p with
          | none => exact .inr ⟨rfl, hr⟩
          | some p' => cases hpl
      unfold Mpc.onPlant at heq
      obtain ⟨S', hS'⟩ := ih { S with
          iteration := S.iteration + 1
          debuggerStops := S.debuggerStops + 1
          p := p
          world := (e, st)
          initialGuess := some guess
          lastSolutions := some [⟨Layout.stacked b, uValues⟩]
          plant := (Plant.setControlFunction plant f S.plant).2 } (.inl (by simp)) hst hest' _ hgo
      refine ⟨S', ?_⟩
      unfold times
      rw [Py.bind_ok (heq.trans (Prod.ext hgoes rfl))]
      exact hS'
  obtain ⟨S', hS'⟩ := key
  exact ⟨S', hS', C162_run plant ops opts names sim info solver estimator false false [] [] s S S' c n hcon hc
    hp h hw hs hlast hopt htheta hn hsend hnu hS hguess hused hest h1 hS'⟩

/-- C188 does not hold for multiple shooting. Whatever the solution method, the plant, the estimator and
the options: if the discretiser is multiple shooting, every run raises and nothing is sent. -/
theorem C188_shooting_fails {W : Type} (c : Mpc.Config W) (S : Mpc.State W) :
    NeverSends .shooting c S := by
  intro n
  obtain ⟨e, S', h, hp⟩ := cycle_stuck (scheme := .shooting) (c := c) (S := S)
    (fun s => s.plant = S.plant) (fun _ => True) rfl
    (fun m s hs => ⟨Mpc.keeps_getStates (P := fun s => s.plant = S.plant) c m (fun _ _ h => h) s hs,
      fun _ _ _ _ => trivial⟩)
    (fun _ _ h => h)
    (fun x u p s _ hs => by
      simp only [MpcMethods.getNewControl, Py.bind_eq, Py.modify_bind, Py.get_bind]
      cases hsol : Mpc.onWorld (c.solve x s.initialGuess p u)
          { s with debuggerStops := s.debuggerStops + 1 } with
      | mk r s' =>
      have hs' : s'.plant = S.plant := by
        have := congrArg (fun z => z.2.plant) hsol
        simp only [Mpc.onWorld] at this
        rw [← this]
        exact hs
      cases r with
      | error e => exact ⟨e, s', Py.bind_error hsol, hs'⟩
      | ok sol =>
        rw [Py.bind_ok hsol]
        obtain ⟨e, he⟩ := warmStart_shooting c.dims sol.raw
        rw [he]
        exact ⟨e, s', rfl, hs'⟩)
  exact ⟨e, S', run_stuck h n, hp⟩

/-- C188 does not hold for indirect methods. A controller whose solution method is an indirect method
gets estimates of the states of the model the user declared: every run raises and nothing is sent. The
adjoints were added to the states of the model, and `solve` asks for initial values of them. -/
theorem C188_indirect_fails {E : Type} (plant : Plant.Env) (dims : Dims) (B : Backend)
    (ops : Expr.Ops Rat) (opts : SolveIndirect.Options) (names : SolveIndirect.NewNames)
    (sim info : List Rat → Theta Rat → Except Err (List Rat))
    (solver : SolveDirect.SolverCall Rat → Except Err (RawSolution Rat))
    (estimator : Rat → List Rat → List Rat → Py E (List Rat × List Rat)) (mean covariance : Bool)
    (meanIndices covIndices : List (Nat × Nat)) (o q : Ocp)
    (h : Indirect.prepare B false false names.base names.xc names.fresh o = (.ok (), q))
    (hcost : opts.createCostState = false) (S : Mpc.State (E × SolveIndirect.State Rat))
    (hused : UsedIndirect B ops opts names o S.world.2)
    (hest : ∀ t y u e r, (estimator t y u e).1 = .ok r → r.1.length = o.model.x.length) :
    NeverSends .collocation
      (controller plant dims opts.roots (SolveIndirect.solve B ops opts names sim info solver) estimator
        false mean meanIndices covariance covIndices) S := by
  intro n
  have h' : Indirect.prepare B opts.createCostState false names.base names.xc names.fresh o = (.ok (), q) := by
    rw [hcost]
    exact h
  obtain ⟨H, us, hp⟩ := Indirect.prepared_of h
  have hl : q.model.x.length = o.model.x.length + o.model.x.length := by
    rw [hp.x, List.length_append, newSyms_length]
  have hpos : 0 < o.model.x.length := List.length_pos_iff.mpr hp.states
  obtain ⟨e, S', hc, hS⟩ := cycle_stuck (scheme := .collocation)
    (c := controller plant dims opts.roots (SolveIndirect.solve B ops opts names sim info solver) estimator
        false mean meanIndices covariance covIndices) (S := S)
    (fun s => s.plant = S.plant ∧ Ready o q s.world.2) (fun x => x.length = o.model.x.length)
    ⟨rfl, used_ready h' hused⟩
    (fun m s hs => by
      simp only [Mpc.getStates, Py.bind_eq]
      cases hest' : estimator m.1 m.2.1 m.2.2 s.world.1 with
      | mk r e' =>
      have he : Mpc.onWorld ((controller plant dims opts.roots
          (SolveIndirect.solve B ops opts names sim info solver) estimator false mean meanIndices covariance
          covIndices).estimate m.1 m.2.1 m.2.2) s = (r, { s with world := (e', s.world.2) }) := by
        simp only [Mpc.onWorld, controller, hest']
      cases r with
      | error e => rw [Py.bind_error he]; exact ⟨hs, fun _ h => nomatch h⟩
      | ok r =>
        rw [Py.bind_ok he]
        refine ⟨hs, fun xp hxp x hx => ?_⟩
        cases hxp
        cases hx
        exact hest m.1 m.2.1 m.2.2 s.world.1 r (by rw [hest']))
    (fun _ _ h => h)
    (fun x u p s hx hs => by
      simp only [MpcMethods.getNewControl, Py.bind_eq, Py.modify_bind, Py.get_bind]
      obtain ⟨e, he⟩ := solve_size (ops := ops) sim info solver
        (MpcDirect.solveArgs x s.initialGuess p u) h' hs.2 x rfl (by omega)
      have hst := solve_state (B := B) (ops := ops) (opts := opts) (names := names) sim info solver
        (MpcDirect.solveArgs x s.initialGuess p u) s.world.2
      refine ⟨e, _, Py.bind_error (s' := { s with
        debuggerStops := s.debuggerStops + 1,
        world := (s.world.1, (SolveIndirect.program B ops opts names s.world.2).2) }) ?_, hs.1,
        .inr (program_ready h' hs.2)⟩
      simp only [Mpc.onWorld, controller, he, hst]
      rfl)
  exact ⟨e, S', run_stuck hc n, hS.1⟩

theorem Example.restPlant_fits : PlantFits Example.restPlant :=
  ⟨fun x t tF u hx _ => ⟨_, rfl, hx, rfl, rfl⟩, rfl, fun _ => rfl, fun _ => rfl⟩

open Example in
/-- The hypotheses of `C188_direct_partial` are met: ten cycles keep the plant at rest. -/
example (ops : Expr.Ops Rat) (sim info : List Rat → Theta Rat → Except Err (List Rat)) :
    ∃ S', run .collocation (restController ops sim info true) 10 (restStart restMethod) = (.ok (), S') ∧
      Repeated (SendsBest ops restOptions (bestSolver ops) restProblem restEstimator
        (restController ops sim info true)) 10 (restStart restMethod) S' := by
  have hready : ∀ x cov, ParametersReady (restController ops sim info true) restProblem none x cov :=
    fun x cov => .inr ⟨rfl, rfl, rfl, rfl⟩
  exact C188_direct_partial restPlant ops restOptions restNames sim info (bestSolver ops) restEstimator
    restMethod (restStart restMethod) (restController ops sim info true) 10 rfl rfl rfl
    restMethod_prepares restProblem_posed (bestSolver_good ops) rfl rfl rfl (by decide) (.inr ⟨rfl, rfl⟩)
    rfl (by decide) (.inl (by simp [restStart])) .new
    (fun t y u e => ⟨[y.headD 0], [0], e, rfl, rfl, hready _ _⟩) restPlant_fits
    ⟨1, rfl⟩ rfl (fun n => if n = "y" then [] else ["a"]) 0 [1] [0] (by simp [Plant.new, restStart]; rfl) rfl rfl rfl
    (by decide)

open Example in
/-- The hypotheses of `C188_indirect_fails` are met. -/
example (plant : Plant.State) (ops : Expr.Ops Rat) (sim info : List Rat → Theta Rat → Except Err (List Rat))
    (solver : SolveDirect.SolverCall Rat → Except Err (RawSolution Rat)) :
    NeverSends .collocation
      (controller restPlant (directDims restProblem (mesh restOptions)) extremalOptions.roots
        (SolveIndirect.solve pontryaginBackend ops extremalOptions extremalNames sim info solver)
        restEstimator false)
      ⟨plant, ((), ⟨pontryaginProblem, false, none⟩), none, none, 0, none, 0⟩ :=
  C188_indirect_fails restPlant _ pontryaginBackend ops extremalOptions extremalNames sim info solver
    restEstimator false false [] [] pontryaginProblem pontryaginPrepared pontryagin_prepared rfl _ .new
    (fun t y u e r hr => by cases hr; rfl)

end Verif
