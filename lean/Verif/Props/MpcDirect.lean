import Verif.Spec.MpcDirect
import Verif.Props.SolveDirect
import Verif.Props.MpcSend
/-!
# C162: a controller with a direct method
-/
namespace Verif
open Spec SolveDirect Direct Mpc MpcDirect

variable {E : Type}

theorem MpcDirect.make_ok (roots croots : List Rat) (U : List (List Rat)) (nU : Nat) (t tS : Rat)
    (hU : Columns croots.length nU U) (hn : roots.Nodup) (h0 : 0 < roots.length)
    (h : croots = roots ∨ nU = 1 ∧ croots.length = 1) (hS : tS ≠ 0) :
    ∃ f, makeControlFunction roots nU roots.length U.flatten t tS = .ok f ∧
      ∀ tau, f (t + tau * tS) = (List.range nU).map fun i => (through croots U i).eval tau := by
  rcases h with rfl | ⟨rfl, h1⟩
  · obtain ⟨f, hf, -⟩ := C100_polynomial_partial croots nU croots.length
      (fun i j => (U.getD j []).getD i 0) t tS 0 hS rfl
    rw [flatten_vecMat hU]
    refine ⟨f, hf, fun tau => ?_⟩
    obtain ⟨g, hg, hv⟩ := C100_polynomial_partial croots nU croots.length
      (fun i j => (U.getD j []).getD i 0) t tS tau hS rfl
    rw [hf] at hg
    cases hg
    unfold Spec.controlAt polyApproxMethod at hv
    by_cases hd : croots.length = 1
    · rw [if_pos hd] at hv
      rw [← Except.ok.inj hv]
      obtain ⟨r, rfl⟩ := List.length_eq_one_iff.mp hd
      obtain ⟨c, rfl⟩ := List.length_eq_one_iff.mp hU.1
      refine List.map_congr_left fun i _ => ?_
      rw [through_single]
      rfl
    · rw [if_neg hd, if_neg (by simp)] at hv
      rw [← Except.ok.inj hv]
      refine List.map_congr_left fun i _ => ?_
      rw [lagrangeBasisMethod_one, polyRow_eq_interpolate croots]
      rfl
  · obtain ⟨r, rfl⟩ := List.length_eq_one_iff.mp h1
    obtain ⟨c, rfl⟩ := List.length_eq_one_iff.mp hU.1
    obtain ⟨a, rfl⟩ := List.length_eq_one_iff.mp (hU.2 c (by simp))
    obtain ⟨f, hf, -⟩ := C100_scalar roots roots.length a t tS 0 rfl hn h0
    refine ⟨f, hf, fun tau => ?_⟩
    obtain ⟨g, hg, hv⟩ := C100_scalar roots roots.length a t tS (t + tau * tS) rfl hn h0
    rw [hf] at hg
    cases hg
    rw [hv]
    simp [through_single]

/-- The method behaves as when new. -/
theorem MpcDirect.used_eq {ops : Expr.Ops Rat} {opts : Options} {names : NewNames} {s : Method}
    (hc : s.hasCostState = false) (hp : s.prepared = false)
    (h : (prepare opts.controlRoots opts.controlRoots.length names.xc names.fresh names.base s).1 = .ok ())
    (hw : WellPosed Rat opts names s.problem) {st : SolveDirect.State Rat} (hu : Used ops opts names s st)
    (sim info : List Rat → Theta Rat → Except Err (List Rat))
    (solver : SolverCall Rat → Except Err (RawSolution Rat)) (a : SolveArgs Rat) :
    solve ops opts names sim info solver a st = solve ops opts names sim info solver a ⟨s, none⟩ := by
  induction hu generalizing sim info solver a with
  | new => rfl
  | solved sim' info' solver' a' st hu ih =>
    rw [ih]
    exact C161_again ops opts names s sim' info' sim info solver' solver a' a hc hp h hw

theorem MpcDirect.parameters_ok {W : Type} (c : Config W) (o : Ocp) (x cov : List Rat) (S : Mpc.State W)
    (h : ParametersReady c o S.p x cov) :
    ∃ p q, getParameter c x cov S = (.ok p, { S with p := p }) ∧ ParametersUsed c o S.p x cov q ∧
      S.p.map List.length = p.map List.length ∧
      (c.meanAsParameter = false → c.covarianceAsParameter = false → p = S.p) ∧
      (p = some q ∨ p = none ∧ o.pOpt.length = o.model.p.length ∧
        q = List.replicate o.model.p.length 0) := by
  rcases h with ⟨p0, hp, hl, hf⟩ | ⟨hp, ho, hm, hv⟩
  · obtain ⟨p', h₁, h₂⟩ := getParameter_run c x cov p0 [] p0 S hp ⟨rfl, fun i _ => by
      simp [Spec.assigned]⟩ (hl ▸ hf)
    refine ⟨some p', p', h₁, ⟨h₂.1.trans hl, ?_, by rw [hp]; intro h; cases h⟩, by
      rw [hp]; simp [h₂.1], fun hm hv => ?_, .inl rfl⟩
    · rintro p1 h1 i hi
      rw [hp] at h1
      cases h1
      rw [h₂.2 i (by rw [hl]; exact hi), List.nil_append]
    · simp only [getParameter, hm, hv, whenTrue, Bool.false_eq_true, if_false, Py.bind_eq] at h₁
      exact (Except.ok.inj (congrArg Prod.fst h₁)).symm
  · refine ⟨none, List.replicate o.model.p.length 0, ?_, ⟨by simp, by rw [hp]; rintro p0 ⟨⟩, fun _ => rfl⟩,
      by rw [hp], fun _ _ => hp.symm, .inr ⟨rfl, ho, rfl⟩⟩
    simp only [getParameter, hm, hv, whenTrue, Bool.false_eq_true, if_false, Py.bind_eq]
    show (Except.ok S.p, S) = _
    rw [hp]
    congr 1
    cases S
    simp only at hp
    subst hp
    rfl

/-- One cycle of a controller with a direct method that includes the cost in the state vector: the
program is solved for the estimated state, the warm start is computed, and the plant goes on with the
control polynomials of the first element. If the solver reported success these belong to the best
decision of the user's problem from the estimated state. -/
theorem C162_cycle (plant : Plant.Env) (ops : Expr.Ops Rat) (opts : Options) (names : NewNames)
    (sim info : List Rat → Theta Rat → Except Err (List Rat))
    (solver : SolverCall Rat → Except Err (RawSolution Rat))
    (estimator : Rat → List Rat → List Rat → Py E (List Rat × List Rat)) (mean covariance : Bool)
    (meanIndices covIndices : List (Nat × Nat)) (s : Method) (S : Mpc.State (E × SolveDirect.State Rat))
    (est cov : List Rat) (e : E) (c : Config (E × SolveDirect.State Rat))
    (hcon : c = controller plant (directDims s.problem (mesh opts)) ops opts names sim info solver
      estimator true mean meanIndices covariance covIndices)
    (hc : s.hasCostState = false) (hp : s.prepared = false)
    (h : (prepare opts.controlRoots opts.controlRoots.length names.xc names.fresh names.base s).1 = .ok ())
    (hw : WellPosed Rat opts names s.problem) (hs : GoodSolver ops solver)
    (hlast : s.problem.lastU = none) (hopt : opts.lastControlAsParameter = false)
    (htheta : s.problem.thetaOpt.length = s.problem.model.theta.length) (hn : 2 ≤ opts.elements)
    (hsend : Sendable s.problem opts) (hnu : plant.nU = s.problem.model.u.length) (hS : plant.tS ≠ 0)
    (hguess : S.initialGuess ≠ none ∨
      (opts.heuristic = "simulation" ∧ ∀ p th, ∃ g, sim p th = .ok g) ∨
      (opts.heuristic = "problem_info" ∧ ∀ p th, ∃ g, info p th = .ok g))
    (hused : Used ops opts names s S.world.2)
    (hest : estimator S.plant.t S.plant.measurement S.plant.u S.world.1 = (.ok (est, cov), e))
    (hx : est.length = s.problem.model.x.length)
    (hpar : ParametersReady c s.problem S.p (est ++ [0]) cov) :
    ∃ p q b success f guess uValues st,
      SolvedFor ops solver s.problem (mesh opts) est q
        (List.replicate opts.elements (List.replicate s.problem.model.theta.length 0)) b success ∧
      ParametersUsed c s.problem S.p (est ++ [0]) cov q ∧ (S.p.map List.length = p.map List.length) ∧
      (c.meanAsParameter = false → c.covarianceAsParameter = false → p = S.p) ∧ Used ops opts names s st ∧
      step (directDims s.problem (mesh opts)) (Layout.stacked b) = .ok guess ∧
      cycle c S = onPlant (Plant.setControlFunction plant f) { S with
        iteration := S.iteration + 1
        debuggerStops := S.debuggerStops + 1
        p := p
        world := (e, st)
        initialGuess := some guess
        lastSolutions := some [⟨Layout.stacked b, uValues⟩] } ∧
      ∀ tau, f (S.plant.t + tau * plant.tS) = (List.range plant.nU).map fun i =>
        (controlPoly (mesh opts) b 0 i).eval tau := by
  obtain ⟨p, q, hget, hq, hpl, hpk, hpq⟩ := parameters_ok c s.problem (est ++ [0]) cov
    { S with iteration := S.iteration + 1, world := (e, S.world.2) } hpar
  have hdata : DataFits s.problem (mesh opts) est q
      (List.replicate opts.elements (List.replicate s.problem.model.theta.length 0)) :=
    ⟨hx, hq.1, fun el hel => by
      have : el < opts.elements := hel
      simp [this]⟩
  have hargs : ArgsFit s.problem opts (solveArgs (est ++ [0]) S.initialGuess p S.plant.u) sim info est q
      (List.replicate opts.elements (List.replicate s.problem.model.theta.length 0)) := by
    refine ⟨.inl rfl, ?_, .inr ⟨rfl, htheta, rfl⟩, .inr ⟨hlast, hopt⟩, .inr hguess⟩
    rcases hpq with rfl | ⟨rfl, h₁, h₂⟩
    · exact .inl rfl
    · exact .inr ⟨rfl, h₁, h₂⟩
  obtain ⟨r, b, h₁, hb, hraw, hshow, -, -, hopt'⟩ := C161_solve ops opts names s sim info solver
    (solveArgs (est ++ [0]) S.initialGuess p S.plant.u) est q _ hc hp h hw hdata hargs hs
  have hsolve := used_eq hc hp h hw hused sim info solver
    (solveArgs (est ++ [0]) S.initialGuess p S.plant.u)
  have hst : Used ops opts names s (solve ops opts names sim info solver
    (solveArgs (est ++ [0]) S.initialGuess p S.plant.u) S.world.2).2 := .solved _ _ _ _ _ hused
  rw [hsolve] at hst
  rw [← hsolve] at h₁
  rw [← hsolve] at hst
  obtain ⟨ρ₀, hρ₀⟩ : ∃ ρ, ReadsAll s.problem (mesh opts) b est q
      (List.replicate opts.elements (List.replicate s.problem.model.theta.length 0)) ρ := by
    have hv := fun el tau => C159_values s.problem (mesh opts) b est q
      (List.replicate opts.elements (List.replicate s.problem.model.theta.length 0)) hw.symbols
      ⟨hw.problem.parameters.2.1, hw.problem.parameters.2.2⟩
      ⟨hw.problem.thetas.2.1, hw.problem.thetas.2.2⟩ el tau
    choose ρ hρ using hv
    exact ⟨ρ, fun el _ tau => hρ el tau⟩
  have hel : 0 < opts.elements := by omega
  -- the warm start
  have hlen : (Layout.stacked b).length = Spec.collocationSize (directDims s.problem (mesh opts)) := by
    rw [← Layout.repack_withFinal]
    exact Layout.repack_length (Layout.collocationShape_withFinal hel hb.toSharedShape hb.x hb.y)
  obtain ⟨guess, _, _, hstep, -⟩ := C55_shift_partial (directDims s.problem (mesh opts))
    (Layout.stacked b) hn hlen
  -- the controls
  have hcp : Spec.controlPoints (directDims s.problem (mesh opts)) = opts.controlRoots.length := by
    unfold Spec.controlPoints
    exact if_pos (Nat.mul_pos hw.controls hw.mesh.controls)
  have hg := hb.u
  rw [hcp] at hg
  have hcast : inField (K := Rat) (mesh opts).controlRoots = opts.controlRoots := by
    simp [inField, mesh]
  have huv : r.report.uValues = b.u := by
    rw [hshow.uValues]
    symm
    unfold reportedPositions
    split
    · rename_i h1
      obtain ⟨ro, hro⟩ := List.length_eq_one_iff.mp h1
      have h1' : opts.controlRoots.length = 1 := h1
      rw [h1'] at hg
      have hp' : controlPoly (mesh opts) b = fun el i => through [(ro : Rat)] (b.u.getD el []) i := by
        funext el i
        unfold controlPoly
        rw [hro]
        rfl
      rw [hp']
      exact grid_constant hg ro 0
    · exact grid_samples hg (inField opts.controlRoots) (by simp [inField])
        (hw.controlRoots.map Rat.cast_injective)
  obtain ⟨U, later, hU⟩ : ∃ U later, b.u = U :: later := by
    cases hbu : b.u with
    | nil =>
      have := hb.u.1
      rw [hbu] at this
      exact absurd this (by simp [directDims, mesh]; omega)
    | cons U later => exact ⟨U, later, rfl⟩
  have hcols : Columns opts.controlRoots.length s.problem.model.u.length U :=
    hg.2 U (by rw [hU]; simp)
  have hnodup : opts.roots.Nodup :=
    (List.Pairwise.imp (fun hlt => ne_of_lt hlt) hw.mesh.increasing).of_cons
  obtain ⟨f, hf, hv⟩ := make_ok opts.roots opts.controlRoots U s.problem.model.u.length S.plant.t plant.tS
    hcols hnodup (Nat.lt_of_succ_lt hw.mesh.points) hsend hS
  obtain ⟨v, vs, hUv⟩ : ∃ v vs, U = v :: vs := by
    cases hUu : U with
    | nil =>
      have := hcols.1
      rw [hUu] at this
      have h' : 0 < opts.controlRoots.length := hw.mesh.controls
      simp only [List.length_nil] at this
      omega
    | cons v vs => exact ⟨v, vs, rfl⟩
  refine ⟨p, q, b, r.report.success, f, guess, b.u, (solve ops opts names sim info solver
    (solveArgs (est ++ [0]) S.initialGuess p S.plant.u) S.world.2).2,
    ⟨hb, ⟨ρ₀, hρ₀⟩, fun hsucc ρ hρ => ?_, fun hcs ⟨b', ρ', hb'⟩ => ?_⟩, hq, hpl, hpk, hst, hstep, ?_,
    fun tau => ?_⟩
  · obtain ⟨-, hA, hB⟩ := hopt' hsucc
    obtain ⟨hD, hO⟩ := hA ρ hρ
    exact ⟨hD, fun b' ρ' hD' => by rw [← hO]; exact hB b' ρ' hD'⟩
  · obtain ⟨r', h', hs', -⟩ := C161_succeeds ops opts names s sim info solver
      (solveArgs (est ++ [0]) S.initialGuess p S.plant.u) est q _ hc hp h hw hdata hargs hs hcs b' ρ' hb'
    rw [← hsolve, h₁] at h'
    rw [Except.ok.inj h']
    exact hs'
  · subst hcon
    simp only [cycle, Py.bind_eq, Py.modify_bind]
    rw [Py.bind_ok (show getMeasurement { S with iteration := S.iteration + 1 } =
      (.ok (S.plant.t, S.plant.measurement, S.plant.u), { S with iteration := S.iteration + 1 }) from rfl)]
    rw [Py.bind_ok (show getStates _ (S.plant.t, S.plant.measurement, S.plant.u)
      { S with iteration := S.iteration + 1 } = (.ok (est ++ [0], cov),
        { S with iteration := S.iteration + 1, world := (e, S.world.2) }) by
      simp only [getStates, Py.bind_eq]
      rw [Py.bind_ok (show onWorld _ { S with iteration := S.iteration + 1 } = (.ok (est, cov),
        { S with iteration := S.iteration + 1, world := (e, S.world.2) }) by
        simp only [onWorld, controller, estimate, hest])]
      rfl)]
    rw [Py.bind_ok hget]
    rw [show rearranged _ (est ++ [0]) = .ok (est ++ [0]) from rfl, Py.lift_ok_bind]
    rw [Py.bind_ok (show getNewControl _ (est ++ [0]) S.plant.u p
      { S with iteration := S.iteration + 1, world := (e, S.world.2), p := p } = (.ok v, { S with
        iteration := S.iteration + 1
        debuggerStops := S.debuggerStops + 1
        p := p
        world := (e, (solve ops opts names sim info solver
          (solveArgs (est ++ [0]) S.initialGuess p S.plant.u) S.world.2).2)
        initialGuess := some guess
        lastSolutions := some [⟨Layout.stacked b, b.u⟩] }) by
      simp only [getNewControl, Py.bind_eq, Py.modify_bind, Py.get_bind]
      rw [Py.bind_ok (show onWorld _ { S with
          iteration := S.iteration + 1, debuggerStops := S.debuggerStops + 1, p := p,
          world := (e, S.world.2) } = (.ok (⟨Layout.stacked b, b.u⟩ : Solution), { S with
          iteration := S.iteration + 1, debuggerStops := S.debuggerStops + 1, p := p,
          world := (e, (solve ops opts names sim info solver
            (solveArgs (est ++ [0]) S.initialGuess p S.plant.u) S.world.2).2) }) by
        simp only [onWorld, controller, solution, h₁]
        simp only [Except.map, solutionOf, hraw, huv])]
      rw [show (controller plant (directDims s.problem (mesh opts)) ops opts names sim info solver
        estimator true mean meanIndices covariance covIndices).dims = directDims s.problem (mesh opts)
        from rfl]
      simp only [hstep]
      rw [Py.lift_ok_bind]
      simp only [Py.modify_bind]
      simp only [Solution.firstControl, Solution.firstControlParameters, hU, hUv]
      rfl)]
    simp only [sendControl, Py.bind_eq, Py.get_bind, lastControlParameters,
      Solution.firstControlParameters, hU]
    rw [Py.lift_ok_bind, show solutionParameters U = .ok U.flatten by rw [hUv]; rfl, Py.lift_ok_bind]
    rw [show makeControlFunction _ _ _ U.flatten _ _ = .ok f from (by
      rw [← hf]
      simp only [controller, hnu])]
    rw [Py.lift_ok_bind]
    rfl
  · rw [hnu, hv]
    refine List.map_congr_left fun i _ => ?_
    unfold controlPoly
    rw [hcast, hU]
    rfl

/-- A run of the controller with a direct method: every one of its cycles is as it should be. The
estimator always returns estimates of the size of the plant's state. -/
theorem C162_run (plant : Plant.Env) (ops : Expr.Ops Rat) (opts : Options) (names : NewNames)
    (sim info : List Rat → Theta Rat → Except Err (List Rat))
    (solver : SolverCall Rat → Except Err (RawSolution Rat))
    (estimator : Rat → List Rat → List Rat → Py E (List Rat × List Rat)) (mean covariance : Bool)
    (meanIndices covIndices : List (Nat × Nat)) (s : Method) (S S' : Mpc.State (E × SolveDirect.State Rat))
    (c : Config (E × SolveDirect.State Rat)) (n : Nat)
    (hcon : c = controller plant (directDims s.problem (mesh opts)) ops opts names sim info solver
      estimator true mean meanIndices covariance covIndices)
    (hc : s.hasCostState = false) (hp : s.prepared = false)
    (h : (prepare opts.controlRoots opts.controlRoots.length names.xc names.fresh names.base s).1 = .ok ())
    (hw : WellPosed Rat opts names s.problem) (hs : GoodSolver ops solver)
    (hlast : s.problem.lastU = none) (hopt : opts.lastControlAsParameter = false)
    (htheta : s.problem.thetaOpt.length = s.problem.model.theta.length) (hn : 2 ≤ opts.elements)
    (hsend : Sendable s.problem opts) (hnu : plant.nU = s.problem.model.u.length) (hS : plant.tS ≠ 0)
    (hguess : S.initialGuess ≠ none ∨
      (opts.heuristic = "simulation" ∧ ∀ p th, ∃ g, sim p th = .ok g) ∨
      (opts.heuristic = "problem_info" ∧ ∀ p th, ∃ g, info p th = .ok g))
    (hused : Used ops opts names s S.world.2)
    (hest : ∀ t y u e, ∃ est cov e', estimator t y u e = (.ok (est, cov), e') ∧
      est.length = s.problem.model.x.length ∧ ParametersReady c s.problem S.p (est ++ [0]) cov)
    (h1 : 1 ≤ n) (hrun : run c n S = (.ok (), S')) :
    Repeated (SendsBest ops opts solver s.problem estimator c) n S S' := by
  rw [C56_run c n h1] at hrun
  clear h1
  induction n generalizing S with
  | zero =>
    simp only [times, Py.pure_apply, Prod.mk.injEq] at hrun
    rw [← hrun.2]
    exact .zero _
  | succ n ih =>
    obtain ⟨⟨⟩, S₁, hcyc, hrest⟩ := Py.bind_eq_ok.mp hrun
    obtain ⟨est, cov, e, he, hx, hpar⟩ := hest S.plant.t S.plant.measurement S.plant.u S.world.1
    obtain ⟨p, q, b, success, f, guess, uValues, st, hsol, hq, hpl, hpk, hst, hstep, heq, hv⟩ :=
      C162_cycle plant ops opts names sim info solver estimator mean covariance meanIndices covIndices s
        S est cov e c hcon hc hp h hw hs hlast hopt htheta hn hsend hnu hS hguess hused he hx hpar
    rw [heq] at hcyc
    unfold onPlant at hcyc
    simp only [Prod.mk.injEq] at hcyc
    obtain ⟨hok, rfl⟩ := hcyc
    refine .succ ⟨est, cov, q, b, success, f, he, hq, hpk, hsol, ?_, ?_⟩ (ih _ ?_ hst ?_ hrest)
    · subst hcon
      exact Prod.ext hok rfl
    · subst hcon
      exact hv
    · exact .inl (by simp)
    · intro t y u e'
      obtain ⟨est', cov', e'', h₁, h₂, h₃⟩ := hest t y u e'
      refine ⟨est', cov', e'', h₁, h₂, ?_⟩
      rcases h₃ with ⟨p0, hp0, hl, hf⟩ | ⟨hp0, hr⟩
      · rw [hp0] at hpl
        cases p with
        | none => cases hpl
        | some p' => exact .inl ⟨p', rfl, by simpa [hl, eq_comm] using hpl, hf⟩
      · rw [hp0] at hpl
        cases p with
        | none => exact .inr ⟨rfl, hr⟩
        | some p' => cases hpl

/-- A cycle in which the solution method raises. -/
theorem MpcDirect.cycle_error {W : Type} {c : Config W} {S : Mpc.State W} {est cov x : List Rat} {w : W}
    {p : Option (List Rat)} {err : Err}
    (hest : c.estimate S.plant.t S.plant.measurement S.plant.u S.world = (.ok (est, cov), w))
    (hx : x = if c.includeCost then est ++ [0] else est)
    (hget : getParameter c x cov { S with iteration := S.iteration + 1, world := w } =
      (.ok p, { S with iteration := S.iteration + 1, world := w, p := p }))
    (hr : c.rearrange = none) (hsolve : (c.solve x S.initialGuess p S.plant.u w).1 = .error err) :
    (cycle c S).1 = .error err ∧ (cycle c S).2.plant = S.plant := by
  have hsolve' : c.solve x S.initialGuess p S.plant.u w =
      (.error err, (c.solve x S.initialGuess p S.plant.u w).2) := Prod.ext hsolve rfl
  generalize (c.solve x S.initialGuess p S.plant.u w).2 = w' at hsolve'
  have hmain : cycle c S = (.error err, { S with
      iteration := S.iteration + 1, world := w', p := p, debuggerStops := S.debuggerStops + 1 }) := by
    simp only [cycle, Py.bind_eq, Py.modify_bind]
    rw [Py.bind_ok (show getMeasurement { S with iteration := S.iteration + 1 } =
      (.ok (S.plant.t, S.plant.measurement, S.plant.u), { S with iteration := S.iteration + 1 }) from rfl)]
    rw [Py.bind_ok (show getStates c (S.plant.t, S.plant.measurement, S.plant.u)
      { S with iteration := S.iteration + 1 } = (.ok (x, cov),
        { S with iteration := S.iteration + 1, world := w }) by
      simp only [getStates, Py.bind_eq]
      rw [Py.bind_ok (show onWorld _ { S with iteration := S.iteration + 1 } = (.ok (est, cov),
        { S with iteration := S.iteration + 1, world := w }) by
        simp only [onWorld, hest])]
      rw [hx]
      rfl)]
    rw [Py.bind_ok hget]
    rw [show rearranged c x = .ok x by unfold rearranged; rw [hr], Py.lift_ok_bind]
    refine Py.bind_error ?_
    simp only [getNewControl, Py.bind_eq, Py.modify_bind, Py.get_bind]
    refine Py.bind_error ?_
    simp only [onWorld, hsolve']
  rw [hmain]
  exact ⟨rfl, rfl⟩

/-- With the default `include_cost_in_state_vector=False` every cycle raises: the problem of the direct
method has one more state than the plant. Nothing is sent. -/
theorem C162_default_fails (plant : Plant.Env) (dims : Dims) (ops : Expr.Ops Rat) (opts : Options)
    (names : NewNames) (sim info : List Rat → Theta Rat → Except Err (List Rat))
    (solver : SolverCall Rat → Except Err (RawSolution Rat))
    (estimator : Rat → List Rat → List Rat → Py E (List Rat × List Rat)) (mean covariance : Bool)
    (meanIndices covIndices : List (Nat × Nat)) (s : Method) (S : Mpc.State (E × SolveDirect.State Rat))
    (est cov : List Rat) (e : E) (c : Config (E × SolveDirect.State Rat))
    (hcon : c = controller plant dims ops opts names sim info solver
      estimator false mean meanIndices covariance covIndices)
    (hc : s.hasCostState = false) (hp : s.prepared = false)
    (h : (prepare opts.controlRoots opts.controlRoots.length names.xc names.fresh names.base s).1 = .ok ())
    (hw : WellPosed Rat opts names s.problem) (hused : Used ops opts names s S.world.2)
    (hest : estimator S.plant.t S.plant.measurement S.plant.u S.world.1 = (.ok (est, cov), e))
    (hx : est.length = s.problem.model.x.length)
    (hpar : ParametersReady c s.problem S.p est cov) :
    (cycle c S).1 = .error .exception ∧ (cycle c S).2.plant = S.plant := by
  obtain ⟨p, q, hget, -⟩ := parameters_ok c s.problem est cov
    { S with iteration := S.iteration + 1, world := (e, S.world.2) } hpar
  have herr := C161_state_size_fails ops opts names s sim info solver
    (solveArgs est S.initialGuess p S.plant.u) est hc hp h hw hx rfl
  rw [← used_eq hc hp h hw hused] at herr
  subst hcon
  refine cycle_error (est := est) (cov := cov) (w := (e, S.world.2)) ?_ rfl hget rfl ?_
  · simp only [controller, estimate, hest]
  · simp only [controller, solution, herr, Bool.false_eq_true, if_false]
    rfl

/-- When the problem has a last control, every cycle raises: the control of the plant is given as last
control, but is not put in the parameters. Nothing is sent. -/
theorem C162_last_control_fails (plant : Plant.Env) (dims : Dims) (ops : Expr.Ops Rat) (opts : Options)
    (names : NewNames) (sim info : List Rat → Theta Rat → Except Err (List Rat))
    (solver : SolverCall Rat → Except Err (RawSolution Rat))
    (estimator : Rat → List Rat → List Rat → Py E (List Rat × List Rat)) (mean covariance : Bool)
    (meanIndices covIndices : List (Nat × Nat)) (s : Method) (S : Mpc.State (E × SolveDirect.State Rat))
    (est cov : List Rat) (e : E) (c : Config (E × SolveDirect.State Rat))
    (hcon : c = controller plant dims ops opts names sim info solver
      estimator true mean meanIndices covariance covIndices)
    (hc : s.hasCostState = false) (hp : s.prepared = false)
    (h : (prepare opts.controlRoots opts.controlRoots.length names.xc names.fresh names.base s).1 = .ok ())
    (hw : WellPosed Rat opts names s.problem) (hlast : s.problem.lastU ≠ none)
    (htheta : s.problem.thetaOpt.length = s.problem.model.theta.length)
    (hguess : S.initialGuess ≠ none ∨
      (opts.heuristic = "simulation" ∧ ∀ p th, ∃ g, sim p th = .ok g) ∨
      (opts.heuristic = "problem_info" ∧ ∀ p th, ∃ g, info p th = .ok g))
    (hused : Used ops opts names s S.world.2)
    (hest : estimator S.plant.t S.plant.measurement S.plant.u S.world.1 = (.ok (est, cov), e))
    (hx : est.length = s.problem.model.x.length)
    (hpar : ParametersReady c s.problem S.p (est ++ [0]) cov) :
    (cycle c S).1 = .error .valueError ∧ (cycle c S).2.plant = S.plant := by
  obtain ⟨p, q, hget, hq, -, -, hpq⟩ := parameters_ok c s.problem (est ++ [0]) cov
    { S with iteration := S.iteration + 1, world := (e, S.world.2) } hpar
  have hdata : DataFits s.problem (mesh opts) est q
      (List.replicate opts.elements (List.replicate s.problem.model.theta.length 0)) :=
    ⟨hx, hq.1, fun el hel => by
      have : el < opts.elements := hel
      simp [this]⟩
  have hargs : ArgsFit s.problem opts { solveArgs (est ++ [0]) S.initialGuess p S.plant.u with
      lastU := none } sim info est q
      (List.replicate opts.elements (List.replicate s.problem.model.theta.length 0)) := by
    refine ⟨.inl rfl, ?_, .inr ⟨rfl, htheta, rfl⟩, .inl rfl, .inr hguess⟩
    rcases hpq with rfl | ⟨rfl, h₁, h₂⟩
    · exact .inl rfl
    · exact .inr ⟨rfl, h₁, h₂⟩
  have herr := C161_last_control_fails ops opts names s sim info solver _ est q S.plant.u _ hc hp h hw
    hdata hargs hlast
  rw [← used_eq hc hp h hw hused] at herr
  subst hcon
  refine cycle_error (est := est) (cov := cov) (w := (e, S.world.2)) ?_ rfl hget rfl ?_
  · simp only [controller, estimate, hest]
  · have herr' : (solve ops opts names sim info solver (solveArgs (est ++ [0]) S.initialGuess p S.plant.u)
      S.world.2).1 = .error .valueError := herr
    simp only [controller, solution, if_true, herr']
    rfl

/-- With a limit on the changes of the controls and no last control the first cycle raises; so does the
remedy of `C162_last_control_fails`, hence such limits cannot be used. Nothing is sent. -/
theorem C162_limits_fails (plant : Plant.Env) (dims : Dims) (ops : Expr.Ops Rat) (opts : Options)
    (names : NewNames) (sim info : List Rat → Theta Rat → Except Err (List Rat))
    (solver : SolverCall Rat → Except Err (RawSolution Rat))
    (estimator : Rat → List Rat → List Rat → Py E (List Rat × List Rat)) (includeCost mean covariance : Bool)
    (meanIndices covIndices : List (Nat × Nat)) (s : Method) (S : Mpc.State (E × SolveDirect.State Rat))
    (est cov : List Rat) (e : E) (c : Config (E × SolveDirect.State Rat))
    (hcon : c = controller plant dims ops opts names sim info solver
      estimator includeCost mean meanIndices covariance covIndices)
    (hc : s.hasCostState = false) (hp : s.prepared = false)
    (h : (prepare opts.controlRoots opts.controlRoots.length names.xc names.fresh names.base s).1 = .ok ())
    (hw : Declared Rat opts names s.problem) (hlast : s.problem.lastU = none)
    (hopt : opts.lastControlAsParameter = false) (hlim : ¬ NoRateLimits s.problem)
    (hnew : S.world.2 = ⟨s, none⟩)
    (hest : estimator S.plant.t S.plant.measurement S.plant.u S.world.1 = (.ok (est, cov), e))
    (hpar : ParametersReady c s.problem S.p (if includeCost then est ++ [0] else est) cov) :
    (cycle c S).1 = .error .runtimeError ∧ (cycle c S).2.plant = S.plant := by
  obtain ⟨p, q, hget, -⟩ := parameters_ok c s.problem (if includeCost then est ++ [0] else est) cov
    { S with iteration := S.iteration + 1, world := (e, S.world.2) } hpar
  have herr := C161_limits_fails ops opts names s sim info solver
    (solveArgs (if includeCost then est ++ [0] else est) S.initialGuess p S.plant.u) hc hp h hw hlast hopt
    hlim
  rw [← hnew] at herr
  subst hcon
  refine cycle_error (est := est) (cov := cov) (w := (e, S.world.2)) ?_ rfl hget rfl ?_
  · simp only [controller, estimate, hest]
  · exact congrArg (Except.map solutionOf) herr

theorem MpcDirect.run_one {W : Type} {c : Config W} {S : Mpc.State W} (h : (cycle c S).1 = .ok ()) :
    run c (1 : Nat) S = (.ok (), (cycle c S).2) := by
  have h' : cycle c S = (.ok (), (cycle c S).2) := Prod.ext h rfl
  rw [C56_run c 1 (le_refl 1)]
  unfold times
  rw [Py.bind_ok h']
  rfl

/-! ## Example: keep a plant at rest -/

namespace Example

/-- A plant that stays at rest, its state is measured. -/
def restPlant : Plant.Env where
  nX := 1
  nY := 0
  nU := 1
  nUPar := 1
  tS := 1
  yGuess := []
  points := [1]
  cRows := [[1]]
  cCols := 1
  hasNoise := false
  simulate := fun x _ _ _ => .ok (x, [], [0])
  processNoise := fun _ => [0]
  measurementNoise := fun _ => [0]

/-- The measurement is the state. -/
def restEstimator (_ : Rat) (y _ : List Rat) : Py Unit (List Rat × List Rat) := Py.pure ([y.headD 0], [0])

/-- A controller for it. -/
noncomputable def restController (ops : Expr.Ops Rat)
    (sim info : List Rat → Theta Rat → Except Err (List Rat)) (includeCost : Bool) :
    Config (Unit × SolveDirect.State Rat) :=
  controller restPlant (directDims restProblem (mesh restOptions)) ops restOptions restNames sim info
    (bestSolver ops) restEstimator includeCost

/-- Before the first cycle, with an initial guess. -/
def restStart (m : Method) : Mpc.State (Unit × SolveDirect.State Rat) where
  plant := (Plant.fillData restPlant (fun n => if n = "y" then [] else ["a"])
    (Plant.blank 0 [1] [0] none)).2
  world := ((), ⟨m, none⟩)
  initialGuess := some []
  lastSolutions := none
  iteration := 0
  p := none
  debuggerStops := 0

theorem restPlant_goes (f : Rat → List Rat) :
    (Plant.setControlFunction restPlant f (restStart restMethod).plant).1 = .ok () := by
  exact rfl

end Example

open Example in
/-- The hypotheses of `C162_cycle` and `C162_run` are met: the controller sends the best control. -/
example (ops : Expr.Ops Rat) (sim info : List Rat → Theta Rat → Except Err (List Rat)) :
    ∃ S', run (restController ops sim info true) (1 : Nat) (restStart restMethod) = (.ok (), S') ∧
      Repeated (SendsBest ops restOptions (bestSolver ops) restProblem restEstimator (restController ops sim info true)) 1
        (restStart restMethod) S' := by
  have hready : ∀ x cov, ParametersReady (restController ops sim info true) restProblem none x cov :=
    fun x cov => .inr ⟨rfl, rfl, rfl, rfl⟩
  obtain ⟨p, q, b, success, f, guess, uValues, st, -, -, -, -, -, -, heq, -⟩ :=
    C162_cycle restPlant ops restOptions restNames sim info (bestSolver ops) restEstimator false false [] []
      restMethod (restStart restMethod) [1] [0] () (restController ops sim info true) rfl rfl rfl
      restMethod_prepares restProblem_posed (bestSolver_good ops) rfl rfl rfl (by decide) (.inr ⟨rfl, rfl⟩)
      rfl (by decide) (.inl (by simp [restStart])) .new rfl rfl (hready _ _)
  have hok : (cycle (restController ops sim info true) (restStart restMethod)).1 = .ok () := by
    rw [heq]
    exact restPlant_goes f
  have hrun : run (restController ops sim info true) (1 : Nat) (restStart restMethod) =
      (.ok (), (cycle (restController ops sim info true) (restStart restMethod)).2) := run_one hok
  refine ⟨_, hrun, ?_⟩
  exact C162_run restPlant ops restOptions restNames sim info (bestSolver ops) restEstimator false false [] []
    restMethod (restStart restMethod) _ (restController ops sim info true) 1 rfl rfl rfl restMethod_prepares
    restProblem_posed (bestSolver_good ops) rfl rfl rfl (by decide) (.inr ⟨rfl, rfl⟩) rfl (by decide)
    (.inl (by simp [restStart])) .new (fun t y u e => ⟨[y.headD 0], [0], e, rfl, rfl, hready _ _⟩)
    (le_refl 1) hrun

open Example in
/-- The hypotheses of `C162_default_fails` are met. -/
example (ops : Expr.Ops Rat) (sim info : List Rat → Theta Rat → Except Err (List Rat)) :
    (cycle (restController ops sim info false) (restStart restMethod)).1 = .error .exception :=
  (C162_default_fails restPlant _ ops restOptions restNames sim info (bestSolver ops) restEstimator false
    false [] [] restMethod (restStart restMethod) [1] [0] () (restController ops sim info false) rfl rfl rfl
    restMethod_prepares restProblem_posed .new rfl rfl (.inr ⟨rfl, rfl, rfl, rfl⟩)).1

open Example in
/-- The hypotheses of `C162_last_control_fails` are met. -/
example (ops : Expr.Ops Rat) (sim info : List Rat → Theta Rat → Except Err (List Rat)) :
    (cycle (restController ops sim info true)
      (restStart { problem := { restProblem with lastU := some [0] } })).1 = .error .valueError :=
  (C162_last_control_fails restPlant _ ops restOptions restNames sim info (bestSolver ops) restEstimator
    false false [] [] { problem := { restProblem with lastU := some [0] } }
    (restStart { problem := { restProblem with lastU := some [0] } }) [1] [0] ()
    (restController ops sim info true) rfl rfl rfl (by decide +kernel) restLast_posed (by decide) rfl
    (.inl (by simp [restStart])) .new rfl rfl (.inr ⟨rfl, rfl, rfl, rfl⟩)).1

open Example in
/-- The hypotheses of `C162_limits_fails` are met. -/
example (ops : Expr.Ops Rat) (sim info : List Rat → Theta Rat → Except Err (List Rat)) :
    (cycle (restController ops sim info true)
      (restStart { problem := { restProblem with duMax := [XRat.fin 1] } })).1 = .error .runtimeError :=
  (C162_limits_fails restPlant _ ops restOptions restNames sim info (bestSolver ops) restEstimator
    true false false [] [] { problem := { restProblem with duMax := [XRat.fin 1] } }
    (restStart { problem := { restProblem with duMax := [XRat.fin 1] } }) [1] [0] ()
    (restController ops sim info true) rfl rfl rfl (by decide +kernel) restLimited_declared rfl rfl
    (by unfold NoRateLimits; decide +kernel) rfl rfl (.inr ⟨rfl, rfl, rfl, rfl⟩)).1

end Verif
