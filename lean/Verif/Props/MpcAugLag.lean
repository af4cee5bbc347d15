import Verif.Model.MpcAugLag
import Verif.Lemmas.MpcMethods
import Verif.Props.MpcDirect
import Verif.Props.SolveAugLag
/-!
# C192: a controller with an augmented Lagrangian
-/
namespace Verif
open Spec SolveDirect Mpc MpcAugLag

variable {E : Type}

/-- The control found in a cycle: the solution is kept for sending it. -/
theorem MpcAugLag.getNewControl_found {W : Type} {c : Config W} {s : Mpc.State W} {x u : List Rat} {w' : W}
    {p : Option (List Rat)} {sol : Solution} (hsolve : c.solve x s.initialGuess p u s.world = (.ok sol, w')) :
    ∃ r s', getNewControl c x u p s = (r, s') ∧ s'.plant = s.plant ∧
      ∀ v, r = .ok v → s'.lastSolutions = some [sol] ∧ ∃ v' us rest, sol.uValues = (v' :: us) :: rest := by
  simp only [getNewControl, Py.bind_eq, Py.modify_bind, Py.get_bind]
  rw [Py.bind_ok (show onWorld _ { s with debuggerStops := s.debuggerStops + 1 } =
      (.ok sol, { s with debuggerStops := s.debuggerStops + 1, world := w' }) by
    simp only [onWorld, hsolve])]
  cases hstep : step c.dims sol.raw with
  | error e => exact ⟨.error e, _, rfl, rfl, fun _ h => nomatch h⟩
  | ok guess =>
    rw [Py.lift_ok_bind]
    simp only [Py.modify_bind]
    refine ⟨sol.firstControl, _, rfl, rfl, fun v hv => ⟨rfl, ?_⟩⟩
    unfold Solution.firstControl Solution.firstControlParameters at hv
    cases hu : sol.uValues with
    | nil => rw [hu] at hv; exact nomatch hv
    | cons us rest =>
      rw [hu] at hv
      cases us with
      | nil => exact nomatch hv
      | cons v' vs => exact ⟨v', vs, rest, rfl⟩

/-- A cycle in which controls are found that cannot be sent. -/
theorem MpcAugLag.cycle_unsendable {W : Type} {c : Config W} {S : Mpc.State W} {est cov x : List Rat} {w w' : W}
    {p : Option (List Rat)} {sol : Solution}
    (hest : c.estimate S.plant.t S.plant.measurement S.plant.u S.world = (.ok (est, cov), w))
    (hx : x = if c.includeCost then est ++ [0] else est)
    (hget : getParameter c x cov { S with iteration := S.iteration + 1, world := w } =
      (.ok p, { S with iteration := S.iteration + 1, world := w, p := p }))
    (hr : c.rearrange = none) (hsolve : c.solve x S.initialGuess p S.plant.u w = (.ok sol, w'))
    (hbad : ∀ us rest, sol.uValues = us :: rest →
      us.flatten.length ≠ c.plant.nU * c.degree ∧ us.flatten.length ≠ 1) :
    ∃ e S', cycle c S = (.error e, S') ∧ S'.plant = S.plant := by
  simp only [cycle, Py.bind_eq, Py.modify_bind]
  rw [Py.bind_ok (show getMeasurement { S with iteration := S.iteration + 1 } =
    (.ok (S.plant.t, S.plant.measurement, S.plant.u), { S with iteration := S.iteration + 1 }) from rfl)]
  rw [Py.bind_ok (show getStates c (S.plant.t, S.plant.measurement, S.plant.u)
    { S with iteration := S.iteration + 1 } = (.ok (x, cov),
      { S with iteration := S.iteration + 1, world := w }) by
    simp only [getStates, Py.bind_eq]
    rw [Py.bind_ok (show onWorld _ { S with iteration := S.iteration + 1 } = (.ok (est, cov),
      { S with iteration := S.iteration + 1, world := w }) by
      simp only [onWorld, hest])]
    rw [hx]
    rfl)]
  rw [Py.bind_ok hget]
  rw [show rearranged c x = .ok x by unfold rearranged; rw [hr], Py.lift_ok_bind]
  obtain ⟨r, s', h₁, h₂, h₃⟩ := getNewControl_found (s := { S with
    iteration := S.iteration + 1, world := w, p := p }) hsolve
  cases r with
  | error e => exact ⟨e, s', Py.bind_error h₁, h₂⟩
  | ok v =>
    obtain ⟨hl, v', us, rest, hu⟩ := h₃ v rfl
    obtain ⟨g₁, g₂⟩ := hbad _ rest hu
    refine ⟨.runtimeError, s', ?_, h₂⟩
    rw [Py.bind_ok h₁]
    simp only [sendControl, Py.bind_eq, Py.get_bind, hl, lastControlParameters,
      Solution.firstControlParameters, hu]
    rw [Py.lift_ok_bind, show solutionParameters (v' :: us) = .ok (v' :: us).flatten from rfl,
      Py.lift_ok_bind]
    rw [show makeControlFunction c.roots c.plant.nU c.degree (v' :: us).flatten s'.plant.t c.plant.tS =
      .error .runtimeError by
      simp only [makeControlFunction, Mpc.controlPoints, if_neg g₁, if_neg g₂]
      rfl]
    rfl

/-- The first controls a result shows. -/
theorem MpcAugLag.shown_size {q : Ocp} {M : Mesh} {b : Blocks Rat} {r : Report Rat} (h : Shows q M b r)
    {us : List (List Rat)} {rest : List (List (List Rat))} (hu : r.uValues = us :: rest) :
    us.flatten.length = q.model.u.length * M.controlRoots.length := by
  have hmem : us ∈ r.uValues := by rw [hu]; simp
  rw [h.uValues] at hmem
  obtain ⟨el, -, rfl⟩ := List.mem_map.mp hmem
  have hl : (reportedPositions M : List Rat).length = M.controlRoots.length := by
    unfold reportedPositions
    split
    · rename_i h1; simp [h1]
    · simp [inField]
  rw [← hl]
  generalize (reportedPositions M : List Rat) = l
  induction l with
  | nil => simp
  | cons a l ih =>
    rw [List.map_cons, List.flatten_cons, List.length_append, ih]
    simp [Nat.mul_succ, Nat.add_comm]

/-- The relaxed problem has a control for each relaxed equation. -/
theorem MpcAugLag.relaxed_controls {opts : Options} {names : NewNames} {next : Sym} {o : Ocp} {a : Relax.Args}
    (mu0 : Rat) (h : RelaxDeclared Rat opts names next o a) :
    (relaxedBy opts next mu0 a o).model.u.length = o.model.u.length + (a.alg o).length := by
  obtain ⟨s', g₁, g₂⟩ := RelaxDirect.construct_run mu0 a opts.roots opts.roots.length
    o next h.relaxable h.only.1 h.only.2 (fun _ => rfl) (RelaxDirect.exprsBelow h.scope h.below)
    (h.below _ (by simp [problemSymbols]))
  have hq : relaxedBy opts next mu0 a o = s'.problem := by unfold relaxedBy; rw [g₁]
  rw [hq, g₂.problem.relaxed.u, List.length_append, entriesAt_length _ _ h.relaxable.chosen.2,
    h.relaxable.same]

/-- C192 does not hold. A controller has an augmented Lagrangian that relaxes algebraic equations, around a
direct method with collocation; it includes the cost in the state vector, and the estimates have the size
of the state of the plant. Unless the number of control values per element of the relaxed problem is by
accident the one of a polynomial control of the plant, every run raises and nothing is sent: the freed
variables are among the controls the controller takes from the result. -/
theorem C192_fails (plant : Plant.Env) (dims : Dims) (ops : Expr.Ops Rat) (M : SolveAugLag.Method Rat)
    (next : Sym) (o : Ocp) (a : Relax.Args) (mu0 : Rat)
    (sim info : List Rat → Theta Rat → Except Err (List Rat))
    (solver : SolverCall Rat → Except Err (RawSolution Rat)) (dual : Report Rat → List Rat × List Rat)
    (estimator : Rat → List Rat → List Rat → Py E (List Rat × List Rat))
    (S : Mpc.State (E × SolveAugLag.State Rat))
    (h : RelaxDeclared Rat M.opts M.names next o a) (hcfg : Configured M o a) (hu : Updates M)
    (hmatch : ControlsMatch (mesh M.opts)) (hmu : 0 ≤ mu0) (hn : M.al.maxIter ≠ 0)
    (hst : AugLagReached ops M o (mu0 : Rat) (relaxedBy M.opts next mu0 a o) S.world.2)
    (hs : GoodSolver ops solver) (hnu : plant.nU = o.model.u.length) (htheta : o.model.theta = [])
    (hp : (∃ p, S.p = some p ∧ p.length = o.model.p.length) ∨ S.p = none ∧ o.model.p = [])
    (hguess : S.initialGuess ≠ none ∨
      (M.opts.heuristic = "simulation" ∧ ∀ p th, ∃ g, sim p th = .ok g) ∨
      (M.opts.heuristic = "problem_info" ∧ ∀ p th, ∃ g, info p th = .ok g))
    (hest : ∀ t y u e, ∃ est cov e', estimator t y u e = (.ok (est, cov), e') ∧
      est.length = o.model.x.length)
    (hsize : (o.model.u.length + (a.alg o).length) * M.opts.controlRoots.length ≠
      o.model.u.length * M.opts.roots.length)
    (hone : (o.model.u.length + (a.alg o).length) * M.opts.controlRoots.length ≠ 1) :
    NeverSends .collocation (controller plant dims ops M sim info solver dual estimator true) S := by
  intro n
  obtain ⟨est, cov, e, he, hx⟩ := hest S.plant.t S.plant.measurement S.plant.u S.world.1
  obtain ⟨p, hp₁, hp₂⟩ : ∃ p, p.length = o.model.p.length ∧ (S.p = some p ∨ S.p = none ∧ o.model.p = []) := by
    rcases hp with ⟨p, h₁, h₂⟩ | ⟨h₁, h₂⟩
    · exact ⟨p, h₂, .inl h₁⟩
    · exact ⟨[], by simp [h₂], .inr ⟨h₁, h₂⟩⟩
  obtain ⟨r, st', b', hsol, -, -, hshow, -⟩ := C167_solve_partial ops M next o a mu0 S.world.2 sim info solver
    dual (MpcDirect.solveArgs (est ++ [0]) S.initialGuess S.p S.plant.u) est p
    (List.replicate M.opts.elements []) h hcfg hu hmatch hmu hn hst
    ⟨hx, hp₁, fun el hel => by
      have : el < M.opts.elements := hel
      simp [this, htheta]⟩
    ⟨.inl rfl, hp₂, .inr ⟨rfl, htheta⟩, .inr hguess⟩ hs
  obtain ⟨err, S', hc, hS⟩ := cycle_unsendable (c := controller plant dims ops M sim info solver dual
      estimator true) (S := S) (est := est) (cov := cov) (x := est ++ [0]) (w := (e, S.world.2))
    (w' := (e, st')) (p := S.p) (sol := solutionOf r)
    (by simp only [controller, he]) rfl rfl rfl
    (by simp only [controller, hsol]; rfl)
    (fun us rest hus => by
      have := shown_size hshow (us := us) (rest := rest) hus
      rw [relaxed_controls mu0 h] at this
      have hpl : (controller plant dims ops M sim info solver dual estimator true).plant.nU *
        (controller plant dims ops M sim info solver dual estimator true).degree =
        o.model.u.length * M.opts.roots.length := by rw [← hnu]; rfl
      rw [hpl, this]
      exact ⟨hsize, hone⟩)
  exact ⟨err, S', MpcMethods.run_stuck (scheme := .collocation) hc n, hS⟩

/-- In particular it does not hold if the controls are polynomials through the collocation points, the
default. -/
theorem C192_polynomials_fails (plant : Plant.Env) (dims : Dims) (ops : Expr.Ops Rat)
    (M : SolveAugLag.Method Rat) (next : Sym) (o : Ocp) (a : Relax.Args) (mu0 : Rat)
    (sim info : List Rat → Theta Rat → Except Err (List Rat))
    (solver : SolverCall Rat → Except Err (RawSolution Rat)) (dual : Report Rat → List Rat × List Rat)
    (estimator : Rat → List Rat → List Rat → Py E (List Rat × List Rat))
    (S : Mpc.State (E × SolveAugLag.State Rat))
    (h : RelaxDeclared Rat M.opts M.names next o a) (hcfg : Configured M o a) (hu : Updates M)
    (hmatch : M.opts.controlRoots = M.opts.roots) (hmu : 0 ≤ mu0) (hn : M.al.maxIter ≠ 0)
    (hst : AugLagReached ops M o (mu0 : Rat) (relaxedBy M.opts next mu0 a o) S.world.2)
    (hs : GoodSolver ops solver) (hnu : plant.nU = o.model.u.length) (htheta : o.model.theta = [])
    (hp : (∃ p, S.p = some p ∧ p.length = o.model.p.length) ∨ S.p = none ∧ o.model.p = [])
    (hguess : S.initialGuess ≠ none ∨
      (M.opts.heuristic = "simulation" ∧ ∀ p th, ∃ g, sim p th = .ok g) ∨
      (M.opts.heuristic = "problem_info" ∧ ∀ p th, ∃ g, info p th = .ok g))
    (hest : ∀ t y u e, ∃ est cov e', estimator t y u e = (.ok (est, cov), e') ∧
      est.length = o.model.x.length) :
    NeverSends .collocation (controller plant dims ops M sim info solver dual estimator true) S := by
  have hd : 1 < M.opts.roots.length := h.mesh.points
  have hr : 0 < (a.alg o).length := List.length_pos_iff.mpr h.relaxable.nonempty
  refine C192_fails plant dims ops M next o a mu0 sim info solver dual estimator S h hcfg hu (.inl hmatch) hmu hn
    hst hs hnu htheta hp hguess hest ?_ ?_
  · rw [hmatch]
    exact ne_of_gt (Nat.mul_lt_mul_of_pos_right (by omega) (by omega))
  · rw [hmatch]
    intro h1
    have := Nat.eq_one_of_mul_eq_one_left h1
    omega

/-- A cycle in which controls are found. -/
theorem MpcAugLag.cycle_found {W : Type} {c : Config W} {S : Mpc.State W} {est cov x : List Rat} {w w' : W}
    {p : Option (List Rat)} {sol : Solution} {guess v : List Rat} {us : List (List Rat)}
    {rest : List (List (List Rat))} {f : Rat → List Rat}
    (hest : c.estimate S.plant.t S.plant.measurement S.plant.u S.world = (.ok (est, cov), w))
    (hx : x = if c.includeCost then est ++ [0] else est)
    (hget : getParameter c x cov { S with iteration := S.iteration + 1, world := w } =
      (.ok p, { S with iteration := S.iteration + 1, world := w, p := p }))
    (hr : c.rearrange = none) (hsolve : c.solve x S.initialGuess p S.plant.u w = (.ok sol, w'))
    (hstep : step c.dims sol.raw = .ok guess) (hu : sol.uValues = (v :: us) :: rest)
    (hf : makeControlFunction c.roots c.plant.nU c.degree (v :: us).flatten S.plant.t c.plant.tS = .ok f) :
    ∃ S', cycle c S = onPlant (Plant.setControlFunction c.plant f) S' ∧ S'.plant = S.plant := by
  simp only [cycle, Py.bind_eq, Py.modify_bind]
  rw [Py.bind_ok (show getMeasurement { S with iteration := S.iteration + 1 } =
    (.ok (S.plant.t, S.plant.measurement, S.plant.u), { S with iteration := S.iteration + 1 }) from rfl)]
  rw [Py.bind_ok (show getStates c (S.plant.t, S.plant.measurement, S.plant.u)
    { S with iteration := S.iteration + 1 } = (.ok (x, cov),
      { S with iteration := S.iteration + 1, world := w }) by
    simp only [getStates, Py.bind_eq]
    rw [Py.bind_ok (show onWorld _ { S with iteration := S.iteration + 1 } = (.ok (est, cov),
      { S with iteration := S.iteration + 1, world := w }) by
      simp only [onWorld, hest])]
    rw [hx]
    rfl)]
  rw [Py.bind_ok hget]
  rw [show rearranged c x = .ok x by unfold rearranged; rw [hr], Py.lift_ok_bind]
  rw [Py.bind_ok (show getNewControl c x S.plant.u p { S with
      iteration := S.iteration + 1, world := w, p := p } = (.ok v, { S with
      iteration := S.iteration + 1, debuggerStops := S.debuggerStops + 1, p := p, world := w',
      initialGuess := some guess, lastSolutions := some [sol] }) by
    simp only [getNewControl, Py.bind_eq, Py.modify_bind, Py.get_bind]
    rw [Py.bind_ok (show onWorld _ { S with
        iteration := S.iteration + 1, debuggerStops := S.debuggerStops + 1, p := p, world := w } =
        (.ok sol, { S with
        iteration := S.iteration + 1, debuggerStops := S.debuggerStops + 1, p := p, world := w' }) by
      simp only [onWorld, hsolve])]
    rw [hstep, Py.lift_ok_bind]
    simp only [Py.modify_bind, Solution.firstControl, Solution.firstControlParameters, hu]
    rfl)]
  refine ⟨{ S with
      iteration := S.iteration + 1, debuggerStops := S.debuggerStops + 1, p := p, world := w',
      initialGuess := some guess, lastSolutions := some [sol] }, ?_, rfl⟩
  simp only [sendControl, Py.bind_eq, Py.get_bind, lastControlParameters,
    Solution.firstControlParameters, hu]
  rw [Py.lift_ok_bind, show solutionParameters (v :: us) = .ok (v :: us).flatten from rfl,
    Py.lift_ok_bind, hf, Py.lift_ok_bind]

/-- Where the sizes agree by accident something else is sent than the control. There is one control,
constant in every element, and as many relaxed equations as make the values per element look like those of
a polynomial: the control of the plant takes, at the collocation points after the first one, the values of
the freed algebraic variables. -/
theorem C192_mixed_fails (plant : Plant.Env) (ops : Expr.Ops Rat) (M : SolveAugLag.Method Rat)
    (next : Sym) (o : Ocp) (a : Relax.Args) (mu0 : Rat)
    (sim info : List Rat → Theta Rat → Except Err (List Rat))
    (solver : SolverCall Rat → Except Err (RawSolution Rat)) (dual : Report Rat → List Rat × List Rat)
    (estimator : Rat → List Rat → List Rat → Py E (List Rat × List Rat))
    (S : Mpc.State (E × SolveAugLag.State Rat))
    (h : RelaxDeclared Rat M.opts M.names next o a) (hcfg : Configured M o a) (hu : Updates M)
    (hmatch : M.opts.controlRoots.length = 1) (hmu : 0 ≤ mu0) (hn : M.al.maxIter ≠ 0)
    (hst : AugLagReached ops M o (mu0 : Rat) (relaxedBy M.opts next mu0 a o) S.world.2)
    (hs : GoodSolver ops solver) (hnu : plant.nU = 1) (hone : o.model.u.length = 1)
    (hrel : (a.alg o).length + 1 = M.opts.roots.length) (helements : 2 ≤ M.opts.elements)
    (hS : plant.tS ≠ 0) (htheta : o.model.theta = [])
    (hp : (∃ p, S.p = some p ∧ p.length = o.model.p.length) ∨ S.p = none ∧ o.model.p = [])
    (hguess : S.initialGuess ≠ none ∨
      (M.opts.heuristic = "simulation" ∧ ∀ p th, ∃ g, sim p th = .ok g) ∨
      (M.opts.heuristic = "problem_info" ∧ ∀ p th, ∃ g, info p th = .ok g))
    (hest : ∀ t y u e, ∃ est cov e', estimator t y u e = (.ok (est, cov), e') ∧
      est.length = o.model.x.length) :
    ∃ est r st' b' f S', est.length = o.model.x.length ∧
      SolveAugLag.solve ops M sim info solver dual
        (MpcDirect.solveArgs (est ++ [0]) S.initialGuess S.p S.plant.u) S.world.2 = (.ok r, st') ∧
      Shows (relaxedBy M.opts next mu0 a o) (mesh M.opts) b' r.report ∧
      cycle (controller plant (relaxedDims o (mesh M.opts) (a.alg o).length) ops M sim info solver dual
        estimator true) S = onPlant (Plant.setControlFunction plant f) S' ∧ S'.plant = S.plant ∧
      ∀ (j : Nat) (hj : j < M.opts.roots.length), f (S.plant.t + M.opts.roots[j] * plant.tS) =
        [(controlPoly (mesh M.opts) b' 0 j).eval 0] := by
  obtain ⟨est, cov, e, he, hx⟩ := hest S.plant.t S.plant.measurement S.plant.u S.world.1
  obtain ⟨p, hp₁, hp₂⟩ : ∃ p, p.length = o.model.p.length ∧ (S.p = some p ∨ S.p = none ∧ o.model.p = []) := by
    rcases hp with ⟨p, h₁, h₂⟩ | ⟨h₁, h₂⟩
    · exact ⟨p, h₂, .inl h₁⟩
    · exact ⟨[], by simp [h₂], .inr ⟨h₁, h₂⟩⟩
  obtain ⟨r, st', b', hsol, hb, hraw, hshow, -⟩ := C167_solve_partial ops M next o a mu0 S.world.2 sim info
    solver dual (MpcDirect.solveArgs (est ++ [0]) S.initialGuess S.p S.plant.u) est p
    (List.replicate M.opts.elements []) h hcfg hu (.inr hmatch) hmu hn hst
    ⟨hx, hp₁, fun el hel => by
      have : el < M.opts.elements := hel
      simp [this, htheta]⟩
    ⟨.inl rfl, hp₂, .inr ⟨rfl, htheta⟩, .inr hguess⟩ hs
  have hlen : (Layout.stacked b').length =
      Spec.collocationSize (relaxedDims o (mesh M.opts) (a.alg o).length) := by
    rw [← Layout.repack_withFinal]
    exact Layout.repack_length (Layout.collocationShape_withFinal (show 0 < M.opts.elements by omega)
      hb.toSharedShape hb.x hb.y)
  obtain ⟨guess, _, _, hstep, -⟩ := C55_shift_partial (relaxedDims o (mesh M.opts) (a.alg o).length)
    (Layout.stacked b') helements hlen
  obtain ⟨N, hN⟩ : ∃ N, M.opts.elements = N + 1 := ⟨M.opts.elements - 1, by omega⟩
  have hq := relaxed_controls mu0 h
  rw [hone, Nat.add_comm, hrel] at hq
  obtain ⟨rest, huv⟩ : ∃ rest, r.report.uValues =
      [(List.range M.opts.roots.length).map fun i => (controlPoly (mesh M.opts) b' 0 i).eval 0] :: rest := by
    have hpos : (reportedPositions (mesh M.opts) : List Rat) = [0] := if_pos hmatch
    have hel : (mesh M.opts).elements = N + 1 := hN
    rw [hshow.uValues, hq, hpos, sampleTable, hel, List.range_succ_eq_map]
    exact ⟨_, rfl⟩
  have hnodup : M.opts.roots.Nodup :=
    (List.Pairwise.imp (fun hlt => ne_of_lt hlt) h.mesh.increasing).of_cons
  have hcols : Columns M.opts.roots.length 1 ((List.range M.opts.roots.length).map fun i =>
      [(controlPoly (mesh M.opts) b' 0 i).eval 0]) := by
    refine ⟨by simp, fun c hc => ?_⟩
    obtain ⟨i, -, rfl⟩ := List.mem_map.mp hc
    rfl
  obtain ⟨f, hf, hv⟩ := MpcDirect.make_ok M.opts.roots M.opts.roots _ 1 S.plant.t plant.tS hcols hnodup
    (Nat.lt_of_succ_lt h.mesh.points) (.inl rfl) hS
  have hflat : ((List.range M.opts.roots.length).map fun i =>
      [(controlPoly (mesh M.opts) b' 0 i).eval 0]).flatten =
      [(List.range M.opts.roots.length).map fun i => (controlPoly (mesh M.opts) b' 0 i).eval 0].flatten := by
    rw [List.flatten_singleton]
    exact (List.flatMap_def ..).symm.trans (List.map_eq_flatMap ..).symm
  rw [hflat] at hf
  obtain ⟨S', hc, hS'⟩ := cycle_found (c := controller plant (relaxedDims o (mesh M.opts) (a.alg o).length) ops M
      sim info solver dual estimator true) (S := S) (est := est) (cov := cov) (x := est ++ [0])
    (w := (e, S.world.2)) (w' := (e, st')) (p := S.p) (sol := solutionOf r) (f := f)
    (by simp only [controller, he]) rfl rfl rfl
    (by simp only [controller, hsol]; rfl)
    (by show step _ r.report.raw = _; rw [hraw]; exact hstep) huv
    (by rw [← hf]; simp only [controller, hnu])
  refine ⟨est, r, st', b', f, S', hx, hsol, hshow, hc, hS', fun j hj => ?_⟩
  rw [hv]
  have hnode : (through M.opts.roots ((List.range M.opts.roots.length).map fun i =>
      [(controlPoly (mesh M.opts) b' 0 i).eval 0]) 0).eval M.opts.roots[j] =
      (controlPoly (mesh M.opts) b' 0 j).eval 0 := by
    unfold through
    refine (Lagrange.eval_interpolate_at_node (v := M.opts.roots.get)
      _ (nodes_injOn hnodup) (i := ⟨j, hj⟩) (Finset.mem_univ _)).trans ?_
    simp [hj]
  simp [hnode]

namespace Example

/-- A controller with the augmented Lagrangian of `copyProblem`, before the first cycle. -/
def copyState (o : Ocp) (opts : Options) (al : AugLag.Opts Rat) : Mpc.State (Unit × SolveAugLag.State Rat) where
  plant := (Plant.fillData restPlant (fun n => if n = "y" then [] else ["a"])
    (Plant.blank 0 [1] [0] none)).2
  world := ((), ⟨⟨{ problem := relaxedBy opts 10 1 copyArgs o }, none⟩, AugLag.start al 1⟩)
  initialGuess := some []
  lastSolutions := none
  iteration := 0
  p := none
  debuggerStops := 0

/-- Two elements with two Radau points for the states and constant controls. -/
def holdOptions : Options := { elements := 2, roots := [1 / 3, 1], controlRoots := [1 / 3] }

/-- The new symbols of the direct method. -/
def holdNames : NewNames where
  xc := 20
  fresh := 21
  base := 30
  var := fun kind el k => match kind with
    | .x => [50 + 10 * el + 2 * k, 51 + 10 * el + 2 * k]
    | .u => [100 + 10 * el + 2 * k, 101 + 10 * el + 2 * k]
    | _ => []

theorem hold_declared : RelaxDeclared Rat holdOptions holdNames 10 copyProblem copyArgs :=
  { copy_declared with
    mesh := {
      elements := by decide
      points := by decide
      increasing := by decide +kernel
      last := rfl
      controls := by decide }
    controlRoots := by decide +kernel
    initial := rfl
    newVars := ⟨⟨fun _ _ => rfl, fun _ _ => rfl, fun _ _ => rfl, rfl, rfl, fun _ => rfl⟩, by decide⟩ }

/-- One iteration, with an update of the multiplier and the penalty. -/
def holdMethod : SolveAugLag.Method Rat where
  opts := holdOptions
  names := holdNames
  al := { roots := fun _ => [1 / 3, 1], t0 := 0, tf := 1, nRelax := 1, nuDegree := 2, degree := 2,
          elements := 2, maxIter := 1, tol := 1 / 100, muMax := 1000, beta := 4, minDecrease := 1 / 2 }
  noUpdate := false
  relaxedAlg := [.sub (.sym 5) (.sym 4)]
  relaxedEq := []

theorem hold_configured : Configured holdMethod copyProblem copyArgs where
  relaxedAlg := rfl
  relaxedEq := rfl
  count := rfl
  degree := ⟨rfl, rfl⟩
  points := by decide +kernel
  elements := rfl
  horizon := by decide +kernel

theorem hold_updates : Updates holdMethod where
  plain := .inr ⟨rfl, rfl, rfl, .inr (by decide)⟩
  nonnegative := by decide +kernel

end Example

open Example in
/-- The hypotheses of `C192_polynomials_fails` are met. -/
example (ops : Expr.Ops Rat) (sim info : List Rat → Theta Rat → Except Err (List Rat))
    (dual : Report Rat → List Rat × List Rat) (dims : Dims) :
    NeverSends .collocation (controller restPlant dims ops copyMethod sim info (bestSolver ops) dual
      restEstimator true) (copyState copyProblem copyOptions copyMethod.al) :=
  C192_polynomials_fails restPlant dims ops copyMethod 10 copyProblem copyArgs 1 sim info (bestSolver ops) dual
    restEstimator _ copy_declared copy_configured copy_updates rfl (by decide) (by decide) (by
      have := AugLagReached.start (ops := ops) (M := copyMethod) (o := copyProblem) (mu0 := 1)
        (q := relaxedBy copyOptions 10 1 copyArgs copyProblem)
      exact this) (bestSolver_good ops) rfl rfl (.inr ⟨rfl, rfl⟩) (.inl (by simp [copyState]))
    (fun t y u e => ⟨[y.headD 0], [0], e, rfl, rfl⟩)

open Example in
/-- The hypotheses of `C192_mixed_fails` are met: at the second collocation point the control of the plant
is the freed variable. -/
example (ops : Expr.Ops Rat) (sim info : List Rat → Theta Rat → Except Err (List Rat))
    (dual : Report Rat → List Rat × List Rat) :
    ∃ b' f S', cycle (controller restPlant (relaxedDims copyProblem (mesh holdOptions) 1) ops holdMethod sim info
        (bestSolver ops) dual restEstimator true) (copyState copyProblem holdOptions holdMethod.al) =
        onPlant (Plant.setControlFunction restPlant f) S' ∧
      f 1 = [(controlPoly (mesh holdOptions) b' 0 1).eval 0] := by
  obtain ⟨est, r, st', b', f, S', -, -, -, hc, -, hf⟩ := C192_mixed_fails restPlant ops holdMethod 10 copyProblem
    copyArgs 1 sim info (bestSolver ops) dual restEstimator (copyState copyProblem holdOptions holdMethod.al)
    hold_declared hold_configured hold_updates rfl (by decide) (by decide) (by
      have := AugLagReached.start (ops := ops) (M := holdMethod) (o := copyProblem) (mu0 := 1)
        (q := relaxedBy holdOptions 10 1 copyArgs copyProblem)
      exact this) (bestSolver_good ops) rfl rfl rfl (by decide) (by decide) rfl (.inr ⟨rfl, rfl⟩)
    (.inl (by simp [copyState])) (fun t y u e => ⟨[y.headD 0], [0], e, rfl, rfl⟩)
  refine ⟨b', f, S', hc, ?_⟩
  have := hf 1 (by decide)
  have ht : (copyState copyProblem holdOptions holdMethod.al).plant.t +
      holdMethod.opts.roots[1] * restPlant.tS = 1 := by decide +kernel
  rw [ht] at this
  exact this

end Verif
