import Verif.Lemmas.SolveAugLag
/-!
# C167: solving with the augmented Lagrangian around a direct method
-/
namespace Verif
open Spec SolveDirect Direct
open SolveAugLag (elementData_getD)

variable {K : Type} [Field K] [LinearOrder K] [IsStrictOrderedRing K]

omit [IsStrictOrderedRing K] in
/-- The constructor succeeds; it knows the relaxed equations and has a penalty for each. -/
theorem C167_construct (opts : Options) (names : NewNames) (next : Sym) (o : Ocp) (a : Relax.Args)
    (mu0 : Rat) (h : RelaxDeclared K opts names next o a) :
    ∃ s', Relax.construct mu0 a opts.roots opts.roots.length (Relax.start o next) = (.ok (), s') ∧
      s'.nRelax = (a.alg o).length ∧ s'.relaxedAlg = entriesAt o.model.alg (a.alg o) ∧
      s'.relaxedEq = [] ∧ s'.mu = List.replicate (a.alg o).length mu0 := by
  obtain ⟨s', h₁, h₂⟩ := RelaxDirect.construct_run mu0 a opts.roots opts.roots.length o next h.relaxable
    h.only.1 h.only.2 (fun _ => rfl) (RelaxDirect.exprsBelow h.scope h.below)
    (h.below _ (by simp [problemSymbols]))
  exact ⟨s', h₁, h₂.nRelax, h₂.relaxedAlg, h₂.relaxedEq, h₂.mu⟩

/-- A call of `solve`, after any number of earlier calls: it returns a solution of the relaxed problem. If
the solver reports success, the objective of the result is at most the cost of every trajectory that
satisfies all constraints of the user's problem; and if the violations are computed, the trajectories of
the result satisfy the constraints of the user's problem with the relaxed ones up to the error the result
shows, and they cost at most the objective of the result and what the multipliers give for the error. -/
theorem C167_solve_partial (ops : Expr.Ops K) (M : SolveAugLag.Method K) (next : Sym) (o : Ocp)
    (a : Relax.Args) (mu0 : Rat) (st : SolveAugLag.State K)
    (sim info : List K → Theta K → Except Err (List K))
    (solver : SolverCall K → Except Err (RawSolution K)) (dual : Report K → List K × List K)
    (args : SolveArgs K) (x0 p : List K) (theta : List (List K))
    (h : RelaxDeclared K M.opts M.names next o a) (hcfg : Configured M o a) (hu : Updates M)
    (hmatch : ControlsMatch (mesh M.opts)) (hmu : 0 ≤ mu0) (hn : M.al.maxIter ≠ 0)
    (hst : AugLagReached ops M o (mu0 : K) (relaxedBy M.opts next mu0 a o) st)
    (hd : DataFits o (mesh M.opts) x0 p theta) (ha : RelaxArgsFit o M.opts args sim info x0 p theta)
    (hs : GoodSolver ops solver) :
    ∃ r st' b', SolveAugLag.solve ops M sim info solver dual args st = (.ok r, st') ∧
      CollocationData (relaxedDims o (mesh M.opts) (a.alg o).length) b' ∧
      r.report.raw = Layout.stacked b' ∧
      Shows (relaxedBy M.opts next mu0 a o) (mesh M.opts) b' r.report ∧ r.x0 = args.x0 ∧
      (r.report.success = true →
        (∀ b ρ, Decision ops o (mesh M.opts) x0 p theta none b ρ →
          ControlLike (mesh M.opts) (a.algVar o) b →
          r.report.objective ≤ directCost ops o (mesh M.opts) b ρ) ∧
        (M.noUpdate = false → o.pOpt = [] → o.thetaOpt = [] → o.positiveObjective = false →
          ∃ e, r.error = some e ∧ e.length = (a.alg o).length ∧ ∀ tol, 0 ≤ tol → (∀ v ∈ e, v ≤ tol) →
            ∃ b ρ, SameTrajectory o (mesh M.opts) (a.algVar o) b b' ∧
              NearDecision ops o (mesh M.opts) (a.alg o) tol x0 p theta b ρ ∧
              ∀ N : K, PositiveQuadrature K (mesh M.opts) → 0 ≤ N →
                (∀ row ∈ st'.al.nu, ∀ v ∈ row, |v| ≤ N) →
                directCost ops o (mesh M.opts) b ρ ≤ r.report.objective +
                  ((o.tf : K) - (o.t0 : K)) * (N * tol * (a.alg o).length))) ∧
      (st'.al.solves.length = st.al.solves.length + M.al.maxIter ∨
        M.noUpdate = false ∧ ∃ e, r.error = some e ∧ Met M.al e) ∧
      st'.al.solves.length ≤ st.al.solves.length + M.al.maxIter ∧
      st.al.solves ++ [(st.al.nuTilde.getD st.al.nu, st.al.mu)] <+: st'.al.solves ∧
      (∃ mu, st'.al.solves.getLast? = some (st'.al.nu, mu)) ∧
      (CompleteSolver ops solver → ∀ mu, st'.al.solves.getLast? = some (st'.al.nu, mu) →
        ∀ best ρ, BestDecision ops (relaxedBy M.opts next mu0 a o) (mesh M.opts) x0 (p ++ mu)
          (elementData M.opts.elements theta st'.al.nu) none best ρ → r.report.success = true) := by
  obtain ⟨s', h₁, h₂⟩ := RelaxDirect.construct_run mu0 a M.opts.roots M.opts.roots.length o next h.relaxable
    h.only.1 h.only.2 (fun _ => rfl) (RelaxDirect.exprsBelow h.scope h.below)
    (h.below _ (by simp [problemSymbols]))
  have hq : relaxedBy M.opts next mu0 a o = s'.problem := by unfold relaxedBy; rw [h₁]
  rw [hq] at hst ⊢
  obtain ⟨m, S, P, C⟩ := SolveAugLag.ctx ops h hcfg hu h₂
  obtain ⟨r, st', hr, -, ⟨mu, b', O⟩, hstop, hmost, hfirst⟩ := C.solve_run hd hs dual hn
    (C.inv_reached (by exact_mod_cast hmu) hst) ha
  have hθ : ∀ el < M.opts.elements, (elementData M.opts.elements theta st'.al.nu).getD el [] =
      theta.getD el [] ++ st'.al.nu.getD el [] := fun el hel => elementData_getD _ _ hel
  refine ⟨_, st', b', hr, ?_, O.raw, O.shows, rfl, fun hsucc => ⟨?_, ?_⟩, hstop, hmost, hfirst, ⟨mu, O.solved⟩, ?_⟩
  · rw [← RelaxDirect.dims_relaxed h₂.problem h.relaxable]
    exact O.data
  · intro b ρ hD hl
    obtain ⟨b₁, ρ₁, -, hD₁, hc⟩ := RelaxDirect.relaxed_decision ops h h₂.problem hmatch hd hθ (mu := mu) hD hl
    rw [← hc]
    exact (O.optimal hsucc).2.2 b₁ ρ₁ hD₁
  · intro hno hp hth hpos
    obtain ⟨e, he, hlen, hl⟩ := O.error hno
    refine ⟨e, he, hlen, fun tol ht htol => ?_⟩
    obtain ⟨⟨ρ, hρ⟩, hall, -⟩ := O.optimal hsucc
    obtain ⟨hD, hobj⟩ := hall ρ hρ
    have hdq := SolveAugLag.dataFits h₂.problem hd O.count O.rows
    obtain ⟨b, hsame, hnear, hgap⟩ := RelaxDirect.near_decision ops h h₂.problem hmatch hpos hd hθ hD tol (by
      intro el hel tau htau e' he'
      obtain ⟨i, hi, rfl⟩ := List.mem_iff_getElem.mp he'
      have hi' : i < e.length := by
        rw [hlen, ← entriesAt_length _ _ h.relaxable.equations.2]; exact hi
      have := (hl i e[i] (List.getElem?_eq_getElem hi')).1 el hel tau htau
      rw [C.value_eq ⟨hp, hth⟩ O.data hdq hρ el hel tau, List.getD_eq_getElem?_getD, List.getElem?_map,
        List.getElem?_eq_getElem hi] at this
      exact this.trans (htol _ (List.getElem_mem _)))
    refine ⟨b, ρ, hsame, hnear, fun N hq hN hnu => ?_⟩
    rw [hobj]
    exact hgap N hq hN ht O.nonnegative hnu
  · intro hcs mu' hmu' best ρ hbest
    obtain rfl : mu = mu' := by
      have := O.solved.symm.trans hmu'
      simpa using this
    exact O.succeeds hcs best ρ hbest

/-- If the loop is left because the violations are below the tolerance, the trajectories of the result
satisfy the relaxed equations up to the tolerance and everything else exactly, and they cost at most as
much as any trajectory that satisfies all constraints, plus the tolerance times a bound of the
multipliers, the number of relaxed equations and the length of the horizon. -/
theorem C167_near_partial (ops : Expr.Ops K) (M : SolveAugLag.Method K) (next : Sym) (o : Ocp)
    (a : Relax.Args) (mu0 : Rat) (st : SolveAugLag.State K)
    (sim info : List K → Theta K → Except Err (List K))
    (solver : SolverCall K → Except Err (RawSolution K)) (dual : Report K → List K × List K)
    (args : SolveArgs K) (x0 p : List K) (theta : List (List K))
    (h : RelaxDeclared K M.opts M.names next o a) (hcfg : Configured M o a) (hu : Updates M)
    (hmatch : ControlsMatch (mesh M.opts)) (hmu : 0 ≤ mu0) (hn : M.al.maxIter ≠ 0)
    (hst : AugLagReached ops M o (mu0 : K) (relaxedBy M.opts next mu0 a o) st)
    (hd : DataFits o (mesh M.opts) x0 p theta) (ha : RelaxArgsFit o M.opts args sim info x0 p theta)
    (hs : GoodSolver ops solver) (hno : M.noUpdate = false) (hopt : o.pOpt = [] ∧ o.thetaOpt = [])
    (hpos : o.positiveObjective = false) (hq : PositiveQuadrature K (mesh M.opts))
    (htol : 0 ≤ M.al.tol) :
    ∃ r st', SolveAugLag.solve ops M sim info solver dual args st = (.ok r, st') ∧
      (r.report.success = true → (∀ e, r.error = some e → Met M.al e) → ∃ b b' ρ, r.report.raw = Layout.stacked b' ∧
        SameTrajectory o (mesh M.opts) (a.algVar o) b b' ∧
        NearDecision ops o (mesh M.opts) (a.alg o) M.al.tol x0 p theta b ρ ∧
        ∀ N : K, 0 ≤ N → (∀ row ∈ st'.al.nu, ∀ v ∈ row, |v| ≤ N) →
          ∀ b₂ ρ₂, Decision ops o (mesh M.opts) x0 p theta none b₂ ρ₂ →
            ControlLike (mesh M.opts) (a.algVar o) b₂ →
            directCost ops o (mesh M.opts) b ρ ≤ directCost ops o (mesh M.opts) b₂ ρ₂ +
              ((o.tf : K) - (o.t0 : K)) * (N * M.al.tol * (a.alg o).length)) := by
  obtain ⟨r, st', b', h₁, -, hraw, -, -, h₂, -⟩ := C167_solve_partial ops M next o a mu0 st sim info solver
    dual args x0 p theta h hcfg hu hmatch hmu hn hst hd ha hs
  refine ⟨r, st', h₁, fun hsucc hmet => ?_⟩
  obtain ⟨hlow, hnear⟩ := h₂ hsucc
  obtain ⟨e, he, -, hnear⟩ := hnear hno hopt.1 hopt.2 hpos
  obtain ⟨b, ρ, hsame, hb, hgap⟩ := hnear M.al.tol htol fun v hv => le_of_lt (hmet e he v hv)
  refine ⟨b, b', ρ, hraw, hsame, hb, fun N hN hnu b₂ ρ₂ hD hl => ?_⟩
  have h₃ := hgap N hq hN hnu
  have h₄ := hlow b₂ ρ₂ hD hl
  linarith

/-- Without iterations `solve` raises, and not the error it has for this case. -/
theorem C167_no_iterations_fails (ops : Expr.Ops K) (M : SolveAugLag.Method K) (st : SolveAugLag.State K)
    (sim info : List K → Theta K → Except Err (List K))
    (solver : SolverCall K → Except Err (RawSolution K)) (dual : Report K → List K × List K)
    (args : SolveArgs K) (h : M.al.maxIter = 0) :
    SolveAugLag.solve ops M sim info solver dual args st = (.error .unboundLocalError, st) :=
  SolveAugLag.Ctx.iterations_zero sim info solver dual args h st

/-- With the default value of `no_update_after_solving` the violations are not computed: whatever the
solver returns, the result shows no error, and the multipliers and penalties stay the initial ones. -/
theorem C167_default_fails (ops : Expr.Ops K) (M : SolveAugLag.Method K) (q : Ocp) (mu0 : K)
    (sim info : List K → Theta K → Except Err (List K))
    (solver : SolverCall K → Except Err (RawSolution K)) (dual : Report K → List K × List K)
    (args : SolveArgs K) (h : M.noUpdate = true) (r : SolveAugLag.Result K) (st' : SolveAugLag.State K)
    (hr : SolveAugLag.solve ops M sim info solver dual args
      ⟨⟨{ problem := q }, none⟩, AugLag.start M.al mu0⟩ = (.ok r, st')) :
    r.error = none ∧ st'.al.nu = (AugLag.start M.al mu0).nu ∧
      st'.al.mu = List.replicate M.al.nRelax mu0 := by
  have hi := SolveAugLag.iterations_fresh ops M h sim info solver dual (AugLag.start M.al mu0).nu
    (AugLag.start M.al mu0).mu M.al.maxIter args none _
    (show SolveAugLag.Fresh _ _ (⟨⟨{ problem := q }, none⟩, AugLag.start M.al mu0⟩ : SolveAugLag.State K) from
      ⟨rfl, rfl, rfl, rfl⟩)
  unfold SolveAugLag.solve at hr
  simp only [Py.bind_eq] at hr
  obtain ⟨r', s', h₁, h₂⟩ := Py.bind_eq_ok.mp hr
  rw [h₁] at hi
  simp only [Py.get_bind] at h₂
  cases r' with
  | none => cases h₂
  | some r' =>
    cases h₂
    exact ⟨hi.2.2.2, hi.1, hi.2.2.1⟩

/-! ## Example: an algebraic variable that equals the control -/

namespace Example

/-- The state moves with the control, the algebraic variable equals the control and its square is the
cost. -/
def copyProblem : Ocp :=
  { Ocp.new { SysModel.new 0 1 with
      x := [2]
      x0 := [3]
      ode := [(2, some (.sym 4))]
      u := [4]
      uExpr := [.sym 4]
      uPar := [4]
      y := [5]
      alg := [.sub (.sym 5) (.sym 4)] } (some [1]) 0 1 with
    L := .mul (.sym 5) (.sym 5) }

/-- One element, two Radau points for states and controls. -/
def copyOptions : Options := { elements := 1, roots := [1 / 3, 1], controlRoots := [1 / 3, 1] }

/-- The new symbols of the direct method. -/
def copyNames : NewNames where
  xc := 20
  fresh := 21
  base := 30
  var := fun kind _ k => match kind with
    | .x => [50 + 2 * k, 51 + 2 * k]
    | .u => [60 + 2 * k, 61 + 2 * k]
    | _ => []

/-- The equation is relaxed. -/
def copyArgs : Relax.Args := {}

theorem copy_declared : RelaxDeclared Rat copyOptions copyNames 10 copyProblem copyArgs where
  mesh := {
    elements := by decide
    points := by decide
    increasing := by decide +kernel
    last := rfl
    controls := by decide }
  controlRoots := by decide +kernel
  initial := rfl
  problem := {
    horizon := by decide +kernel
    complete := by unfold Complete; decide +kernel
    starts := rfl
    controls := by decide
    apart := by unfold ControlsApart; decide +kernel
    parameters := by decide
    thetas := by decide
    tags := by decide
    tagged := by decide
    equations := by decide }
  scope := ⟨by decide +kernel, by decide +kernel, by decide, by decide, by decide +kernel⟩
  symbols := by decide
  bounds := ⟨pairFits_free 1, pairFits_free 1, pairFits_free 1, pairFits_free 0, pairFits_free 0⟩
  limits := ⟨rfl, rfl, (pairFits_free 1).uncrossed, by rintro u ⟨⟩⟩
  last := ⟨rfl, by unfold NoRateLimits; decide, rfl⟩
  relaxable := {
    sized := by constructor <;> decide
    distinctVariables := by decide
    distinctEquations := by decide
    square := rfl
    nonempty := by decide
    equations := by decide
    chosen := by decide
    same := rfl
    guessSize := by rintro g ⟨⟩
    guesses := by decide }
  only := ⟨by decide, rfl⟩
  below := by decide
  later := by decide
  different := by decide
  base := by decide
  newVars := ⟨⟨fun _ _ => rfl, fun _ _ => rfl, fun _ _ => rfl, rfl, rfl, fun _ => rfl⟩, by decide⟩

/-- One iteration, with an update of the multiplier and the penalty. -/
def copyMethod : SolveAugLag.Method Rat where
  opts := copyOptions
  names := copyNames
  al := { roots := fun _ => [1 / 3, 1], t0 := 0, tf := 1, nRelax := 1, nuDegree := 2, degree := 2,
          elements := 1, maxIter := 1, tol := 1 / 100, muMax := 1000, beta := 4, minDecrease := 1 / 2 }
  noUpdate := false
  relaxedAlg := [.sub (.sym 5) (.sym 4)]
  relaxedEq := []

theorem copy_configured : Configured copyMethod copyProblem copyArgs where
  relaxedAlg := rfl
  relaxedEq := rfl
  count := rfl
  degree := ⟨rfl, rfl⟩
  points := by decide +kernel
  elements := rfl
  horizon := by decide +kernel

theorem copy_updates : Updates copyMethod where
  plain := .inr ⟨rfl, rfl, rfl, .inr (by decide)⟩
  nonnegative := by decide +kernel

/-- The two Radau points have the weights 3/4 and 1/4. -/
theorem copy_quadrature : PositiveQuadrature Rat (mesh copyOptions) := by
  intro f hf hpos
  have h₁ := hpos (1 / 3) (by decide +kernel)
  have h₂ := hpos 1 (by decide +kernel)
  have hf' : f.natDegree < 3 := Nat.lt_succ_of_le hf
  rw [f.as_sum_range_C_mul_X_pow' hf'] at h₁ h₂ ⊢
  simp [Finset.sum_range_succ] at h₁ h₂ ⊢
  linarith

theorem copy_nodes : (0 :: inField (K := Rat) (mesh copyOptions).roots).Nodup := by decide +kernel

/-- Rest: the state stays, no control. -/
def copyBlocks : Blocks Rat where
  x := [[[1, 0], [1, 0], [1, 0]]]
  y := [[[0], [0]]]
  u := [[[0], [0]]]
  eta := []
  pOpt := []
  thetaOpt := [[]]

theorem copy_states (i : Nat) : statePoly (mesh copyOptions) copyBlocks 0 i =
    Polynomial.C (([1, 0] : List Rat).getD i 0) := by
  refine Transcription.through_eq copy_nodes (by
    rw [Polynomial.natDegree_C]
    show 0 < 3
    decide) fun j hj => ?_
  rw [Polynomial.eval_C]
  have hj' : j < 3 := hj
  match j, hj' with
  | 0, _ => rfl
  | 1, _ => rfl
  | 2, _ => rfl

theorem copy_zero : through (inField (mesh copyOptions).roots) [[0], [0]] 0 = (0 : Polynomial Rat) := by
  refine Transcription.through_eq (List.nodup_cons.mp copy_nodes).2 (by
    rw [Polynomial.natDegree_zero]
    show 0 < 2
    decide) fun j hj => ?_
  rw [Polynomial.eval_zero]
  have hj' : j < 2 := hj
  match j, hj' with
  | 0, _ => rfl
  | 1, _ => rfl

/-- Rest satisfies all constraints and costs nothing. -/
theorem copy_rest (ops : Expr.Ops Rat) :
    ∃ ρ, Decision ops copyProblem (mesh copyOptions) [1] [] [[]] none copyBlocks ρ ∧
      ControlLike (mesh copyOptions) (copyArgs.algVar copyProblem) copyBlocks ∧
      directCost ops copyProblem (mesh copyOptions) copyBlocks ρ = 0 := by
  have hv := fun el tau => C159_values (K := Rat) copyProblem (mesh copyOptions) copyBlocks [1] [] [[]]
    (by decide) (by decide) (by decide) el tau
  choose ρ hρ using hv
  have hu : ∀ tau, ρ 0 tau 4 = 0 := by
    intro tau
    rw [(hρ 0 tau).controls 0 4 rfl]
    show (through (inField (mesh copyOptions).roots) [[0], [0]] 0).eval tau = 0
    rw [copy_zero, Polynomial.eval_zero]
  have hy : ∀ tau, ρ 0 tau 5 = 0 := by
    intro tau
    rw [(hρ 0 tau).algebraics 0 5 rfl]
    show (through (inField (mesh copyOptions).roots) [[0], [0]] 0).eval tau = 0
    rw [copy_zero, Polynomial.eval_zero]
  have hx : ∀ tau, ρ 0 tau 2 = 1 := by
    intro tau
    rw [(hρ 0 tau).states 0 2 rfl, copy_states]
    simp
  refine ⟨ρ, ⟨?_, fun el _ tau => hρ el tau, ?_, ?_⟩, ?_, ?_⟩
  · exact {
      u := by unfold Grid Columns; decide
      eta := rfl
      pOpt := rfl
      thetaOpt := by unfold Columns; decide
      x := by unfold Grid Columns; decide
      y := by unfold Grid Columns; decide }
  · refine ⟨?_, ?_, ?_, ?_, ?_⟩
    · intro el hel col hcol i a l h ha hl hh
      match i, hl with
      | 0, hl =>
        cases hl; cases hh
        exact ⟨bot_le, le_top⟩
      | 1, hl =>
        cases hl; cases hh
        exact ⟨bot_le, le_top⟩
    · intro el hel col hcol i a l h ha hl hh
      match i, hl with
      | 0, hl =>
        cases hl; cases hh
        exact ⟨bot_le, le_top⟩
    · intro el hel col hcol i a l h ha hl hh
      match i, hl with
      | 0, hl =>
        cases hl; cases hh
        exact ⟨bot_le, le_top⟩
    · intro i a l h ha hl hh
      cases hl
    · intro col _ i a l h ha hl hh
      cases hl
  · refine ⟨?_, ?_, ?_, ?_, ?_, ?_, ?_, ?_, ?_, ?_, ?_⟩
    · intro e he
      rw [List.mem_singleton.mp (show e ∈ [Expr.sub (.sym 2) (.sym 3)] from he)]
      simp only [Expr.eval]
      rw [hx, (hρ 0 0).starts 0 3 rfl]
      simp
    · rw [copy_states]
      simp [copyProblem, Ocp.new]
    · intro el hel
      exact absurd hel (by show ¬ el + 1 < 1; omega)
    · intro el hel tau _ i s e hs he
      obtain rfl : el = 0 := Nat.lt_one_iff.mp hel
      rw [copy_states]
      match i, hs with
      | 0, hs =>
        cases hs
        cases he
        simp [Expr.eval, hu]
    · intro el hel tau _
      obtain rfl : el = 0 := Nat.lt_one_iff.mp hel
      rw [copy_states]
      simp [copyProblem, Ocp.new, Expr.eval, hy]
    · intro el hel tau _ e he
      obtain rfl : el = 0 := Nat.lt_one_iff.mp hel
      rw [List.mem_singleton.mp (show e ∈ [Expr.sub (.sym 5) (.sym 4)] from he)]
      simp [Expr.eval, hu, hy]
    · intro el _ i e tag he
      cases he
    · intro el _ i e tag he
      cases he
    · intro el _ before now _ _ i a c lo hi _ _ hlo hhi
      match i, hlo with
      | 0, hlo =>
        cases hlo; cases hhi
        exact ⟨bot_le, le_top⟩
    · intro e he
      cases he
    · intro e he
      cases he
  · intro el hel i hi
    obtain rfl : el = 0 := Nat.lt_one_iff.mp hel
    obtain rfl : i = 0 := List.mem_singleton.mp (show i ∈ [0] from hi)
    show (through (inField (mesh copyOptions).roots) [[0], [0]] 0).natDegree < 2
    rw [copy_zero, Polynomial.natDegree_zero]
    decide
  · unfold directCost
    rw [show (mesh copyOptions).elements - 1 = 0 from rfl, copy_states]
    simp [copyProblem, Ocp.new, Expr.eval, mesh, copyOptions]

/-- Without multipliers the relaxed problem cannot cost less than nothing. -/
theorem copy_nonneg (ops : Expr.Ops Rat) (b' : Blocks Rat) (ρ : Nat → Rat → Sym → Rat)
    (hD : Decision ops (relaxedBy copyOptions 10 1 copyArgs copyProblem) (mesh copyOptions) [1] ([] ++ [1])
      (elementData 1 [[]] [[0, 0]]) none b' ρ) :
    0 ≤ directCost ops (relaxedBy copyOptions 10 1 copyArgs copyProblem) (mesh copyOptions) b' ρ := by
  have h := copy_declared
  obtain ⟨s', h₁, h₂⟩ := RelaxDirect.construct_run 1 copyArgs copyOptions.roots copyOptions.roots.length
    copyProblem 10 h.relaxable h.only.1 h.only.2 (fun _ => rfl) (RelaxDirect.exprsBelow h.scope h.below)
    (h.below _ (by simp [problemSymbols]))
  have hq : relaxedBy copyOptions 10 1 copyArgs copyProblem = s'.problem := by unfold relaxedBy; rw [h₁]
  rw [hq] at hD ⊢
  let v (tau : Rat) : Rat := |(Expr.sub (.sym 5) (.sym 4)).eval ops (ρ 0 tau)|
  have hv : ∀ tau, 0 ≤ v tau := fun tau => abs_nonneg _
  obtain ⟨b, -, hb, hgap⟩ := RelaxDirect.near_decision ops h h₂.problem (.inl rfl) rfl
    (theta := [[]]) (p := []) (mu := [1]) (nu := [[0, 0]]) ⟨rfl, rfl, by decide⟩
    (fun el hel => SolveAugLag.elementData_getD _ _ hel) hD (v (1 / 3) + v 1) (by
      intro el hel tau htau e he
      obtain rfl : el = 0 := Nat.lt_one_iff.mp hel
      rw [List.mem_singleton.mp (show e ∈ [Expr.sub (.sym 5) (.sym 4)] from he)]
      have := hv (1 / 3)
      have := hv 1
      have ht : tau = 1 / 3 ∨ tau = 1 := by simpa [inField, copyOptions] using htau
      rcases ht with rfl | rfl
      · show v (1 / 3) ≤ _
        linarith
      · show v 1 ≤ _
        linarith)
  have hle := hgap 0 copy_quadrature le_rfl (add_nonneg (hv _) (hv _)) (by decide +kernel) (by decide +kernel)
  have hS := hb.decision.solution
  have hmono := copy_quadrature (statePoly (mesh copyOptions) b 0 1)
    (RelaxDirect.state_degree h.mesh b 0 1) (by
      intro tau ht
      have hr := hS.running 0 (by decide) tau ht
      refine le_of_le_of_eq ?_ hr.symm
      exact mul_nonneg (by decide +kernel) (mul_self_nonneg _))
  have h0 : (statePoly (mesh copyOptions) b 0 1).eval 0 = 0 := hS.costStart
  have hcost : directCost ops copyProblem (mesh copyOptions) b ρ =
      (statePoly (mesh copyOptions) b 0 1).eval 1 := by
    unfold directCost
    simp [copyProblem, Ocp.new, Expr.eval, mesh, copyOptions]
  rw [hcost] at hle
  linarith

/-- The error a computation raises. -/
def raised {α : Type} : Except Err α → Option Err
  | .ok _ => none
  | .error e => some e

theorem raised_iff {α : Type} {r : Except Err α} {e : Err} : raised r = some e ↔ r = .error e := by
  cases r <;> simp [raised]

end Example

open Example in
/-- The hypotheses of the theorems are met, and the call succeeds: the violations are at most some `tol`,
and a trajectory that satisfies all other constraints costs nothing. -/
example (ops : Expr.Ops Rat) (sim info : List Rat → Theta Rat → Except Err (List Rat))
    (dual : Report Rat → List Rat × List Rat) :
    ∃ r st', SolveAugLag.solve ops copyMethod sim info (bestSolver ops) dual { initialGuess := some [] }
        ⟨⟨{ problem := relaxedBy copyOptions 10 1 copyArgs copyProblem }, none⟩,
          AugLag.start copyMethod.al 1⟩ = (.ok r, st') ∧
      r.report.success = true ∧ r.report.objective ≤ 0 ∧ ∃ tol b ρ,
        NearDecision ops copyProblem (mesh copyOptions) [0] tol [1] [] [[]] b ρ ∧
        directCost ops copyProblem (mesh copyOptions) b ρ ≤ 0 := by
  obtain ⟨r, st', b', h₁, -, -, -, -, h₂, h₃, h₄, h₅, h₆, h₇⟩ := C167_solve_partial ops copyMethod 10 copyProblem
    copyArgs 1 ⟨⟨{ problem := relaxedBy copyOptions 10 1 copyArgs copyProblem }, none⟩,
      AugLag.start copyMethod.al 1⟩ sim info (bestSolver ops) dual { initialGuess := some [] } [1] [] [[]]
    copy_declared copy_configured copy_updates (.inl rfl) (by decide) (by decide) (by
      have := AugLagReached.start (ops := ops) (M := copyMethod) (o := copyProblem) (mu0 := 1)
        (q := relaxedBy copyOptions 10 1 copyArgs copyProblem)
      rw [Rat.cast_one]
      exact this)
    ⟨rfl, rfl, by decide⟩ ⟨.inr ⟨rfl, rfl⟩, .inr ⟨rfl, rfl⟩, .inr ⟨rfl, rfl⟩, .inr (.inl (by decide))⟩
    (bestSolver_good ops)
  have hlast : st'.al.solves = [([[0, 0]], [1])] := by
    have h₅ : [([[0, 0]], [1])] <+: st'.al.solves := h₅
    exact (h₅.eq_of_length_le h₄).symm
  obtain ⟨mu, hmu⟩ := h₆
  rw [hlast] at hmu
  have hnu : st'.al.nu = [[0, 0]] := (congrArg Prod.fst (Option.some.inj hmu)).symm
  obtain rfl : [1] = mu := congrArg Prod.snd (Option.some.inj hmu)
  obtain ⟨ρ, hD, hl, hz⟩ := copy_rest ops
  have hsucc : r.report.success = true := by
    have h := copy_declared
    obtain ⟨s', g₁, g₂⟩ := RelaxDirect.construct_run 1 copyArgs copyOptions.roots copyOptions.roots.length
      copyProblem 10 h.relaxable h.only.1 h.only.2 (fun _ => rfl) (RelaxDirect.exprsBelow h.scope h.below)
      (h.below _ (by simp [problemSymbols]))
    have hq : relaxedBy copyOptions 10 1 copyArgs copyProblem = s'.problem := by unfold relaxedBy; rw [g₁]
    obtain ⟨b₁, ρ₁, -, hD₁, hc⟩ := RelaxDirect.relaxed_decision ops h g₂.problem (.inl rfl)
      (theta := [[]]) (p := []) (mu := [1]) (nu := [[0, 0]]) (theta' := elementData 1 [[]] [[0, 0]])
      ⟨rfl, rfl, by decide⟩ (fun el hel => SolveAugLag.elementData_getD _ _ hel) hD hl
    rw [← hq] at hD₁ hc
    refine h₇ (bestSolver_complete ops) [1] (by rw [hlast, hnu]; rfl) b₁ ρ₁ ⟨?_, ?_⟩
    · rw [hnu]
      exact hD₁
    · intro b₂ ρ₂ hD₂
      rw [hnu] at hD₂
      exact (hc.trans hz).le.trans (copy_nonneg ops b₂ ρ₂ hD₂)
  obtain ⟨g₁, g₂⟩ := h₂ hsucc
  have hobj : r.report.objective ≤ 0 := (g₁ _ ρ hD hl).trans hz.le
  refine ⟨r, st', h₁, hsucc, hobj, ?_⟩
  obtain ⟨e, -, hlen, hnear⟩ := g₂ rfl rfl rfl rfl
  obtain ⟨v, rfl⟩ := List.length_eq_one_iff.mp hlen
  obtain ⟨b, ρ', -, hb, hgap⟩ := hnear |v| (abs_nonneg v) (by simpa using le_abs_self v)
  refine ⟨|v|, b, ρ', hb, ?_⟩
  have := hgap 0 copy_quadrature le_rfl (by rw [hnu]; decide +kernel)
  simp only [zero_mul, mul_zero, add_zero] at this
  exact this.trans hobj

/-- With a last control of the user's problem `solve` raises: the relaxed problem has more controls, and
the last control is too short for it. -/
theorem C167_last_control_fails : ∃ (o : Ocp) (q : Ocp) (M : SolveAugLag.Method Rat),
    RelaxDeclared Rat M.opts M.names 10 { o with lastU := none } Example.copyArgs ∧
    Configured M o Example.copyArgs ∧ o.lastU = some [0] ∧
    q = relaxedBy M.opts 10 1 Example.copyArgs o ∧
    (SolveAugLag.solve ⟨fun _ a => a, fun _ a _ => a⟩ M (fun _ _ => .ok []) (fun _ _ => .ok [])
      (fun c => .ok ⟨c.lb.map fun _ => 0, 0, [], true⟩) (fun _ => ([], [])) { initialGuess := some [] }
      ⟨⟨{ problem := q }, none⟩, AugLag.start M.al 1⟩).1 = .error .valueError := by
  open Example in
  refine ⟨{ copyProblem with lastU := some [0] }, _, copyMethod, copy_declared,
    ⟨rfl, rfl, rfl, ⟨rfl, rfl⟩, by decide +kernel, rfl, by decide +kernel⟩, rfl, rfl, ?_⟩
  refine raised_iff.mp ?_
  decide +kernel

open Example in
/-- The hypotheses of `C167_default_fails` are met. -/
example (ops : Expr.Ops Rat) (sim info : List Rat → Theta Rat → Except Err (List Rat))
    (dual : Report Rat → List Rat × List Rat) :
    ∃ r st', SolveAugLag.solve ops { copyMethod with noUpdate := true } sim info (bestSolver ops) dual
        { initialGuess := some [] }
        ⟨⟨{ problem := relaxedBy copyOptions 10 1 copyArgs copyProblem }, none⟩,
          AugLag.start copyMethod.al 1⟩ = (.ok r, st') ∧ r.error = none := by
  obtain ⟨r, st', b', h₁, -⟩ := C167_solve_partial ops { copyMethod with noUpdate := true } 10 copyProblem
    copyArgs 1 ⟨⟨{ problem := relaxedBy copyOptions 10 1 copyArgs copyProblem }, none⟩,
      AugLag.start copyMethod.al 1⟩ sim info (bestSolver ops) dual { initialGuess := some [] } [1] [] [[]]
    copy_declared ⟨rfl, rfl, rfl, ⟨rfl, rfl⟩, by decide +kernel, rfl, by decide +kernel⟩
    ⟨.inl rfl, by decide +kernel⟩ (.inl rfl) (by decide) (by decide) (by
      have := AugLagReached.start (ops := ops) (M := { copyMethod with noUpdate := true }) (o := copyProblem)
        (mu0 := 1) (q := relaxedBy copyOptions 10 1 copyArgs copyProblem)
      rw [Rat.cast_one]
      exact this)
    ⟨rfl, rfl, by decide⟩ ⟨.inr ⟨rfl, rfl⟩, .inr ⟨rfl, rfl⟩, .inr ⟨rfl, rfl⟩, .inr (.inl (by decide))⟩
    (bestSolver_good ops)
  exact ⟨r, st', h₁, (C167_default_fails ops { copyMethod with noUpdate := true } _ 1 sim info (bestSolver ops)
    dual { initialGuess := some [] } rfl r st' h₁).1⟩

end Verif
