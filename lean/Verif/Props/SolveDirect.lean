import Verif.Lemmas.SolveDirectRun
import Verif.Lemmas.CollocationExact
/-!
# C161: solving with a direct method and a good solver gives the optimum of the user's problem
-/
namespace Verif
open Spec SolveDirect Direct

variable {K : Type} [Field K] [LinearOrder K] [IsStrictOrderedRing K]

/-- Solving with a direct method (collocation) and a solver that returns minimisers: the result shows
the polynomials of a decision vector, and if the solver reports success then these polynomials satisfy
the dynamics, the constraints and the bounds the user declared, the objective of the result is the cost
the user declared, and no other trajectories of the discretisation cost less. -/
theorem C161_solve (ops : Expr.Ops K) (opts : Options) (names : NewNames) (s : Method)
    (sim info : List K → Theta K → Except Err (List K))
    (solver : SolverCall K → Except Err (RawSolution K)) (a : SolveArgs K) (x0 p : List K)
    (theta : List (List K)) (hc : s.hasCostState = false) (hp : s.prepared = false)
    (h : (prepare opts.controlRoots opts.controlRoots.length names.xc names.fresh names.base s).1 = .ok ())
    (hw : WellPosed K opts names s.problem) (hd : DataFits s.problem (mesh opts) x0 p theta)
    (ha : ArgsFit s.problem opts a sim info x0 p theta) (hs : GoodSolver ops solver) :
    ∃ r b, (solve ops opts names sim info solver a ⟨s, none⟩).1 = .ok r ∧
      CollocationData (directDims s.problem (mesh opts)) b ∧ r.report.raw = Layout.stacked b ∧
      Shows s.problem (mesh opts) b r.report ∧ r.x0 = x0 ++ [0] ∧
      r.xCFinal = some [(statePoly (mesh opts) b (opts.elements - 1) s.problem.model.x.length).eval 1] ∧
      (r.report.success = true →
        (∃ ρ, ReadsAll s.problem (mesh opts) b x0 p theta ρ) ∧
        (∀ ρ, ReadsAll s.problem (mesh opts) b x0 p theta ρ →
          Decision ops s.problem (mesh opts) x0 p theta (lastOf s.problem) b ρ ∧
          r.report.objective = directCost ops s.problem (mesh opts) b ρ) ∧
        ∀ b' ρ', Decision ops s.problem (mesh opts) x0 p theta (lastOf s.problem) b' ρ' →
          r.report.objective ≤ directCost ops s.problem (mesh opts) b' ρ') := by
  obtain ⟨r, b, call, raw, h₁, h₂, h₃, h₄, h₅, h₆, h₇, h₈, h₉, h₁₀, hfe, -, hρ⟩ :=
    solve_core ops sim info solver a x0 p theta hc hp h hw hd ha hs
  refine ⟨r, b, h₁, h₂, h₃, h₄, h₅, h₆, fun hsucc => ?_⟩
  obtain ⟨raw', hr', -, hM⟩ := hs call
  obtain rfl : raw = raw' := Except.ok.inj (h₇.symm.trans hr')
  have hM := hM (h₉ ▸ hsucc)
  refine ⟨hρ b, fun ρ hρ => ?_, fun b' ρ' hD => ?_⟩
  · obtain ⟨hiff, cons, hv⟩ := hfe b h₂ ρ hρ
    rw [← h₈] at hiff hv
    exact ⟨hiff.mp hM.feasible, h₁₀.trans (hM.objective _ _ hv)⟩
  · obtain ⟨hiff, cons, hv⟩ := hfe b' hD.data ρ' hD.reads
    rw [h₁₀]
    exact hM.minimal _ (hiff.mpr hD) _ _ hv

/-- If moreover the solver finds a minimiser whenever there is one, and the discretised problem of the
user has a best decision, then the call succeeds and returns the least cost. -/
theorem C161_succeeds (ops : Expr.Ops K) (opts : Options) (names : NewNames) (s : Method)
    (sim info : List K → Theta K → Except Err (List K))
    (solver : SolverCall K → Except Err (RawSolution K)) (a : SolveArgs K) (x0 p : List K)
    (theta : List (List K)) (hc : s.hasCostState = false) (hp : s.prepared = false)
    (h : (prepare opts.controlRoots opts.controlRoots.length names.xc names.fresh names.base s).1 = .ok ())
    (hw : WellPosed K opts names s.problem) (hd : DataFits s.problem (mesh opts) x0 p theta)
    (ha : ArgsFit s.problem opts a sim info x0 p theta) (hs : GoodSolver ops solver)
    (hcs : CompleteSolver ops solver) (best : Blocks K) (ρ : Nat → K → Sym → K)
    (hbest : BestDecision ops s.problem (mesh opts) x0 p theta (lastOf s.problem) best ρ) :
    ∃ r, (solve ops opts names sim info solver a ⟨s, none⟩).1 = .ok r ∧ r.report.success = true ∧
      r.report.objective = directCost ops s.problem (mesh opts) best ρ := by
  obtain ⟨r, b, call, raw, h₁, h₂, h₃, h₄, h₅, h₆, h₇, h₈, h₉, h₁₀, hfe, hall, hρ⟩ :=
    solve_core ops sim info solver a x0 p theta hc hp h hw hd ha hs
  obtain ⟨hiff, cons, hv⟩ := hfe best hbest.data ρ hbest.reads
  have hmin : CallMinimum ops call { raw with
      x := Layout.stacked best, f := directCost ops s.problem (mesh opts) best ρ } := by
    refine ⟨hiff.mpr hbest.toDecision, fun cons' f hf => ?_, fun v hvf cons' f hf => ?_⟩
    · have hf' : call.value (Layout.stacked best) = .ok (cons', f) := hf
      rw [hv] at hf'
      cases hf'
      rfl
    · obtain ⟨b', hb', rfl⟩ := hall v hvf.size
      obtain ⟨ρ', hρ'⟩ := hρ b'
      obtain ⟨hiff', cons'', hv'⟩ := hfe b' hb' ρ' hρ'
      rw [hv'] at hf
      cases hf
      exact hbest.best b' ρ' (hiff'.mp hvf)
  obtain ⟨raw', hr', hs'⟩ := hcs call _ hmin
  obtain rfl : raw = raw' := Except.ok.inj (h₇.symm.trans hr')
  refine ⟨r, h₁, h₉.trans hs', ?_⟩
  obtain ⟨raw'', hr'', -, hM⟩ := hs call
  obtain rfl : raw = raw'' := Except.ok.inj (h₇.symm.trans hr'')
  have hM := hM hs'
  rw [h₁₀]
  refine le_antisymm (hM.minimal _ (hiff.mpr hbest.toDecision) _ _ hv) ?_
  obtain ⟨cons', f, hf, -⟩ := hM.feasible.constraints
  rw [hM.objective _ _ hf]
  exact hmin.minimal _ hM.feasible _ _ hf

/-- After a first call of `solve`, whatever it returned, further calls give what they would give as
first calls: the program is built once, and neither the arguments nor the results of earlier calls
matter. -/
theorem C161_again (ops : Expr.Ops K) (opts : Options) (names : NewNames) (s : Method)
    (sim info sim' info' : List K → Theta K → Except Err (List K))
    (solver solver' : SolverCall K → Except Err (RawSolution K)) (a a' : SolveArgs K)
    (hc : s.hasCostState = false) (hp : s.prepared = false)
    (h : (prepare opts.controlRoots opts.controlRoots.length names.xc names.fresh names.base s).1 = .ok ())
    (hw : WellPosed K opts names s.problem) :
    solve ops opts names sim' info' solver' a' (solve ops opts names sim info solver a ⟨s, none⟩).2 =
      solve ops opts names sim' info' solver' a' ⟨s, none⟩ := by
  obtain ⟨m, S, P, R, hP, hcr⟩ := created ops hc hp h hw
  have h₁ : program ops opts names ⟨s, none⟩ = (.ok P, (⟨m, some P⟩ : State K)) := by
    unfold program; exact hcr
  have h₂ : program ops opts names ⟨m, some P⟩ = (.ok P, (⟨m, some P⟩ : State K)) := rfl
  rw [solve_eq h₁, solve_eq h₂, solve_eq h₁]

/-- `solve(x_0=...)` with an initial state of the model the user declared raises: the cost state was
added to the model, and the initial state must have an entry for it. -/
theorem C161_state_size_fails (ops : Expr.Ops K) (opts : Options) (names : NewNames) (s : Method)
    (sim info : List K → Theta K → Except Err (List K))
    (solver : SolverCall K → Except Err (RawSolution K)) (a : SolveArgs K) (x0 : List K)
    (hc : s.hasCostState = false) (hp : s.prepared = false)
    (h : (prepare opts.controlRoots opts.controlRoots.length names.xc names.fresh names.base s).1 = .ok ())
    (hw : WellPosed K opts names s.problem) (hx : x0.length = s.problem.model.x.length)
    (ha : a.x0 = some x0) :
    (solve ops opts names sim info solver a ⟨s, none⟩).1 = .error .exception := by
  obtain ⟨m, S, P, R, hP, hcr⟩ := created ops hc hp h hw
  rw [solve_eq (m := m) (P := P) (by unfold program; exact hcr)]
  have hn : m.problem.model.x.length = s.problem.model.x.length + 1 := congrArg Dims.nX R.dims_eq
  have h₁ : (setup (K := K) opts m.problem).initialCondition a.x0 = .error .exception := by
    unfold MethodSetup.initialCondition
    rw [ha]
    refine if_pos ?_
    show x0.length ≠ m.problem.model.x.length
    rw [hn, hx]
    omega
  unfold MethodSetup.callArgs
  rw [h₁]
  rfl

/-- With a last control as a parameter, a `last_u` given to `solve` makes it raise: it is missing in the
vector of parameters. -/
theorem C161_last_control_fails (ops : Expr.Ops K) (opts : Options) (names : NewNames) (s : Method)
    (sim info : List K → Theta K → Except Err (List K))
    (solver : SolverCall K → Except Err (RawSolution K)) (a : SolveArgs K) (x0 p u : List K)
    (theta : List (List K)) (hc : s.hasCostState = false) (hp : s.prepared = false)
    (h : (prepare opts.controlRoots opts.controlRoots.length names.xc names.fresh names.base s).1 = .ok ())
    (hw : WellPosed K opts names s.problem) (hd : DataFits s.problem (mesh opts) x0 p theta)
    (ha : ArgsFit s.problem opts a sim info x0 p theta) (hlast : s.problem.lastU ≠ none) :
    (solve ops opts names sim info solver { a with lastU := some u } ⟨s, none⟩).1 =
      .error .valueError := by
  obtain ⟨m, S, P, R, hP, hcr⟩ := created ops hc hp h hw
  obtain ⟨c, hca, hcx, hcp, hcpar, hcth⟩ := R.args_ok (w := some u) hd ha rfl hw.initial
  rw [solve_eq (m := m) (P := P) (by unfold program; exact hcr)]
  have hasPar : (setup (K := K) opts m.problem).lastControlAsParameter = true := by
    unfold MethodSetup.lastControlAsParameter
    rw [Bool.or_eq_true]
    right
    show (m.problem.lastU.map _).isSome = true
    rw [R.kept.lastU]
    cases ho : s.problem.lastU with
    | none => exact absurd ho hlast
    | some _ => rfl
  obtain ⟨call, hcall, -⟩ := R.call_ok hP hd hw.initial (l := List.replicate s.problem.model.u.length 0)
    (by rw [if_pos hasPar, List.length_replicate]) { c with
      par := p ++ (thetaOf opts theta).flatten ++ (x0 ++ [0]) ++
        List.replicate s.problem.model.u.length 0 } rfl
  have hlen : (p ++ (thetaOf opts theta).flatten ++ (x0 ++ [0]) ++
      List.replicate s.problem.model.u.length (0 : K)).length = P.setup.nlpParameters.length := by
    unfold Program.call at hcall
    by_contra hne
    rw [if_pos hne] at hcall
    cases hcall
  have herr : P.call c = .error .valueError := by
    unfold Program.call
    refine if_pos ?_
    rw [← hlen, hcpar]
    have := hw.controls
    simp only [List.length_append, List.length_replicate, List.length_nil]
    unfold thetaOf
    omega
  simp only [hca, herr, bind, Except.bind]

/-- With a limit on the changes of the controls and no last control, neither in the problem nor as a
parameter, `solve` raises: the last control the first change is taken from is an empty vector. -/
theorem C161_limits_fails (ops : Expr.Ops K) (opts : Options) (names : NewNames) (s : Method)
    (sim info : List K → Theta K → Except Err (List K))
    (solver : SolverCall K → Except Err (RawSolution K)) (a : SolveArgs K)
    (hc : s.hasCostState = false) (hp : s.prepared = false)
    (h : (prepare opts.controlRoots opts.controlRoots.length names.xc names.fresh names.base s).1 = .ok ())
    (hw : Declared K opts names s.problem) (hlast : s.problem.lastU = none)
    (hopt : opts.lastControlAsParameter = false) (hlim : ¬ NoRateLimits s.problem) :
    (solve ops opts names sim info solver a ⟨s, none⟩).1 = .error .runtimeError := by
  obtain ⟨m, S, R, h₁⟩ := prepares hc hp h hw
  have hb := R.build_limited ops hw.limits hlast hopt hlim
  unfold solve program
  simp only [Py.bind_eq]
  refine congrArg Prod.fst (Py.bind_error (s' := ⟨m, none⟩) ?_)
  simp only
  unfold createProgram
  simp only [Py.bind_eq]
  rw [Py.bind_ok h₁]
  simp only [Py.get_bind]
  rw [hb]
  rfl

/-! ## Example: keep a state at rest -/

namespace Example

/-- The state moves with the control, the cost is the square of the control and declared positive. -/
def restProblem : Ocp :=
  { Ocp.new { SysModel.new 0 1 with
      x := [2]
      x0 := [3]
      ode := [(2, some (.sym 4))]
      u := [4]
      uExpr := [.sym 4]
      uPar := [4] } (some [1]) 0 2 with
    L := .mul (.sym 4) (.sym 4)
    uMax := [XRat.fin 1]
    positiveObjective := true }

/-- Two elements, two collocation points, one control value per element; the initial guess is given. -/
def restOptions : Options := { elements := 2, roots := [1 / 2, 1], controlRoots := [1 / 2] }

/-- The new symbols. -/
def restNames : NewNames where
  xc := 5
  fresh := 6
  base := 10
  var := fun kind el k => match kind with
    | .x => [20 + 10 * el + 2 * k, 21 + 10 * el + 2 * k]
    | .u => [60 + el]
    | _ => []

def restMethod : Method := { problem := restProblem }

theorem restMethod_prepares : (prepare restOptions.controlRoots restOptions.controlRoots.length
    restNames.xc restNames.fresh restNames.base restMethod).1 = .ok () := by decide +kernel

theorem pairFits_free (n : Nat) : PairFits n (List.replicate n ⊥) (List.replicate n ⊤) :=
  ⟨by simp, by simp, fun i a b _ hb => by
    have := List.mem_of_getElem? hb
    rw [List.eq_of_mem_replicate this]
    exact le_top⟩

theorem restProblem_declared : Declared Rat restOptions restNames restProblem where
  mesh := {
    elements := by decide
    points := by decide
    increasing := by decide +kernel
    last := rfl
    controls := by decide }
  controlRoots := by decide
  problem := {
    horizon := by decide +kernel
    complete := by unfold Complete; decide +kernel
    starts := rfl
    controls := by decide
    apart := by unfold ControlsApart; decide +kernel
    parameters := by decide
    thetas := by decide
    tags := by decide
    tagged := by decide
    equations := fun _ => rfl }
  scope := ⟨by decide +kernel, by decide +kernel, by decide, by decide, by decide +kernel⟩
  symbols := by decide
  controls := by decide
  bounds := ⟨pairFits_free 1, pairFits_free 0, ⟨rfl, rfl, by
    intro i a b ha hb
    match i, ha, hb with
    | 0, ha, hb =>
      cases ha
      exact bot_le⟩, pairFits_free 0, pairFits_free 0⟩
  limits := ⟨rfl, rfl, (pairFits_free 1).uncrossed, by rintro u ⟨⟩⟩
  new := ⟨by decide, by decide, by decide, by decide⟩
  newVars := ⟨⟨fun _ _ => rfl, fun _ _ => rfl, fun _ _ => rfl, rfl, rfl, fun _ => rfl⟩, by decide⟩
  initial := rfl

theorem restProblem_posed : WellPosed Rat restOptions restNames restProblem where
  toDeclared := restProblem_declared
  last := ⟨by decide, .inr (by unfold NoRateLimits; decide)⟩

theorem restProblem_data : DataFits (K := Rat) restProblem (mesh restOptions) [1] [] [[], []] :=
  ⟨rfl, rfl, by decide⟩

/-- The arguments: an initial guess. -/
def restArgs : SolveArgs Rat := { initialGuess := some [] }

theorem restArgs_fit (sim info : List Rat → Theta Rat → Except Err (List Rat)) :
    ArgsFit restProblem restOptions restArgs sim info [1] [] [[], []] where
  x0 := .inr ⟨rfl, rfl⟩
  p := .inr ⟨rfl, rfl, rfl⟩
  theta := .inr ⟨rfl, rfl, rfl⟩
  lastU := .inl rfl
  guess := .inr (.inl (by decide))

open Classical in
/-- A solver: a minimiser if there is one. -/
noncomputable def bestSolver {K : Type} [Field K] [LinearOrder K] (ops : Expr.Ops K) (c : SolverCall K) :
    Except Err (RawSolution K) :=
  if h : ∃ raw, CallMinimum ops c raw then .ok { h.choose with success := true }
  else .ok ⟨List.replicate c.lb.length 0, 0, [], false⟩

theorem bestSolver_good {K : Type} [Field K] [LinearOrder K] (ops : Expr.Ops K) : GoodSolver ops (bestSolver ops) := by
  intro c
  unfold bestSolver
  split
  · rename_i h
    have := h.choose_spec
    exact ⟨_, rfl, this.feasible.size, fun _ => ⟨this.feasible, this.objective, this.minimal⟩⟩
  · exact ⟨_, rfl, by simp, fun h => by cases h⟩

theorem bestSolver_complete {K : Type} [Field K] [LinearOrder K] (ops : Expr.Ops K) :
    CompleteSolver ops (bestSolver ops) := by
  intro c raw h
  unfold bestSolver
  rw [dif_pos ⟨raw, h⟩]
  exact ⟨_, rfl, rfl⟩

/-- Rest: the state stays, no control. -/
def restBlocks : Blocks Rat where
  x := [[[1, 0], [1, 0], [1, 0]], [[1, 0], [1, 0], [1, 0]]]
  y := [[[], []], [[], []]]
  u := [[[0]], [[0]]]
  eta := []
  pOpt := []
  thetaOpt := [[], []]

theorem restBlocks_data : CollocationData (directDims restProblem (mesh restOptions)) restBlocks where
  u := by unfold Grid Columns; decide
  eta := rfl
  pOpt := rfl
  thetaOpt := by unfold Columns; decide
  x := by unfold Grid Columns; decide
  y := by unfold Grid Columns; decide

theorem rest_nodes : (0 :: inField (K := Rat) (mesh restOptions).roots).Nodup := by decide +kernel

theorem rest_states (el : Nat) (hel : el < 2) (i : Nat) :
    statePoly (mesh restOptions) restBlocks el i = Polynomial.C (([1, 0] : List Rat).getD i 0) := by
  refine Transcription.through_eq rest_nodes (by
    rw [Polynomial.natDegree_C]
    show 0 < 3
    decide) fun j hj => ?_
  rw [Polynomial.eval_C]
  have hj' : j < 3 := hj
  match el, hel, j, hj' with
  | 0, _, 0, _ => rfl
  | 0, _, 1, _ => rfl
  | 0, _, 2, _ => rfl
  | 1, _, 0, _ => rfl
  | 1, _, 1, _ => rfl
  | 1, _, 2, _ => rfl

theorem rest_controls (el : Nat) (hel : el < 2) (tau : Rat) :
    (controlPoly (mesh restOptions) restBlocks el 0).eval tau = 0 := by
  match el, hel with
  | 0, _ => exact through_single _ _ _ _
  | 1, _ => exact through_single _ _ _ _

/-- Rest is the best decision: the cost state is not negative. -/
theorem rest_best (ops : Expr.Ops Rat) :
    ∃ ρ, BestDecision ops restProblem (mesh restOptions) [1] [] [[], []] (lastOf restProblem) restBlocks ρ ∧
      directCost ops restProblem (mesh restOptions) restBlocks ρ = 0 := by
  have hv := fun el tau => C159_values (K := Rat) restProblem (mesh restOptions) restBlocks [1] [] [[], []]
    (by decide) (by decide) (by decide) el tau
  choose ρ hρ using hv
  have hu : ∀ el < 2, ∀ tau, ρ el tau 4 = 0 := by
    intro el hel tau
    rw [(hρ el tau).controls 0 4 rfl, rest_controls el hel]
  have hx : ∀ el < 2, ∀ tau, ρ el tau 2 = 1 := by
    intro el hel tau
    rw [(hρ el tau).states 0 2 rfl, rest_states el hel]
    simp
  have hcost : directCost ops restProblem (mesh restOptions) restBlocks ρ = 0 := by
    unfold directCost
    rw [show (mesh restOptions).elements - 1 = 1 from rfl, rest_states 1 (by decide)]
    simp [restProblem, Ocp.new, Expr.eval, mesh, restOptions]
  refine ⟨ρ, ⟨⟨restBlocks_data, fun el _ tau => hρ el tau, ?_, ?_⟩, fun b' ρ' hD => ?_⟩, hcost⟩
  · refine ⟨?_, ?_, ?_, ?_, ?_⟩
    · intro el hel col hcol i a l h ha hl hh
      have hcol' : col = [1, 0] := by
        simp only [restBlocks, List.mem_cons, List.not_mem_nil, or_false] at hel
        rcases hel with rfl | rfl <;> simpa using hcol
      subst hcol'
      match i, ha with
      | 0, ha =>
        cases ha; cases hl; cases hh
        exact ⟨bot_le, le_top⟩
      | 1, ha =>
        cases ha; cases hl; cases hh
        exact ⟨by decide +kernel, le_top⟩
    · intro el hel col hcol i a l h ha hl hh
      cases hl
    · intro el hel col hcol i a l h ha hl hh
      have hcol' : col = [0] := by
        simp only [restBlocks, List.mem_cons, List.not_mem_nil, or_false] at hel
        rcases hel with rfl | rfl <;> simpa using hcol
      subst hcol'
      match i, ha with
      | 0, ha =>
        cases ha; cases hl; cases hh
        exact ⟨bot_le, by decide +kernel⟩
    · intro i a l h ha hl hh
      cases hl
    · intro col _ i a l h ha hl hh
      cases hl
  · refine ⟨?_, ?_, ?_, ?_, ?_, ?_, ?_, ?_, ?_, ?_, ?_⟩
    · intro e he
      rw [List.mem_singleton.mp (show e ∈ [Expr.sub (.sym 2) (.sym 3)] from he)]
      simp only [Expr.eval]
      rw [hx 0 (by decide), (hρ 0 0).starts 0 3 rfl]
      simp
    · rw [rest_states 0 (by decide)]
      simp [restProblem, Ocp.new]
    · intro el hel
      have : el = 0 := by
        have : el + 1 < 2 := hel
        omega
      subst this
      rfl
    · intro el hel tau _ i s e hs he
      rw [rest_states el hel]
      match i, hs with
      | 0, hs =>
        cases hs
        cases he
        simp [Expr.eval, hu el hel]
    · intro el hel tau _
      rw [rest_states el hel]
      simp [restProblem, Ocp.new, Expr.eval, hu el hel]
    · intro el _ tau _ e he
      cases he
    · intro el _ i e tag he
      cases he
    · intro el _ i e tag he
      cases he
    · intro el _ before now _ _ i a c lo hi _ _ hlo hhi
      match i, hlo with
      | 0, hlo =>
        cases hlo; cases hhi
        exact ⟨bot_le, le_top⟩
    · intro e he
      cases he
    · intro e he
      cases he
  · rw [hcost]
    have hlast : (b'.x.getD 1 []).length = 3 ∧ ∀ c ∈ b'.x.getD 1 [], c.length = 2 :=
      Transcription.grid_columns hD.data.x (show 1 < 2 by decide)
    have hmem : b'.x.getD 1 [] ∈ b'.x := by
      rw [List.getD_eq_getElem?_getD, List.getElem?_eq_getElem (by rw [hD.data.x.1]; decide)]
      exact List.getElem_mem _
    obtain ⟨c₀, c₁, c₂, hc⟩ := List.length_eq_three.mp hlast.1
    have hc₂ : c₂ ∈ b'.x.getD 1 [] := by rw [hc]; simp
    obtain ⟨u, v, huv⟩ := List.length_eq_two.mp (hlast.2 _ hc₂)
    have hv := (hD.bounds.x _ hmem _ hc₂ 1 v (XRat.fin 0) ⊤ (by rw [huv]; rfl) rfl rfl).1
    have hv' : (0 : Rat) ≤ v := by
      have : finite (0 : Rat) ≤ finite v := by
        refine le_trans (le_of_eq ?_) hv
        decide +kernel
      unfold finite at this
      exact_mod_cast this
    have hval : (statePoly (mesh restOptions) b' 1 1).eval 1 = v := by
      have := Lagrange.eval_interpolate_at_node (s := Finset.univ)
        (v := (0 :: inField (K := Rat) (mesh restOptions).roots).get)
        (fun j => ((b'.x.getD 1 []).getD j []).getD 1 0) (Verif.nodes_injOn rest_nodes)
        (Finset.mem_univ ⟨2, by decide⟩)
      refine Eq.trans ?_ (this.trans ?_)
      · rfl
      · rw [hc]
        simp [huv]
    unfold directCost
    have : (statePoly (mesh restOptions) b' ((mesh restOptions).elements - 1)
        restProblem.model.x.length).eval 1 = v := hval
    rw [this]
    simpa [restProblem, Ocp.new, Expr.eval, mesh, restOptions] using hv'

end Example

open Example in
/-- The hypotheses of `C161_solve` and `C161_succeeds` are met: rest is found, at no cost. -/
example (ops : Expr.Ops Rat) (sim info : List Rat → Theta Rat → Except Err (List Rat)) :
    ∃ r, (solve ops restOptions restNames sim info (bestSolver ops) restArgs ⟨restMethod, none⟩).1 = .ok r ∧
      r.report.success = true ∧ r.report.objective = 0 := by
  obtain ⟨ρ, hρ, hz⟩ := rest_best ops
  obtain ⟨r, h₁, h₂, h₃⟩ := C161_succeeds ops restOptions restNames restMethod sim info (bestSolver ops)
    restArgs [1] [] [[], []] rfl rfl restMethod_prepares restProblem_posed restProblem_data
    (restArgs_fit sim info) (bestSolver_good ops) (bestSolver_complete ops) restBlocks ρ hρ
  exact ⟨r, h₁, h₂, h₃.trans hz⟩

open Example in
/-- The hypotheses of `C161_state_size_fails` are met. -/
example (ops : Expr.Ops Rat) (sim info : List Rat → Theta Rat → Except Err (List Rat)) :
    (solve ops restOptions restNames sim info (bestSolver ops) { restArgs with x0 := some [1] }
      ⟨restMethod, none⟩).1 = .error .exception :=
  C161_state_size_fails ops restOptions restNames restMethod sim info (bestSolver ops) _ [1] rfl rfl
    restMethod_prepares restProblem_posed rfl rfl

/-- A problem with a last control. -/
theorem Example.restLast_posed :
    WellPosed Rat Example.restOptions Example.restNames { Example.restProblem with lastU := some [0] } := by
  open Example in
  have hd := restProblem_declared
  refine ⟨⟨hd.mesh, hd.controlRoots, ?_, ?_, hd.symbols, hd.controls, ?_, ?_, ?_, hd.newVars, rfl⟩, ?_⟩
  · obtain ⟨h₁, h₂, h₃, h₄, h₅, h₆, h₇, h₈, h₉, h₁₀⟩ := hd.problem
    exact ⟨h₁, h₂, h₃, h₄, h₅, h₆, h₇, h₈, h₉, h₁₀⟩
  · obtain ⟨h₁, h₂, h₃, h₄, h₅⟩ := hd.scope
    exact ⟨h₁, h₂, h₃, h₄, h₅⟩
  · obtain ⟨h₁, h₂, h₃, h₄, h₅⟩ := hd.bounds
    exact ⟨h₁, h₂, h₃, h₄, h₅⟩
  · exact ⟨rfl, rfl, (Example.pairFits_free 1).uncrossed, by rintro u ⟨⟩; rfl⟩
  · obtain ⟨h₁, h₂, h₃, h₄⟩ := hd.new
    exact ⟨h₁, h₂, h₃, h₄⟩
  · exact ⟨by decide, .inl (by decide)⟩

open Example in
/-- The hypotheses of `C161_last_control_fails` are met: a problem with a last control. -/
example (ops : Expr.Ops Rat) (sim info : List Rat → Theta Rat → Except Err (List Rat)) :
    (solve ops restOptions restNames sim info (bestSolver ops) { restArgs with lastU := some [0] }
      ⟨{ problem := { restProblem with lastU := some [0] } }, none⟩).1 = .error .valueError :=
  C161_last_control_fails ops restOptions restNames
    { problem := { restProblem with lastU := some [0] } } sim info (bestSolver ops) restArgs [1] [] [0]
    [[], []] rfl rfl (by decide +kernel) restLast_posed ⟨rfl, rfl, by decide⟩
    ⟨.inr ⟨rfl, rfl⟩, .inr ⟨rfl, rfl, rfl⟩, .inr ⟨rfl, rfl, rfl⟩, .inl rfl, .inr (.inl (by decide))⟩ (by decide)

/-- A problem in which the change of the control is limited. -/
theorem Example.restLimited_declared : Declared Rat Example.restOptions Example.restNames
    { Example.restProblem with duMax := [XRat.fin 1] } := by
  open Example in
  have hd := restProblem_declared
  refine ⟨hd.mesh, hd.controlRoots, ?_, ?_, hd.symbols, hd.controls, ?_, ?_, ?_, hd.newVars, rfl⟩
  · obtain ⟨h₁, h₂, h₃, h₄, h₅, h₆, h₇, h₈, h₉, h₁₀⟩ := hd.problem
    exact ⟨h₁, h₂, h₃, h₄, h₅, h₆, h₇, h₈, h₉, h₁₀⟩
  · obtain ⟨h₁, h₂, h₃, h₄, h₅⟩ := hd.scope
    exact ⟨h₁, h₂, h₃, h₄, h₅⟩
  · obtain ⟨h₁, h₂, h₃, h₄, h₅⟩ := hd.bounds
    exact ⟨h₁, h₂, h₃, h₄, h₅⟩
  · refine ⟨rfl, rfl, fun i lo hi hlo _ => ?_, by rintro u ⟨⟩⟩
    match i, hlo with
    | 0, hlo =>
      cases hlo
      exact bot_le
  · obtain ⟨h₁, h₂, h₃, h₄⟩ := hd.new
    exact ⟨h₁, h₂, h₃, h₄⟩

open Example in
/-- The hypotheses of `C161_limits_fails` are met: the change of the control is limited. -/
example (ops : Expr.Ops Rat) (sim info : List Rat → Theta Rat → Except Err (List Rat)) :
    (solve ops restOptions restNames sim info (bestSolver ops) restArgs
      ⟨{ problem := { restProblem with duMax := [XRat.fin 1] } }, none⟩).1 = .error .runtimeError :=
  C161_limits_fails ops restOptions restNames
    { problem := { restProblem with duMax := [XRat.fin 1] } } sim info (bestSolver ops) restArgs rfl rfl
    (by decide +kernel) restLimited_declared rfl rfl (by unfold NoRateLimits; decide +kernel)

end Verif
