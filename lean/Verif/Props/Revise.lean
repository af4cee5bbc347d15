import Verif.Lemmas.Revise
import Verif.Props.SolveDirect
import Verif.Props.SolveShooting
import Verif.Props.SolveIndirect
import Verif.Props.SolveShootIndirect
/-!
# C189: changes of the problem between two calls of `solve`
-/
namespace Verif
open Spec
section
variable {K : Type} [Field K] [LinearOrder K]

/-- C189 does not hold for direct methods with collocation. Once a call of `solve` has returned, changes of the equations, bounds,
rate limits, constraints, costs and guesses of the problem have no effect: every further call does what it
would have done without them. -/
theorem C189_direct_fails (ops : Expr.Ops K) (opts : SolveDirect.Options) (names : SolveDirect.NewNames)
    (sim info sim' info' : List K → Theta K → Except Err (List K))
    (solver solver' : SolveDirect.SolverCall K → Except Err (RawSolution K)) (a a' : SolveArgs K)
    (st₀ st : SolveDirect.State K) (r : SolveDirect.Result K)
    (h : SolveDirect.solve ops opts names sim info solver a st₀ = (.ok r, st)) (o' : Ocp)
    (ho : RevisionOf st.method.problem o') :
    (SolveDirect.solve ops opts names sim' info' solver' a' (reviseDirect st o')).1 =
      (SolveDirect.solve ops opts names sim' info' solver' a' st).1 := by
  obtain ⟨P, hP⟩ := SolveDirect.solve_kept h
  rw [SolveDirect.solve_again hP, SolveDirect.solve_again (show (reviseDirect st o').program = some P from hP)]
  simp only [reviseDirect, ho.setup, SolveDirect.result_revised ho]

/-- C189 does not hold for direct methods with multiple shooting. Once a call of `solve` has returned, changes of the equations, bounds,
rate limits, constraints, costs and guesses of the problem have no effect: every further call does what it
would have done without them. -/
theorem C189_shooting_fails (ops : Expr.Ops K) (integ : DaeIntegrator K) (opts : SolveDirect.Options) (sum : Bool)
    (names : SolveDirect.NewNames)
    (sim info sim' info' : List K → Theta K → Except Err (List K))
    (solver solver' : SolveDirect.SolverCall K → Except Err (RawSolution K)) (a a' : SolveArgs K)
    (st₀ st : SolveShooting.State K) (r : SolveDirect.Result K)
    (h : SolveShooting.solve ops integ opts sum names sim info solver a st₀ = (.ok r, st)) (o' : Ocp)
    (ho : RevisionOf st.method.problem o') :
    (SolveShooting.solve ops integ opts sum names sim' info' solver' a' (reviseShooting st o')).1 =
      (SolveShooting.solve ops integ opts sum names sim' info' solver' a' st).1 := by
  obtain ⟨P, hP⟩ := SolveShooting.solve_kept h
  rw [SolveShooting.solve_again hP, SolveShooting.solve_again (show (reviseShooting st o').program = some P from hP)]
  simp only [reviseShooting, ho.setup, SolveShooting.result_revised ho]

/-- C189 does not hold for indirect methods with collocation. Once a call of `solve` has returned, changes of the equations, bounds,
rate limits, constraints, costs and guesses of the problem have no effect: every further call does what it
would have done without them. -/
theorem C189_indirect_fails (B : Backend) (ops : Expr.Ops K) (opts : SolveIndirect.Options) (names : SolveIndirect.NewNames)
    (sim info sim' info' : List K → Theta K → Except Err (List K))
    (solver solver' : SolveDirect.SolverCall K → Except Err (RawSolution K)) (a a' : SolveArgs K)
    (st₀ st : SolveIndirect.State K) (r : SolveDirect.Result K)
    (h : SolveIndirect.solve B ops opts names sim info solver a st₀ = (.ok r, st)) (o' : Ocp)
    (ho : RevisionOf st.problem o') :
    (SolveIndirect.solve B ops opts names sim' info' solver' a' (reviseIndirect st o')).1 =
      (SolveIndirect.solve B ops opts names sim' info' solver' a' st).1 := by
  obtain ⟨P, hP⟩ := SolveIndirect.solve_kept h
  rw [SolveIndirect.solve_again hP, SolveIndirect.solve_again (show (reviseIndirect st o').program = some P from hP)]
  simp only [reviseIndirect, ho.setup, SolveIndirect.result_revised ho]

/-- C189 does not hold for indirect methods with multiple shooting. Once a call of `solve` has returned, changes of the equations, bounds,
rate limits, constraints, costs and guesses of the problem have no effect: every further call does what it
would have done without them. -/
theorem C189_shoot_indirect_fails (B : Backend) (ops : Expr.Ops K) (integ : DaeIntegrator K) (opts : SolveIndirect.Options)
    (names : SolveIndirect.NewNames)
    (sim info sim' info' : List K → Theta K → Except Err (List K))
    (solver solver' : SolveDirect.SolverCall K → Except Err (RawSolution K)) (a a' : SolveArgs K)
    (st₀ st : SolveShootIndirect.State K) (r : SolveDirect.Result K)
    (h : SolveShootIndirect.solve B ops integ opts names sim info solver a st₀ = (.ok r, st)) (o' : Ocp)
    (ho : RevisionOf st.problem o') :
    (SolveShootIndirect.solve B ops integ opts names sim' info' solver' a' (reviseShootIndirect st o')).1 =
      (SolveShootIndirect.solve B ops integ opts names sim' info' solver' a' st).1 := by
  obtain ⟨P, hP⟩ := SolveShootIndirect.solve_kept h
  rw [SolveShootIndirect.solve_again hP, SolveShootIndirect.solve_again (show (reviseShootIndirect st o').program = some P from hP)]
  simp only [reviseShootIndirect, ho.setup, SolveShootIndirect.result_revised ho]

/-- C189 holds for the initial state (direct methods with collocation): once a call of `solve` has returned, the user
assigns another initial state, and a call without `x_0` solves from it, as if it were given to the
call. -/
theorem C189_direct_partial (ops : Expr.Ops K) (opts : SolveDirect.Options) (names : SolveDirect.NewNames)
    (sim info sim' info' : List K → Theta K → Except Err (List K))
    (solver solver' : SolveDirect.SolverCall K → Except Err (RawSolution K)) (a a' : SolveArgs K)
    (st₀ st : SolveDirect.State K) (r : SolveDirect.Result K)
    (h : SolveDirect.solve ops opts names sim info solver a st₀ = (.ok r, st)) (x : List Rat) (ha : a'.x0 = none) :
    (SolveDirect.solve ops opts names sim' info' solver' a' (reviseDirect st { st.method.problem with x0 := x })).1 =
      (SolveDirect.solve ops opts names sim' info' solver'
        { a' with x0 := some (x.map (Rat.cast : Rat → K)) } st).1 := by
  obtain ⟨P, hP⟩ := SolveDirect.solve_kept h
  rw [SolveDirect.solve_again hP,
    SolveDirect.solve_again (show (reviseDirect st { st.method.problem with x0 := x }).program = some P from hP)]
  simp only [reviseDirect, SolveDirect.setup_initial _ _ x _ _ a' ha]
  rfl

/-- C189 holds for the initial state (direct methods with multiple shooting): once a call of `solve` has returned, the user
assigns another initial state, and a call without `x_0` solves from it, as if it were given to the
call. -/
theorem C189_shooting_partial (ops : Expr.Ops K) (integ : DaeIntegrator K) (opts : SolveDirect.Options) (sum : Bool)
    (names : SolveDirect.NewNames)
    (sim info sim' info' : List K → Theta K → Except Err (List K))
    (solver solver' : SolveDirect.SolverCall K → Except Err (RawSolution K)) (a a' : SolveArgs K)
    (st₀ st : SolveShooting.State K) (r : SolveDirect.Result K)
    (h : SolveShooting.solve ops integ opts sum names sim info solver a st₀ = (.ok r, st)) (x : List Rat) (ha : a'.x0 = none) :
    (SolveShooting.solve ops integ opts sum names sim' info' solver' a' (reviseShooting st { st.method.problem with x0 := x })).1 =
      (SolveShooting.solve ops integ opts sum names sim' info' solver'
        { a' with x0 := some (x.map (Rat.cast : Rat → K)) } st).1 := by
  obtain ⟨P, hP⟩ := SolveShooting.solve_kept h
  rw [SolveShooting.solve_again hP,
    SolveShooting.solve_again (show (reviseShooting st { st.method.problem with x0 := x }).program = some P from hP)]
  simp only [reviseShooting, SolveDirect.setup_initial _ _ x _ _ a' ha]
  rfl

/-- C189 holds for the initial state (indirect methods with collocation): once a call of `solve` has returned, the user
assigns another initial state, and a call without `x_0` solves from it, as if it were given to the
call. -/
theorem C189_indirect_partial (B : Backend) (ops : Expr.Ops K) (opts : SolveIndirect.Options) (names : SolveIndirect.NewNames)
    (sim info sim' info' : List K → Theta K → Except Err (List K))
    (solver solver' : SolveDirect.SolverCall K → Except Err (RawSolution K)) (a a' : SolveArgs K)
    (st₀ st : SolveIndirect.State K) (r : SolveDirect.Result K)
    (h : SolveIndirect.solve B ops opts names sim info solver a st₀ = (.ok r, st)) (x : List Rat) (ha : a'.x0 = none) :
    (SolveIndirect.solve B ops opts names sim' info' solver' a' (reviseIndirect st { st.problem with x0 := x })).1 =
      (SolveIndirect.solve B ops opts names sim' info' solver'
        { a' with x0 := some (x.map (Rat.cast : Rat → K)) } st).1 := by
  obtain ⟨P, hP⟩ := SolveIndirect.solve_kept h
  rw [SolveIndirect.solve_again hP,
    SolveIndirect.solve_again (show (reviseIndirect st { st.problem with x0 := x }).program = some P from hP)]
  simp only [reviseIndirect, SolveDirect.setup_initial _ _ x _ _ a' ha]
  rfl

/-- C189 holds for the initial state (indirect methods with multiple shooting): once a call of `solve` has returned, the user
assigns another initial state, and a call without `x_0` solves from it, as if it were given to the
call. -/
theorem C189_shoot_indirect_partial (B : Backend) (ops : Expr.Ops K) (integ : DaeIntegrator K) (opts : SolveIndirect.Options)
    (names : SolveIndirect.NewNames)
    (sim info sim' info' : List K → Theta K → Except Err (List K))
    (solver solver' : SolveDirect.SolverCall K → Except Err (RawSolution K)) (a a' : SolveArgs K)
    (st₀ st : SolveShootIndirect.State K) (r : SolveDirect.Result K)
    (h : SolveShootIndirect.solve B ops integ opts names sim info solver a st₀ = (.ok r, st)) (x : List Rat) (ha : a'.x0 = none) :
    (SolveShootIndirect.solve B ops integ opts names sim' info' solver' a' (reviseShootIndirect st { st.problem with x0 := x })).1 =
      (SolveShootIndirect.solve B ops integ opts names sim' info' solver'
        { a' with x0 := some (x.map (Rat.cast : Rat → K)) } st).1 := by
  obtain ⟨P, hP⟩ := SolveShootIndirect.solve_kept h
  rw [SolveShootIndirect.solve_again hP,
    SolveShootIndirect.solve_again (show (reviseShootIndirect st { st.problem with x0 := x }).program = some P from hP)]
  simp only [reviseShootIndirect, SolveDirect.setup_initial _ _ x _ _ a' ha]
  rfl

end

open Example in
/-- The user solves a problem, then raises the lower bound of the state above its initial value. No
trajectory satisfies the problem any more, but the next call of `solve` reports success. -/
theorem C189_infeasible_fails (ops : Expr.Ops Rat) (sim info : List Rat → Theta Rat → Except Err (List Rat)) :
    ∃ r r' st, SolveDirect.solve ops restOptions restNames sim info (bestSolver ops) restArgs
        ⟨restMethod, none⟩ = (.ok r, st) ∧
      (SolveDirect.solve ops restOptions restNames sim info (bestSolver ops) restArgs
        (reviseDirect st { st.method.problem with
          xMin := st.method.problem.xMin.set 0 (XRat.fin 2) })).1 = .ok r' ∧
      r'.report.success = true ∧
      ¬ ∃ b ρ, Decision ops { restProblem with xMin := restProblem.xMin.set 0 (XRat.fin 2) }
        (mesh restOptions) [1] [] [[], []] (lastOf restProblem) b ρ := by
  obtain ⟨ρ, hρ, -⟩ := rest_best ops
  obtain ⟨r, h₁, h₂, -⟩ := C161_succeeds ops restOptions restNames restMethod sim info (bestSolver ops)
    restArgs [1] [] [[], []] rfl rfl restMethod_prepares restProblem_posed restProblem_data
    (restArgs_fit sim info) (bestSolver_good ops) (bestSolver_complete ops) restBlocks ρ hρ
  have hag := C161_again ops restOptions restNames restMethod sim info sim info (bestSolver ops)
    (bestSolver ops) restArgs restArgs rfl rfl restMethod_prepares restProblem_posed
  generalize hS : SolveDirect.solve ops restOptions restNames sim info (bestSolver ops) restArgs
      ⟨restMethod, none⟩ = S at h₁ hag
  obtain ⟨e, st⟩ := S
  obtain rfl : e = .ok r := h₁
  refine ⟨r, r, st, rfl, ?_, h₂, ?_⟩
  · have hrev : RevisionOf st.method.problem { st.method.problem with
        xMin := st.method.problem.xMin.set 0 (XRat.fin 2) } :=
      ⟨⟨rfl, rfl⟩, rfl, rfl, rfl, ⟨rfl, rfl⟩, _, _, rfl⟩
    rw [C189_direct_fails ops restOptions restNames sim info sim info (bestSolver ops) (bestSolver ops)
      restArgs restArgs _ _ r hS _ hrev]
    exact congrArg Prod.fst hag
  · rintro ⟨b, ρ', hD⟩
    have hgrid : (b.x.getD 0 []).length = 3 ∧ ∀ c ∈ b.x.getD 0 [], c.length = 2 :=
      Transcription.grid_columns hD.data.x (show 0 < 2 by decide)
    have hmem : b.x.getD 0 [] ∈ b.x := by
      rw [List.getD_eq_getElem?_getD, List.getElem?_eq_getElem (by rw [hD.data.x.1]; decide)]
      exact List.getElem_mem _
    obtain ⟨c₀, c₁, c₂, hc⟩ := List.length_eq_three.mp hgrid.1
    have hc₀ : c₀ ∈ b.x.getD 0 [] := by rw [hc]; simp
    obtain ⟨u, v, huv⟩ := List.length_eq_two.mp (hgrid.2 _ hc₀)
    have hge := (hD.bounds.x _ hmem _ hc₀ 0 u (XRat.fin 2) ⊤ (by rw [huv]; rfl) rfl rfl).1
    have hge' : (2 : Rat) ≤ u := by
      have : finite (2 : Rat) ≤ finite u := by
        refine le_trans (le_of_eq ?_) hge
        decide +kernel
      unfold finite at this
      exact_mod_cast this
    have hval : (statePoly (mesh restOptions) b 0 0).eval 0 = u := by
      have := Lagrange.eval_interpolate_at_node (s := Finset.univ)
        (v := (0 :: inField (K := Rat) (mesh restOptions).roots).get)
        (fun j => ((b.x.getD 0 []).getD j []).getD 0 0) (Verif.nodes_injOn rest_nodes)
        (Finset.mem_univ ⟨0, by decide⟩)
      refine Eq.trans ?_ (this.trans ?_)
      · rfl
      · rw [hc]
        simp [huv]
    have hin := hD.solution.initial (.sub (.sym 2) (.sym 3)) (List.mem_singleton.mpr rfl)
    have hr := hD.reads 0 (show 0 < 2 by decide) 0
    have hs₀ : ρ' 0 0 3 = 1 := by
      rw [hr.starts 0 3 rfl]
      rfl
    have hs₁ : ρ' 0 0 2 = u := by rw [hr.states 0 2 rfl, hval]
    simp only [Expr.eval] at hin
    rw [hs₀, hs₁] at hin
    linarith

open Example in
/-- The hypotheses of `C189_direct_fails` and `C189_direct_partial` are met. -/
example (ops : Expr.Ops Rat) (sim info : List Rat → Theta Rat → Except Err (List Rat)) (c : Expr) (x : List Rat) :
    ∃ r st, SolveDirect.solve ops restOptions restNames sim info (bestSolver ops) restArgs
        ⟨restMethod, none⟩ = (.ok r, st) ∧
      (SolveDirect.solve ops restOptions restNames sim info (bestSolver ops) restArgs
        (reviseDirect st { st.method.problem with V := c })).1 =
        (SolveDirect.solve ops restOptions restNames sim info (bestSolver ops) restArgs st).1 ∧
      (SolveDirect.solve ops restOptions restNames sim info (bestSolver ops) restArgs
        (reviseDirect st { st.method.problem with x0 := x })).1 =
        (SolveDirect.solve ops restOptions restNames sim info (bestSolver ops)
          { restArgs with x0 := some (x.map (Rat.cast : Rat → Rat)) } st).1 := by
  obtain ⟨r, b, h₁, -⟩ := C161_solve ops restOptions restNames restMethod sim info (bestSolver ops)
    restArgs [1] [] [[], []] rfl rfl restMethod_prepares restProblem_posed restProblem_data
    (restArgs_fit sim info) (bestSolver_good ops)
  cases hS : SolveDirect.solve ops restOptions restNames sim info (bestSolver ops) restArgs ⟨restMethod, none⟩ with
  | mk e st =>
  rw [hS] at h₁
  obtain rfl : e = .ok r := h₁
  have ho : RevisionOf st.method.problem { st.method.problem with V := c } :=
    ⟨⟨rfl, rfl⟩, rfl, rfl, rfl, ⟨rfl, rfl⟩, _, _, rfl⟩
  exact ⟨r, st, rfl,
    C189_direct_fails ops restOptions restNames sim info sim info _ _ _ _ _ st r hS _ ho,
    C189_direct_partial ops restOptions restNames sim info sim info _ _ _ _ _ st r hS x rfl⟩

open Example in
/-- The hypotheses of `C189_shooting_fails` and `C189_shooting_partial` are met. -/
example (ops : Expr.Ops ℝ) (sim info : List ℝ → Theta ℝ → Except Err (List ℝ)) (c : Expr) (x : List Rat) :
    ∃ r st, SolveShooting.solve ops shotInteg shotOptions false shotNames sim info (bestSolver ops) shotArgs
        ⟨shotMethod, none⟩ = (.ok r, st) ∧
      (SolveShooting.solve ops shotInteg shotOptions false shotNames sim info (bestSolver ops) shotArgs
        (reviseShooting st { st.method.problem with V := c })).1 =
        (SolveShooting.solve ops shotInteg shotOptions false shotNames sim info (bestSolver ops) shotArgs st).1 ∧
      (SolveShooting.solve ops shotInteg shotOptions false shotNames sim info (bestSolver ops) shotArgs
        (reviseShooting st { st.method.problem with x0 := x })).1 =
        (SolveShooting.solve ops shotInteg shotOptions false shotNames sim info (bestSolver ops)
          { shotArgs with x0 := some (x.map (Rat.cast : Rat → ℝ)) } st).1 := by
  obtain ⟨r, h₁, -⟩ := C166_succeeds ops shotInteg shotOptions false shotNames shotMethod sim info
    (bestSolver ops) shotArgs [1] [] [[], []] rfl rfl shotMethod_prepares shotProblem_posed (shot_exact ops)
    shotProblem_data (shotArgs_fit sim info) (bestSolver_good ops) (bestSolver_complete ops)
    (fun b _ => ⟨shotPath b, fun el _ => shotPath_solves ops b el⟩) shotBest (shotPath shotBest)
    (shotBest_best ops)
  cases hS : SolveShooting.solve ops shotInteg shotOptions false shotNames sim info (bestSolver ops) shotArgs ⟨shotMethod, none⟩ with
  | mk e st =>
  rw [hS] at h₁
  obtain rfl : e = .ok r := h₁
  have ho : RevisionOf st.method.problem { st.method.problem with V := c } :=
    ⟨⟨rfl, rfl⟩, rfl, rfl, rfl, ⟨rfl, rfl⟩, _, _, rfl⟩
  exact ⟨r, st, rfl,
    C189_shooting_fails ops shotInteg shotOptions false shotNames sim info sim info _ _ _ _ _ st r hS _ ho,
    C189_shooting_partial ops shotInteg shotOptions false shotNames sim info sim info _ _ _ _ _ st r hS x rfl⟩

open Example in
/-- The hypotheses of `C189_indirect_fails` and `C189_indirect_partial` are met. -/
example (sim info : List ℝ → Theta ℝ → Except Err (List ℝ)) (c : Expr) (x : List Rat) :
    ∃ r st, SolveIndirect.solve pontryaginBackend (minMaxOps ℝ) extremalOptions extremalNames sim info (bestSolver (minMaxOps ℝ)) extremalArgs
        ⟨pontryaginProblem, false, none⟩ = (.ok r, st) ∧
      (SolveIndirect.solve pontryaginBackend (minMaxOps ℝ) extremalOptions extremalNames sim info (bestSolver (minMaxOps ℝ)) extremalArgs
        (reviseIndirect st { st.problem with V := c })).1 =
        (SolveIndirect.solve pontryaginBackend (minMaxOps ℝ) extremalOptions extremalNames sim info (bestSolver (minMaxOps ℝ)) extremalArgs st).1 ∧
      (SolveIndirect.solve pontryaginBackend (minMaxOps ℝ) extremalOptions extremalNames sim info (bestSolver (minMaxOps ℝ)) { extremalArgs with x0 := none }
        (reviseIndirect st { st.problem with x0 := x })).1 =
        (SolveIndirect.solve pontryaginBackend (minMaxOps ℝ) extremalOptions extremalNames sim info (bestSolver (minMaxOps ℝ))
          { extremalArgs with x0 := some (x.map (Rat.cast : Rat → ℝ)) } st).1 := by
  obtain ⟨m, hm⟩ := pontryagin_transcribed
  obtain ⟨r, h₁, -⟩ := C184_objective_fails pontryaginBackend (minMaxOps ℝ) (minMaxOps_ok ℝ)
    extremalOptions extremalNames pontryaginProblem pontryaginPrepared pontryagin_prepared extremal_posed
    m hm sim info (bestSolver (minMaxOps ℝ)) extremalArgs [0, 0] [3] [[], []] ⟨rfl, rfl, by decide⟩
    (extremalArgs_fit info) (bestSolver_good _)
  cases hS : SolveIndirect.solve pontryaginBackend (minMaxOps ℝ) extremalOptions extremalNames sim info (bestSolver (minMaxOps ℝ)) extremalArgs ⟨pontryaginProblem, false, none⟩ with
  | mk e st =>
  rw [hS] at h₁
  obtain rfl : e = .ok r := h₁
  have ho : RevisionOf st.problem { st.problem with V := c } :=
    ⟨⟨rfl, rfl⟩, rfl, rfl, rfl, ⟨rfl, rfl⟩, _, _, rfl⟩
  exact ⟨r, st, rfl,
    C189_indirect_fails pontryaginBackend (minMaxOps ℝ) extremalOptions extremalNames sim info sim info _ _ _ _ _ st r hS _ ho,
    C189_indirect_partial pontryaginBackend (minMaxOps ℝ) extremalOptions extremalNames sim info sim info _ _ _ _ _ st r hS x rfl⟩

open Example in
/-- The hypotheses of `C189_shoot_indirect_fails` and `C189_shoot_indirect_partial` are met. -/
example (sim info : List ℝ → Theta ℝ → Except Err (List ℝ)) (c : Expr) (x : List Rat) :
    ∃ r st, SolveShootIndirect.solve pontryaginBackend (minMaxOps ℝ) leapInteg leapOptions leapNames sim info (bestSolver (minMaxOps ℝ)) leapArgs
        ⟨leapProblem, false, none⟩ = (.ok r, st) ∧
      (SolveShootIndirect.solve pontryaginBackend (minMaxOps ℝ) leapInteg leapOptions leapNames sim info (bestSolver (minMaxOps ℝ)) leapArgs
        (reviseShootIndirect st { st.problem with V := c })).1 =
        (SolveShootIndirect.solve pontryaginBackend (minMaxOps ℝ) leapInteg leapOptions leapNames sim info (bestSolver (minMaxOps ℝ)) leapArgs st).1 ∧
      (SolveShootIndirect.solve pontryaginBackend (minMaxOps ℝ) leapInteg leapOptions leapNames sim info (bestSolver (minMaxOps ℝ)) { leapArgs with x0 := none }
        (reviseShootIndirect st { st.problem with x0 := x })).1 =
        (SolveShootIndirect.solve pontryaginBackend (minMaxOps ℝ) leapInteg leapOptions leapNames sim info (bestSolver (minMaxOps ℝ))
          { leapArgs with x0 := some (x.map (Rat.cast : Rat → ℝ)) } st).1 := by
  obtain ⟨m, hm⟩ := leap_shooting 2 leapInteg
  obtain ⟨r, h₁, -⟩ := C186_succeeds_partial pontryaginBackend (minMaxOps ℝ) (minMaxOps_ok ℝ) leapInteg
    leapOptions leapNames leapProblem leapPrepared leap_prepared leap_posed pontryaginMesh_good
    m hm sim info (bestSolver (minMaxOps ℝ)) leapArgs [1, 0] [] [[], []] ⟨rfl, rfl, by decide⟩
    (leapArgs_fit _ info) (bestSolver_good _) (bestSolver_complete _) leapBlocks leapBlocks_shape
    (leapPath leapBlocks) (leap_paths _) leap_within (by rw [leap_added]; exact leapBlocks_extremal)
  cases hS : SolveShootIndirect.solve pontryaginBackend (minMaxOps ℝ) leapInteg leapOptions leapNames sim info (bestSolver (minMaxOps ℝ)) leapArgs ⟨leapProblem, false, none⟩ with
  | mk e st =>
  rw [hS] at h₁
  obtain rfl : e = .ok r := h₁
  have ho : RevisionOf st.problem { st.problem with V := c } :=
    ⟨⟨rfl, rfl⟩, rfl, rfl, rfl, ⟨rfl, rfl⟩, _, _, rfl⟩
  exact ⟨r, st, rfl,
    C189_shoot_indirect_fails pontryaginBackend (minMaxOps ℝ) leapInteg leapOptions leapNames sim info sim info _ _ _ _ _ st r hS _ ho,
    C189_shoot_indirect_partial pontryaginBackend (minMaxOps ℝ) leapInteg leapOptions leapNames sim info sim info _ _ _ _ _ st r hS x rfl⟩

end Verif
