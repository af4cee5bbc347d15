import Verif.Lemmas.SolveShootIndirect
import Verif.Props.SolveDirect
/-!
# C186: solving with an indirect method and multiple shooting gives an extremal of the user's problem
-/
namespace Verif
open Spec SolveShootIndirect
open SolveIndirect (Options NewNames)
open SolveDirect (SolverCall setup)
open Indirect (opFmin opFmax)

/-- C186, for Hamiltonians that are strictly convex quadratic functions of the controls whose Hessian
does not couple a control that has a bound with another one, and without a cost state. Solving with an
indirect method, multiple shooting, more than one collocation point and a solver that returns minimisers:
the result shows the nodes of a decision vector, and for the extremals that start there it shows their
controls. If the solver reports success then the extremals fit together and satisfy the constraints, the
bounds and the conditions at the end. -/
theorem C186_solve_partial (B : Backend) (ops : Expr.Ops ℝ) (hops : MinMax ops opFmin opFmax)
    (integ : DaeIntegrator ℝ) (opts : Options) (names : NewNames) (o q : Ocp)
    (h : Indirect.prepare B false false names.base names.xc names.fresh o = (.ok (), q))
    (hw : IndirectShotPosed B ops integ opts names o q) (hM : GoodMesh (indirectMesh opts))
    (m : ShootingMethod ℝ)
    (hm : q.indirectShooting ops integ opts.elements opts.roots.length = .ok m)
    (sim info : List ℝ → Theta ℝ → Except Err (List ℝ))
    (solver : SolverCall ℝ → Except Err (RawSolution ℝ)) (a : SolveArgs ℝ) (x0 p : List ℝ)
    (theta : List (List ℝ)) (hd : IndirectData o (indirectMesh opts) x0 p theta)
    (ha : IndirectArgs o opts a info x0 p theta) (hs : GoodSolver ops solver) :
    ∃ r b, (solve B ops integ opts names sim info solver a ⟨o, false, none⟩).1 = .ok r ∧
      ShootingShape (indirectDims o (indirectMesh opts)) b ∧ r.report.raw = Layout.stacked b ∧
      r.x0 = x0 ∧ ShowsNodes o (indirectMesh opts) b r.report ∧
      ∀ X, ExtremalPaths B ops o (addedTo o q) (indirectMesh opts) x0 p theta b X →
        ShowsControls o (indirectMesh opts) X r.report ∧
        (r.report.success = true → WithinIndirect o b ∧
          ShotExtremal ops o (addedTo o q) (indirectMesh opts) b X) := by
  have R : Run B ops integ opts names o q m := ⟨hw, h, hm⟩
  obtain ⟨r, b, call, raw, h₁, h₂, h₃, h₄, hc, h₅, -, h₇, h₈, h₉, -, hfe, -⟩ :=
    solve_core R hops hM sim info solver a x0 p theta hd ha hs
  refine ⟨r, b, h₁, h₂, h₃, h₅, h₄, fun X hX => ⟨hc X hX, fun hsucc => ?_⟩⟩
  obtain ⟨raw', hr', -, hmin⟩ := hs call
  obtain rfl : raw = raw' := Except.ok.inj (h₇.symm.trans hr')
  have hiff := hfe b h₂ X hX
  rw [← h₈] at hiff
  exact hiff.mp (hmin (h₉ ▸ hsucc)).feasible

/-- If moreover the solver finds a minimiser whenever there is one, and there is an extremal within the
bounds, then the call succeeds. -/
theorem C186_succeeds_partial (B : Backend) (ops : Expr.Ops ℝ) (hops : MinMax ops opFmin opFmax)
    (integ : DaeIntegrator ℝ) (opts : Options) (names : NewNames) (o q : Ocp)
    (h : Indirect.prepare B false false names.base names.xc names.fresh o = (.ok (), q))
    (hw : IndirectShotPosed B ops integ opts names o q) (hM : GoodMesh (indirectMesh opts))
    (m : ShootingMethod ℝ)
    (hm : q.indirectShooting ops integ opts.elements opts.roots.length = .ok m)
    (sim info : List ℝ → Theta ℝ → Except Err (List ℝ))
    (solver : SolverCall ℝ → Except Err (RawSolution ℝ)) (a : SolveArgs ℝ) (x0 p : List ℝ)
    (theta : List (List ℝ)) (hd : IndirectData o (indirectMesh opts) x0 p theta)
    (ha : IndirectArgs o opts a info x0 p theta) (hs : GoodSolver ops solver)
    (hcs : CompleteSolver ops solver) (best : Blocks ℝ)
    (hb : ShootingShape (indirectDims o (indirectMesh opts)) best) (X : Nat → ℝ → Sym → ℝ)
    (hX : ExtremalPaths B ops o (addedTo o q) (indirectMesh opts) x0 p theta best X)
    (hwi : WithinIndirect o best)
    (hsol : ShotExtremal ops o (addedTo o q) (indirectMesh opts) best X) :
    ∃ r, (solve B ops integ opts names sim info solver a ⟨o, false, none⟩).1 = .ok r ∧
      r.report.success = true := by
  have R : Run B ops integ opts names o q m := ⟨hw, h, hm⟩
  obtain ⟨r, b, call, raw, h₁, h₂, h₃, h₄, hc, h₅, -, h₇, h₈, h₉, -, hfe, hzero, hall⟩ :=
    solve_core R hops hM sim info solver a x0 p theta hd ha hs
  have hmin : CallMinimum ops call { raw with x := Layout.stacked best, f := 0 } := by
    refine ⟨(hfe best hb X hX).mpr ⟨hwi, hsol⟩, fun cons f hf => ?_, fun v hv cons f hf => ?_⟩
    · obtain ⟨cons', hv⟩ := hzero best hb
      have hf' : call.value (Layout.stacked best) = .ok (cons, f) := hf
      rw [hv] at hf'
      cases hf'
      rfl
    · obtain ⟨b', hb', rfl⟩ := hall v hv.size
      obtain ⟨cons', hv'⟩ := hzero b' hb'
      rw [hv'] at hf
      cases hf
      exact le_refl _
  obtain ⟨raw', hr', hs'⟩ := hcs call _ hmin
  obtain rfl : raw = raw' := Except.ok.inj (h₇.symm.trans hr')
  exact ⟨r, h₁, h₉.trans hs'⟩

/-- The objective of the result is not the cost of the user: whenever the solver reports success it is
zero, and the result has no final value of a cost state. -/
theorem C186_objective_fails (B : Backend) (ops : Expr.Ops ℝ) (hops : MinMax ops opFmin opFmax)
    (integ : DaeIntegrator ℝ) (opts : Options) (names : NewNames) (o q : Ocp)
    (h : Indirect.prepare B false false names.base names.xc names.fresh o = (.ok (), q))
    (hw : IndirectShotPosed B ops integ opts names o q) (hM : GoodMesh (indirectMesh opts))
    (m : ShootingMethod ℝ)
    (hm : q.indirectShooting ops integ opts.elements opts.roots.length = .ok m)
    (sim info : List ℝ → Theta ℝ → Except Err (List ℝ))
    (solver : SolverCall ℝ → Except Err (RawSolution ℝ)) (a : SolveArgs ℝ) (x0 p : List ℝ)
    (theta : List (List ℝ)) (hd : IndirectData o (indirectMesh opts) x0 p theta)
    (ha : IndirectArgs o opts a info x0 p theta) (hs : GoodSolver ops solver) :
    ∃ r, (solve B ops integ opts names sim info solver a ⟨o, false, none⟩).1 = .ok r ∧
      r.xCFinal = none ∧ (r.report.success = true → r.report.objective = 0) := by
  have R : Run B ops integ opts names o q m := ⟨hw, h, hm⟩
  obtain ⟨r, b, call, raw, h₁, h₂, h₃, h₄, hc, h₅, h₆, h₇, h₈, h₉, h₁₀, hfe, hzero, -⟩ :=
    solve_core R hops hM sim info solver a x0 p theta hd ha hs
  refine ⟨r, h₁, h₆, fun hsucc => ?_⟩
  obtain ⟨raw', hr', -, hmin⟩ := hs call
  obtain rfl : raw = raw' := Except.ok.inj (h₇.symm.trans hr')
  obtain ⟨cons, hv⟩ := hzero b h₂
  rw [← h₈] at hv
  exact h₁₀.trans ((hmin (h₉ ▸ hsucc)).objective _ _ hv)

/-- With one collocation point the nonlinear program is solved, but then `solve` raises: the controls
would have to be computed at the start of the element, which shooting has not implemented. -/
theorem C186_degree_fails (B : Backend) (ops : Expr.Ops ℝ) (hops : MinMax ops opFmin opFmax)
    (integ : DaeIntegrator ℝ) (opts : Options) (names : NewNames) (o q : Ocp)
    (h : Indirect.prepare B false false names.base names.xc names.fresh o = (.ok (), q))
    (hw : IndirectShotPosed B ops integ opts names o q) (h1 : opts.roots.length = 1)
    (m : ShootingMethod ℝ)
    (hm : q.indirectShooting ops integ opts.elements opts.roots.length = .ok m)
    (sim info : List ℝ → Theta ℝ → Except Err (List ℝ))
    (solver : SolverCall ℝ → Except Err (RawSolution ℝ)) (a : SolveArgs ℝ) (x0 p : List ℝ)
    (theta : List (List ℝ)) (hd : IndirectData o (indirectMesh opts) x0 p theta)
    (ha : IndirectArgs o opts a info x0 p theta) (hs : GoodSolver ops solver) :
    (solve B ops integ opts names sim info solver a ⟨o, false, none⟩).1 = .error .notImplementedError := by
  have R : Run B ops integ opts names o q m := ⟨hw, h, hm⟩
  obtain ⟨b, call, raw, hb, hraw, hrx, hsol, -⟩ :=
    solve_call R hops sim info solver a x0 p theta hd ha hs
  rw [hsol, R.report_fails h1 hb p _ raw hrx]
  rfl

/-- After a first call of `solve`, whatever it returned, further calls give what they would give as
first calls. -/
theorem C186_again_partial (B : Backend) (ops : Expr.Ops ℝ)
    (integ : DaeIntegrator ℝ) (opts : Options) (names : NewNames) (o q : Ocp)
    (h : Indirect.prepare B false false names.base names.xc names.fresh o = (.ok (), q))
    (hw : IndirectShotPosed B ops integ opts names o q) (m : ShootingMethod ℝ)
    (hm : q.indirectShooting ops integ opts.elements opts.roots.length = .ok m)
    (sim info sim' info' : List ℝ → Theta ℝ → Except Err (List ℝ))
    (solver solver' : SolverCall ℝ → Except Err (RawSolution ℝ)) (a a' : SolveArgs ℝ) :
    solve B ops integ opts names sim' info' solver' a'
        (solve B ops integ opts names sim info solver a ⟨o, false, none⟩).2 =
      solve B ops integ opts names sim' info' solver' a' ⟨o, false, none⟩ := by
  have R : Run B ops integ opts names o q m := ⟨hw, h, hm⟩
  obtain ⟨P, hP, hcr⟩ := created R
  have h₁ : program B ops integ opts names ⟨o, false, none⟩ = (.ok P, (⟨q, true, some P⟩ : State ℝ)) := by
    unfold program; exact hcr
  have h₂ : program B ops integ opts names ⟨q, true, some P⟩ = (.ok P, (⟨q, true, some P⟩ : State ℝ)) :=
    rfl
  rw [solve_eq h₁, solve_eq h₂, solve_eq h₁]

/-! ## Example: `x' = u`, the integral of `u²` and the final value `x²`, exact integration -/

namespace Example
open Indirect

/-- Two elements with two collocation points. -/
def leapOptions : SolveIndirect.Options := { elements := 2, roots := [1 / 2, 1] }

/-- Two elements with one collocation point. -/
def bluntOptions : SolveIndirect.Options := { elements := 2, roots := [1] }

/-- The new symbols. -/
def leapNames : SolveIndirect.NewNames where
  base := 10
  xc := 20
  fresh := 21
  var := fun kind el k => match kind with
    | .x => [30 + 10 * el + 2 * k, 31 + 10 * el + 2 * k]
    | .u => [60 + el]
    | _ => []

theorem leap_declared (roots : List Rat) :
    IndirectDeclared pontryaginBackend (minMaxOps ℝ) { elements := 2, roots := roots } leapProblem leapPrepared where
  problem := leap_problem
  bounds := ⟨pairFits_free 1, pairFits_free 0, pairFits_free 1, pairFits_free 0, pairFits_free 0⟩
  cost := ⟨rfl, rfl⟩
  initial := rfl
  last := by rintro ⟨⟩
  lastSize := by rintro u ⟨⟩
  solvable := by
    intro H hH σ
    rw [leap_added] at hH
    have : leapProblem.hamiltonian [10] [] = .ok (.add (.add (.mul (.sym 4) (.sym 4))
      (Expr.dot [.sym 10] [.sym 4])) (Expr.dot [] [])) := rfl
    rw [this] at hH
    cases hH
    exact leap_solvable σ

theorem leap_exact (el : Nat) (hel : el < 2) (d : Dae) (hd : leapPrepared.elementDae 2 el = .ok d)
    (t t' : ℝ) (ht : t < t') : ExactShots (minMaxOps ℝ) leapInteg d t t' := by
  have := leap_dae el hel d hd
  subst this
  exact leapInteg_exact _ _ _ ht.le

theorem leap_posed : IndirectShotPosed pontryaginBackend (minMaxOps ℝ) leapInteg leapOptions leapNames
    leapProblem leapPrepared where
  toIndirectDeclared := leap_declared _
  elements := by decide
  ends := by unfold PathAtEnds; decide
  newVars := ⟨⟨fun _ _ => rfl, fun _ _ => rfl, fun _ _ => rfl, rfl, rfl, fun _ => rfl⟩, by decide⟩
  exact el hel d hd t t' _ ht _ := leap_exact el hel d hd t t' ht

theorem blunt_posed : IndirectShotPosed pontryaginBackend (minMaxOps ℝ) leapInteg bluntOptions leapNames
    leapProblem leapPrepared where
  toIndirectDeclared := leap_declared _
  elements := by decide
  ends := by unfold PathAtEnds; decide
  newVars := ⟨⟨fun _ _ => rfl, fun _ _ => rfl, fun _ _ => rfl, rfl, rfl, fun _ => rfl⟩, by decide⟩
  exact el hel d hd t t' _ ht _ := leap_exact el hel d hd t t' ht

/-- The arguments: the initial state is 1, and an initial guess. -/
noncomputable def leapArgs : SolveArgs ℝ := { x0 := some [1, 0], initialGuess := some [] }

theorem leapArgs_fit (roots : List Rat)
    (info : List ℝ → Theta ℝ → Except Err (List ℝ)) :
    IndirectArgs leapProblem { elements := 2, roots := roots } leapArgs info [1, 0] [] [[], []] where
  x0 := .inl rfl
  p := .inr ⟨rfl, rfl, rfl⟩
  theta := .inr ⟨rfl, rfl, rfl⟩
  lastU := .inl rfl
  guess := .inr (.inl (by simp [leapArgs]))

theorem leap_within : WithinIndirect leapProblem leapBlocks := by
  have free : ∀ (n : Nat) (col : List ℝ), ColumnWithin (List.replicate n ⊥) (List.replicate n ⊤) col := by
    intro n col i a l u _ hl hu
    rw [List.eq_of_mem_replicate (List.mem_of_getElem? hl),
      List.eq_of_mem_replicate (List.mem_of_getElem? hu)]
    exact ⟨bot_le, le_top⟩
  exact ⟨fun _ _ col _ => free 1 col, fun _ _ col _ => free 0 col, free 0 _, fun col _ => free 0 col⟩

theorem leap_paths (b : Blocks ℝ) : ExtremalPaths pontryaginBackend (minMaxOps ℝ) leapProblem
    (addedTo leapProblem leapPrepared) (indirectMesh leapOptions) [1, 0] [] [[], []] b (leapPath b) := by
  rw [leap_added]
  exact ⟨fun el _ => leapPath_extremal b el, leap_derivatives b⟩

end Example

open Example in
/-- The hypotheses of `C186_solve_partial`, `C186_succeeds_partial`, `C186_objective_fails` and
`C186_again_partial` are met: the call succeeds, the objective is zero, and the states and adjoints of
the result fit together. -/
example (sim info : List ℝ → Theta ℝ → Except Err (List ℝ)) :
    ∃ r b, (solve pontryaginBackend (minMaxOps ℝ) leapInteg leapOptions leapNames sim info
      (bestSolver (minMaxOps ℝ)) leapArgs ⟨leapProblem, false, none⟩).1 = .ok r ∧
      r.report.success = true ∧ r.report.objective = 0 ∧
      ShowsNodes leapProblem (indirectMesh leapOptions) b r.report ∧
      ShowsControls leapProblem (indirectMesh leapOptions) (leapPath b) r.report ∧
      ShotExtremal (minMaxOps ℝ) leapProblem (addedTo leapProblem leapPrepared) (indirectMesh leapOptions)
        b (leapPath b) := by
  obtain ⟨m, hm⟩ := leap_shooting 2 leapInteg
  obtain ⟨r, h₁, h₂⟩ := C186_succeeds_partial pontryaginBackend (minMaxOps ℝ) (minMaxOps_ok ℝ) leapInteg
    leapOptions leapNames leapProblem leapPrepared leap_prepared leap_posed pontryaginMesh_good
    m hm sim info (bestSolver (minMaxOps ℝ)) leapArgs [1, 0] [] [[], []] ⟨rfl, rfl, by decide⟩
    (leapArgs_fit _ info) (bestSolver_good _) (bestSolver_complete _) leapBlocks leapBlocks_shape
    (leapPath leapBlocks) (leap_paths _) leap_within (by rw [leap_added]; exact leapBlocks_extremal)
  obtain ⟨r', h₁', -, h₂'⟩ := C186_objective_fails pontryaginBackend (minMaxOps ℝ) (minMaxOps_ok ℝ) leapInteg
    leapOptions leapNames leapProblem leapPrepared leap_prepared leap_posed pontryaginMesh_good
    m hm sim info (bestSolver (minMaxOps ℝ)) leapArgs [1, 0] [] [[], []] ⟨rfl, rfl, by decide⟩
    (leapArgs_fit _ info) (bestSolver_good _)
  obtain rfl : r = r' := Except.ok.inj (h₁.symm.trans h₁')
  obtain ⟨r', b, h₁', -, -, -, hn, hX⟩ := C186_solve_partial pontryaginBackend (minMaxOps ℝ) (minMaxOps_ok ℝ)
    leapInteg leapOptions leapNames leapProblem leapPrepared leap_prepared leap_posed pontryaginMesh_good
    m hm sim info (bestSolver (minMaxOps ℝ)) leapArgs [1, 0] [] [[], []] ⟨rfl, rfl, by decide⟩
    (leapArgs_fit _ info) (bestSolver_good _)
  obtain rfl : r = r' := Except.ok.inj (h₁.symm.trans h₁')
  obtain ⟨hc, hok⟩ := hX _ (leap_paths b)
  exact ⟨r, b, h₁, h₂, h₂' h₂, hn, hc, (hok h₂).2⟩

open Example in
/-- The hypotheses of `C186_degree_fails` are met. -/
example (sim info : List ℝ → Theta ℝ → Except Err (List ℝ)) :
    (solve pontryaginBackend (minMaxOps ℝ) leapInteg bluntOptions leapNames sim info
      (bestSolver (minMaxOps ℝ)) leapArgs ⟨leapProblem, false, none⟩).1 = .error .notImplementedError := by
  obtain ⟨m, hm⟩ := leap_shooting 1 leapInteg
  exact C186_degree_fails pontryaginBackend (minMaxOps ℝ) (minMaxOps_ok ℝ) leapInteg bluntOptions leapNames
    leapProblem leapPrepared leap_prepared blunt_posed rfl m hm sim info (bestSolver (minMaxOps ℝ)) leapArgs
    [1, 0] [] [[], []] ⟨rfl, rfl, by decide⟩ (leapArgs_fit _ info) (bestSolver_good _)

end Verif
