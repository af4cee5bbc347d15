import Verif.Props.Sufficient
/-!
# C187: an indirect method does not optimise parameters
-/
namespace Verif
open Spec SolveShootIndirect
open SolveIndirect (Options NewNames)
open SolveDirect (SolverCall setup)
open Indirect (opFmin opFmax)

open Classical in
/-- Every extremal within the bounds is a result: there is a solver that returns minimisers and finds them
whenever there are some, with which `solve` returns this extremal. So nothing makes the parameters that
are to be found optimal. -/
theorem C187_choice_fails (B : Backend) (ops : Expr.Ops ℝ) (hops : MinMax ops opFmin opFmax)
    (integ : DaeIntegrator ℝ) (opts : Options) (names : NewNames) (o q : Ocp)
    (h : Indirect.prepare B false false names.base names.xc names.fresh o = (.ok (), q))
    (hw : IndirectShotPosed B ops integ opts names o q) (hM : GoodMesh (indirectMesh opts))
    (m : ShootingMethod ℝ)
    (hm : q.indirectShooting ops integ opts.elements opts.roots.length = .ok m)
    (x0 p : List ℝ) (theta : List (List ℝ)) (hd : IndirectData o (indirectMesh opts) x0 p theta)
    (b : Blocks ℝ) (hb : ShootingShape (indirectDims o (indirectMesh opts)) b) (X : Nat → ℝ → Sym → ℝ)
    (hX : ExtremalPaths B ops o (addedTo o q) (indirectMesh opts) x0 p theta b X)
    (hwi : WithinIndirect o b) (hsol : ShotExtremal ops o (addedTo o q) (indirectMesh opts) b X) :
    ∃ solver, GoodSolver ops solver ∧ CompleteSolver ops solver ∧
      ∀ sim info (a : SolveArgs ℝ), IndirectArgs o opts a info x0 p theta →
      ∃ r, (solve B ops integ opts names sim info solver a ⟨o, false, none⟩).1 = .ok r ∧
        r.report.success = true ∧ ShowsNodes o (indirectMesh opts) b r.report ∧
        ShowsControls o (indirectMesh opts) X r.report := by
  set raw : RawSolution ℝ := ⟨Layout.stacked b, 0, [], true⟩ with hraw
  set solver : SolverCall ℝ → Except Err (RawSolution ℝ) := fun c =>
    if CallMinimum ops c raw then .ok raw else Example.bestSolver ops c with hsolver
  have hgood : GoodSolver ops solver := by
    intro c
    rw [hsolver]
    by_cases hc : CallMinimum ops c raw
    · exact ⟨raw, if_pos hc, hc.feasible.size, fun _ => hc⟩
    · obtain ⟨raw', h₁, h₂⟩ := Example.bestSolver_good ops c
      exact ⟨raw', (if_neg hc).trans h₁, h₂⟩
  refine ⟨solver, hgood, fun c raw' hc' => ?_, fun sim info a ha => ?_⟩
  · rw [hsolver]
    by_cases hc : CallMinimum ops c raw
    · exact ⟨raw, if_pos hc, rfl⟩
    · obtain ⟨raw'', h₁, h₂⟩ := Example.bestSolver_complete ops c raw' hc'
      exact ⟨raw'', (if_neg hc).trans h₁, h₂⟩
  · have R : Run B ops integ opts names o q m := ⟨hw, h, hm⟩
    obtain ⟨r, b', call, raw', h₁, h₂, h₃, h₄, hc, h₅, -, h₇, h₈, h₉, -, hfe, hzero, hall⟩ :=
      solve_core R hops hM sim info solver a x0 p theta hd ha hgood
    have hmin : CallMinimum ops call raw := by
      refine ⟨(hfe b hb X hX).mpr ⟨hwi, hsol⟩, fun cons f hf => ?_, fun v hv cons f hf => ?_⟩
      · obtain ⟨cons', hv⟩ := hzero b hb
        have hf' : call.value (Layout.stacked b) = .ok (cons, f) := hf
        rw [hv] at hf'
        cases hf'
        rfl
      · obtain ⟨b', hb', rfl⟩ := hall v hv.size
        obtain ⟨cons', hv'⟩ := hzero b' hb'
        rw [hv'] at hf
        cases hf
        exact le_refl _
    have hcall : solver call = .ok raw := if_pos hmin
    obtain rfl : raw' = raw := Except.ok.inj (h₇.symm.trans hcall)
    have hbb : b' = b := by
      have e₁ := Layout.shootingBlocks_stacked h₂
      have e₂ := Layout.shootingBlocks_stacked hb
      rw [← h₈] at e₁
      exact Except.ok.inj (e₁.symm.trans e₂)
    subst hbb
    exact ⟨r, h₁, h₉, h₄, hc X hX⟩

/-! ## Example: from 1, with `x' = u`, the integral of `u²` and the final cost `x² + p²`, `p` to be found -/

namespace Example
open Indirect Set

/-- The problem: the parameter 5 is to be found, and its square is a part of the final cost. -/
def tunedProblem : Ocp :=
  { Ocp.new { SysModel.new 0 1 with
      x := [2]
      x0 := [3]
      p := [5]
      ode := [(2, some (.sym 4))]
      u := [4]
      uExpr := [.sym 4]
      uPar := [4] } (some [1]) 0 2 with
    L := .mul (.sym 4) (.sym 4)
    V := .add (.mul (.sym 2) (.sym 2)) (.mul (.sym 5) (.sym 5))
    pOpt := [5]
    pOptMin := [⊥]
    pOptMax := [⊤] }

/-- The prepared problem. -/
def tunedPrepared : Ocp := (prepare pontryaginBackend false false 10 20 21 tunedProblem).2

/-- The equations of every element. -/
def tunedDae : Dae := ⟨[2, 10], [leapLaw, leapAdjoint], 0, [], [5], [], some 1⟩

theorem tuned_prepared : prepare pontryaginBackend false false 10 20 21 tunedProblem =
    (.ok (), tunedPrepared) := by
  have : (prepare pontryaginBackend false false 10 20 21 tunedProblem).1 = .ok () := by decide +kernel
  exact Prod.ext this rfl

theorem tuned_added : addedTo tunedProblem tunedPrepared = ⟨[10], [], [], [11]⟩ := by
  have : (addedTo tunedProblem tunedPrepared).lamb = [10] ∧
      (addedTo tunedProblem tunedPrepared).nu = [] ∧
      (addedTo tunedProblem tunedPrepared).eta = [] ∧
      (addedTo tunedProblem tunedPrepared).starts = [11] := by decide +kernel
  obtain ⟨h₁, h₂, h₃, h₄⟩ := this
  cases h : addedTo tunedProblem tunedPrepared
  simp_all

theorem tuned_problem : IndirectProblem tunedProblem where
  horizon := by decide +kernel
  complete := by unfold Complete; decide +kernel
  starts := rfl
  controls := by decide
  free := by decide
  parameters := by decide
  thetas := by decide
  tags := by decide
  tagged := by decide
  sized := by constructor <;> decide +kernel
  unlimited := by decide +kernel

theorem tuned_dae (el : Nat) (hel : el < 2) (d : Dae) (h : tunedPrepared.elementDae 2 el = .ok d) :
    d = tunedDae := by
  have : (tunedPrepared.elementDae 2 el).toOption = some tunedDae := by
    match el, hel with
    | 0, _ => decide +kernel
    | 1, _ => decide +kernel
  rw [h] at this
  exact Option.some.inj this

/-- The exact integrator. -/
noncomputable def tunedInteg : DaeIntegrator ℝ := fun d t t' x _ =>
  if d = tunedDae then ([x.getD 0 0 + -(x.getD 1 0 / 2) * (t' - t), x.getD 1 0], []) else ([], [])

theorem tunedInteg_exact (ops : Expr.Ops ℝ) (a b : ℝ) (hab : a ≤ b) :
    ExactShots ops tunedInteg tunedDae a b where
  sized _ _ _ _ := by simp [tunedInteg, tunedDae]
  exact par Y h := by
    have h₂ := linear_of_derivative (f := fun r => Y r 10) (c := 0) hab (fun t ht => by
      have := h.ode t ht 1 10 leapAdjoint rfl rfl
      simpa [leapAdjoint, Expr.eval] using this)
    have h₃ : ∀ t ∈ Icc a b, Y t 10 = Y a 10 := by
      intro t ht
      have := linear_of_derivative (f := fun r => Y r 10) (b := t) (c := 0) ht.1 (fun r hr => by
        have := h.ode r ⟨hr.1, hr.2.trans ht.2⟩ 1 10 leapAdjoint rfl rfl
        have : HasDerivWithinAt (fun r => Y r 10) 0 (Icc a b) r := by
          simpa [leapAdjoint, Expr.eval] using this
        exact this.mono (Icc_subset_Icc le_rfl ht.2))
      simpa using this
    have h₁ := linear_of_derivative (f := fun r => Y r 2) (c := -(Y a 10 / 2)) hab (fun t ht => by
      have := h.ode t ht 0 2 leapLaw rfl rfl
      have e : Expr.eval ops (Y t) leapLaw = -(Y a 10 / 2) := by
        simp [leapLaw, Expr.eval, h₃ t ht]
        ring
      rwa [e] at this)
    simp only [tunedInteg, if_true]
    simp only [tunedDae, List.map_cons, List.map_nil, List.getD_cons_zero, List.getD_cons_succ]
    rw [h₁, h₂]
    simp

theorem tuned_hamiltonian_value (σ : Sym → ℝ) :
    hamiltonianAt (minMaxOps ℝ) tunedProblem [10] [] σ = σ 4 * σ 4 + σ 10 * σ 4 := by
  rw [← eval_hamiltonian (minMaxOps ℝ) σ tunedProblem [10] []
    (.add (.add (.mul (.sym 4) (.sym 4)) (Expr.dot [.sym 10] [.sym 4])) (Expr.dot [] [])) rfl]
  simp [Expr.eval, Expr.dot]

theorem tuned_solvable (ρ : Sym → ℝ) : SolvableControls (minMaxOps ℝ) pontryaginBackend tunedProblem
    (.add (.add (.mul (.sym 4) (.sym 4)) (Expr.dot [.sym 10] [.sym 4])) (Expr.dot [] [])) ρ := by
  have hq : QuadraticInControls (minMaxOps ℝ) plainTable
      (.add (.add (.mul (.sym 4) (.sym 4)) (Expr.dot [.sym 10] [.sym 4])) (Expr.dot [] [])) [4] ρ
      0 ![ρ 10] !![2] := by
    refine ⟨fun w => ?_, fun w => ?_, fun w s hs => ?_⟩
    · have h4 : assign [4] w ρ 4 = w 0 := assign_get [4] (by decide) w ρ 0
      have h10 : assign [4] w ρ 10 = ρ 10 := assign_not_mem _ _ _ _ (by decide)
      simp [Expr.dot, Expr.eval, h4, h10, quadratic, dotProduct, Matrix.mulVec]
      ring
    · simp [Expr.dot, Expr.SmoothAt]
    · fin_cases hs <;> simp [Expr.dot, Expr.diff, Expr.SmoothAt]
  have hA : StrictlyConvex (!![(2 : ℝ)]) := by
    refine ⟨by ext i j; fin_cases i; fin_cases j; rfl, fun d hd => ?_⟩
    have h0 : d 0 ≠ 0 := fun h => hd (by ext i; fin_cases i; exact h)
    have := mul_self_pos.mpr h0
    simp [dotProduct, Matrix.mulVec]
    linarith
  refine ⟨⟨rfl, by decide⟩, ?_, _, _, _, hq, hA, ?_⟩
  · have hM := hessian_matrix (u := [4]) (by decide) hA.1 hq
    refine Eq.trans ?_ (congrArg _ hM).symm
    symm
    apply Matrix.inv_eq_left_inv
    ext i j
    fin_cases i
    fin_cases j
    show ∑ k : Fin 1, matrixAt (minMaxOps ℝ) ρ 1 [[.const (1 / 2)]] 0 k * (!![(2 : ℝ)]) k 0 = 1
    simp [matrixAt, Expr.eval]
  · intro i j hij
    exact absurd (Subsingleton.elim (α := Fin 1) i j) hij

theorem tuned_shooting (d : Nat) (integ : DaeIntegrator ℝ) :
    ∃ m, tunedPrepared.indirectShooting (minMaxOps ℝ) integ 2 d = .ok m := by
  have h₁ : ShotScope { tunedPrepared with V := .const 0 } false := by
    refine ⟨?_, ?_, ?_, ?_, ?_, ?_⟩ <;> (try unfold InScope) <;> decide +kernel
  have h₂ : ((List.range 2).mapM (tunedPrepared.lawFunction 2)).toOption.isSome = true := by
    decide +kernel
  cases h₃ : (List.range 2).mapM (tunedPrepared.lawFunction 2) with
  | error e => rw [h₃] at h₂; simp [Except.toOption] at h₂
  | ok fs =>
    have h₄ := (Ocp.shooting_ok_iff (minMaxOps ℝ) integ { tunedPrepared with V := .const 0 } 2 d d false
      (by decide) _).mpr ⟨h₁, rfl⟩
    unfold Ocp.indirectShooting
    rw [h₄]
    simp only [bind, Except.bind, h₃]
    exact ⟨_, rfl⟩

/-- The trajectory during an element. -/
noncomputable def tunedPath (b : Blocks ℝ) (el : Nat) (t : ℝ) : Sym → ℝ
  | 0 => t
  | 1 => t - el
  | 2 => shotState b el 0 + -(shotState b el 1 / 2) * (t - el)
  | 3 => 1
  | 4 => -(shotState b el 1 / 2)
  | 5 => b.pOpt.getD 0 0
  | 10 => shotState b el 1
  | _ => 0

theorem tuned_step : stepLength (K := ℝ) tunedProblem pontryaginMesh = 1 := by
  simp [stepLength, tunedProblem, pontryaginMesh, Ocp.new]

theorem tunedPath_extremal (b : Blocks ℝ) (el : Nat) :
    ExtremalPath (minMaxOps ℝ) tunedProblem ⟨[10], [], [], [11]⟩ pontryaginMesh b [1, 0] [0] [[], []] el
      (tunedPath b el) where
  known t _ := {
    time := rfl
    position := by rw [tuned_step]; show t - el = _; ring
    parameters := by
      intro i s hs hn
      exact absurd (List.mem_of_getElem? hs) hn
    optimised := by
      intro i s hs
      match i, hs with
      | 0, hs => cases hs; rfl
    thetas := by intro i s hs; simp [tunedProblem, SysModel.new, Ocp.new] at hs
    optimisedThetas := by intro i s hs; simp [tunedProblem, SysModel.new, Ocp.new] at hs
    starts := by
      intro i s hs
      match i, hs with
      | 0, hs => cases hs; rfl
      | 1, hs => cases hs; rfl
    etas := by intro i s hs; simp at hs }
  start := by
    intro i s hs
    match i, hs with
    | 0, hs =>
      cases hs
      show shotState b el 0 + -(shotState b el 1 / 2) * (nodeTime tunedProblem pontryaginMesh el - el) = _
      rw [nodeTime, tuned_step]
      ring
    | 1, hs => cases hs; rfl
  controls := by
    intro t _
    refine ⟨?_, fun w _ => ?_⟩
    · intro i lo hi h₁ h₂
      obtain ⟨i, hi'⟩ := i
      match i, hi', h₁, h₂ with
      | 0, _, h₁, h₂ =>
        cases h₁
        cases h₂
        exact ⟨by decide, by decide, by simp, by simp⟩
    · rw [tuned_hamiltonian_value, tuned_hamiltonian_value]
      have h4 : assign tunedProblem.model.u w (tunedPath b el t) 4 = w ⟨0, by decide⟩ :=
        assign_get [4] (by decide) w (tunedPath b el t) 0
      have h10 : assign tunedProblem.model.u w (tunedPath b el t) 10 = shotState b el 1 :=
        assign_not_mem _ _ _ _ (by decide)
      rw [h4, h10]
      show -(shotState b el 1 / 2) * -(shotState b el 1 / 2) +
        shotState b el 1 * -(shotState b el 1 / 2) ≤ _
      nlinarith [sq_nonneg (w ⟨0, by decide⟩ + shotState b el 1 / 2)]
  ode := by
    intro t _ s e he
    have hse : s = 2 ∧ e = .sym 4 := by
      by_cases h : s = 2
      · subst h
        have he : some (some (Expr.sym 4)) = some (some e) := he
        exact ⟨rfl, (Option.some.inj (Option.some.inj he)).symm⟩
      · simp [tunedProblem, Ocp.new, Dict.get?] at he
        exact absurd he.1 h
    obtain ⟨rfl, rfl⟩ := hse
    show HasDerivWithinAt (fun r => shotState b el 0 + -(shotState b el 1 / 2) * (r - el))
      (-(shotState b el 1 / 2)) _ t
    have := (((hasDerivAt_id t).sub_const (el : ℝ)).const_mul (-(shotState b el 1 / 2))).const_add
      (shotState b el 0)
    simpa using this.hasDerivWithinAt
  costate := by
    intro t _ i s l hs hl
    match i, hs, hl with
    | 0, hs, hl =>
      cases hs
      cases hl
      have : (fun v => hamiltonianAt (minMaxOps ℝ) tunedProblem [10] []
          (Function.update (tunedPath b el t) 2 v)) = fun _ =>
          tunedPath b el t 4 * tunedPath b el t 4 + tunedPath b el t 10 * tunedPath b el t 4 := by
        funext v
        rw [tuned_hamiltonian_value, Function.update_of_ne (by decide), Function.update_of_ne (by decide)]
      simp only [this, deriv_const, neg_zero]
      exact hasDerivWithinAt_const _ _ (shotState b el 1)
  alg := by intro t _ e he; simp [tunedProblem, SysModel.new, Ocp.new] at he
  stationary := by intro t _ s hs; simp [tunedProblem, SysModel.new, Ocp.new] at hs

theorem tuned_derivatives (b : Blocks ℝ) :
    DerivativesAlong (minMaxOps ℝ) pontryaginBackend.table tunedProblem pontryaginMesh (tunedPath b) := by
  refine ⟨fun el _ t _ e he => ?_, fun e he => ?_⟩
  · have : e = tunedProblem.L ∨ e = .sym 4 := by
      simpa [SysModel.odeVec, tunedProblem, Ocp.new, SysModel.new, Dict.values] using he
    rcases this with rfl | rfl <;> simp [tunedProblem, Expr.SmoothAt]
  · have : e = tunedProblem.V := by simpa [tunedProblem, Ocp.new] using he
    subst this
    simp [tunedProblem, Expr.SmoothAt]

/-- Decision values that fit together: the adjoint is `2 / 3`, the parameter is any. -/
noncomputable def tunedBlocks (c : ℝ) : Blocks ℝ :=
  ⟨[[[1, 2 / 3]], [[2 / 3, 2 / 3]], [[1 / 3, 2 / 3]]], [[[]], [[]]], [[], []], [], [c], [[], []]⟩

theorem tunedBlocks_shape (c : ℝ) : ShootingShape (indirectDims tunedProblem pontryaginMesh) (tunedBlocks c) := by
  refine ⟨⟨?_, rfl, rfl, ?_⟩, ?_, ?_⟩
  · simp [tunedBlocks, Grid, Columns, indirectDims, tunedProblem, pontryaginMesh, controlPoints, SysModel.new, Ocp.new]
  · simp [tunedBlocks, Columns, indirectDims, tunedProblem, pontryaginMesh, SysModel.new, Ocp.new]
  · simp [tunedBlocks, Grid, Columns, indirectDims, tunedProblem, pontryaginMesh, SysModel.new, Ocp.new]
  · simp [tunedBlocks, Grid, Columns, indirectDims, tunedProblem, pontryaginMesh, SysModel.new, Ocp.new]

theorem tunedBlocks_extremal (c : ℝ) : ShotExtremal (minMaxOps ℝ) tunedProblem ⟨[10], [], [], [11]⟩ pontryaginMesh
    (tunedBlocks c) (tunedPath (tunedBlocks c)) := by
  have hn : ∀ el, nodeTime tunedProblem pontryaginMesh el = el := by
    intro el
    rw [nodeTime, tuned_step, one_mul]
  have two : ∀ el < pontryaginMesh.elements, el = 0 ∨ el = 1 := by
    intro el hel
    have : el < 2 := hel
    omega
  refine ⟨?_, ?_, ?_, ?_, ?_, ?_, ?_, ?_⟩
  · intro e he
    simp [tunedProblem, SysModel.new, Ocp.new] at he
    subst he
    simp [Expr.eval, tunedPath, shotState, tunedBlocks]
  · intro el hel i s hs
    match i, hs with
    | 0, hs =>
      cases hs
      rw [hn]
      show _ = shotState _ _ _ + -(shotState _ _ _ / 2) * (_ - _)
      rcases two el hel with rfl | rfl <;> norm_num [shotState, tunedBlocks]
    | 1, hs =>
      cases hs
      show _ = shotState _ _ _
      rcases two el hel with rfl | rfl <;> norm_num [shotState, tunedBlocks]
  · intro el _ i s hs
    simp [tunedProblem, SysModel.new, Ocp.new] at hs
  · intro el hel e he; simp [tunedProblem, Ocp.new] at he
  · intro el hel e he; simp [tunedProblem, Ocp.new] at he
  · intro e he; simp [tunedProblem, Ocp.new] at he
  · intro i s l hs hl
    match i, hs, hl with
    | 0, hs, hl =>
      cases hs
      cases hl
      have : (fun v : ℝ => finalAt (minMaxOps ℝ) tunedProblem []
          (tunedPath (tunedBlocks c) (pontryaginMesh.elements - 1) (nodeTime tunedProblem pontryaginMesh pontryaginMesh.elements))
          (Function.update (tunedPath (tunedBlocks c) (pontryaginMesh.elements - 1)
            (nodeTime tunedProblem pontryaginMesh pontryaginMesh.elements)) 2 v)) = fun v => v * v + c * c := by
        funext v
        simp [finalAt, tunedProblem, Expr.eval, Ocp.new, tunedPath, tunedBlocks]
      rw [this, hn]
      have hd : deriv (fun v : ℝ => v * v + c * c) = fun v => v + v := by
        funext v
        simpa using (((hasDerivAt_id v).mul (hasDerivAt_id v)).add_const (c * c)).deriv
      rw [hd]
      norm_num [tunedPath, shotState, tunedBlocks, pontryaginMesh]
  · intro e he; simp [tunedProblem, Ocp.new] at he

/-- Two elements with two collocation points. -/
def tunedOptions : SolveIndirect.Options := { elements := 2, roots := [1 / 2, 1] }

/-- The new symbols. -/
def tunedNames : SolveIndirect.NewNames where
  base := 10
  xc := 20
  fresh := 21
  var := fun kind el k => match kind with
    | .x => [30 + 10 * el + 2 * k, 31 + 10 * el + 2 * k]
    | .u => [60 + el]
    | .pOpt => [70]
    | _ => []

theorem tuned_declared (roots : List Rat) :
    IndirectDeclared pontryaginBackend (minMaxOps ℝ) { elements := 2, roots := roots } tunedProblem tunedPrepared where
  problem := tuned_problem
  bounds := ⟨pairFits_free 1, pairFits_free 0, pairFits_free 1, pairFits_free 1, pairFits_free 0⟩
  cost := ⟨rfl, rfl⟩
  initial := rfl
  last := by rintro ⟨⟩
  lastSize := by rintro u ⟨⟩
  solvable := by
    intro H hH σ
    rw [tuned_added] at hH
    have : tunedProblem.hamiltonian [10] [] = .ok (.add (.add (.mul (.sym 4) (.sym 4))
      (Expr.dot [.sym 10] [.sym 4])) (Expr.dot [] [])) := rfl
    rw [this] at hH
    cases hH
    exact tuned_solvable σ

theorem tuned_exact (el : Nat) (hel : el < 2) (d : Dae) (hd : tunedPrepared.elementDae 2 el = .ok d)
    (t t' : ℝ) (ht : t < t') : ExactShots (minMaxOps ℝ) tunedInteg d t t' := by
  have := tuned_dae el hel d hd
  subst this
  exact tunedInteg_exact _ _ _ ht.le

theorem tuned_posed : IndirectShotPosed pontryaginBackend (minMaxOps ℝ) tunedInteg tunedOptions tunedNames
    tunedProblem tunedPrepared where
  toIndirectDeclared := tuned_declared _
  elements := by decide
  ends := by unfold PathAtEnds; decide
  newVars := ⟨⟨fun _ _ => rfl, fun _ _ => rfl, fun _ _ => rfl, rfl, rfl, fun _ => rfl⟩, by decide⟩
  exact el hel d hd t t' _ ht _ := tuned_exact el hel d hd t t' ht

/-- The arguments: the initial state is 1, and an initial guess. -/
noncomputable def tunedArgs : SolveArgs ℝ := { x0 := some [1, 0], p := some [0], initialGuess := some [] }

theorem tunedArgs_fit (roots : List Rat)
    (info : List ℝ → Theta ℝ → Except Err (List ℝ)) :
    IndirectArgs tunedProblem { elements := 2, roots := roots } tunedArgs info [1, 0] [0] [[], []] where
  x0 := .inl rfl
  p := .inl rfl
  theta := .inr ⟨rfl, rfl, rfl⟩
  lastU := .inl rfl
  guess := .inr (.inl (by simp [tunedArgs]))

theorem tuned_within (c : ℝ) : WithinIndirect tunedProblem (tunedBlocks c) := by
  have free : ∀ (n : Nat) (col : List ℝ), ColumnWithin (List.replicate n ⊥) (List.replicate n ⊤) col := by
    intro n col i a l u _ hl hu
    rw [List.eq_of_mem_replicate (List.mem_of_getElem? hl),
      List.eq_of_mem_replicate (List.mem_of_getElem? hu)]
    exact ⟨bot_le, le_top⟩
  exact ⟨fun _ _ col _ => free 1 col, fun _ _ col _ => free 0 col, free 1 _, fun col _ => free 0 col⟩

theorem tuned_paths (b : Blocks ℝ) : ExtremalPaths pontryaginBackend (minMaxOps ℝ) tunedProblem
    (addedTo tunedProblem tunedPrepared) (indirectMesh tunedOptions) [1, 0] [0] [[], []] b (tunedPath b) := by
  rw [tuned_added]
  exact ⟨fun el _ => tunedPath_extremal b el, tuned_derivatives b⟩

/-- With every value of the parameter, a trajectory of the problem. -/
theorem tuned_trajectory (c : ℝ) : ControlledTrajectory (minMaxOps ℝ) tunedProblem (indirectMesh tunedOptions) [1, 0] [c]
    [[], []] (tunedPath (tunedBlocks c)) := by
  have E := tunedBlocks_extremal c
  have P := tunedPath_extremal (tunedBlocks c)
  have sub : ∀ el t, t ∈ openTimes tunedProblem (indirectMesh tunedOptions) el →
      t ∈ elementTimes tunedProblem pontryaginMesh el := fun el t ht => ⟨ht.1, ht.2.le⟩
  exact {
    given := fun el _ t ht => {
      time := ((P el).known t ht).time
      position := ((P el).known t ht).position
      parameters := by
        intro i s hs
        match i, hs with
        | 0, hs => cases hs; rfl
      thetas := fun i s hs => ((P el).known t ht).thetas i s hs (by simp [tunedProblem, Ocp.new])
      starts := by
        intro i s hs
        match i, hs with
        | 0, hs => cases hs; rfl }
    initial := E.initial
    joined := by
      intro el hel s hs
      obtain ⟨i, hi, rfl⟩ := List.getElem_of_mem hs
      have h : (tunedProblem.model.x ++ [10])[i]? = some tunedProblem.model.x[i] := by
        rw [List.getElem?_append_left hi]
        exact List.getElem?_eq_getElem hi
      exact ((P (el + 1)).start i _ h).trans (E.states el (Nat.lt_of_succ_lt hel) i _ h)
    continuous := by
      intro el _ s hs t ht
      obtain rfl : s = 2 := by simpa [tunedProblem, Ocp.new, SysModel.new] using hs
      exact ((P el).ode t ht 2 (.sym 4) rfl).continuousWithinAt
    dynamics := fun el _ t ht s e he => Sufficient.right_deriv ((P el).ode t (sub el t ht) s e he) ht
    algebraic := fun el _ t ht => (P el).alg t (sub el t ht)
    controls := fun el _ t ht => ((P el).controls t (sub el t ht)).within
    final := E.final }

/-- The cost: the parameter counts with its square. -/
theorem tuned_cost (c : ℝ) : HasCost (minMaxOps ℝ) tunedProblem (indirectMesh tunedOptions)
    (tunedPath (tunedBlocks c)) (1 / 3 + c ^ 2) := by
  have hn : ∀ el, nodeTime tunedProblem (indirectMesh tunedOptions) el = el := by
    intro el
    have := tuned_step
    show stepLength tunedProblem pontryaginMesh * _ = _
    rw [this, one_mul]
  refine ⟨fun _ t => t / 9, ⟨by norm_num, fun _ _ => rfl, fun el _ => by fun_prop, fun el hel t ht => ?_⟩, ?_⟩
  · have hel' : el = 0 ∨ el = 1 := by
      have : el < 2 := hel
      omega
    have : tunedProblem.L.eval (minMaxOps ℝ) (tunedPath (tunedBlocks c) el t) = 1 / 9 := by
      rcases hel' with rfl | rfl <;> norm_num [tunedProblem, Expr.eval, tunedPath, tunedBlocks, shotState]
    rw [this]
    have h := ((hasDerivAt_id t).div_const 9)
    simpa using h.hasDerivWithinAt
  · rw [hn]
    norm_num [tunedProblem, Ocp.new, Expr.eval, tunedPath, tunedBlocks, shotState, indirectMesh, tunedOptions]
    ring

end Example

open Example in
/-- C187 is not true of problems with parameters to be found. From 1, with `x' = u`, the running cost
`u²` and the final cost `x² + p²`, where `p` is to be found: for every value `c` there is a solver that
returns minimisers, and finds them whenever there are some, with which `solve` succeeds, returns the value
`c` for the parameter, and shows the controls of a trajectory that costs `1 / 3 + c²`. With the value zero
the same controls cost `1 / 3`. -/
theorem C187_parameters_fails (c : ℝ) :
    ∃ solver, GoodSolver (minMaxOps ℝ) solver ∧ CompleteSolver (minMaxOps ℝ) solver ∧
      ∀ sim info, ∃ r, (solve pontryaginBackend (minMaxOps ℝ) tunedInteg tunedOptions tunedNames sim info
          solver tunedArgs ⟨tunedProblem, false, none⟩).1 = .ok r ∧ r.report.success = true ∧
        r.report.pOpt = [c] ∧
        ShowsControls tunedProblem (indirectMesh tunedOptions) (tunedPath (tunedBlocks c)) r.report ∧
        ControlledTrajectory (minMaxOps ℝ) tunedProblem (indirectMesh tunedOptions) [1, 0] [c] [[], []]
          (tunedPath (tunedBlocks c)) ∧
        HasCost (minMaxOps ℝ) tunedProblem (indirectMesh tunedOptions) (tunedPath (tunedBlocks c))
          (1 / 3 + c ^ 2) ∧
        ControlledTrajectory (minMaxOps ℝ) tunedProblem (indirectMesh tunedOptions) [1, 0] [0] [[], []]
          (tunedPath (tunedBlocks 0)) ∧
        HasCost (minMaxOps ℝ) tunedProblem (indirectMesh tunedOptions) (tunedPath (tunedBlocks 0))
          (1 / 3) := by
  obtain ⟨m, hm⟩ := tuned_shooting 2 tunedInteg
  obtain ⟨solver, hg, hc, hs⟩ := C187_choice_fails pontryaginBackend (minMaxOps ℝ) (minMaxOps_ok ℝ) tunedInteg
    tunedOptions tunedNames tunedProblem tunedPrepared tuned_prepared tuned_posed pontryaginMesh_good m hm
    [1, 0] [0] [[], []] ⟨rfl, rfl, by decide⟩ (tunedBlocks c) (tunedBlocks_shape c)
    (tunedPath (tunedBlocks c)) (tuned_paths _) (tuned_within c)
    (by rw [tuned_added]; exact tunedBlocks_extremal c)
  refine ⟨solver, hg, hc, fun sim info => ?_⟩
  obtain ⟨r, h₁, h₂, h₃, h₄⟩ := hs sim info tunedArgs (tunedArgs_fit _ info)
  refine ⟨r, h₁, h₂, ?_, h₄, tuned_trajectory c, tuned_cost c, tuned_trajectory 0, ?_⟩
  · exact h₃.pOpt
  · simpa using tuned_cost 0

end Verif
