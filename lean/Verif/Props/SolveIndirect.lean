import Verif.Lemmas.SolveIndirect
import Verif.Props.SolveDirect
/-!
# C184: solving with an indirect method and a good solver gives an extremal of the user's problem
-/
namespace Verif
open Spec SolveIndirect
open SolveDirect (SolverCall setup)
open Indirect (opFmin opFmax)

/-- C184, for Hamiltonians that are strictly convex quadratic functions of the controls whose Hessian
does not couple a control that has a bound with another one, and without a cost state. Solving with an indirect method (collocation) and a solver that
returns minimisers: the result shows the polynomials of a decision vector together with the controls
that minimise the Hamiltonian, and if the solver reports success then these states and adjoints satisfy
the dynamics, the constraints and the bounds of the user, the equations of the adjoints and the
conditions at the end. -/
theorem C184_solve_partial (B : Backend) (ops : Expr.Ops ℝ) (hops : MinMax ops opFmin opFmax)
    (opts : Options) (names : NewNames) (o q : Ocp)
    (h : Indirect.prepare B false false names.base names.xc names.fresh o = (.ok (), q))
    (hw : IndirectPosed B ops opts names o q) (m : Transcription ℝ)
    (hm : q.indirectTranscription ops opts.roots opts.elements = .ok m)
    (sim info : List ℝ → Theta ℝ → Except Err (List ℝ))
    (solver : SolverCall ℝ → Except Err (RawSolution ℝ)) (a : SolveArgs ℝ) (x0 p : List ℝ)
    (theta : List (List ℝ)) (hd : IndirectData o (indirectMesh opts) x0 p theta)
    (ha : IndirectArgs o opts a info x0 p theta) (hs : GoodSolver ops solver) :
    ∃ r b, (solve B ops opts names sim info solver a ⟨o, false, none⟩).1 = .ok r ∧
      CollocationData (indirectDims o (indirectMesh opts)) b ∧ r.report.raw = Layout.stacked b ∧
      r.x0 = x0 ∧
      (∃ ρ, OptimalValues ops o (addedTo o q) (indirectMesh opts) x0 p theta b ρ) ∧
      ∀ ρ, OptimalValues ops o (addedTo o q) (indirectMesh opts) x0 p theta b ρ →
        ShowsIndirect o (indirectMesh opts) b ρ r.report ∧
        (r.report.success = true → DerivativesKnown ops B.table o (indirectMesh opts) ρ →
          WithinIndirect o b ∧ IndirectSolution ops o (addedTo o q) (indirectMesh opts) b ρ) := by
  have R : Run B ops opts names o q m := ⟨hw, h, hm⟩
  obtain ⟨r, b, call, raw, h₁, h₂, h₃, h₄, h₅, -, h₇, h₈, h₉, -, hfe, -⟩ :=
    solve_core R hops sim info solver a x0 p theta hd ha hs
  refine ⟨r, b, h₁, h₂, h₃, h₅, R.values b x0 p theta hops, fun ρ hρ => ⟨h₄ ρ hρ, fun hsucc hk => ?_⟩⟩
  obtain ⟨raw', hr', -, hM⟩ := hs call
  obtain rfl : raw = raw' := Except.ok.inj (h₇.symm.trans hr')
  have hiff := hfe b h₂ ρ hρ hk
  rw [← h₈] at hiff
  exact hiff.mp (hM (h₉ ▸ hsucc)).feasible

/-- If moreover the solver finds a minimiser whenever there is one, and the collocated conditions have a
solution within the bounds, then the call succeeds. -/
theorem C184_succeeds_partial (B : Backend) (ops : Expr.Ops ℝ) (hops : MinMax ops opFmin opFmax)
    (opts : Options) (names : NewNames) (o q : Ocp)
    (h : Indirect.prepare B false false names.base names.xc names.fresh o = (.ok (), q))
    (hw : IndirectPosed B ops opts names o q) (m : Transcription ℝ)
    (hm : q.indirectTranscription ops opts.roots opts.elements = .ok m)
    (sim info : List ℝ → Theta ℝ → Except Err (List ℝ))
    (solver : SolverCall ℝ → Except Err (RawSolution ℝ)) (a : SolveArgs ℝ) (x0 p : List ℝ)
    (theta : List (List ℝ)) (hd : IndirectData o (indirectMesh opts) x0 p theta)
    (ha : IndirectArgs o opts a info x0 p theta) (hs : GoodSolver ops solver)
    (hcs : CompleteSolver ops solver) (best : Blocks ℝ)
    (hb : CollocationData (indirectDims o (indirectMesh opts)) best) (ρ : Nat → ℝ → Sym → ℝ)
    (hρ : OptimalValues ops o (addedTo o q) (indirectMesh opts) x0 p theta best ρ)
    (hk : DerivativesKnown ops B.table o (indirectMesh opts) ρ) (hwi : WithinIndirect o best)
    (hsol : IndirectSolution ops o (addedTo o q) (indirectMesh opts) best ρ) :
    ∃ r, (solve B ops opts names sim info solver a ⟨o, false, none⟩).1 = .ok r ∧
      r.report.success = true := by
  have R : Run B ops opts names o q m := ⟨hw, h, hm⟩
  obtain ⟨r, b, call, raw, h₁, h₂, h₃, h₄, h₅, -, h₇, h₈, h₉, -, hfe, hzero, hall⟩ :=
    solve_core R hops sim info solver a x0 p theta hd ha hs
  have hmin : CallMinimum ops call { raw with x := Layout.stacked best, f := 0 } := by
    refine ⟨(hfe best hb ρ hρ hk).mpr ⟨hwi, hsol⟩, fun cons f hf => ?_, fun v hv cons f hf => ?_⟩
    · obtain ⟨cons', hv⟩ := hzero best hb
      have hf' : call.value (Layout.stacked best) = .ok (cons, f) := hf
      rw [hv] at hf'
      cases hf'
      rfl
    · obtain ⟨b', hb', rfl⟩ := hall v hv.size
      obtain ⟨cons', hv'⟩ := hzero b' hb'
      rw [hv'] at hf
      cases hf
      exact le_refl _
  obtain ⟨raw', hr', hs'⟩ := hcs call _ hmin
  obtain rfl : raw = raw' := Except.ok.inj (h₇.symm.trans hr')
  exact ⟨r, h₁, h₉.trans hs'⟩

/-- The objective of the result is not the cost of the user: whenever the solver reports success it is
zero, and the result has no final value of a cost state. -/
theorem C184_objective_fails (B : Backend) (ops : Expr.Ops ℝ) (hops : MinMax ops opFmin opFmax)
    (opts : Options) (names : NewNames) (o q : Ocp)
    (h : Indirect.prepare B false false names.base names.xc names.fresh o = (.ok (), q))
    (hw : IndirectPosed B ops opts names o q) (m : Transcription ℝ)
    (hm : q.indirectTranscription ops opts.roots opts.elements = .ok m)
    (sim info : List ℝ → Theta ℝ → Except Err (List ℝ))
    (solver : SolverCall ℝ → Except Err (RawSolution ℝ)) (a : SolveArgs ℝ) (x0 p : List ℝ)
    (theta : List (List ℝ)) (hd : IndirectData o (indirectMesh opts) x0 p theta)
    (ha : IndirectArgs o opts a info x0 p theta) (hs : GoodSolver ops solver) :
    ∃ r, (solve B ops opts names sim info solver a ⟨o, false, none⟩).1 = .ok r ∧ r.xCFinal = none ∧
      (r.report.success = true → r.report.objective = 0) := by
  have R : Run B ops opts names o q m := ⟨hw, h, hm⟩
  obtain ⟨r, b, call, raw, h₁, h₂, h₃, h₄, h₅, h₆, h₇, h₈, h₉, h₁₀, hfe, hzero, -⟩ :=
    solve_core R hops sim info solver a x0 p theta hd ha hs
  refine ⟨r, h₁, h₆, fun hsucc => ?_⟩
  obtain ⟨raw', hr', -, hM⟩ := hs call
  obtain rfl : raw = raw' := Except.ok.inj (h₇.symm.trans hr')
  obtain ⟨cons, hv⟩ := hzero b h₂
  rw [← h₈] at hv
  exact h₁₀.trans ((hM (h₉ ▸ hsucc)).objective _ _ hv)

/-- After a first call of `solve`, whatever it returned, further calls give what they would give as
first calls. -/
theorem C184_again_partial (B : Backend) (ops : Expr.Ops ℝ) (hops : MinMax ops opFmin opFmax)
    (opts : Options) (names : NewNames) (o q : Ocp)
    (h : Indirect.prepare B false false names.base names.xc names.fresh o = (.ok (), q))
    (hw : IndirectPosed B ops opts names o q) (m : Transcription ℝ)
    (hm : q.indirectTranscription ops opts.roots opts.elements = .ok m)
    (sim info sim' info' : List ℝ → Theta ℝ → Except Err (List ℝ))
    (solver solver' : SolverCall ℝ → Except Err (RawSolution ℝ)) (a a' : SolveArgs ℝ) :
    solve B ops opts names sim' info' solver' a'
        (solve B ops opts names sim info solver a ⟨o, false, none⟩).2 =
      solve B ops opts names sim' info' solver' a' ⟨o, false, none⟩ := by
  have R : Run B ops opts names o q m := ⟨hw, h, hm⟩
  obtain ⟨P, hP, hcr⟩ := created R hops
  have h₁ : program B ops opts names ⟨o, false, none⟩ = (.ok P, (⟨q, true, some P⟩ : State ℝ)) := by
    unfold program; exact hcr
  have h₂ : program B ops opts names ⟨q, true, some P⟩ = (.ok P, (⟨q, true, some P⟩ : State ℝ)) := rfl
  rw [solve_eq h₁, solve_eq h₂, solve_eq h₁]

/-- `solve(x_0=...)` with an initial state of the model the user declared raises: the adjoints were
added to the model, and the initial state must have entries for them, though they have no effect. -/
theorem C184_state_size_fails (B : Backend) (ops : Expr.Ops ℝ) (hops : MinMax ops opFmin opFmax)
    (opts : Options) (names : NewNames) (o q : Ocp)
    (h : Indirect.prepare B false false names.base names.xc names.fresh o = (.ok (), q))
    (hw : IndirectPosed B ops opts names o q) (m : Transcription ℝ)
    (hm : q.indirectTranscription ops opts.roots opts.elements = .ok m)
    (sim info : List ℝ → Theta ℝ → Except Err (List ℝ))
    (solver : SolverCall ℝ → Except Err (RawSolution ℝ)) (a : SolveArgs ℝ) (x0 : List ℝ)
    (hx : x0.length = o.model.x.length) (ha : a.x0 = some x0) :
    (solve B ops opts names sim info solver a ⟨o, false, none⟩).1 = .error .exception := by
  have R : Run B ops opts names o q m := ⟨hw, h, hm⟩
  obtain ⟨H, us, hp⟩ := Indirect.prepared_of h
  obtain ⟨P, hP, hcr⟩ := created R hops
  rw [solve_eq (st' := ⟨q, true, some P⟩) (P := P) (by unfold program; exact hcr)]
  have hn : q.model.x.length = o.model.x.length + o.model.x.length := congrArg Dims.nX R.base.dims_eq
  have hpos : 0 < o.model.x.length := List.length_pos_iff.mpr hp.states
  have h₁ : (setup (K := ℝ) opts.common q).initialCondition a.x0 = .error .exception := by
    unfold MethodSetup.initialCondition
    rw [ha]
    refine if_pos ?_
    show x0.length ≠ q.model.x.length
    rw [hn, hx]
    omega
  unfold MethodSetup.callArgs
  rw [h₁]
  rfl

/-- The bounds of states and algebraic variables have no effect: with whatever bounds the user declared
them, a method made for the problem gives the same results. -/
theorem C184_bounds_fails (B : Backend) (ops : Expr.Ops ℝ) (opts : Options) (names : NewNames)
    (o o' : Ocp) (ho : Sized o) (ho' : Sized o')
    (hsame : o' = { o with xMin := o'.xMin, xMax := o'.xMax, yMin := o'.yMin, yMax := o'.yMax })
    (sim info : List ℝ → Theta ℝ → Except Err (List ℝ))
    (solver : SolverCall ℝ → Except Err (RawSolution ℝ)) (a : SolveArgs ℝ) :
    (Indirect.checkBounds o).1 = .ok () ∧ (Indirect.checkBounds o').1 = .ok () ∧
    solve B ops opts names sim info solver a ⟨(Indirect.checkBounds o).2, false, none⟩ =
      solve B ops opts names sim info solver a ⟨(Indirect.checkBounds o').2, false, none⟩ := by
  rw [checkBounds_run o ho, checkBounds_run o' ho']
  refine ⟨rfl, rfl, ?_⟩
  rw [hsame]

/-! ## Example: `x' = u - p x`, the cost `u² + x²`, and `u ≥ -1` -/

namespace Example
open Indirect

/-- Two elements with two collocation points. -/
def extremalOptions : SolveIndirect.Options := { elements := 2, roots := [1 / 2, 1] }

/-- The new symbols. -/
def extremalNames : SolveIndirect.NewNames where
  base := 10
  xc := 20
  fresh := 21
  var := fun kind el k => match kind with
    | .x => [30 + 10 * el + 2 * k, 31 + 10 * el + 2 * k]
    | .u => [60 + el]
    | _ => []

theorem extremal_posed : IndirectPosed pontryaginBackend (minMaxOps ℝ) extremalOptions extremalNames
    pontryaginProblem pontryaginPrepared where
  mesh := pontryaginMesh_good
  problem := pontryagin_problem
  bounds := ⟨pairFits_free 1, pairFits_free 0, ⟨rfl, rfl, by
    intro i a b ha hb
    match i, ha, hb with
    | 0, ha, hb =>
      cases hb
      exact le_top⟩, pairFits_free 0, pairFits_free 0⟩
  attainable := by
    refine ⟨fun _ => 0, fun i lo hi h₁ h₂ => ?_⟩
    obtain ⟨i, hi'⟩ := i
    match i, hi', h₁, h₂ with
    | 0, _, h₁, h₂ =>
      simp only [pontryaginProblem, Ocp.new, List.getElem?_cons_zero, Option.some.injEq,
        List.length_singleton, List.replicate_one] at h₁ h₂
      subst h₁ h₂
      refine ⟨by simp, by simp, fun q hq => ?_, by simp⟩
      have : q = -1 := (WithTop.coe_injective (WithBot.coe_injective hq)).symm
      rw [this]
      norm_num
  newVars := ⟨⟨fun _ _ => rfl, fun _ _ => rfl, fun _ _ => rfl, rfl, rfl, fun _ => rfl⟩, by decide⟩
  symbols := by rw [pontryagin_added]; decide
  cost := ⟨rfl, rfl⟩
  initial := rfl
  last := by rintro ⟨⟩
  lastSize := by rintro u ⟨⟩
  solvable := by
    intro H hH σ
    rw [pontryagin_added] at hH
    obtain rfl : pontryaginHamiltonian = H := Except.ok.inj (pontryagin_hamiltonian.symm.trans hH)
    exact pontryagin_solvable σ

/-- The arguments: at rest, the parameter is 3, and an initial guess. -/
noncomputable def extremalArgs : SolveArgs ℝ :=
  { x0 := some [0, 0], p := some [3], initialGuess := some [] }

theorem extremalArgs_fit (info : List ℝ → Theta ℝ → Except Err (List ℝ)) :
    IndirectArgs pontryaginProblem extremalOptions extremalArgs info [0, 0] [3] [[], []] where
  x0 := .inl rfl
  p := .inl rfl
  theta := .inr ⟨rfl, rfl, rfl⟩
  lastU := .inl rfl
  guess := .inr (.inl (by simp [extremalArgs]))

/-- Rest. -/
noncomputable def extremalBlocks : Blocks ℝ where
  x := [[[0, 0], [0, 0], [0, 0]], [[0, 0], [0, 0], [0, 0]]]
  y := [[[], []], [[], []]]
  u := [[], []]
  eta := []
  pOpt := []
  thetaOpt := [[], []]

theorem extremalBlocks_data :
    CollocationData (indirectDims pontryaginProblem (indirectMesh extremalOptions)) extremalBlocks where
  u := by unfold Grid Columns; decide
  eta := rfl
  pOpt := rfl
  thetaOpt := by unfold Columns; decide
  x := ⟨rfl, fun el hel => by
    simp only [extremalBlocks, List.mem_cons, List.not_mem_nil, or_false, or_self] at hel
    subst hel
    exact ⟨rfl, fun col hcol => by
      simp only [List.mem_cons, List.not_mem_nil, or_false, or_self] at hcol
      subst hcol
      rfl⟩⟩
  y := by unfold Grid Columns; decide

theorem extremal_states (el : Nat) (hel : el < 2) (i : Nat) :
    statePoly (indirectMesh extremalOptions) extremalBlocks el i = 0 := by
  refine Transcription.through_eq (by
      have : (0 :: (indirectMesh extremalOptions).roots).Nodup := by decide +kernel
      have h := this.map (Rat.cast_injective (α := ℝ))
      simpa [inField] using h) (by
    rw [Polynomial.natDegree_zero]
    show 0 < 3
    decide) fun j hj => ?_
  rw [Polynomial.eval_zero]
  have hj' : j < 3 := hj
  match el, hel, j, hj', i with
  | 0, _, 0, _, 0 => rfl
  | 0, _, 1, _, 0 => rfl
  | 0, _, 2, _, 0 => rfl
  | 1, _, 0, _, 0 => rfl
  | 1, _, 1, _, 0 => rfl
  | 1, _, 2, _, 0 => rfl
  | 0, _, 0, _, 1 => rfl
  | 0, _, 1, _, 1 => rfl
  | 0, _, 2, _, 1 => rfl
  | 1, _, 0, _, 1 => rfl
  | 1, _, 1, _, 1 => rfl
  | 1, _, 2, _, 1 => rfl
  | 0, _, 0, _, _ + 2 => rfl
  | 0, _, 1, _, _ + 2 => rfl
  | 0, _, 2, _, _ + 2 => rfl
  | 1, _, 0, _, _ + 2 => rfl
  | 1, _, 1, _, _ + 2 => rfl
  | 1, _, 2, _, _ + 2 => rfl

/-- The values of the symbols at rest. -/
noncomputable def extremalValues (el : Nat) (tau : ℝ) : Sym → ℝ := fun s =>
  if s = 0 then stepLength pontryaginProblem (indirectMesh extremalOptions) * ((el : ℝ) + tau)
  else if s = 1 then tau else if s = 5 then 3 else 0

theorem extremal_hamiltonian (τ : Sym → ℝ) : hamiltonianAt (minMaxOps ℝ) pontryaginProblem [10] [] τ =
    τ 4 * τ 4 + τ 2 * τ 2 + τ 10 * (τ 4 - τ 5 * τ 2) := by
  rw [← eval_hamiltonian (minMaxOps ℝ) τ pontryaginProblem _ _ _ pontryagin_hamiltonian]
  simp [pontryaginHamiltonian, Expr.dot, Expr.eval]

theorem extremal_values : OptimalValues (minMaxOps ℝ) pontryaginProblem ⟨[10], [], [], [11]⟩
    (indirectMesh extremalOptions) [0, 0] [3] [[], []] extremalBlocks extremalValues where
  reads := by
    intro el hel tau
    have hz := extremal_states el hel
    refine ⟨rfl, rfl, fun i s hi => ?_, fun i s hi => ?_, fun i s hi _ => ?_, fun i s hi => ?_,
      fun i s hi => ?_, fun i s hi => ?_, fun i s hi => ?_, fun i s hi => ?_⟩
    · rw [hz i, Polynomial.eval_zero]
      match i, hi with
      | 0, hi => cases hi; rfl
      | 1, hi => cases hi; rfl
    · cases hi
    · match i, hi with
      | 0, hi => cases hi; rfl
    · cases hi
    · cases hi
    · cases hi
    · match i, hi with
      | 0, hi => cases hi; rfl
      | 1, hi => cases hi; rfl
    · cases hi
  controls := by
    intro el hel tau
    refine ⟨fun i lo hi h₁ h₂ => ?_, fun w hw => ?_⟩
    · obtain ⟨i, hi'⟩ := i
      match i, hi', h₁, h₂ with
      | 0, _, h₁, h₂ =>
        simp only [pontryaginProblem, Ocp.new, List.getElem?_cons_zero, Option.some.injEq,
          List.length_singleton, List.replicate_one] at h₁ h₂
        subst h₁ h₂
        refine ⟨by simp, by simp, fun q hq => ?_, by simp⟩
        have : q = -1 := (WithTop.coe_injective (WithBot.coe_injective hq)).symm
        rw [this]
        show ((-1 : ℚ) : ℝ) ≤ 0
        norm_num
    · have h2 : assign pontryaginProblem.model.u w (extremalValues el tau) 2 = 0 :=
        (assign_not_mem _ _ _ _ (by decide)).trans rfl
      have h10 : assign pontryaginProblem.model.u w (extremalValues el tau) 10 = 0 :=
        (assign_not_mem _ _ _ _ (by decide)).trans rfl
      rw [extremal_hamiltonian, extremal_hamiltonian, h2, h10]
      simp only [extremalValues]
      norm_num
      exact mul_self_nonneg _

theorem extremal_known : DerivativesKnown (minMaxOps ℝ) pontryaginBackend.table pontryaginProblem
    (indirectMesh extremalOptions) extremalValues := by
  refine ⟨fun el _ tau _ e he => ?_, fun e he => ?_⟩
  · have : e = pontryaginProblem.L ∨ e = .sub (.sym 4) (.mul (.sym 5) (.sym 2)) := by
      simpa [SysModel.odeVec, pontryaginProblem, Ocp.new, SysModel.new, Dict.values] using he
    rcases this with rfl | rfl <;> simp [pontryaginProblem, Expr.SmoothAt]
  · have : e = pontryaginProblem.V := by
      simpa [pontryaginProblem, Ocp.new] using he
    subst this
    simp [pontryaginProblem, Expr.SmoothAt]

theorem extremal_within : WithinIndirect pontryaginProblem extremalBlocks := by
  have free : ∀ (n : Nat) (col : List ℝ), ColumnWithin (List.replicate n ⊥) (List.replicate n ⊤) col := by
    intro n col i a l u _ hl hu
    rw [List.eq_of_mem_replicate (List.mem_of_getElem? hl),
      List.eq_of_mem_replicate (List.mem_of_getElem? hu)]
    exact ⟨bot_le, le_top⟩
  exact ⟨fun _ _ col _ => free 1 col, fun _ _ col _ => free 0 col, free 0 _, fun col _ => free 0 col⟩

theorem extremal_solution : IndirectSolution (minMaxOps ℝ) pontryaginProblem ⟨[10], [], [], [11]⟩
    (indirectMesh extremalOptions) extremalBlocks extremalValues where
  initial := by
    intro e he
    have : e = .sub (.sym 2) (.sym 3) := by
      simpa [pontryaginProblem, Ocp.new] using he
    subst this
    simp [Expr.eval, extremalValues]
  continuous := by
    intro el hel
    have : el < 1 := Nat.lt_of_succ_lt_succ hel
    obtain rfl : el = 0 := by omega
    rfl
  dynamics := by
    intro el hel tau _ i s e hs he
    rw [extremal_states el hel, Polynomial.derivative_zero, Polynomial.eval_zero]
    match i, hs with
    | 0, hs =>
      cases hs
      cases he
      simp [Expr.eval, extremalValues]
  costate := by
    intro el hel tau _ i s hs
    rw [extremal_states el hel, Polynomial.derivative_zero, Polynomial.eval_zero]
    match i, hs with
    | 0, hs =>
      cases hs
      have : (fun v => hamiltonianAt (minMaxOps ℝ) pontryaginProblem [10] []
          (Function.update (extremalValues el tau) 2 v)) = fun v => v * v := by
        funext v
        rw [extremal_hamiltonian]
        simp [extremalValues]
      rw [this]
      simp [extremalValues]
  algebraic := by intro _ _ _ _ e he; cases he
  stationary := by intro _ _ _ _ e he; cases he
  inequalities := by intro _ _ i e _ he; cases he
  equalities := by intro _ _ i e _ he; cases he
  final := by intro e he; cases he
  transversality := by
    intro i s l hs hl
    match i, hs, hl with
    | 0, hs, hl =>
      cases hs
      cases hl
      have : (fun v => finalAt (minMaxOps ℝ) pontryaginProblem []
          (extremalValues ((indirectMesh extremalOptions).elements - 1) 1)
          (Function.update (extremalValues ((indirectMesh extremalOptions).elements - 1) 1) 2 v)) =
          fun v => v * v := by
        funext v
        simp [finalAt, pontryaginProblem, Ocp.new, Expr.eval]
      rw [this]
      simp [extremalValues]
  timeless := by intro e he; cases he

end Example

open Example in
/-- The hypotheses of `C184_solve_partial`, `C184_succeeds_partial`, `C184_objective_fails` and
`C184_again_partial` are met: the call succeeds, and the objective is zero. -/
example (sim info : List ℝ → Theta ℝ → Except Err (List ℝ)) :
    ∃ r, (solve pontryaginBackend (minMaxOps ℝ) extremalOptions extremalNames sim info
      (bestSolver (minMaxOps ℝ)) extremalArgs ⟨pontryaginProblem, false, none⟩).1 = .ok r ∧
      r.report.success = true ∧ r.report.objective = 0 := by
  obtain ⟨m, hm⟩ := pontryagin_transcribed
  obtain ⟨r, h₁, h₂⟩ := C184_succeeds_partial pontryaginBackend (minMaxOps ℝ) (minMaxOps_ok ℝ)
    extremalOptions extremalNames pontryaginProblem pontryaginPrepared pontryagin_prepared extremal_posed
    m hm sim info (bestSolver (minMaxOps ℝ)) extremalArgs [0, 0] [3] [[], []] ⟨rfl, rfl, by decide⟩
    (extremalArgs_fit info) (bestSolver_good _) (bestSolver_complete _) extremalBlocks extremalBlocks_data
    extremalValues (by rw [pontryagin_added]; exact extremal_values) extremal_known extremal_within
    (by rw [pontryagin_added]; exact extremal_solution)
  obtain ⟨r', h₁', -, h₂'⟩ := C184_objective_fails pontryaginBackend (minMaxOps ℝ) (minMaxOps_ok ℝ)
    extremalOptions extremalNames pontryaginProblem pontryaginPrepared pontryagin_prepared extremal_posed
    m hm sim info (bestSolver (minMaxOps ℝ)) extremalArgs [0, 0] [3] [[], []] ⟨rfl, rfl, by decide⟩
    (extremalArgs_fit info) (bestSolver_good _)
  obtain rfl : r = r' := Except.ok.inj (h₁.symm.trans h₁')
  exact ⟨r, h₁, h₂, h₂' h₂⟩

open Example in
/-- The hypotheses of `C184_bounds_fails` are met: bounds on the state do not change the result. -/
example (sim info : List ℝ → Theta ℝ → Except Err (List ℝ))
    (solver : SolverCall ℝ → Except Err (RawSolution ℝ)) :
    solve pontryaginBackend (minMaxOps ℝ) extremalOptions extremalNames sim info solver extremalArgs
        ⟨(Indirect.checkBounds { pontryaginProblem with xMax := [XRat.fin 1] }).2, false, none⟩ =
      solve pontryaginBackend (minMaxOps ℝ) extremalOptions extremalNames sim info solver extremalArgs
        ⟨(Indirect.checkBounds pontryaginProblem).2, false, none⟩ :=
  (C184_bounds_fails pontryaginBackend (minMaxOps ℝ) extremalOptions extremalNames _ pontryaginProblem
    (by constructor <;> decide +kernel) pontryagin_problem.sized rfl sim info solver extremalArgs).2.2

open Example in
/-- The hypotheses of `C184_state_size_fails` are met. -/
example (sim info : List ℝ → Theta ℝ → Except Err (List ℝ))
    (solver : SolverCall ℝ → Except Err (RawSolution ℝ)) :
    (solve pontryaginBackend (minMaxOps ℝ) extremalOptions extremalNames sim info
      solver { x0 := some [1] } ⟨pontryaginProblem, false, none⟩).1 = .error .exception := by
  obtain ⟨m, hm⟩ := pontryagin_transcribed
  exact C184_state_size_fails pontryaginBackend (minMaxOps ℝ) (minMaxOps_ok ℝ)
    extremalOptions extremalNames pontryaginProblem pontryaginPrepared pontryagin_prepared extremal_posed
    m hm sim info solver _ [1] rfl rfl

end Verif
