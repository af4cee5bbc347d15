import Verif.Lemmas.AugLagDirect
import Verif.Props.AugLagConvex
import Verif.Props.SolveAugLag
/-!
# C190: for convex problems the augmented Lagrangian around a direct method meets its tolerance
-/
namespace Verif
open Spec SolveDirect Direct AugLagDirect

variable {K : Type} [Field K] [LinearOrder K] [IsStrictOrderedRing K]

/-- A call of `solve`, after any number of earlier calls, for a convex problem: if the solver of the
nonlinear programs finds the solutions that exist, the relaxed problems have solutions and the problem has
a solution with multipliers, then with enough iterations (the distance of the multipliers from those of
the solution, divided by what every iteration takes off it) the call succeeds and the result shows an
error below the tolerance. The trajectories it returns satisfy the relaxed equations up to the tolerance
and everything else exactly, and their cost is close to the smallest one. -/
theorem C190_direct (ops : Expr.Ops K) (M : SolveAugLag.Method K) (next : Sym) (o : Ocp)
    (a : Relax.Args) (mu0 : Rat) (st : SolveAugLag.State K)
    (sim info : List K → Theta K → Except Err (List K))
    (solver : SolverCall K → Except Err (RawSolution K)) (dual : Report K → List K × List K)
    (args : SolveArgs K) (x0 p : List K) (theta : List (List K))
    (w : Nat → K) (lam : Nat → Nat → Nat → K) (best : Blocks K × (Nat → K → Sym → K)) (w0 m0 V : K)
    (h : RelaxDeclared K M.opts M.names next o a) (hcfg : Configured M o a) (hu : Updates M)
    (hmatch : ControlsMatch (mesh M.opts)) (hmu : 0 ≤ mu0)
    (hst : AugLagReached ops M o (mu0 : K) (relaxedBy M.opts next mu0 a o) st)
    (hd : DataFits o (mesh M.opts) x0 p theta) (ha : RelaxArgsFit o M.opts args sim info x0 p theta)
    (hs : GoodSolver ops solver) (hcs : CompleteSolver ops solver) (hno : M.noUpdate = false)
    (hopt : o.pOpt = [] ∧ o.thetaOpt = []) (hpos : o.positiveObjective = false)
    (hx : ConvexExprs ops o) (hcv : Converging M.al)
    (hq : QuadratureWeights (mesh M.opts) w) (hw0 : 0 < w0)
    (hw : ∀ j < M.opts.roots.length, w0 ≤ stepLength o (mesh M.opts) * w j)
    (hsol : RelaxedSolvable (relaxedProgram ops o a (mesh M.opts) x0 p theta) M.al
      fun j => stepLength o (mesh M.opts) * w j)
    (hb : SolutionWith (relaxedProgram ops o a (mesh M.opts) x0 p theta) M.al
      (fun j => stepLength o (mesh M.opts) * w j) lam best)
    (hm0 : 0 < m0) (hrange : ∀ m ∈ st.al.mu, m0 ≤ m ∧ m ≤ M.al.muMax)
    (hV : multiplierGap M.al (fun j => stepLength o (mesh M.opts) * w j) lam (st.al.nuTilde.getD st.al.nu)
      st.al.mu ≤ V)
    (hn : V < M.al.maxIter * (w0 * (m0 * M.al.tol ^ 2))) :
    ∃ r st' e b b' ρ, SolveAugLag.solve ops M sim info solver dual args st = (.ok r, st') ∧
      r.report.success = true ∧ r.error = some e ∧ Met M.al e ∧ r.report.raw = Layout.stacked b' ∧
      Shows (relaxedBy M.opts next mu0 a o) (mesh M.opts) b' r.report ∧
      SameTrajectory o (mesh M.opts) (a.algVar o) b b' ∧
      NearDecision ops o (mesh M.opts) (a.alg o) M.al.tol x0 p theta b ρ ∧
      directCost ops o (mesh M.opts) best.1 best.2 ≤ directCost ops o (mesh M.opts) b ρ +
        M.al.tol * (total M.al fun el j i => stepLength o (mesh M.opts) * w j * |lam el j i|) ∧
      ∀ B, 0 ≤ B → V * M.al.muMax ≤ w0 * B ^ 2 →
        directCost ops o (mesh M.opts) b ρ ≤ directCost ops o (mesh M.opts) best.1 best.2 +
          M.al.tol * total M.al fun el j i => stepLength o (mesh M.opts) * w j * (|lam el j i| + B) := by
  obtain ⟨s', h₁, h₂⟩ := RelaxDirect.construct_run mu0 a M.opts.roots M.opts.roots.length o next h.relaxable
    h.only.1 h.only.2 (fun _ => rfl) (RelaxDirect.exprsBelow h.scope h.below)
    (h.below _ (by simp [problemSymbols]))
  have hqq : relaxedBy M.opts next mu0 a o = s'.problem := by unfold relaxedBy; rw [h₁]
  rw [hqq] at hst ⊢
  obtain ⟨m, S, P, C⟩ := SolveAugLag.ctx ops h hcfg hu h₂
  have hi := C.inv_reached (by exact_mod_cast hmu) hst
  have hstep : (0 : K) < stepLength o (mesh M.opts) := by
    unfold stepLength
    exact div_pos (sub_pos.2 (by exact_mod_cast h.problem.horizon)) (by exact_mod_cast h.mesh.elements)
  have hwj : ∀ j < M.opts.roots.length, 0 ≤ w j := fun j hj => by
    have := hw0.trans_le (hw j hj)
    exact (pos_of_mul_pos_right this hstep.le).le
  have hpq : PositiveQuadrature K (mesh M.opts) := by
    intro f hf hder
    rw [hq f hf]
    refine le_add_of_nonneg_right (Finset.sum_nonneg fun j hj => ?_)
    have hj := Finset.mem_range.1 hj
    have hj' : j < (inField (mesh M.opts).roots : List K).length := by simpa [inField] using hj
    refine mul_nonneg (hwj j hj) (hder _ ?_)
    rw [List.getD_eq_getElem?_getD, List.getElem?_eq_getElem hj', Option.getD_some]
    exact List.getElem_mem _
  have hww : ∀ j < M.al.degree, w0 ≤ stepLength o (mesh M.opts) * w j := fun j hj =>
    hw j (by rw [← hcfg.degree.1]; exact hj)
  have hcount : st.al.mu.length = M.al.nRelax := by rw [hcfg.count]; exact hi.count
  have hg : AugLag.Going M.al m0 st.al := ⟨hcount, fun v hv => ⟨hm0.trans_le (hrange v hv).1, (hrange v hv).2⟩,
    fun i hi => by
      rw [List.getD_eq_getElem?_getD, List.getElem?_eq_getElem (by omega), Option.getD_some]
      exact (hrange _ (List.getElem_mem _)).1⟩
  have hconv := relaxed_convex (x0 := x0) (p := p) (theta := theta) ops h hcfg.elements hcfg.count hpos hopt hpq hx
  obtain ⟨r, st', b, b', ρ, k₁, k₂, k₃, k₄, k₅⟩ := loop C hmatch hpos hopt hq hd hs hcs dual hno hcv hconv hsol
    hw0 hm0 hww hb M.al.maxIter none V hi ha hg hV hn
  obtain ⟨e, he, hme⟩ := k₅.met
  obtain ⟨mu, viol, p₁, p₂, p₃, p₄, p₅⟩ := k₅.solved
  have hsmall := p₃.residual_lt p₅
  obtain ⟨hlow, hhigh⟩ := p₃.cost_near hw0 hww p₁ p₂ hb hcv.tol hsmall p₄
  refine ⟨⟨r.report, r.xCFinal, args.x0, st'.al.lastError⟩, st', e, b, b', ρ, ?_, k₅.success, he, hme, k₂, k₃, k₄,
    ⟨p₃.feasible.1, ?_⟩, hlow, hhigh⟩
  · unfold SolveAugLag.solve
    simp only [Py.bind_eq]
    rw [Py.bind_ok k₁]
    rfl
  · intro el hel tau ht e' he'
    obtain ⟨j, hj, rfl⟩ := List.mem_iff_getElem.1 ht
    obtain ⟨i, hi, rfl⟩ := List.mem_iff_getElem.1 he'
    have hj' : j < M.al.degree := by
      rw [hcfg.degree.1]
      simpa [inField, mesh] using hj
    have hi' : i < M.al.nRelax := by
      rw [hcfg.count, ← entriesAt_length _ _ h.relaxable.equations.2]; exact hi
    have := (hsmall el (by rw [hcfg.elements]; exact hel) j hj' i hi').le
    have hres : (relaxedProgram ops o a (mesh M.opts) x0 p theta).residual (b, ρ) el j i =
        ((entriesAt o.model.alg (a.alg o)).map
          (Expr.eval ops (ρ el ((inField (mesh M.opts).roots).getD j 0)))).getD i 0 := rfl
    rw [hres, mem_entries_getD hi, List.getD_eq_getElem?_getD, List.getElem?_eq_getElem hj, Option.getD_some] at this
    exact this

/-! ## Example: two terms of the cost pull an algebraic variable and the control apart -/

namespace Example

/-- The state moves with the control, the algebraic variable has to equal the control. The cost pulls the
variable to zero and the control to one. -/
def meetProblem : Ocp :=
  { copyProblem with
    L := .add (.mul (.sym 5) (.sym 5)) (.mul (.sub (.sym 4) (.const 1)) (.sub (.sym 4) (.const 1))) }

theorem meet_declared : RelaxDeclared Rat copyOptions copyNames 10 meetProblem copyArgs where
  mesh := copy_declared.mesh
  controlRoots := by decide +kernel
  initial := rfl
  problem := {
    horizon := by decide +kernel
    complete := by unfold Complete; decide +kernel
    starts := rfl
    controls := by decide
    apart := by unfold ControlsApart; decide +kernel
    parameters := by decide
    thetas := by decide
    tags := by decide
    tagged := by decide
    equations := by decide }
  scope := ⟨by decide +kernel, by decide +kernel, by decide, by decide, by decide +kernel⟩
  symbols := by decide
  bounds := ⟨pairFits_free 1, pairFits_free 1, pairFits_free 1, pairFits_free 0, pairFits_free 0⟩
  limits := ⟨rfl, rfl, (pairFits_free 1).uncrossed, by rintro u ⟨⟩⟩
  last := ⟨rfl, by unfold NoRateLimits; decide, rfl⟩
  relaxable := {
    sized := by constructor <;> decide
    distinctVariables := by decide
    distinctEquations := by decide
    square := rfl
    nonempty := by decide
    equations := by decide
    chosen := by decide
    same := rfl
    guessSize := by rintro g ⟨⟩
    guesses := by decide }
  only := ⟨by decide, rfl⟩
  below := by decide
  later := by decide
  different := by decide
  base := by decide
  newVars := ⟨⟨fun _ _ => rfl, fun _ _ => rfl, fun _ _ => rfl, rfl, rfl, fun _ => rfl⟩, by decide⟩

/-- Five iterations, with a constant penalty. -/
def meetMethod : SolveAugLag.Method Rat where
  opts := copyOptions
  names := copyNames
  al := { roots := fun _ => [1 / 3, 1], t0 := 0, tf := 1, nRelax := 1, nuDegree := 2, degree := 2,
          elements := 1, maxIter := 5, tol := 1 / 10, muMax := 1000, beta := 1, minDecrease := 1 / 2 }
  noUpdate := false
  relaxedAlg := [.sub (.sym 5) (.sym 4)]
  relaxedEq := []

theorem meet_configured : Configured meetMethod meetProblem copyArgs where
  relaxedAlg := rfl
  relaxedEq := rfl
  count := rfl
  degree := ⟨rfl, rfl⟩
  points := by decide +kernel
  elements := rfl
  horizon := by decide +kernel

theorem meet_updates : Updates meetMethod where
  plain := .inr ⟨rfl, rfl, rfl, .inr (by decide)⟩
  nonnegative := by decide +kernel

/-- The weights of the two Radau points. -/
def meetWeights (j : Nat) : Rat := [3 / 4, 1 / 4].getD j 0

theorem meet_weights : QuadratureWeights (mesh copyOptions) meetWeights := by
  intro f hf
  have hf' : f.natDegree < 3 := Nat.lt_succ_of_le hf
  show f.eval 1 = f.eval 0 + ∑ j ∈ Finset.range 2, meetWeights j * f.derivative.eval
    ((inField (K := Rat) [1 / 3, 1]).getD j 0)
  rw [f.as_sum_range_C_mul_X_pow' hf']
  simp [Finset.sum_range_succ, meetWeights, inField]
  ring

theorem meet_convex (ops : Expr.Ops Rat) : ConvexExprs ops meetProblem where
  affine := by
    intro e he t ρ₁ ρ₂ _ _ _
    have : e = .sym 4 ∨ e = .sub (.sym 5) (.sym 4) ∨ e = .sub (.sym 2) (.sym 3) := by
      have he : e ∈ [Expr.sym 4, .sub (.sym 5) (.sym 4), .sub (.sym 2) (.sym 3)] := he
      simpa using he
    rcases this with rfl | rfl | rfl <;> simp only [Expr.eval, partWay] <;> ring
  convex := by
    intro e he t ρ₁ ρ₂ h₀ h₁ _
    have he : e ∈ [meetProblem.L, .const 0, .const 0] := he
    have he' : e = meetProblem.L ∨ e = .const 0 := by simpa using he
    rcases he' with rfl | rfl
    · simp only [meetProblem, Expr.eval, partWay, Rat.cast_one]
      have h₂ : 0 ≤ t * (1 - t) := mul_nonneg h₀ (by linarith)
      nlinarith [mul_nonneg h₂ (sq_nonneg (ρ₁ 5 - ρ₂ 5)), mul_nonneg h₂ (sq_nonneg (ρ₁ 4 - ρ₂ 4))]
    · simp [Expr.eval]

/-- The relaxed program of the example. -/
noncomputable def meetProgram (ops : Expr.Ops Rat) : RelaxedProgram Rat :=
  relaxedProgram ops meetProblem copyArgs (mesh copyOptions) [1] [] [[]]

/-- The parabola with given value at zero and given derivatives at the two points, at the nodes. -/
noncomputable def parabola (c d₀ d₁ : Rat) : Polynomial Rat :=
  Polynomial.C c + Polynomial.C (d₁ - 3 / 2 * (d₁ - d₀)) * Polynomial.X +
    Polynomial.C (3 / 4 * (d₁ - d₀)) * Polynomial.X ^ 2

/-- The line through two values at the two points. -/
noncomputable def meetLine (v₀ v₁ : Rat) : Polynomial Rat :=
  Polynomial.C (v₀ - (v₁ - v₀) / 2) + Polynomial.C (3 / 2 * (v₁ - v₀)) * Polynomial.X

/-- The blocks of a decision with given values of the variable and the control. -/
noncomputable def meetBlocks (y₀ y₁ u₀ u₁ : Rat) : Blocks Rat :=
  let X := parabola 1 u₀ u₁
  let C := parabola 0 (y₀ * y₀ + (u₀ - 1) * (u₀ - 1)) (y₁ * y₁ + (u₁ - 1) * (u₁ - 1))
  ⟨[[[X.eval 0, C.eval 0], [X.eval (1 / 3), C.eval (1 / 3)], [X.eval 1, C.eval 1]]], [[[y₀], [y₁]]],
    [[[u₀], [u₁]]], [], [], [[]]⟩

theorem meet_roots : (inField (K := Rat) (mesh copyOptions).roots)[0]'(by decide) = 1 / 3 ∧
    (inField (K := Rat) (mesh copyOptions).roots)[1]'(by decide) = 1 := by decide +kernel

theorem meet_lines (v₀ v₁ : Rat) : through (inField (mesh copyOptions).roots) [[v₀], [v₁]] 0 = meetLine v₀ v₁ := by
  refine Transcription.through_eq (List.nodup_cons.mp copy_nodes).2 (by
    show (meetLine v₀ v₁).natDegree < 2
    unfold meetLine
    compute_degree!) fun j hj => ?_
  have hj' : j < 2 := hj
  match j, hj' with
  | 0, _ =>
    rw [meet_roots.1]
    simp [meetLine]; ring
  | 1, _ =>
    rw [meet_roots.2]
    simp [meetLine]; ring

theorem meet_states (y₀ y₁ u₀ u₁ : Rat) (i : Nat) (hi : i < 2) :
    statePoly (mesh copyOptions) (meetBlocks y₀ y₁ u₀ u₁) 0 i =
      ([parabola 1 u₀ u₁, parabola 0 (y₀ * y₀ + (u₀ - 1) * (u₀ - 1)) (y₁ * y₁ + (u₁ - 1) * (u₁ - 1))]).getD i 0 := by
  have hd : ∀ c a b, (parabola c a b).natDegree < 3 := by
    intro c a b
    unfold parabola
    compute_degree!
  match i, hi with
  | 0, _ =>
    refine Transcription.through_eq copy_nodes (hd _ _ _) fun j hj => ?_
    have hj' : j < 3 := hj
    match j, hj' with
    | 0, _ => rfl
    | 1, _ => rfl
    | 2, _ => rfl
  | 1, _ =>
    refine Transcription.through_eq copy_nodes (hd _ _ _) fun j hj => ?_
    have hj' : j < 3 := hj
    match j, hj' with
    | 0, _ => rfl
    | 1, _ => rfl
    | 2, _ => rfl

/-- Values at the two points. -/
structure MeetValues (x : Blocks Rat × (Nat → Rat → Sym → Rat)) (y₀ y₁ u₀ u₁ : Rat) : Prop where
  y : x.2 0 (1 / 3) 5 = y₀ ∧ x.2 0 1 5 = y₁
  u : x.2 0 (1 / 3) 4 = u₀ ∧ x.2 0 1 4 = u₁

/-- All values are possible. -/
theorem meet_point (ops : Expr.Ops Rat) (y₀ y₁ u₀ u₁ : Rat) :
    ∃ x, (meetProgram ops).feasible x ∧ MeetValues x y₀ y₁ u₀ u₁ := by
  have hv := fun el tau => C159_values (K := Rat) meetProblem (mesh copyOptions) (meetBlocks y₀ y₁ u₀ u₁) [1] [] [[]]
    (by decide) (by decide) (by decide) el tau
  choose ρ hρ using hv
  have hu : ∀ tau, ρ 0 tau 4 = (meetLine u₀ u₁).eval tau := by
    intro tau
    rw [(hρ 0 tau).controls 0 4 rfl, ← meet_lines]
    rfl
  have hy : ∀ tau, ρ 0 tau 5 = (meetLine y₀ y₁).eval tau := by
    intro tau
    rw [(hρ 0 tau).algebraics 0 5 rfl, ← meet_lines]
    rfl
  have hx : ρ 0 0 2 = 1 := by
    rw [(hρ 0 0).states 0 2 rfl, meet_states _ _ _ _ 0 (by decide)]
    simp [parabola]
  have l₀ : ∀ a b, (meetLine a b).eval (1 / 3) = a := by intro a b; simp [meetLine]; ring
  have l₁ : ∀ a b, (meetLine a b).eval 1 = b := by intro a b; simp [meetLine]; ring
  have hroot : ∀ tau ∈ (inField (mesh copyOptions).roots : List Rat), tau = 1 / 3 ∨ tau = 1 := by
    intro tau ht
    have ht : tau ∈ inField (K := Rat) [1 / 3, 1] := ht
    simpa [inField] using ht
  have d₀ : ∀ c a b, (parabola c a b).derivative.eval (1 / 3) = a := by intro c a b; simp [parabola]; ring
  have d₁ : ∀ c a b, (parabola c a b).derivative.eval 1 = b := by intro c a b; simp [parabola]; ring
  refine ⟨(meetBlocks y₀ y₁ u₀ u₁, ρ), ⟨⟨?_, fun el _ tau => ?_, ?_, ?_⟩, ?_⟩, ?_⟩
  · exact {
      u := ⟨rfl, fun l hl => by
        rw [List.mem_singleton.1 hl]
        refine ⟨rfl, fun c hc => ?_⟩
        rcases List.mem_pair.1 hc with rfl | rfl <;> rfl⟩
      eta := rfl
      pOpt := rfl
      thetaOpt := ⟨rfl, fun c hc => by rw [List.mem_singleton.1 hc]; rfl⟩
      x := ⟨rfl, fun l hl => by
        rw [List.mem_singleton.1 hl]
        refine ⟨rfl, fun c hc => ?_⟩
        rcases List.mem_cons.1 hc with rfl | hc
        · rfl
        · rcases List.mem_pair.1 hc with rfl | rfl <;> rfl⟩
      y := ⟨rfl, fun l hl => by
        rw [List.mem_singleton.1 hl]
        refine ⟨rfl, fun c hc => ?_⟩
        rcases List.mem_pair.1 hc with rfl | rfl <;> rfl⟩ }
  · have r := hρ el tau
    exact ⟨⟨r.time, r.position, r.controls, r.parameters, r.optimised, r.thetas, r.optimisedThetas, r.starts,
      r.etas⟩, r.states, r.algebraics⟩
  · refine ⟨?_, ?_, ?_, ?_, ?_⟩
    · intro el hel col hcol i a l h ha hl hh
      match i, hl with
      | 0, hl =>
        cases hl; cases hh
        exact ⟨bot_le, le_top⟩
      | 1, hl =>
        cases hl; cases hh
        exact ⟨bot_le, le_top⟩
    · intro el hel col hcol i a l h ha hl hh
      match i, hl with
      | 0, hl =>
        cases hl; cases hh
        exact ⟨bot_le, le_top⟩
    · intro el hel col hcol i a l h ha hl hh
      match i, hl with
      | 0, hl =>
        cases hl; cases hh
        exact ⟨bot_le, le_top⟩
    · intro i a l h ha hl hh
      cases hl
    · intro col _ i a l h ha hl hh
      cases hl
  · refine ⟨?_, ?_, ?_, ?_, ?_, ?_, ?_, ?_, ?_, ?_, ?_⟩
    · intro e he
      rw [List.mem_singleton.mp (show e ∈ [Expr.sub (.sym 2) (.sym 3)] from he)]
      simp only [Expr.eval]
      rw [hx, (hρ 0 0).starts 0 3 rfl]
      simp
    · show (statePoly (mesh copyOptions) (meetBlocks y₀ y₁ u₀ u₁) 0 1).eval 0 = 0
      rw [meet_states _ _ _ _ 1 (by decide)]
      simp [parabola]
    · intro el hel
      exact absurd hel (by show ¬ el + 1 < 1; omega)
    · intro el hel tau ht i s e hs he
      obtain rfl : el = 0 := Nat.lt_one_iff.mp hel
      match i, hs with
      | 0, hs =>
        cases hs
        cases he
        show (statePoly (mesh copyOptions) (meetBlocks y₀ y₁ u₀ u₁) 0 0).derivative.eval tau =
          stepLength meetProblem (mesh copyOptions) * (Expr.sym 4).eval ops (ρ 0 tau)
        rw [meet_states _ _ _ _ 0 (by decide), show stepLength meetProblem (mesh copyOptions) = (1 : Rat) by decide +kernel]
        simp only [Expr.eval, hu, one_mul]
        show (parabola 1 u₀ u₁).derivative.eval tau = _
        rcases hroot tau ht with rfl | rfl
        · rw [d₀, l₀]
        · rw [d₁, l₁]
    · intro el hel tau ht
      obtain rfl : el = 0 := Nat.lt_one_iff.mp hel
      show (statePoly (mesh copyOptions) (meetBlocks y₀ y₁ u₀ u₁) 0 1).derivative.eval tau =
          stepLength meetProblem (mesh copyOptions) * meetProblem.L.eval ops (ρ 0 tau)
      rw [meet_states _ _ _ _ 1 (by decide), show stepLength meetProblem (mesh copyOptions) = (1 : Rat) by decide +kernel]
      simp only [meetProblem, Expr.eval, hu, hy, one_mul, Rat.cast_one]
      show (parabola 0 _ _).derivative.eval tau = _
      rcases hroot tau ht with rfl | rfl
      · rw [d₀, l₀, l₀]
      · rw [d₁, l₁, l₁]
    · intro el hel tau _ e he
      cases he
    · intro el _ i e tag he
      cases he
    · intro el _ i e tag he
      cases he
    · intro el _ before now _ _ i a c lo hi _ _ hlo hhi
      match i, hlo with
      | 0, hlo =>
        cases hlo; cases hhi
        exact ⟨bot_le, le_top⟩
    · intro e he
      cases he
    · intro e he
      cases he
  · intro el hel i hi
    obtain rfl : el = 0 := Nat.lt_one_iff.mp hel
    obtain rfl : i = 0 := List.mem_singleton.mp (show i ∈ [0] from hi)
    show (through (inField (mesh copyOptions).roots) [[y₀], [y₁]] 0).natDegree < 2
    rw [meet_lines]
    unfold meetLine
    compute_degree!
  · exact ⟨⟨(hy _).trans (l₀ _ _), (hy _).trans (l₁ _ _)⟩, ⟨(hu _).trans (l₀ _ _), (hu _).trans (l₁ _ _)⟩⟩

/-- What feasible points cost. -/
theorem meet_cost (ops : Expr.Ops Rat) {x : Blocks Rat × (Nat → Rat → Sym → Rat)}
    (hx : (meetProgram ops).feasible x) {y₀ y₁ u₀ u₁ : Rat} (hv : MeetValues x y₀ y₁ u₀ u₁) :
    (meetProgram ops).cost x = 3 / 4 * (y₀ * y₀ + (u₀ - 1) * (u₀ - 1)) + 1 / 4 * (y₁ * y₁ + (u₁ - 1) * (u₁ - 1)) := by
  have hS := hx.1.solution
  have h0 : (statePoly (mesh copyOptions) x.1 0 1).eval 0 = 0 := hS.costStart
  have hr : ∀ tau ∈ (inField (mesh copyOptions).roots : List Rat),
      (statePoly (mesh copyOptions) x.1 0 1).derivative.eval tau = meetProblem.L.eval ops (x.2 0 tau) := by
    intro tau ht
    have := hS.running 0 (by decide) tau ht
    rw [show stepLength (withoutEquations meetProblem (copyArgs.alg meetProblem)) (mesh copyOptions) = (1 : Rat) by
      decide +kernel, one_mul] at this
    exact this
  have hw := meet_weights (statePoly (mesh copyOptions) x.1 0 1) (RelaxDirect.state_degree copy_declared.mesh x.1 0 1)
  show directCost ops meetProblem (mesh copyOptions) x.1 x.2 = _
  have hc : directCost ops meetProblem (mesh copyOptions) x.1 x.2 =
      (statePoly (mesh copyOptions) x.1 0 1).eval 1 := by
    unfold directCost
    simp [meetProblem, copyProblem, Ocp.new, Expr.eval, mesh, copyOptions]
  rw [hc, hw, h0]
  show 0 + ∑ j ∈ Finset.range 2, meetWeights j * (statePoly (mesh copyOptions) x.1 0 1).derivative.eval
    ((inField (K := Rat) [1 / 3, 1]).getD j 0) = _
  rw [Finset.sum_range_succ, Finset.sum_range_one]
  have e₀ : (inField (K := Rat) [1 / 3, 1]).getD 0 0 = 1 / 3 := by decide +kernel
  have e₁ : (inField (K := Rat) [1 / 3, 1]).getD 1 0 = 1 := by decide +kernel
  rw [e₀, e₁, hr _ (by decide +kernel), hr _ (by decide +kernel)]
  simp only [meetProblem, Expr.eval, Rat.cast_one, hv.y.1, hv.y.2, hv.u.1, hv.u.2, meetWeights]
  simp

/-- The sums over the collocation points. -/
theorem meet_total (F : Nat → Nat → Nat → Rat) : total meetMethod.al F = F 0 0 0 + F 0 1 0 := by
  rw [total_eq]
  simp [meetMethod, Finset.sum_range_succ]

theorem meet_residual (ops : Expr.Ops Rat) {x : Blocks Rat × (Nat → Rat → Sym → Rat)} {y₀ y₁ u₀ u₁ : Rat}
    (hv : MeetValues x y₀ y₁ u₀ u₁) : (meetProgram ops).residual x 0 0 0 = y₀ - u₀ ∧
      (meetProgram ops).residual x 0 1 0 = y₁ - u₁ := by
  have e₀ : (inField (K := Rat) (mesh copyOptions).roots).getD 0 0 = 1 / 3 := by decide +kernel
  have e₁ : (inField (K := Rat) (mesh copyOptions).roots).getD 1 0 = 1 := by decide +kernel
  refine ⟨?_, ?_⟩
  · show x.2 0 ((inField (mesh copyOptions).roots).getD 0 0) 5 -
      x.2 0 ((inField (mesh copyOptions).roots).getD 0 0) 4 = _
    rw [e₀, hv.y.1, hv.u.1]
  · show x.2 0 ((inField (mesh copyOptions).roots).getD 1 0) 5 -
      x.2 0 ((inField (mesh copyOptions).roots).getD 1 0) 4 = _
    rw [e₁, hv.y.2, hv.u.2]

theorem meet_values (x : Blocks Rat × (Nat → Rat → Sym → Rat)) :
    MeetValues x (x.2 0 (1 / 3) 5) (x.2 0 1 5) (x.2 0 (1 / 3) 4) (x.2 0 1 4) := ⟨⟨rfl, rfl⟩, ⟨rfl, rfl⟩⟩

/-- The weights of the example in the integral over the element. -/
def meetSteps (j : Nat) : Rat := stepLength meetProblem (mesh copyOptions) * meetWeights j

theorem meet_steps : meetSteps 0 = 3 / 4 ∧ meetSteps 1 = 1 / 4 := by decide +kernel

/-- At one point the best values are the ones at which the derivatives vanish. -/
theorem meet_least (nu mu y u : Rat) (hmu : 0 < mu) :
    let z := (mu - nu) / (2 + 2 * mu)
    z * z + (1 - z - 1) * (1 - z - 1) + (nu * (z - (1 - z)) + mu * (z - (1 - z)) ^ 2 / 2) ≤
      y * y + (u - 1) * (u - 1) + (nu * (y - u) + mu * (y - u) ^ 2 / 2) := by
  intro z
  have hz : z * (2 + 2 * mu) = mu - nu := div_mul_cancel₀ _ (by positivity)
  have e : nu = mu - z * (2 + 2 * mu) := by linarith
  rw [e]
  nlinarith [sq_nonneg (y - z), sq_nonneg (u - (1 - z)), mul_nonneg hmu.le (sq_nonneg ((y - u) - (2 * z - 1)))]

theorem meet_solvable (ops : Expr.Ops Rat) : RelaxedSolvable (meetProgram ops) meetMethod.al meetSteps := by
  intro nu mu hl hmu
  have hm : 0 < mu.getD 0 0 := by
    match mu, hl with
    | [m], _ => exact hmu m (by simp)
  obtain ⟨x, hx, hv⟩ := meet_point ops
    ((mu.getD 0 0 - multiplierAt meetMethod.al nu 0 0 0) / (2 + 2 * mu.getD 0 0))
    ((mu.getD 0 0 - multiplierAt meetMethod.al nu 0 1 0) / (2 + 2 * mu.getD 0 0))
    (1 - (mu.getD 0 0 - multiplierAt meetMethod.al nu 0 0 0) / (2 + 2 * mu.getD 0 0))
    (1 - (mu.getD 0 0 - multiplierAt meetMethod.al nu 0 1 0) / (2 + 2 * mu.getD 0 0))
  refine ⟨x, hx, fun y hy => ?_⟩
  unfold augmentedCost
  rw [meet_total, meet_total, meet_cost ops hx hv, meet_cost ops hy (meet_values y), (meet_residual ops hv).1,
    (meet_residual ops hv).2, (meet_residual ops (meet_values y)).1, (meet_residual ops (meet_values y)).2,
    meet_steps.1, meet_steps.2]
  have h₀ := meet_least (multiplierAt meetMethod.al nu 0 0 0) (mu.getD 0 0) (y.2 0 (1 / 3) 5) (y.2 0 (1 / 3) 4) hm
  have h₁ := meet_least (multiplierAt meetMethod.al nu 0 1 0) (mu.getD 0 0) (y.2 0 1 5) (y.2 0 1 4) hm
  simp only at h₀ h₁
  linarith

/-- The solution: both are one half. -/
theorem meet_solution (ops : Expr.Ops Rat) :
    ∃ best, SolutionWith (meetProgram ops) meetMethod.al meetSteps (fun _ _ _ => -1) best ∧
      (meetProgram ops).cost best = 1 / 2 := by
  obtain ⟨x, hx, hv⟩ := meet_point ops (1 / 2) (1 / 2) (1 / 2) (1 / 2)
  have hc := meet_cost ops hx hv
  refine ⟨x, ⟨hx, ?_, ?_⟩, by rw [hc]; norm_num⟩
  · intro el hel j hj i hi
    obtain rfl : el = 0 := Nat.lt_one_iff.mp hel
    obtain rfl : i = 0 := Nat.lt_one_iff.mp hi
    have hj : j < 2 := hj
    match j, hj with
    | 0, _ => rw [(meet_residual ops hv).1]; norm_num
    | 1, _ => rw [(meet_residual ops hv).2]; norm_num
  · intro y hy
    rw [hc, meet_total, meet_cost ops hy (meet_values y), (meet_residual ops (meet_values y)).1,
      (meet_residual ops (meet_values y)).2, meet_steps.1, meet_steps.2]
    nlinarith [sq_nonneg (y.2 0 (1 / 3) 5 - 1 / 2), sq_nonneg (y.2 0 1 5 - 1 / 2),
      sq_nonneg (y.2 0 (1 / 3) 4 - 1 / 2), sq_nonneg (y.2 0 1 4 - 1 / 2)]

theorem meet_converging : Converging meetMethod.al where
  discretised := by constructor <;> decide +kernel
  computes := rfl
  updates := rfl
  always := rfl
  rule := .inr (by decide)
  beta := by decide +kernel
  tol := by decide +kernel

theorem meet_gap : multiplierGap meetMethod.al meetSteps (fun _ _ _ => -1)
    ((AugLag.start meetMethod.al 10).nuTilde.getD (AugLag.start meetMethod.al 10).nu)
    (AugLag.start meetMethod.al 10).mu ≤ 1 / 10 := by
  unfold multiplierGap
  rw [meet_total]
  decide +kernel

/-- The method after the constructor. -/
def meetStart : SolveAugLag.State Rat :=
  ⟨⟨{ problem := relaxedBy copyOptions 10 10 copyArgs meetProblem }, none⟩, AugLag.start meetMethod.al 10⟩

end Example

open Example in
/-- The hypotheses of the theorem are met: five iterations are enough, from multipliers zero, and the
trajectories cost at most one tenth less than the best ones. -/
example (ops : Expr.Ops Rat) (sim info : List Rat → Theta Rat → Except Err (List Rat))
    (dual : Report Rat → List Rat × List Rat) :
    ∃ r st' e b ρ, SolveAugLag.solve ops meetMethod sim info (bestSolver ops) dual { initialGuess := some [] }
        meetStart = (.ok r, st') ∧
      r.report.success = true ∧ r.error = some e ∧ Met meetMethod.al e ∧
      NearDecision ops meetProblem (mesh copyOptions) [0] (1 / 10) [1] [] [[]] b ρ ∧
      1 / 2 ≤ directCost ops meetProblem (mesh copyOptions) b ρ + 1 / 10 := by
  obtain ⟨best, hb, hcost⟩ := meet_solution ops
  have hst : AugLagReached ops meetMethod meetProblem ((10 : Rat) : Rat)
      (relaxedBy meetMethod.opts 10 10 copyArgs meetProblem) meetStart := by
    have := AugLagReached.start (ops := ops) (M := meetMethod) (o := meetProblem) (mu0 := 10)
      (q := relaxedBy copyOptions 10 10 copyArgs meetProblem)
    exact this
  have hfit : RelaxArgsFit meetProblem meetMethod.opts { initialGuess := some [] } sim info [1] [] [[]] :=
    ⟨.inr ⟨rfl, rfl⟩, .inr ⟨rfl, rfl⟩, .inr ⟨rfl, rfl⟩, .inr (.inl (by decide))⟩
  have hwj : ∀ j < meetMethod.opts.roots.length, 1 / 4 ≤ stepLength meetProblem (mesh meetMethod.opts) * meetWeights j := by
    intro j hj
    have hj : j < 2 := hj
    match j, hj with
    | 0, _ => decide +kernel
    | 1, _ => decide +kernel
  have hrange : ∀ m ∈ meetStart.al.mu, 10 ≤ m ∧ m ≤ meetMethod.al.muMax := by
    intro m hm
    rw [List.mem_singleton.1 (show m ∈ [(10 : Rat)] from hm)]
    decide +kernel
  have hmain := C190_direct ops meetMethod 10 meetProblem
    copyArgs 10 meetStart sim info (bestSolver ops) dual { initialGuess := some [] } [1] [] [[]]
    meetWeights (fun _ _ _ => -1) best (1 / 4) 10 (1 / 10)
    meet_declared meet_configured meet_updates (.inl rfl) (by decide) hst ⟨rfl, rfl, by decide⟩ hfit
    (bestSolver_good ops) (bestSolver_complete ops) rfl ⟨rfl, rfl⟩ rfl (meet_convex ops) meet_converging
    meet_weights (by norm_num) hwj (meet_solvable ops) hb (by norm_num) hrange meet_gap (by decide +kernel)
  obtain ⟨r, st', e, b, b', ρ, h₁, h₂, h₃, h₄, -, -, -, h₅, h₆, -⟩ := hmain
  have hc : directCost ops meetProblem (mesh copyOptions) best.1 best.2 = 1 / 2 := hcost
  have h₇ := (hc.symm.trans_le h₆)
  rw [meet_total] at h₇
  have e₁ : meetMethod.al.tol * (meetSteps 0 * |(-1 : Rat)| + meetSteps 1 * |(-1 : Rat)|) = 1 / 10 := by
    rw [meet_steps.1, meet_steps.2]
    decide +kernel
  exact ⟨r, st', e, b, ρ, h₁, h₂, h₃, h₄, h₅, h₇.trans_eq (congrArg _ e₁)⟩

end Verif
