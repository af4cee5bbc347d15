import Verif.Lemmas.ConvexLocal
import Verif.Props.DirectScheme
/-!
# C191: for convex problems a solver that only finds local solutions is good enough
-/
namespace Verif
open Spec SolveDirect Direct

variable {K : Type} [Field K] [LinearOrder K] [IsStrictOrderedRing K]

/-- A decision of a convex problem is a best one if no decision near it costs less. The nonlinear program
is not convex: the running cost is the derivative of a state. -/
theorem C191_local (ops : Expr.Ops K) (o : Ocp) (M : Mesh) (x0 p : List K) (theta : List (List K))
    (lastU : Option (List K)) (b : Blocks K) (ρ : Nat → K → Sym → K)
    (hM : GoodMesh M) (hn : M.controlRoots.Nodup) (hq : PositiveQuadrature K M) (hB : BoundsFit o)
    (hpos : o.positiveObjective = false) (hopt : o.pOpt = [] ∧ o.thetaOpt = [])
    (hlen : o.t0 < o.tf) (hx : ConvexExprs ops o) (hb : LocallyBest ops o M x0 p theta lastU b ρ) :
    BestDecision ops o M x0 p theta lastU b ρ :=
  ConvexDirect.local_best ops hM hn hB hpos hopt hq hlen hx hb

/-- Solving a convex problem with a direct method (collocation) and a solver that returns local solutions:
if the solver reports success then the polynomials the result shows satisfy the dynamics, the constraints
and the bounds the user declared, the objective of the result is the cost the user declared, and no other
trajectories of the discretisation cost less, near or far. -/
theorem C191_solve (ops : Expr.Ops K) (opts : Options) (names : NewNames) (s : Method)
    (sim info : List K → Theta K → Except Err (List K))
    (solver : SolverCall K → Except Err (RawSolution K)) (a : SolveArgs K) (x0 p : List K)
    (theta : List (List K)) (hc : s.hasCostState = false) (hp : s.prepared = false)
    (h : (prepare opts.controlRoots opts.controlRoots.length names.xc names.fresh names.base s).1 = .ok ())
    (hw : WellPosed K opts names s.problem) (hd : DataFits s.problem (mesh opts) x0 p theta)
    (ha : ArgsFit s.problem opts a sim info x0 p theta) (hs : LocalSolver ops solver)
    (hq : PositiveQuadrature K (mesh opts))
    (hpos : s.problem.positiveObjective = false) (hopt : s.problem.pOpt = [] ∧ s.problem.thetaOpt = [])
    (hx : ConvexExprs ops s.problem) :
    ∃ r b, (solve ops opts names sim info solver a ⟨s, none⟩).1 = .ok r ∧
      r.report.raw = Layout.stacked b ∧ Shows s.problem (mesh opts) b r.report ∧
      (r.report.success = true → ∃ ρ,
        BestDecision ops s.problem (mesh opts) x0 p theta (lastOf s.problem) b ρ ∧
        r.report.objective = directCost ops s.problem (mesh opts) b ρ) := by
  obtain ⟨r, b, call, raw, h₁, h₂, h₃, h₄, -, -, h₇, h₈, h₉, h₁₀, hfe, -, hρ⟩ :=
    solve_answered ops sim info solver a x0 p theta hc hp h hw hd ha fun c => (hs c).imp fun _ h => ⟨h.1, h.2.1⟩
  refine ⟨r, b, h₁, h₃, h₄, fun hsucc => ?_⟩
  obtain ⟨raw', hr', -, hM⟩ := hs call
  obtain rfl : raw = raw' := Except.ok.inj (h₇.symm.trans hr')
  have hM := hM (h₉ ▸ hsucc)
  obtain ⟨ρ, hρb⟩ := hρ b
  obtain ⟨hiff, cons, hv⟩ := hfe b h₂ ρ hρb
  rw [← h₈] at hiff hv
  have hobj := hM.objective _ _ hv
  refine ⟨ρ, C191_local ops s.problem (mesh opts) x0 p theta (lastOf s.problem) b ρ hw.mesh hw.controlRoots hq hw.bounds
    hpos hopt hw.problem.horizon hx ⟨hiff.mp hM.feasible, ?_⟩, h₁₀.trans hobj⟩
  obtain ⟨eps, heps, hmin⟩ := hM.minimal
  refine ⟨eps, heps, fun b' ρ' hD hnear => ?_⟩
  obtain ⟨hiff', cons', hv'⟩ := hfe b' hD.data ρ' hD.reads
  rw [← hobj]
  exact hmin _ (hiff'.mpr hD) (by rw [h₈]; exact hnear) _ _ hv'

/-- If moreover the solver finds a local solution whenever there is one, and the discretised problem has a
best decision, then the call succeeds and returns the least cost. -/
theorem C191_succeeds (ops : Expr.Ops K) (opts : Options) (names : NewNames) (s : Method)
    (sim info : List K → Theta K → Except Err (List K))
    (solver : SolverCall K → Except Err (RawSolution K)) (a : SolveArgs K) (x0 p : List K)
    (theta : List (List K)) (hc : s.hasCostState = false) (hp : s.prepared = false)
    (h : (prepare opts.controlRoots opts.controlRoots.length names.xc names.fresh names.base s).1 = .ok ())
    (hw : WellPosed K opts names s.problem) (hd : DataFits s.problem (mesh opts) x0 p theta)
    (ha : ArgsFit s.problem opts a sim info x0 p theta) (hs : LocalSolver ops solver)
    (hcs : ∀ c raw, CallLocalMinimum ops c raw → ∃ raw', solver c = .ok raw' ∧ raw'.success = true)
    (hq : PositiveQuadrature K (mesh opts))
    (hpos : s.problem.positiveObjective = false) (hopt : s.problem.pOpt = [] ∧ s.problem.thetaOpt = [])
    (hx : ConvexExprs ops s.problem) (best : Blocks K) (ρ : Nat → K → Sym → K)
    (hbest : BestDecision ops s.problem (mesh opts) x0 p theta (lastOf s.problem) best ρ) :
    ∃ r, (solve ops opts names sim info solver a ⟨s, none⟩).1 = .ok r ∧ r.report.success = true ∧
      r.report.objective = directCost ops s.problem (mesh opts) best ρ := by
  obtain ⟨r, b, call, raw, h₁, -, -, -, -, -, h₇, -, h₉, -, hfe, hall, hρ⟩ :=
    solve_answered ops sim info solver a x0 p theta hc hp h hw hd ha fun c => (hs c).imp fun _ h => ⟨h.1, h.2.1⟩
  obtain ⟨hiff, cons, hv⟩ := hfe best hbest.data ρ hbest.reads
  have hmin : CallLocalMinimum ops call { raw with
      x := Layout.stacked best, f := directCost ops s.problem (mesh opts) best ρ } := by
    refine ⟨hiff.mpr hbest.toDecision, fun cons' f hf => ?_, 1, one_pos, fun v hvf _ cons' f hf => ?_⟩
    · have hf' : call.value (Layout.stacked best) = .ok (cons', f) := hf
      rw [hv] at hf'
      cases hf'
      rfl
    · obtain ⟨b', hb', rfl⟩ := hall v hvf.size
      obtain ⟨ρ', hρ'⟩ := hρ b'
      obtain ⟨hiff', cons'', hv'⟩ := hfe b' hb' ρ' hρ'
      rw [hv'] at hf
      cases hf
      exact hbest.best b' ρ' (hiff'.mp hvf)
  obtain ⟨raw', hr', hs'⟩ := hcs call _ hmin
  obtain rfl : raw = raw' := Except.ok.inj (h₇.symm.trans hr')
  have hsucc : r.report.success = true := h₉.trans hs'
  obtain ⟨r', b', k₁, -, -, k₂⟩ := C191_solve ops opts names s sim info solver a x0 p theta hc hp h hw hd ha hs hq hpos
    hopt hx
  obtain rfl : r = r' := Except.ok.inj (h₁.symm.trans k₁)
  obtain ⟨ρ', k₃, k₄⟩ := k₂ hsucc
  refine ⟨r, h₁, hsucc, k₄.trans (le_antisymm ?_ ?_)⟩
  · exact k₃.best _ _ hbest.toDecision
  · exact hbest.best _ _ k₃.toDecision

/-! ## Example: the problem at rest -/

namespace Example

/-- The midpoint has weight one, the end weight zero. -/
theorem calm_quadrature : PositiveQuadrature Rat (mesh restOptions) := by
  intro f hf hpos
  have h₁ := hpos (1 / 2) (by decide +kernel)
  have hf' : f.natDegree < 3 := Nat.lt_succ_of_le hf
  rw [f.as_sum_range_C_mul_X_pow' hf'] at h₁ ⊢
  simp [Finset.sum_range_succ] at h₁ ⊢
  linarith

theorem calm_convex (ops : Expr.Ops Rat) : ConvexExprs ops calmProblem where
  affine := by
    intro e he t ρ₁ ρ₂ _ _ _
    have he' : e = .sym 4 ∨ e = .sub (.sym 2) (.sym 3) := by
      have he : e ∈ [Expr.sym 4, .sub (.sym 2) (.sym 3)] := he
      simpa using he
    rcases he' with rfl | rfl <;> simp only [Expr.eval, partWay] <;> ring
  convex := by
    intro e he t ρ₁ ρ₂ h₀ h₁ _
    have he : e ∈ [Expr.mul (.sym 4) (.sym 4), .const 0, .const 0] := he
    have he' : e = .mul (.sym 4) (.sym 4) ∨ e = .const 0 := by simpa using he
    rcases he' with rfl | rfl
    · simp only [Expr.eval, partWay]
      have h₂ : 0 ≤ t * (1 - t) := mul_nonneg h₀ (by linarith)
      nlinarith [mul_nonneg h₂ (sq_nonneg (ρ₁ 4 - ρ₂ 4))]
    · simp [Expr.eval]

open Classical in
/-- A solver that only finds local solutions: some one if there is one. -/
noncomputable def someSolver (ops : Expr.Ops Rat) (c : SolverCall Rat) : Except Err (RawSolution Rat) :=
  if h : ∃ raw, CallLocalMinimum ops c raw then .ok { h.choose with success := true }
  else .ok ⟨List.replicate c.lb.length 0, 0, [], false⟩

theorem someSolver_local (ops : Expr.Ops Rat) : LocalSolver ops (someSolver ops) := by
  intro c
  unfold someSolver
  split
  · rename_i h
    have := h.choose_spec
    exact ⟨_, rfl, this.feasible.size, fun _ => ⟨this.feasible, this.objective, this.minimal⟩⟩
  · exact ⟨_, rfl, by simp, fun h => (nomatch h)⟩

theorem someSolver_finds (ops : Expr.Ops Rat) (c : SolverCall Rat) (raw : RawSolution Rat)
    (h : CallLocalMinimum ops c raw) : ∃ raw', someSolver ops c = .ok raw' ∧ raw'.success = true := by
  unfold someSolver
  rw [dif_pos ⟨raw, h⟩]
  exact ⟨_, rfl, rfl⟩

end Example

open Example in
/-- The hypotheses are met: whatever local solution the solver returns, it is the best decision. -/
example (ops : Expr.Ops Rat) (sim info : List Rat → Theta Rat → Except Err (List Rat)) :
    ∃ r b, (solve ops restOptions restNames sim info (someSolver ops) restArgs ⟨{ problem := calmProblem }, none⟩).1 =
        .ok r ∧ r.report.success = true ∧ r.report.raw = Layout.stacked b ∧ ∃ ρ,
          BestDecision ops calmProblem (mesh restOptions) [1] [] [[], []] (lastOf calmProblem) b ρ := by
  obtain ⟨best, ρ, hb, -⟩ := (C180_best ops calmProblem (mesh restOptions) calm_posed.mesh (by decide)
    (.inr rfl) calm_posed.problem calm_posed.scope calm_posed.symbols calm_posed.bounds (calm_points ops)
    [1] [] [[], []] (lastOf calmProblem) (fun _ => 1) [0, 1] calmTimes calm_given calm_starts _).1
    (calm_solution ops)
  have hfit : ArgsFit calmProblem restOptions restArgs sim info [1] [] [[], []] :=
    ⟨.inr ⟨rfl, rfl⟩, .inr ⟨rfl, rfl, rfl⟩, .inr ⟨rfl, rfl, rfl⟩, .inl rfl, .inr (.inl (Option.some_ne_none _))⟩
  obtain ⟨r, b, h₁, h₂, -, h₃⟩ := C191_solve ops restOptions restNames { problem := calmProblem } sim info
    (someSolver ops) restArgs [1] [] [[], []] rfl rfl (calm_ready ops).prepares calm_posed (calm_ready ops).data
    hfit (someSolver_local ops) calm_quadrature rfl ⟨rfl, rfl⟩ (calm_convex ops)
  obtain ⟨r', k₁, k₂, -⟩ := C191_succeeds ops restOptions restNames { problem := calmProblem } sim info
    (someSolver ops) restArgs [1] [] [[], []] rfl rfl (calm_ready ops).prepares calm_posed (calm_ready ops).data
    hfit (someSolver_local ops) (someSolver_finds ops) calm_quadrature rfl ⟨rfl, rfl⟩
    (calm_convex ops) best ρ hb
  have e : r = r' := Except.ok.inj (h₁.symm.trans k₁)
  subst e
  exact ⟨r, b, h₁, k₂, h₂, (h₃ k₂).imp fun _ h => h.1⟩

end Verif
