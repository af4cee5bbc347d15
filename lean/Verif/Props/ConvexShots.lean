import Verif.Lemmas.ConvexShots
import Verif.Props.SolveShooting
/-!
# C196: multiple shooting finds the optimum of convex problems with a solver for local solutions
-/
namespace Verif
open Spec SolveDirect SolveShooting Direct

/-- Trajectories of a convex problem are best ones if no trajectories near them cost less. -/
theorem C196_local (ops : Expr.Ops ℝ) (o : Ocp) (M : Mesh) (x0 p : List ℝ) (theta : List (List ℝ))
    (lastU : Option (List ℝ)) (sum : Bool) (b : Blocks ℝ) (X : Nat → ℝ → Sym → ℝ) (hM : ControlMesh M)
    (hn : M.controlRoots.Nodup) (hu : 0 < o.model.u.length) (hB : BoundsFit o)
    (hpos : o.positiveObjective = false) (hopt : o.pOpt = [] ∧ o.thetaOpt = []) (hlen : o.t0 < o.tf)
    (hx : ConvexExprs ops o) (hL : SteadyCost ops o M x0 p theta)
    (hb : LocallyBestShots ops o M x0 p theta lastU sum b X) :
    BestShots ops o M x0 p theta lastU sum b X :=
  ConvexShots.local_best_shots hM hn hu hB hpos hopt hlen hx hL hb

/-- Solving a convex problem with multiple shooting, an integrator that is exact and a solver that returns
local solutions: if the solver reports success then the trajectories of the user's differential equations
that start at the states the result shows fit together and satisfy the constraints and the bounds the user
declared, the objective of the result is the cost of the user, and no other trajectories with controls of
this form cost less, near or far. -/
theorem C196_solve (ops : Expr.Ops ℝ) (integ : DaeIntegrator ℝ) (opts : Options) (sum : Bool)
    (names : NewNames) (s : Method) (sim info : List ℝ → Theta ℝ → Except Err (List ℝ))
    (solver : SolverCall ℝ → Except Err (RawSolution ℝ)) (a : SolveArgs ℝ) (x0 p : List ℝ)
    (theta : List (List ℝ)) (hc : s.hasCostState = false) (hp : s.prepared = false)
    (h : (prepare opts.controlRoots opts.controlRoots.length names.xc names.fresh names.base s).1 = .ok ())
    (hw : ShotWellPosed opts names s.problem)
    (hi : ExactElements ops integ s.problem (prepare opts.controlRoots opts.controlRoots.length names.xc
      names.fresh names.base s).2.problem (mesh opts))
    (hd : DataFits s.problem (mesh opts) x0 p theta)
    (ha : ArgsFit s.problem opts a sim info x0 p theta) (hs : LocalSolver ops solver)
    (hpos : s.problem.positiveObjective = false) (hopt : s.problem.pOpt = [] ∧ s.problem.thetaOpt = [])
    (hx : ConvexExprs ops s.problem) (hL : SteadyCost ops s.problem (mesh opts) x0 p theta) :
    ∃ r b, (solve ops integ opts sum names sim info solver a ⟨s, none⟩).1 = .ok r ∧
      ShootingShape (directDims s.problem (mesh opts)) b ∧ r.report.raw = Layout.stacked b ∧
      ShowsShots s.problem (mesh opts) b r.report ∧
      (r.report.success = true → ∀ X, Paths ops s.problem (mesh opts) b x0 p theta X →
        BestShots ops s.problem (mesh opts) x0 p theta (lastOf s.problem) sum b X ∧
        r.report.objective = shotCost ops s.problem (mesh opts) sum X) := by
  obtain ⟨r, b, call, raw, h₁, h₂, h₃, h₄, -, -, h₇, h₈, h₉, h₁₀, hfe, -⟩ :=
    shots_answered sum sim info solver a x0 p theta hc hp h hw hi hd ha fun c =>
      (hs c).imp fun _ h => ⟨h.1, h.2.1⟩
  refine ⟨r, b, h₁, h₂, h₃, h₄, fun hsucc X hX => ?_⟩
  obtain ⟨raw', hr', -, hM⟩ := hs call
  obtain rfl : raw = raw' := Except.ok.inj (h₇.symm.trans hr')
  have hM := hM (h₉ ▸ hsucc)
  obtain ⟨hiff, hv⟩ := hfe b h₂ X hX
  rw [← h₈] at hiff hv
  obtain ⟨cons, f, hf, -⟩ := hM.feasible.constraints
  have hobj : raw.f = shotCost ops s.problem (mesh opts) sum X :=
    (hM.objective _ _ hf).trans (hv _ _ hM.feasible hf)
  refine ⟨C196_local ops s.problem (mesh opts) x0 p theta (lastOf s.problem) sum b X hw.mesh hw.controlRoots
    hw.controls hw.bounds hpos hopt hw.problem.horizon hx hL ⟨hiff.mp hM.feasible, ?_⟩, h₁₀.trans hobj⟩
  obtain ⟨eps, heps, hmin⟩ := hM.minimal
  refine ⟨eps, heps, fun b' X' hD hnear => ?_⟩
  obtain ⟨hiff', hv'⟩ := hfe b' hD.data X' hD.paths
  have hfeas := hiff'.mpr hD
  obtain ⟨cons', f', hf', -⟩ := hfeas.constraints
  rw [← hobj, ← hv' _ _ hfeas hf']
  exact hmin _ hfeas (by rw [h₈]; exact hnear) _ _ hf'

/-- If moreover the solver finds a local solution whenever there is one, the differential equations have
solutions, and the problem of the user has a best decision, then the call succeeds and returns the least
cost. -/
theorem C196_succeeds (ops : Expr.Ops ℝ) (integ : DaeIntegrator ℝ) (opts : Options) (sum : Bool)
    (names : NewNames) (s : Method) (sim info : List ℝ → Theta ℝ → Except Err (List ℝ))
    (solver : SolverCall ℝ → Except Err (RawSolution ℝ)) (a : SolveArgs ℝ) (x0 p : List ℝ)
    (theta : List (List ℝ)) (hc : s.hasCostState = false) (hp : s.prepared = false)
    (h : (prepare opts.controlRoots opts.controlRoots.length names.xc names.fresh names.base s).1 = .ok ())
    (hw : ShotWellPosed opts names s.problem)
    (hi : ExactElements ops integ s.problem (prepare opts.controlRoots opts.controlRoots.length names.xc
      names.fresh names.base s).2.problem (mesh opts))
    (hd : DataFits s.problem (mesh opts) x0 p theta)
    (ha : ArgsFit s.problem opts a sim info x0 p theta) (hs : LocalSolver ops solver)
    (hcs : ∀ c raw, CallLocalMinimum ops c raw → ∃ raw', solver c = .ok raw' ∧ raw'.success = true)
    (hpos : s.problem.positiveObjective = false) (hopt : s.problem.pOpt = [] ∧ s.problem.thetaOpt = [])
    (hx : ConvexExprs ops s.problem) (hL : SteadyCost ops s.problem (mesh opts) x0 p theta)
    (hex : ∀ b, ShootingShape (directDims s.problem (mesh opts)) b →
      ∃ X, Paths ops s.problem (mesh opts) b x0 p theta X)
    (best : Blocks ℝ) (X : Nat → ℝ → Sym → ℝ)
    (hbest : BestShots ops s.problem (mesh opts) x0 p theta (lastOf s.problem) sum best X) :
    ∃ r, (solve ops integ opts sum names sim info solver a ⟨s, none⟩).1 = .ok r ∧
      r.report.success = true ∧ r.report.objective = shotCost ops s.problem (mesh opts) sum X := by
  obtain ⟨r, -, call, raw, h₁, -, -, -, -, -, h₇, -, h₉, -, hfe, hall⟩ :=
    shots_answered sum sim info solver a x0 p theta hc hp h hw hi hd ha fun c =>
      (hs c).imp fun _ h => ⟨h.1, h.2.1⟩
  obtain ⟨hiff, hv⟩ := hfe best hbest.data X hbest.paths
  have hfeas := hiff.mpr hbest.toShotDecision
  have hmin : CallLocalMinimum ops call { raw with
      x := Layout.stacked best, f := shotCost ops s.problem (mesh opts) sum X } := by
    refine ⟨hfeas, fun cons f hf => (hv cons f hfeas hf).symm, 1, one_pos, fun v hvf _ cons f hf => ?_⟩
    obtain ⟨b', hb', rfl⟩ := hall v hvf.size
    obtain ⟨X', hX'⟩ := hex b' hb'
    obtain ⟨hiff', hv'⟩ := hfe b' hb' X' hX'
    rw [hv' _ _ hvf hf]
    exact hbest.best b' X' (hiff'.mp hvf)
  obtain ⟨raw', hr', hs'⟩ := hcs call _ hmin
  obtain rfl : raw = raw' := Except.ok.inj (h₇.symm.trans hr')
  have hsucc : r.report.success = true := h₉.trans hs'
  obtain ⟨r', b', k₁, k₂, -, -, k₃⟩ := C196_solve ops integ opts sum names s sim info solver a x0 p theta hc hp h hw hi hd ha
    hs hpos hopt hx hL
  obtain rfl : r = r' := Except.ok.inj (h₁.symm.trans k₁)
  obtain ⟨X', hX'⟩ := hex b' k₂
  obtain ⟨k₄, k₅⟩ := k₃ hsucc X' hX'
  refine ⟨r, h₁, hsucc, k₅.trans (le_antisymm ?_ ?_)⟩
  · exact k₄.best _ _ hbest.toShotDecision
  · exact hbest.best _ _ k₄.toShotDecision

/-! ## Example: `x' = u`, running cost `u²`, final cost `x²`, `u ≤ 1`, from 1 -/

namespace Example

theorem shot_convex (ops : Expr.Ops ℝ) : ConvexExprs ops shotProblem where
  affine := by
    intro e he t ρ₁ ρ₂ _ _ _
    have he' : e = .sym 4 ∨ e = .sub (.sym 2) (.sym 3) := by
      have he : e ∈ [Expr.sym 4, .sub (.sym 2) (.sym 3)] := he
      simpa using he
    rcases he' with rfl | rfl <;> simp only [Expr.eval, partWay] <;> ring
  convex := by
    intro e he t ρ₁ ρ₂ h₀ h₁ _
    have he : e ∈ [Expr.sub (.sym 4) (.const 1), .mul (.sym 4) (.sym 4), .const 0, .mul (.sym 2) (.sym 2)] := he
    have he' : e = .sub (.sym 4) (.const 1) ∨ e = .mul (.sym 4) (.sym 4) ∨ e = .const 0 ∨
        e = .mul (.sym 2) (.sym 2) := by simpa using he
    have h₂ : 0 ≤ t * (1 - t) := mul_nonneg h₀ (by linarith)
    rcases he' with rfl | rfl | rfl | rfl
    · simp only [Expr.eval, partWay]
      exact le_of_eq (by ring)
    · simp only [Expr.eval, partWay]
      nlinarith [mul_nonneg h₂ (sq_nonneg (ρ₁ 4 - ρ₂ 4))]
    · simp [Expr.eval]
    · simp only [Expr.eval, partWay]
      nlinarith [mul_nonneg h₂ (sq_nonneg (ρ₁ 2 - ρ₂ 2))]

theorem shot_steady (ops : Expr.Ops ℝ) : SteadyCost ops shotProblem (mesh shotOptions) [1] [] [[], []] := by
  intro el _ b₁ b₂ X₁ X₂ h₁ h₂ t
  have e₁ := (shot_running ops h₁).1
  have e₂ := (shot_running ops h₂).1
  have hn : nodeTime shotProblem shotMesh (el + 1) = (el : ℝ) + 1 := by rw [shot_nodes]; push_cast; rfl
  refine (continuousOn_const (c := ((1 - t) * shotControl b₁ el + t * shotControl b₂ el) *
    ((1 - t) * shotControl b₁ el + t * shotControl b₂ el))).congr fun r hr => ?_
  have hr : r ∈ Set.Icc (nodeTime shotProblem shotMesh el) (nodeTime shotProblem shotMesh (el + 1)) := hr
  rw [shot_nodes, hn] at hr
  show ((1 - t) * X₁ r 4 + t * X₂ r 4) * ((1 - t) * X₁ r 4 + t * X₂ r 4) = _
  rw [e₁ r hr, e₂ r hr]

open Classical in
/-- A solver that only finds local solutions: some one if there is one. -/
noncomputable def nearSolver (ops : Expr.Ops ℝ) (c : SolverCall ℝ) : Except Err (RawSolution ℝ) :=
  if h : ∃ raw, CallLocalMinimum ops c raw then .ok { h.choose with success := true }
  else .ok ⟨List.replicate c.lb.length 0, 0, [], false⟩

theorem nearSolver_local (ops : Expr.Ops ℝ) : LocalSolver ops (nearSolver ops) := by
  intro c
  unfold nearSolver
  split
  · rename_i h
    have := h.choose_spec
    exact ⟨_, rfl, this.feasible.size, fun _ => ⟨this.feasible, this.objective, this.minimal⟩⟩
  · exact ⟨_, rfl, by simp, fun h => (nomatch h)⟩

theorem nearSolver_finds (ops : Expr.Ops ℝ) (c : SolverCall ℝ) (raw : RawSolution ℝ)
    (h : CallLocalMinimum ops c raw) : ∃ raw', nearSolver ops c = .ok raw' ∧ raw'.success = true := by
  unfold nearSolver
  rw [dif_pos ⟨raw, h⟩]
  exact ⟨_, rfl, rfl⟩

end Example

open Example in
/-- The hypotheses are met: whatever local solution the solver returns, its cost is the least cost 1/3. -/
example (ops : Expr.Ops ℝ) (sim info : List ℝ → Theta ℝ → Except Err (List ℝ)) :
    ∃ r, (solve ops shotInteg shotOptions false shotNames sim info (nearSolver ops) shotArgs
        ⟨shotMethod, none⟩).1 = .ok r ∧ r.report.success = true ∧ r.report.objective = 1 / 3 := by
  obtain ⟨r, h₁, h₂, h₃⟩ := C196_succeeds ops shotInteg shotOptions false shotNames shotMethod sim info
    (nearSolver ops) shotArgs [1] [] [[], []] rfl rfl shotMethod_prepares shotProblem_posed (shot_exact ops)
    shotProblem_data (shotArgs_fit sim info) (nearSolver_local ops) (nearSolver_finds ops)
    rfl ⟨rfl, rfl⟩ (shot_convex ops) (shot_steady ops)
    (fun b _ => ⟨shotPath b, fun el _ => shotPath_solves ops b el⟩) shotBest (shotPath shotBest)
    (shotBest_best ops)
  refine ⟨r, h₁, h₂, h₃.trans ?_⟩
  refine (shot_cost ops fun el _ => shotPath_solves ops shotBest el).trans ?_
  norm_num [shotState, shotControl, shotBlocks]

end Verif
