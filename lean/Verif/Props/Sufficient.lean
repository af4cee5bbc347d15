import Verif.Lemmas.Sufficient
import Verif.Props.SolveShootIndirect
import Mathlib.Analysis.Convex.Mul
import Mathlib.Analysis.Calculus.FDeriv.Mul
import Mathlib.Analysis.Calculus.Deriv.Pow
/-!
# C187: for convex problems, an indirect method with multiple shooting gives an optimal trajectory
-/
namespace Verif
open Spec SolveShootIndirect
open SolveIndirect (Options NewNames)
open SolveDirect (SolverCall setup)
open Indirect (opFmin opFmax)

/-- An extremal of the problem of the user along which the Hamiltonian is convex is optimal: it is a
trajectory of the problem, and no trajectory of the problem costs less. -/
theorem C187_extremal_partial (B : Backend) (ops : Expr.Ops ℝ) (base xc fresh : Sym) (o q : Ocp)
    (h : Indirect.prepare B false false base xc fresh o = (.ok (), q)) (ho : IndirectProblem o)
    (hs : StateProblem o) (hnd : (indirectSymbols o (addedTo o q)).Nodup) (M : Mesh)
    (hN : 0 < M.elements) (b : Blocks ℝ) (x0 p : List ℝ) (theta : List (List ℝ))
    (X : Nat → ℝ → Sym → ℝ)
    (hX : ExtremalPaths B ops o (addedTo o q) M x0 p theta b X)
    (hE : ShotExtremal ops o (addedTo o q) M b X) (hc : ConvexAlong ops o (addedTo o q) M X) :
    OptimalTrajectory ops o M x0 p theta X := by
  obtain ⟨H, us, hp⟩ := Indirect.prepared_of h
  exact Sufficient.optimal_of ho hN hs hnd (by simp [addedTo, hp.x, newSyms_length]) hX.paths hE hc

/-- C187, for Hamiltonians that are quadratic in the controls with a Hessian that does not couple a
control that has a bound with another one, without parameters to be found, and without a cost state.
Solving with an indirect method, multiple shooting and a solver that returns minimisers: if the solver
reports success and the Hamiltonian is convex, the controls of the result are those of an optimal
trajectory of the problem the user declared. -/
theorem C187_solve_partial (B : Backend) (ops : Expr.Ops ℝ) (hops : MinMax ops opFmin opFmax)
    (integ : DaeIntegrator ℝ) (opts : Options) (names : NewNames) (o q : Ocp)
    (h : Indirect.prepare B false false names.base names.xc names.fresh o = (.ok (), q))
    (hw : IndirectShotPosed B ops integ opts names o q) (hM : GoodMesh (indirectMesh opts))
    (hst : StateProblem o) (hnd : (indirectSymbols o (addedTo o q)).Nodup)
    (m : ShootingMethod ℝ)
    (hm : q.indirectShooting ops integ opts.elements opts.roots.length = .ok m)
    (sim info : List ℝ → Theta ℝ → Except Err (List ℝ))
    (solver : SolverCall ℝ → Except Err (RawSolution ℝ)) (a : SolveArgs ℝ) (x0 p : List ℝ)
    (theta : List (List ℝ)) (hd : IndirectData o (indirectMesh opts) x0 p theta)
    (ha : IndirectArgs o opts a info x0 p theta) (hs : GoodSolver ops solver) :
    ∃ r b, (solve B ops integ opts names sim info solver a ⟨o, false, none⟩).1 = .ok r ∧
      ShowsNodes o (indirectMesh opts) b r.report ∧
      ∀ X, ExtremalPaths B ops o (addedTo o q) (indirectMesh opts) x0 p theta b X →
        ConvexAlong ops o (addedTo o q) (indirectMesh opts) X → r.report.success = true →
        ShowsControls o (indirectMesh opts) X r.report ∧
        OptimalTrajectory ops o (indirectMesh opts) x0 p theta X := by
  obtain ⟨r, b, h₁, -, -, -, h₂, h₃⟩ := C186_solve_partial B ops hops integ opts names o q h hw hM m hm sim
    info solver a x0 p theta hd ha hs
  refine ⟨r, b, h₁, h₂, fun X hX hc hsucc => ⟨(h₃ X hX).1, ?_⟩⟩
  exact C187_extremal_partial B ops names.base names.xc names.fresh o q h hw.problem hst hnd _ hw.elements b
    x0 p theta X hX ((h₃ X hX).2 hsucc).2 hc

/-! ## Example: from 1, with `x' = u`, the integral of `u²` and the final cost `x²` -/

namespace Example
open Indirect

theorem leap_states : StateProblem leapProblem where
  start i s s0 h₁ h₂ := by
    match i, h₁, h₂ with
    | 0, h₁, h₂ =>
      cases h₁
      cases h₂
      simp [leapProblem, Ocp.new, SysModel.new]
  known := ⟨rfl, rfl⟩
  path := by unfold InScope; decide +kernel
  final := by decide +kernel

theorem leap_convex (b : Blocks ℝ) : ConvexAlong (minMaxOps ℝ) leapProblem
    (addedTo leapProblem leapPrepared) (indirectMesh leapOptions) (leapPath b) := by
  rw [leap_added]
  constructor
  · intro el _ t _
    show ConvexIn [2, 4] (hamiltonianAt (minMaxOps ℝ) leapProblem [10] []) (leapPath b el t)
    have hf : (fun w : Fin 2 → ℝ => hamiltonianAt (minMaxOps ℝ) leapProblem [10] []
        (assign [2, 4] w (leapPath b el t))) = fun w : Fin 2 → ℝ => w 1 ^ 2 + shotState b el 1 * w 1 := by
      funext w
      rw [leap_hamiltonian_value]
      have h4 : assign [2, 4] w (leapPath b el t) 4 = w 1 := assign_get [2, 4] (by decide) w _ 1
      have h10 : assign [2, 4] w (leapPath b el t) 10 = shotState b el 1 :=
        assign_not_mem _ _ _ _ (by decide)
      rw [h4, h10]
      ring
    refine ⟨?_, ?_⟩
    · have h : ConvexOn ℝ Set.univ fun w : Fin 2 → ℝ => w 1 ^ 2 + shotState b el 1 * w 1 := by
        refine ⟨convex_univ, fun w _ w' _ r r' hr hr' hrr => ?_⟩
        simp only [Pi.add_apply, Pi.smul_apply, smul_eq_mul]
        have : r' = 1 - r := by linarith
        subst this
        nlinarith [mul_nonneg (mul_nonneg hr hr') (sq_nonneg (w 1 - w' 1))]
      rw [← hf] at h
      exact h
    · have h : DifferentiableAt ℝ (fun w : Fin 2 → ℝ => w 1 ^ 2 + shotState b el 1 * w 1)
          (fun i => leapPath b el t ([2, 4] : List Sym)[i]) := by fun_prop
      rw [← hf] at h
      exact h
  · set ρ := leapPath b ((indirectMesh leapOptions).elements - 1)
      (nodeTime leapProblem (indirectMesh leapOptions) (indirectMesh leapOptions).elements)
    show ConvexIn [2] (finalAt (minMaxOps ℝ) leapProblem [] ρ) ρ
    have hf : (fun w : Fin 1 → ℝ => finalAt (minMaxOps ℝ) leapProblem [] ρ (assign [2] w ρ)) =
        fun w : Fin 1 → ℝ => w 0 ^ 2 := by
      funext w
      have h2 : assign [2] w ρ 2 = w 0 := assign_get [2] (by decide) w _ 0
      simp only [finalAt, leapProblem, Ocp.new, Expr.eval, List.zipWith_nil_left, List.sum_nil, add_zero]
      rw [h2]
      ring
    refine ⟨?_, ?_⟩
    · have h : ConvexOn ℝ Set.univ fun w : Fin 1 → ℝ => w 0 ^ 2 := by
        refine ⟨convex_univ, fun w _ w' _ r r' hr hr' hrr => ?_⟩
        simp only [Pi.add_apply, Pi.smul_apply, smul_eq_mul]
        have : r' = 1 - r := by linarith
        subst this
        nlinarith [mul_nonneg (mul_nonneg hr hr') (sq_nonneg (w 0 - w' 0))]
      rw [← hf] at h
      exact h
    · have h : DifferentiableAt ℝ (fun w : Fin 1 → ℝ => w 0 ^ 2)
          (fun i => ρ ([2] : List Sym)[i]) := by fun_prop
      rw [← hf] at h
      exact h

/-- The cost of the solution is one third. -/
theorem leap_cost : HasCost (minMaxOps ℝ) leapProblem (indirectMesh leapOptions) (leapPath leapBlocks)
    (1 / 3) := by
  have hn : ∀ el, nodeTime leapProblem (indirectMesh leapOptions) el = el := by
    intro el
    have := leap_step
    show stepLength leapProblem pontryaginMesh * _ = _
    rw [this, one_mul]
  refine ⟨fun _ t => t / 9, ⟨by norm_num, fun _ _ => rfl, fun el _ => by fun_prop, fun el hel t ht => ?_⟩, ?_⟩
  · have hel' : el = 0 ∨ el = 1 := by
      have : el < 2 := hel
      omega
    have : leapProblem.L.eval (minMaxOps ℝ) (leapPath leapBlocks el t) = 1 / 9 := by
      rcases hel' with rfl | rfl <;> norm_num [leapProblem, Expr.eval, leapPath, leapBlocks, shotState]
    rw [this]
    have h := ((hasDerivAt_id t).div_const 9)
    simpa using h.hasDerivWithinAt
  · rw [hn]
    norm_num [leapProblem, Ocp.new, Expr.eval, leapPath, leapBlocks, shotState, indirectMesh, leapOptions]

end Example

open Example in
/-- The hypotheses of `C187_extremal_partial` are met: no trajectory from 1 costs less than one third. -/
example (Y : Nat → ℝ → Sym → ℝ)
    (hY : ControlledTrajectory (minMaxOps ℝ) leapProblem (indirectMesh leapOptions) [1, 0] [] [[], []] Y) (J : ℝ)
    (hJ : HasCost (minMaxOps ℝ) leapProblem (indirectMesh leapOptions) Y J) : 1 / 3 ≤ J :=
  (C187_extremal_partial pontryaginBackend (minMaxOps ℝ) 10 20 21 leapProblem leapPrepared leap_prepared
    leap_problem leap_states (by rw [leap_added]; decide) (indirectMesh leapOptions) (by decide) leapBlocks
    [1, 0] [] [[], []] (leapPath leapBlocks) (leap_paths _) (by rw [leap_added]; exact leapBlocks_extremal)
    (leap_convex _)).least _ leap_cost Y hY J hJ

open Example in
/-- The hypotheses of `C187_solve_partial` are met: the controls of the result are optimal. -/
example (sim info : List ℝ → Theta ℝ → Except Err (List ℝ)) :
    ∃ r b, (solve pontryaginBackend (minMaxOps ℝ) leapInteg leapOptions leapNames sim info
      (bestSolver (minMaxOps ℝ)) leapArgs ⟨leapProblem, false, none⟩).1 = .ok r ∧
      ShowsControls leapProblem (indirectMesh leapOptions) (leapPath b) r.report ∧
      OptimalTrajectory (minMaxOps ℝ) leapProblem (indirectMesh leapOptions) [1, 0] [] [[], []]
        (leapPath b) := by
  obtain ⟨m, hm⟩ := leap_shooting 2 leapInteg
  obtain ⟨r, h₁, h₂⟩ := C186_succeeds_partial pontryaginBackend (minMaxOps ℝ) (minMaxOps_ok ℝ) leapInteg
    leapOptions leapNames leapProblem leapPrepared leap_prepared leap_posed pontryaginMesh_good
    m hm sim info (bestSolver (minMaxOps ℝ)) leapArgs [1, 0] [] [[], []] ⟨rfl, rfl, by decide⟩
    (leapArgs_fit _ info) (bestSolver_good _) (bestSolver_complete _) leapBlocks leapBlocks_shape
    (leapPath leapBlocks) (leap_paths _) leap_within (by rw [leap_added]; exact leapBlocks_extremal)
  obtain ⟨r', b, h₁', hn, hX⟩ := C187_solve_partial pontryaginBackend (minMaxOps ℝ) (minMaxOps_ok ℝ)
    leapInteg leapOptions leapNames leapProblem leapPrepared leap_prepared leap_posed pontryaginMesh_good
    leap_states (by rw [leap_added]; decide)
    m hm sim info (bestSolver (minMaxOps ℝ)) leapArgs [1, 0] [] [[], []] ⟨rfl, rfl, by decide⟩
    (leapArgs_fit _ info) (bestSolver_good _)
  obtain rfl : r = r' := Except.ok.inj (h₁.symm.trans h₁')
  exact ⟨r, b, h₁, hX _ (leap_paths b) (leap_convex b) h₂⟩

end Verif
