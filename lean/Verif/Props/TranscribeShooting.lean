import Verif.Lemmas.ShotSolution
import Verif.Lemmas.CollocationExact
import Mathlib.Analysis.Calculus.MeanValue
/-!
# C160: multiple shooting with an exact integrator solves the problem of the user
-/
namespace Verif
open Spec Direct Set

/-- C160. After the preparation of a direct method (`s'`), multiple shooting can be set up. With an
integrator that is exact for the equations it is given, the constraints hold exactly when the
trajectories of the user fit together and meet the conditions of the user; then the objective is the
cost of the user: final cost, integral of the running cost and costs at the ends of elements. With the
cost as a sum, the final cost is missing. -/
theorem C160_shooting (ops : Expr.Ops ℝ) (integ : DaeIntegrator ℝ) (M : Mesh) (xc fresh base : Sym)
    (s s' : Method) (b : Blocks ℝ) (x0 p : List ℝ) (theta : List (List ℝ)) (lastU : Option (List ℝ))
    (sum : Bool) (X : Nat → ℝ → Sym → ℝ) (hc : s.hasCostState = false)
    (h : prepare M.controlRoots M.controlRoots.length xc fresh base s = (.ok (), s'))
    (hm : ControlMesh M) (ho : ShotProblem s.problem) (hs : DirectScope s.problem)
    (hn : NewSymbols s.problem xc fresh base) (hb : ShootingShape (directDims s.problem M) b)
    (hd : DataFits s.problem M x0 p theta) (hl : LimitsFit s.problem lastU)
    (hi : ∀ el < M.elements, ∀ d, s'.problem.elementDae M.elements el = .ok d →
      ExactShots ops integ d (nodeTime s.problem M el) (nodeTime s.problem M (el + 1)))
    (hX : ∀ el < M.elements, ElementPath ops s.problem M b x0 p theta el (X el)) :
    ∃ m cons cost, s'.problem.shooting ops integ M.elements M.roots.length M.controlRoots.length sum =
        .ok m ∧
      m.discretize b (x0 ++ [0]) p theta lastU = .ok (cons, cost) ∧
      ((∀ c ∈ cons, c.Holds) ↔ ShotSolution ops s.problem M b lastU sum X) ∧
      (ShotSolution ops s.problem M b lastU sum X →
        cost = if sum then pathCost ops s.problem M X else userCost ops s.problem M X) := by
  obtain ⟨S, hp⟩ := prepared_of hc h hn ho.complete
  have C : ShotSetting ops integ M s.problem s'.problem xc fresh base S b x0 p theta X :=
    ⟨⟨⟨hm, ho.toDirectProblem, hs, hn, hp, hb.toSharedShape, hd⟩, ho, hb, hi⟩, hX⟩
  have hdims : (ShotSetting.built ops integ M s'.problem sum).dims = directDims s.problem M := C.dims_eq
  obtain ⟨cons, h₁, h₂⟩ := C94_feasible_iff (ShotSetting.built ops integ M s'.problem sum) b (x0 ++ [0]) p
    theta lastU (C.shootable sum) (hdims ▸ hb)
    (C.toCommon.limits_fit (m := (ShotSetting.built ops integ M s'.problem sum).toTranscription)
      C.dims_eq rfl rfl hl)
  refine ⟨_, cons, _, (Ocp.shooting_ok_iff ops integ _ _ _ _ _ hm.elements _).mpr
    ⟨C.scope_shot sum, rfl⟩, h₁, ?_, ?_⟩
  · rw [h₂, C.shoots_iff sum lastU]
  · exact fun h => C.cost_eq sum h

/-- C160. Multiple shooting can be set up exactly when each expression uses only the inputs of its
function and the equations only those of the integrator; otherwise CasADi raises. -/
theorem C160_functions (ops : Expr.Ops ℝ) (integ : DaeIntegrator ℝ) (o : Ocp) (M : Mesh) (sum : Bool)
    (h : 0 < M.elements) :
    (∃ m, o.shooting ops integ M.elements M.roots.length M.controlRoots.length sum = .ok m) ∧
      ShotScope o sum ∨
    o.shooting ops integ M.elements M.roots.length M.controlRoots.length sum = .error .runtimeError ∧
      ¬ ShotScope o sum := by
  by_cases hf : ShotScope o sum
  · exact .inl ⟨⟨_, (Ocp.shooting_ok_iff ops integ o _ _ _ _ h _).mpr ⟨hf, rfl⟩⟩, hf⟩
  · refine .inr ⟨?_, hf⟩
    cases hm : o.shooting ops integ M.elements M.roots.length M.controlRoots.length sum with
    | ok m => exact absurd ((Ocp.shooting_ok_iff ops integ o _ _ _ _ h _).mp hm).1 hf
    | error e => rw [Ocp.shooting_error hm]

/-- C160 fails with the cost as a sum: the final cost of the user has no effect on the problem that is
solved. -/
theorem C160_final_cost_fails (ops : Expr.Ops ℝ) (integ : DaeIntegrator ℝ) (o : Ocp) (M : Mesh) (V : Expr) :
    { o with V := V }.shooting ops integ M.elements M.roots.length M.controlRoots.length true =
      o.shooting ops integ M.elements M.roots.length M.controlRoots.length true := rfl

/-! ## An example: `x' = u`, running cost `u²`, final cost `x²`, `u ≤ 1` -/

namespace Example

/-- The problem. -/
def shotProblem : Ocp :=
  { Ocp.new { SysModel.new 0 1 with
      x := [2]
      x0 := [3]
      ode := [(2, some (.sym 4))]
      u := [4]
      uExpr := [.sym 4]
      uPar := [4] } (some [1]) 0 2 with
    L := .mul (.sym 4) (.sym 4)
    V := .mul (.sym 2) (.sym 2)
    gIneq := [.sub (.sym 4) (.const 1)]
    timeGIneq := ["default"] }

/-- Two elements, one control value per element. -/
def shotMesh : Mesh := ⟨2, [1], [1 / 2]⟩

/-- Before the preparation. -/
def shotMethod : Method := { problem := shotProblem }

/-- After the preparation. -/
def shotPrepared : Method := (prepare [1 / 2] 1 6 7 10 shotMethod).2

/-- The equations of every element after the preparation: the state, the cost state, and the parameter of
the control. -/
def shotDae : Dae := ⟨[2, 6], [.sym 10, .mul (.sym 10) (.sym 10)], 0, [], [10], [], some 1⟩

theorem shotMethod_prepared :
    prepare shotMesh.controlRoots shotMesh.controlRoots.length 6 7 10 shotMethod =
      (.ok (), shotPrepared) := by
  have : (prepare [1 / 2] 1 6 7 10 shotMethod).1 = .ok () := by decide +kernel
  exact Prod.ext this rfl

theorem shotPrepared_dae (el : Nat) (hel : el < 2) (d : Dae)
    (h : shotPrepared.problem.elementDae 2 el = .ok d) : d = shotDae := by
  have : (shotPrepared.problem.elementDae 2 el).toOption = some shotDae := by
    match el, hel with
    | 0, _ => decide +kernel
    | 1, _ => decide +kernel
  rw [h] at this
  exact Option.some.inj this

/-- The integrator for constant right-hand sides. -/
noncomputable def shotInteg : DaeIntegrator ℝ := fun d t t' x par =>
  if d = shotDae then ([x.getD 0 0 + par.getD 0 0 * (t' - t),
    x.getD 1 0 + par.getD 0 0 * par.getD 0 0 * (t' - t)], [])
  else ([], [])

/-- A constant derivative. -/
theorem linear_of_derivative {f : ℝ → ℝ} {a b c : ℝ} (hab : a ≤ b)
    (h : ∀ t ∈ Icc a b, HasDerivWithinAt f c (Icc a b) t) : f b = f a + c * (b - a) := by
  rcases hab.eq_or_lt with rfl | hlt
  · simp
  have hg : ∀ t ∈ Icc a b, HasDerivWithinAt (fun t => f t - c * t) 0 (Icc a b) t := by
    intro t ht
    have := (h t ht).sub ((hasDerivWithinAt_id t (Icc a b)).const_mul c)
    rw [mul_one, sub_self] at this
    exact this
  have := constant_of_derivWithin_zero (f := fun t => f t - c * t)
    (fun t ht => (hg t ht).differentiableWithinAt)
    (fun t ht => (hg t (Ico_subset_Icc_self ht)).derivWithin
      ((uniqueDiffOn_Icc hlt) t (Ico_subset_Icc_self ht))) b ⟨hab, le_rfl⟩
  linarith

theorem shotInteg_exact (ops : Expr.Ops ℝ) (a b : ℝ) (hab : a ≤ b) :
    ExactShots ops shotInteg shotDae a b where
  sized _ _ _ _ := by simp [shotInteg, shotDae]
  exact par Y h := by
    have hp := h.parameters a ⟨le_rfl, hab⟩
    simp only [shotDae, List.map_cons, List.map_nil] at hp
    have hp' : ∀ t ∈ Icc a b, Y t 10 = Y a 10 := by
      intro t ht
      have := h.parameters t ht
      rw [← hp] at this
      simpa [shotDae] using this
    have h₁ := linear_of_derivative (f := fun r => Y r 2) (c := Y a 10) hab (fun t ht => by
      have := h.ode t ht 0 2 (.sym 10) rfl rfl
      simp only [Expr.eval] at this
      rwa [hp' t ht] at this)
    have h₂ := linear_of_derivative (f := fun r => Y r 6) (c := Y a 10 * Y a 10) hab (fun t ht => by
      have := h.ode t ht 1 6 (.mul (.sym 10) (.sym 10)) rfl rfl
      simp only [Expr.eval] at this
      rwa [hp' t ht] at this)
    subst hp
    simp only [shotInteg, if_true]
    simp only [shotDae, List.map_cons, List.map_nil, List.getD_cons_zero, List.getD_cons_succ]
    rw [h₁, h₂]

theorem shotProblem_problem : ShotProblem shotProblem where
  horizon := by decide +kernel
  complete := by unfold Complete; decide +kernel
  starts := rfl
  controls := by decide
  apart := by unfold ControlsApart; decide +kernel
  parameters := by decide
  thetas := by decide
  tags := by decide
  tagged := by decide
  equations := fun _ => rfl
  ends := by decide
  unknowns := fun _ => rfl

theorem shotProblem_scope : DirectScope shotProblem where
  path := by decide +kernel
  initial := by decide +kernel
  final := by decide
  timeless := by decide
  cost := by decide +kernel

theorem shotProblem_new : NewSymbols shotProblem 6 7 10 where
  costState := by decide
  initial := by decide
  different := by decide
  points := by decide

/-- The control of an element. -/
def shotControl (b : Blocks ℝ) (el : Nat) : ℝ := ((b.u.getD el []).getD 0 []).getD 0 0

/-- The trajectories of the user. -/
def shotPath (b : Blocks ℝ) (el : Nat) (t : ℝ) : Sym → ℝ
  | 0 => t
  | 1 => t - el
  | 2 => shotState b el 0 + shotControl b el * (t - el)
  | 3 => 1
  | 4 => shotControl b el
  | _ => 0

theorem shot_step : stepLength (K := ℝ) shotProblem shotMesh = 1 := by
  simp [stepLength, shotProblem, shotMesh, Ocp.new]

theorem shotPath_solves (ops : Expr.Ops ℝ) (b : Blocks ℝ) (el : Nat) :
    ElementPath ops shotProblem shotMesh b [1] [] [[], []] el (shotPath b el) where
  reads t _ := {
    time := by rw [shot_step]; show t = _; ring
    position := by rw [shot_step]; show t - el = _; ring
    controls := by
      intro i s hs
      match i, hs with
      | 0, hs =>
        cases hs
        have : controlPoly shotMesh b el 0 = Polynomial.C (shotControl b el) := by
          refine Transcription.through_eq (by simp [inField, shotMesh]) (by simp [inField, shotMesh]) ?_
          intro j hj
          have : j = 0 := by simpa [inField, shotMesh] using hj
          subst this
          rw [Polynomial.eval_C]
          rfl
        rw [this, Polynomial.eval_C]
        rfl
    parameters := by intro i s hs; simp [shotProblem, SysModel.new, Ocp.new] at hs
    optimised := by intro i s hs; simp [shotProblem, SysModel.new, Ocp.new] at hs
    thetas := by intro i s hs; simp [shotProblem, SysModel.new, Ocp.new] at hs
    optimisedThetas := by intro i s hs; simp [shotProblem, SysModel.new, Ocp.new] at hs
    starts := by
      intro i s hs
      match i, hs with
      | 0, hs => cases hs; rfl
    etas := by intro i s hs; simp [shotProblem, SysModel.new, Ocp.new] at hs }
  start := by
    intro i s hs
    match i, hs with
    | 0, hs =>
      cases hs
      show shotState b el 0 + shotControl b el * (nodeTime shotProblem shotMesh el - el) = _
      rw [nodeTime, shot_step]
      ring
  ode := by
    intro t _ s e he
    have hse : s = 2 ∧ e = .sym 4 := by
      by_cases h : s = 2
      · subst h
        have he : some (some (Expr.sym 4)) = some (some e) := he
        exact ⟨rfl, (Option.some.inj (Option.some.inj he)).symm⟩
      · simp [shotProblem, Ocp.new, Dict.get?] at he
        exact absurd he.1 h
    obtain ⟨rfl, rfl⟩ := hse
    show HasDerivWithinAt (fun r => shotState b el 0 + shotControl b el * (r - el)) (shotControl b el) _ t
    have := (((hasDerivAt_id t).sub_const (el : ℝ)).const_mul (shotControl b el)).const_add
      (shotState b el 0)
    simpa using this.hasDerivWithinAt
  alg := by intro t _ e he; simp [shotProblem, SysModel.new, Ocp.new] at he
  running := continuousOn_const (c := shotControl b el * shotControl b el)

end Example

open Example in
/-- The hypotheses of `C160_shooting` are met for every decision vector of the right size. -/
example (ops : Expr.Ops ℝ) (b : Blocks ℝ) (sum : Bool)
    (hb : ShootingShape (directDims shotProblem shotMesh) b) :
    ∃ m cons cost, shotPrepared.problem.shooting ops shotInteg 2 1 1 sum = .ok m ∧
      m.discretize b [1, 0] [] [[], []] (some [0]) = .ok (cons, cost) ∧
      ((∀ c ∈ cons, c.Holds) ↔ ShotSolution ops shotProblem shotMesh b (some [0]) sum (shotPath b)) ∧
      (ShotSolution ops shotProblem shotMesh b (some [0]) sum (shotPath b) →
        cost = if sum then pathCost ops shotProblem shotMesh (shotPath b)
          else userCost ops shotProblem shotMesh (shotPath b)) := by
  refine C160_shooting ops shotInteg shotMesh 6 7 10 shotMethod shotPrepared b [1] [] [[], []] (some [0])
    sum (shotPath b) rfl shotMethod_prepared ⟨by decide, by decide⟩ shotProblem_problem shotProblem_scope
    shotProblem_new hb ⟨rfl, rfl, by decide⟩ ⟨rfl, rfl, ?_, by rintro u ⟨⟩; rfl⟩ ?_
    fun el _ => shotPath_solves ops b el
  · intro i lo hi h₁ h₂
    match i, h₁, h₂ with
    | 0, h₁, h₂ =>
      cases h₁
      exact bot_le
  · intro el hel d hd
    have := shotPrepared_dae el hel d hd
    subst this
    refine shotInteg_exact ops _ _ ?_
    unfold nodeTime
    rw [show stepLength shotMethod.problem shotMesh = (1 : ℝ) from shot_step]
    push_cast
    linarith

open Example in
/-- Decision values that solve the example: control 1/2 in both elements. -/
example (ops : Expr.Ops ℝ) : ∃ b, ShootingShape (directDims shotProblem shotMesh) b ∧
    ShotSolution ops shotProblem shotMesh b none false (shotPath b) := by
  refine ⟨⟨[[[1, 0]], [[3 / 2, 1 / 4]], [[2, 1 / 2]]], [[[]], [[]]], [[[1 / 2]], [[1 / 2]]], [], [],
    [[], []]⟩, ⟨⟨?_, rfl, rfl, ?_⟩, ?_, ?_⟩, ?_⟩
  · simp [Grid, Columns, directDims, shotProblem, shotMesh, controlPoints, SysModel.new, Ocp.new]
  · simp [Columns, directDims, shotProblem, shotMesh, SysModel.new, Ocp.new]
  · simp [Grid, Columns, directDims, shotProblem, shotMesh, SysModel.new, Ocp.new]
  · simp [Grid, Columns, directDims, shotProblem, shotMesh, SysModel.new, Ocp.new]
  · have hL : ∀ b el, runningCost ops shotProblem shotMesh el (shotPath b el) =
        shotControl b el * shotControl b el := by
      intro b el
      unfold runningCost nodeTime
      rw [shot_step]
      show ∫ t in _.._, shotControl b el * shotControl b el = _
      rw [intervalIntegral.integral_const]
      push_cast
      simp
    have hn : ∀ el, nodeTime shotProblem shotMesh el = el := by
      intro el
      rw [nodeTime, shot_step, one_mul]
    have two : ∀ el < shotMesh.elements, el = 0 ∨ el = 1 := by
      intro el hel
      have : el < 2 := hel
      omega
    refine ⟨?_, rfl, ?_, ?_, ?_, ?_, ?_, ?_, ?_, ?_⟩
    · intro e he
      simp [shotProblem, SysModel.new, Ocp.new] at he
      subst he
      simp [Expr.eval, shotPath, shotState, shotControl]
    · intro el hel i s hs
      match i, hs with
      | 0, hs =>
        cases hs
        rw [hn]
        show _ = shotState _ _ _ + shotControl _ _ * (_ - _)
        rcases two el hel with rfl | rfl <;> norm_num [shotState, shotControl]
    · intro el hel
      rw [hL]
      rcases two el hel with rfl | rfl <;>
        norm_num [shotState, shotControl, shotProblem, Ocp.new]
    · intro el _ i s hs
      simp [shotProblem, SysModel.new, Ocp.new] at hs
    · intro el hel e he
      have he : e = .sub (.sym 4) (.const 1) := by simpa [shotProblem] using he
      subst he
      show shotControl _ _ - ((1 : Rat) : ℝ) ≤ 0
      rcases two el hel with rfl | rfl <;> norm_num [shotControl]
    · intro el hel e he
      simp [shotProblem, Ocp.new] at he
    · intro el hel before now hb hn i a c lo hi ha hc hlo hhi
      match i, ha, hc, hlo, hhi with
      | 0, ha, hc, hlo, hhi =>
        cases hlo
        cases hhi
        exact ⟨bot_le, le_top⟩
    · intro e he
      simp [shotProblem, Ocp.new] at he
    · intro e he
      simp [shotProblem, Ocp.new] at he

end Verif
