import Verif.Props.Mpc
/-!
# C56, C100, C101: what a cycle of the controller sends to the plant
-/
namespace Verif
open Mpc

variable {W : Type}

theorem Mpc.flatten_vecMat {U : List (List Rat)} {n m : Nat} (h : Spec.Columns m n U) :
    U.flatten = vecMat n m fun i j => (U.getD j []).getD i 0 := by
  unfold vecMat
  rw [List.flatMap_def]
  congr 1
  apply List.ext_getElem
  · simp [h.1]
  · intro j h₁ h₂
    have hj := h.2 _ (List.getElem_mem h₁)
    apply List.ext_getElem
    · simp [hj]
    · intro i h₃ h₄
      simp [h₁, h₃]

/-- C100: sending gives the plant the control polynomial of the first element of the last solution, for
as many control values per element as the degree of the states, and the plant advances. -/
theorem C100_sent (c : Config W) (u : List Rat) (s : State W) (sol : Solution) (rest : List Solution)
    (U : List (List Rat)) (later : List (List (List Rat))) (hs : s.lastSolutions = some (sol :: rest))
    (hu : sol.uValues = U :: later) (hU : Spec.Columns c.degree c.plant.nU U) (hd : 0 < c.degree)
    (hS : c.plant.tS ≠ 0) (hr : c.roots.length = c.degree) :
    ∃ f, sendControl c u s = onPlant (Plant.setControlFunction c.plant f) s ∧
      ∀ tau, Spec.controlAt c.roots c.plant.nU c.degree (fun i j => (U.getD j []).getD i 0) tau =
        .ok (f (s.plant.t + tau * c.plant.tS)) := by
  obtain ⟨f, hf, -⟩ := C100_polynomial_partial c.roots c.plant.nU c.degree
    (fun i j => (U.getD j []).getD i 0) s.plant.t c.plant.tS 0 hS hr
  refine ⟨f, ?_, fun tau => ?_⟩
  · have hpar : solutionParameters U = .ok U.flatten := by
      cases U with
      | nil => exact absurd hU.1 (by simp; omega)
      | cons v vs => rfl
    simp only [sendControl, Py.bind_eq, Py.get_bind]
    rw [hs]
    simp only [lastControlParameters, Solution.firstControlParameters, hu]
    rw [Py.lift_ok_bind, hpar, Py.lift_ok_bind, flatten_vecMat hU, hf, Py.lift_ok_bind]
  · obtain ⟨g, hg, hv⟩ := C100_polynomial_partial c.roots c.plant.nU c.degree
      (fun i j => (U.getD j []).getD i 0) s.plant.t c.plant.tS tau hS hr
    rw [hf] at hg
    cases hg
    exact hv

theorem Mpc.sendControl_keeps {c : Config W} {u : List Rat} {s s' : State W}
    (h : sendControl c u s = (.ok (), s')) : s'.lastSolutions = s.lastSolutions ∧ s'.world = s.world := by
  simp only [sendControl, Py.bind_eq, Py.get_bind] at h
  obtain ⟨values, s1, h1, h⟩ := Py.bind_eq_ok.mp h
  simp only [Py.lift, Prod.mk.injEq] at h1
  obtain ⟨-, rfl⟩ := h1
  obtain ⟨par, s1, h1, h⟩ := Py.bind_eq_ok.mp h
  simp only [Py.lift, Prod.mk.injEq] at h1
  obtain ⟨-, rfl⟩ := h1
  obtain ⟨f, s1, h1, h⟩ := Py.bind_eq_ok.mp h
  simp only [Py.lift, Prod.mk.injEq] at h1
  obtain ⟨-, rfl⟩ := h1
  simp only [onPlant, Prod.mk.injEq] at h
  obtain ⟨h1, rfl⟩ := h
  exact ⟨rfl, rfl⟩

/-- C100: in a cycle that returns, the estimator got the time, the measurement and the control of the
plant, the solver got the estimate, the last guess and the control of the plant, its solution is now the
last one, and the plant went on with the control polynomial of the solution's first element. -/
theorem C100_cycle (c : Config W) (s s' : State W) (h : cycle c s = (.ok (), s')) (hd : 0 < c.degree)
    (hS : c.plant.tS ≠ 0) (hr : c.roots.length = c.degree) :
    ∃ est cov w₁ x p sol w₂,
      c.estimate s.plant.t s.plant.measurement s.plant.u s.world = (.ok (est, cov), w₁) ∧
      rearranged c (if c.includeCost then est ++ [0] else est) = .ok x ∧
      c.solve x s.initialGuess p s.plant.u w₁ = (.ok sol, w₂) ∧ s'.lastSolutions = some [sol] ∧
      s'.world = w₂ ∧
      ∀ U later, sol.uValues = U :: later → Spec.Columns c.degree c.plant.nU U →
        ∃ f, Plant.setControlFunction c.plant f s.plant = (.ok (), s'.plant) ∧
          ∀ tau, Spec.controlAt c.roots c.plant.nU c.degree (fun i j => (U.getD j []).getD i 0) tau =
            .ok (f (s.plant.t + tau * c.plant.tS)) := by
  simp only [cycle, Py.bind_eq, Py.modify_bind] at h
  obtain ⟨m, s1, h1, h⟩ := Py.bind_eq_ok.mp h
  simp only [getMeasurement, onPlant, Plant.getMeasurement, Prod.mk.injEq, Except.ok.injEq] at h1
  obtain ⟨rfl, rfl⟩ := h1
  obtain ⟨xp, s2, h2, h⟩ := Py.bind_eq_ok.mp h
  simp only [getStates, Py.bind_eq] at h2
  obtain ⟨⟨est, cov⟩, s2', h2', h2⟩ := Py.bind_eq_ok.mp h2
  simp only [Py.pure_apply, Prod.mk.injEq, Except.ok.injEq] at h2
  obtain ⟨rfl, rfl⟩ := h2
  cases hest : c.estimate s.plant.t s.plant.measurement s.plant.u s.world with
  | mk r w₁ =>
  simp only [onWorld, hest, Prod.mk.injEq] at h2'
  obtain ⟨rfl, rfl⟩ := h2'
  obtain ⟨p, s3, h3, h⟩ := Py.bind_eq_ok.mp h
  have k3 := keeps_getParameter (P := fun q : State W => q.plant = s.plant ∧ q.initialGuess = s.initialGuess ∧
      q.world = w₁) c (if c.includeCost then est ++ [0] else est) cov
    (fun _ _ h => h) { s with iteration := s.iteration + 1, world := w₁ } ⟨rfl, rfl, rfl⟩
  simp only at h3
  rw [h3] at k3
  obtain ⟨k₁, k₂, k₃⟩ := k3
  obtain ⟨x, s4, h4, h⟩ := Py.bind_eq_ok.mp h
  simp only [Py.lift, Prod.mk.injEq] at h4
  obtain ⟨hx, rfl⟩ := h4
  obtain ⟨u, s5, h5, hsend⟩ := Py.bind_eq_ok.mp h
  simp only [getNewControl, Py.bind_eq, Py.modify_bind, Py.get_bind] at h5
  obtain ⟨sol, s6, h6, h5⟩ := Py.bind_eq_ok.mp h5
  obtain ⟨gs, s7, h7, h5⟩ := Py.bind_eq_ok.mp h5
  simp only [Py.lift, Prod.mk.injEq] at h7
  obtain ⟨-, rfl⟩ := h7
  simp only [Py.modify_bind, Py.lift, Prod.mk.injEq] at h5
  obtain ⟨-, rfl⟩ := h5
  cases hsolve : c.solve x s.initialGuess p s.plant.u w₁ with
  | mk r w₂ =>
  simp only at k₁ k₂ k₃
  simp only [onWorld, k₂, k₃, hsolve, Prod.mk.injEq] at h6
  obtain ⟨rfl, rfl⟩ := h6
  generalize hs5 : (State.mk _ _ _ _ _ _ _ : State W) = s5 at hsend
  have hl : s5.lastSolutions = some [sol] := by rw [← hs5]
  have hw : s5.world = w₂ := by rw [← hs5]
  have hp5 : s5.plant = s.plant := by rw [← hs5]; exact k₁
  have hkeep := sendControl_keeps hsend
  refine ⟨est, cov, w₁, x, p, sol, w₂, rfl, hx, hsolve, hkeep.1.trans hl, hkeep.2.trans hw,
    fun U later hu hU => ?_⟩
  obtain ⟨f, hf, hv⟩ := C100_sent c u s5 sol [] U later hl hu hU hd hS hr
  rw [hf] at hsend
  rw [hp5] at hv
  refine ⟨f, ?_, hv⟩
  unfold onPlant at hsend
  rw [hp5] at hsend
  simp only [Prod.mk.injEq] at hsend
  obtain ⟨h₁, rfl⟩ := hsend
  exact Prod.ext h₁ rfl

/-- C100: a solution without controls is rejected, before anything is sent. -/
theorem C100_no_controls (c : Config W) (x u : List Rat) (p : Option (List Rat)) (s : State W)
    (sol : Solution) (guess : List Rat) (w : W) (hs : c.solve x s.initialGuess p u s.world = (.ok sol, w))
    (hg : step c.dims sol.raw = .ok guess) (he : sol.uValues.head?.getD [] = []) :
    (getNewControl c x u p s).1 = .error .indexError ∧
      (getNewControl c x u p s).2.plant = s.plant := by
  have hf : sol.firstControl = .error .indexError := by
    unfold Solution.firstControl Solution.firstControlParameters
    cases hu : sol.uValues with
    | nil => rfl
    | cons U rest =>
      rw [hu] at he
      have : U = [] := he
      subst this
      rfl
  simp only [getNewControl, Py.bind_eq, Py.modify_bind, Py.get_bind]
  rw [Py.bind_ok (show onWorld (c.solve x s.initialGuess p u) { s with
    debuggerStops := s.debuggerStops + 1 } = (.ok sol, { s with
      debuggerStops := s.debuggerStops + 1, world := w }) by simp only [onWorld, hs])]
  rw [hg, Py.lift_ok_bind]
  simp only [Py.modify_bind, hf]
  exact ⟨rfl, rfl⟩

/-- C100: sending raises when the last solution has no elements, or no control values in its first one;
the plant stays. -/
theorem C100_nothing_to_send (c : Config W) (u : List Rat) (s : State W) (sol : Solution)
    (rest : List Solution) (hs : s.lastSolutions = some (sol :: rest)) :
    (sol.uValues = [] → sendControl c u s = (.error .indexError, s)) ∧
    ∀ later, sol.uValues = [] :: later → sendControl c u s = (.error .notImplementedError, s) := by
  constructor
  · intro he
    simp only [sendControl, Py.bind_eq, Py.get_bind, hs, lastControlParameters,
      Solution.firstControlParameters, he]
    rfl
  · intro later he
    simp only [sendControl, Py.bind_eq, Py.get_bind, hs, lastControlParameters,
      Solution.firstControlParameters, he]
    rfl

/-- C56: a fixed-control run of `n` cycles that returns has counted `n` iterations and has advanced the
plant `n` times; with or without the estimator. -/
theorem C56_fixed_counts (c : Config W) (u : List Rat) (n : Nat) (d : Rat)
    (hd : c.plant.points.getLast? = some d) (s s' : State W)
    (h : runFixedControl c u n s = (.ok (), s') ∨ runFixedControlWithEstimator c u n s = (.ok (), s')) :
    s'.iteration = s.iteration + n ∧ s'.plant.t = s.plant.t + n * (d * c.plant.tS) := by
  have key : ∀ body : Py (State W) Unit, (∀ s s', body s = (.ok (), s') →
      s'.iteration = s.iteration + 1 ∧ s'.plant.t = s.plant.t + d * c.plant.tS) →
      ∀ n s s', Spec.times n body s = (.ok (), s') →
        s'.iteration = s.iteration + n ∧ s'.plant.t = s.plant.t + n * (d * c.plant.tS) := by
    intro body hb n
    induction n with
    | zero =>
      intro s s' h
      simp only [Spec.times, Py.pure_apply, Prod.mk.injEq] at h
      rw [← h.2]; simp
    | succ n ih =>
      intro s s' h
      obtain ⟨_, s1, h1, h2⟩ := Py.bind_eq_ok.mp h
      obtain ⟨e1, e2⟩ := hb _ _ h1
      obtain ⟨f1, f2⟩ := ih s1 _ h2
      rw [f1, f2, e1, e2]
      refine ⟨by omega, ?_⟩
      push_cast; ring
  rcases h with h | h
  · rw [(C56_fixed c u n).1] at h
    refine key _ (fun s s' h => ?_) n s s' h
    simp only [fixedCycle, Py.bind_eq, Py.modify_bind] at h
    obtain ⟨m, s1, h1, h⟩ := Py.bind_eq_ok.mp h
    simp only [getMeasurement, onPlant, Plant.getMeasurement, Prod.mk.injEq, Except.ok.injEq] at h1
    obtain ⟨rfl, rfl⟩ := h1
    obtain ⟨g1, g2, -⟩ := sendControl_ok hd h
    exact ⟨g2, g1⟩
  · rw [(C56_fixed c u n).2] at h
    refine key _ (fun s s' h => ?_) n s s' h
    simp only [estimatorCycle, Py.bind_eq, Py.modify_bind] at h
    obtain ⟨m, s1, h1, h⟩ := Py.bind_eq_ok.mp h
    simp only [getMeasurement, onPlant, Plant.getMeasurement, Prod.mk.injEq, Except.ok.injEq] at h1
    obtain ⟨rfl, rfl⟩ := h1
    obtain ⟨xp, s2, h2, h⟩ := Py.bind_eq_ok.mp h
    have k2 := keeps_getStates (P := fun q : State W => q.plant = s.plant ∧
      q.iteration = s.iteration + 1) c (s.plant.t, s.plant.measurement, s.plant.u) (fun _ _ h => h)
      { s with iteration := s.iteration + 1 } ⟨rfl, rfl⟩
    rw [h2] at k2
    obtain ⟨k₁, k₂⟩ := k2
    obtain ⟨g1, g2, -⟩ := sendControl_ok hd h
    exact ⟨g2.trans k₂, by rw [g1, k₁]⟩

/-- The hypotheses of `C100_sent` and `C100_cycle` are met. -/
example : (cycle demoConfig demoState).1 = .ok () ∧ 0 < demoConfig.degree ∧ demoConfig.plant.tS ≠ 0 ∧
    demoConfig.roots.length = demoConfig.degree ∧ Spec.Columns demoConfig.degree demoConfig.plant.nU [[6]] ∧
    ((cycle demoConfig demoState).2.lastSolutions.map (List.map Solution.uValues)) = some [[[[6]]]] := by
  refine ⟨by decide +kernel, by decide, by decide, rfl, ?_, by decide +kernel⟩
  unfold Spec.Columns
  decide

/-- The hypotheses of `C100_no_controls` are met. -/
example : (step demoConfig.dims [1, 2, 3, 4, 5, 6, 7, 8, 9, 10, 20, 30]).toOption.isSome = true ∧
    ((⟨[1, 2, 3, 4, 5, 6, 7, 8, 9, 10, 20, 30], []⟩ : Solution).uValues.head?.getD [] = []) := by
  decide +kernel

/-- The hypotheses of `C56_fixed_counts` are met after a cycle. -/
example : (runFixedControl demoConfig [1] 2 (cycle demoConfig demoState).2).1 = .ok () ∧
    (runFixedControlWithEstimator demoConfig [1] 2 (cycle demoConfig demoState).2).1 = .ok () ∧
    demoConfig.plant.points.getLast? = some 1 := by decide +kernel

end Verif
