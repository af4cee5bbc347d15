import Verif.Lemmas.Mpc
import Verif.Props.Poly
import Verif.Props.Plant
/-!
# C55, C56, C58, C98–C101: the controller
-/
namespace Verif
open Mpc

variable {W : Type}

/-! ## C55: warm start -/

/-- C55, partial: for at least two elements the next guess has the size of the solution, and the
values of states, algebraic variables and controls in element `k` are those of the next element (the
last one for the last) multiplied by 11/10; so are `eta` and the optimised parameters, which stay in
place. -/
theorem C55_shift_partial (d : Dims) (v : List Rat) (hd : 2 ≤ d.elements)
    (hv : v.length = Spec.collocationSize d) :
    ∃ w b b', step d v = .ok w ∧ w.length = v.length ∧
      Layout.collocationBlocks d v = .ok b ∧ Layout.collocationBlocks d w = .ok b' ∧
      (∀ k, k < d.elements →
        b'.x[k]? = (b.x[Spec.nextElement d.elements k]?).map Spec.scaled ∧
        b'.y[k]? = (b.y[Spec.nextElement d.elements k]?).map Spec.scaled ∧
        b'.u[k]? = (b.u[Spec.nextElement d.elements k]?).map Spec.scaled) ∧
      b'.eta = b.eta.map (fun a => a * (11 / 10)) ∧ b'.pOpt = b.pOpt.map (fun a => a * (11 / 10)) ∧
      b'.thetaOpt = Spec.scaled b.thetaOpt := by
  obtain ⟨b, xs, xs', last, y, u, hb, hx, hxl, hyl, hul, h1, h2, h3, hshape, hstep, hlen⟩ :=
    step_run d v hd hv
  refine ⟨_, b, _, hstep, hlen, hb, Layout.collocationBlocks_repack (shape_map _ d _ hshape), ?_,
    rfl, rfl, rfl⟩
  obtain ⟨xs'', e1, l1, g1⟩ := shiftOne_run xs (by omega)
  obtain rfl : xs'' = xs' := by rw [h1] at e1; cases e1; rfl
  obtain ⟨y', e2, l2, g2⟩ := shiftOne_run b.y (by omega)
  obtain rfl : y' = y := by rw [h2] at e2; cases e2; rfl
  obtain ⟨u', e3, l3, g3⟩ := shiftOne_run b.u (by omega)
  obtain rfl : u' = u := by rw [h3] at e3; cases e3; rfl
  intro k hk
  have hn : Spec.nextElement d.elements k < d.elements := by simp [Spec.nextElement]; omega
  rw [hxl] at g1; rw [hyl] at g2; rw [hul] at g3
  refine ⟨?_, ?_, ?_⟩
  · simp only [Spec.mapBlocks, List.getElem?_map]
    rw [List.getElem?_append_left (by omega), g1 k hk, hx, List.getElem?_append_left (by omega)]
    rfl
  · simp only [Spec.mapBlocks, List.getElem?_map]
    rw [g2 k hk]; rfl
  · simp only [Spec.mapBlocks, List.getElem?_map]
    rw [g3 k hk]; rfl

/-- Three elements of degree one, one state, one control. -/
def Mpc.demoDims : Dims where
  elements := 3
  degree := 1
  degreeControl := 1
  nX := 1
  nY := 0
  nU := 1
  nUPar := 1
  nEta := 0
  nPOpt := 0
  nThetaOpt := 1

example : step demoDims [1, 2, 3, 4, 5, 6, 7, 8, 9, 10, 20, 30] =
    .ok ([3, 4, 5, 6, 5, 6, 8, 9, 9, 10, 20, 30].map (· * (11 / 10))) := by decide +kernel

/-- C55 fails because of the factor: a state of the next element that is not zero is not what the
guess has in element `k`. -/
theorem C55_scaled_fails (d : Dims) (v : List Rat) (hd : 2 ≤ d.elements)
    (hv : v.length = Spec.collocationSize d) :
    ∃ w b b', step d v = .ok w ∧ Layout.collocationBlocks d v = .ok b ∧
      Layout.collocationBlocks d w = .ok b' ∧
      ∀ k, k < d.elements → ∀ el, b.x[Spec.nextElement d.elements k]? = some el →
        (b'.x[k]? = some el ↔ ∀ c ∈ el, ∀ a ∈ c, a = 0) := by
  obtain ⟨w, b, b', h1, -, h2, h3, h4, -⟩ := C55_shift_partial d v hd hv
  refine ⟨w, b, b', h1, h2, h3, fun k hk el hel => ?_⟩
  rw [(h4 k hk).1, hel]
  simp only [Option.map_some, Option.some.injEq, Spec.scaled]
  have hone : ∀ c : List Rat, c.map (fun a => a * (11 / 10)) = c ↔ ∀ a ∈ c, a = 0 := by
    intro c
    induction c with
    | nil => simp
    | cons a c ih =>
      simp only [List.map_cons, List.cons.injEq, List.mem_cons, forall_eq_or_imp, ih]
      constructor
      · rintro ⟨h, h'⟩; exact ⟨by linarith, h'⟩
      · rintro ⟨h, h'⟩; exact ⟨by rw [h]; simp, h'⟩
  clear hel
  induction el with
  | nil => simp
  | cons c el ih =>
    simp only [List.map_cons, List.cons.injEq, List.mem_cons, forall_eq_or_imp, ih, hone]

/-- C55 fails for the optimised parameters of the elements: they stay in their element, so wherever
the next element has other values the guess does not have those of the next element. -/
theorem C55_theta_fails (d : Dims) (v : List Rat) (hd : 2 ≤ d.elements)
    (hv : v.length = Spec.collocationSize d) :
    ∃ w b b', step d v = .ok w ∧ Layout.collocationBlocks d v = .ok b ∧
      Layout.collocationBlocks d w = .ok b' ∧ ∀ k, k < d.elements →
        b.thetaOpt[k]? ≠ b.thetaOpt[Spec.nextElement d.elements k]? →
        b'.thetaOpt[k]? ≠
          (b.thetaOpt[Spec.nextElement d.elements k]?).map (List.map fun a => a * (11 / 10)) := by
  obtain ⟨w, b, b', h1, -, h2, h3, -, -, -, h4⟩ := C55_shift_partial d v hd hv
  refine ⟨w, b, b', h1, h2, h3, fun k _ hne h => hne ?_⟩
  rw [h4, Spec.scaled, List.getElem?_map] at h
  refine Option.map_injective (List.map_injective_iff.mpr ?_) h
  intro a a' haa
  simp only at haa
  linarith

/-- C55: with a single element the warm start raises `IndexError`. -/
theorem C55_single_element_fails (d : Dims) (v : List Rat) (hd : d.elements = 1)
    (hv : v.length = Spec.collocationSize d) : step d v = .error .indexError :=
  step_single d v hd hv

example : step { demoDims with elements := 1 } [1, 2, 3, 4] = .error .indexError := by decide +kernel

/-! ## C56: number of iterations -/

/-- C56: `run(iterations=n)` with `n >= 1` is exactly `n` cycles, the first exception ending the
run. -/
theorem C56_run (c : Config W) (n : Nat) (hn : 1 ≤ n) : run c n = Spec.times n (cycle c) := by
  rw [run, countLoop_eq]
  congr 1
  omega

/-- C56: the fixed-control runs are exactly `n` of their cycles. -/
theorem C56_fixed (c : Config W) (u : List Rat) (n : Nat) :
    runFixedControl c u n = Spec.times n (fixedCycle c u) ∧
      runFixedControlWithEstimator c u n = Spec.times n (estimatorCycle c u) := by
  constructor
  · rw [runFixedControl, forEach_range, List.length_range]
  · rw [runFixedControlWithEstimator, forEach_range, List.length_range]

/-- C56: a run of `n` cycles that returns has counted `n` iterations and has advanced the plant `n`
times: by `n` sampling times when the sampling points end with 1. -/
theorem C56_counts (c : Config W) (n : Nat) (d : Rat)
    (hd : c.plant.points.getLast? = some d) (hn : 1 ≤ n) (s s' : State W)
    (h : run c n s = (.ok (), s')) :
    s'.iteration = s.iteration + n ∧ s'.plant.t = s.plant.t + n * (d * c.plant.tS) := by
  rw [C56_run c n hn] at h
  clear hn
  induction n generalizing s with
  | zero =>
    simp only [Spec.times, Py.pure_apply, Prod.mk.injEq] at h
    rw [← h.2]; simp
  | succ n ih =>
    obtain ⟨_, s1, h1, h2⟩ := Py.bind_eq_ok.mp h
    obtain ⟨e1, e2, -⟩ := cycle_ok hd h1
    obtain ⟨f1, f2⟩ := ih s1 h2
    rw [f1, f2, e1, e2]
    refine ⟨by omega, ?_⟩
    push_cast; ring

/-- C56 fails for `iterations = 0`: instead of running indefinitely the run is one cycle. -/
theorem C56_zero_fails (c : Config W) (n : Int) (hn : n ≤ 0) :
    run c n = Spec.times 1 (cycle c) := by
  rw [run, countLoop_eq]
  congr 1
  omega

/-- A controller with the ideal estimator and a solver that always answers the same, one estimated
value as parameter. -/
def Mpc.demoConfig : Config Unit where
  plant := Plant.demo
  dims := demoDims
  roots := [1]
  degree := 1
  estimate := fun _ y _ => Py.pure ((Plant.idealEstimate 1 y).1, [0])
  solve := fun x _ _ _ => Py.pure ⟨[1, 2, 3, 4, 5, 6, 7, 8, 9, 10, 20, 30], [[[x.headD 0 + 1]]]⟩
  includeCost := false
  meanAsParameter := true
  meanIndices := [(0, 1)]
  covarianceAsParameter := false
  covIndices := []
  rearrange := none

/-- A controller before its first iteration. -/
def Mpc.demoState : State Unit where
  plant := (Plant.fillData Plant.demo Plant.demoNames (Plant.blank 0 [5] [0] none)).2
  world := ()
  initialGuess := none
  lastSolutions := none
  iteration := 0
  p := some [7, 8, 9]
  debuggerStops := 0

example : (run demoConfig 2 demoState).1 = .ok () ∧ (run demoConfig 2 demoState).2.iteration = 2 ∧
    (run demoConfig 2 demoState).2.plant.t = 4 ∧ (run demoConfig 2 demoState).2.plant.x = [53] := by
  rw [show (2 : Int) = ((2 : Nat) : Int) from rfl, C56_run demoConfig 2 (by decide)]
  decide +kernel

/-! ## C58: parameters -/

/-- The estimates of a list of iterations, given to `_get_parameter` one after the other. -/
def Mpc.afterEstimates (c : Config W) (es : List (List Rat × List Rat)) (s : State W) : State W :=
  runHistory (fun e s => (getParameter c e.1 e.2 s).2) es s

/-- C58, partial: after any number of earlier iterations, the vector given to the solver has the
current estimates at the configured positions and the values the user gave initially elsewhere. -/
theorem C58_values_partial (c : Config W) (p0 : List Rat) (s : State W) (hp : s.p = some p0)
    (es : List (List Rat × List Rat)) (x cov : List Rat)
    (hes : ∀ e ∈ es, Spec.ParametersFit c p0.length e.1 e.2)
    (hf : Spec.ParametersFit c p0.length x cov) :
    ∃ p, (getParameter c x cov (afterEstimates c es s)).1 = .ok (some p) ∧
      p.length = p0.length ∧
      ∀ i, i < p0.length → p[i]? = Spec.assigned p0 (Spec.assignments c x cov) i := by
  have hinv : ∀ (es : List (List Rat × List Rat)) (l : List (Nat × Rat)) (p : List Rat)
      (s : State W), s.p = some p → Assigned p0 l p →
      (∀ e ∈ es, Spec.ParametersFit c p0.length e.1 e.2) →
      (∀ ia ∈ l, ∃ x cov, ia.1 ∈ (Spec.assignments c x cov).map (·.1)) →
      ∃ l' p', (afterEstimates c es s).p = some p' ∧ Assigned p0 l' p' ∧
        ∀ ia ∈ l', ∃ x cov, ia.1 ∈ (Spec.assignments c x cov).map (·.1) := by
    intro es
    induction es with
    | nil => intro l p s hp ha _ hl; exact ⟨l, p, hp, ha, hl⟩
    | cons e es ih =>
      intro l p s hp ha hes hl
      obtain ⟨p', hr, ha'⟩ := getParameter_run c e.1 e.2 p0 l p s hp ha (hes e (by simp))
      have := ih (l ++ Spec.assignments c e.1 e.2) p' { s with p := some p' } rfl ha'
        (fun e' he' => hes e' (by simp [he'])) (by
          intro ia hia
          rcases List.mem_append.mp hia with h | h
          · exact hl ia h
          · exact ⟨e.1, e.2, List.mem_map_of_mem h⟩)
      simpa [afterEstimates, runHistory, hr] using this
  obtain ⟨l', p', hp', ha', hl'⟩ := hinv es [] p0 s hp ⟨rfl, fun i _ => by simp [Spec.assigned]⟩ hes
    (by simp)
  obtain ⟨q, hr, hq⟩ := getParameter_run c x cov p0 l' p' _ hp' ha' hf
  refine ⟨q, by rw [hr], hq.1, fun i hi => ?_⟩
  rw [hq.2 i hi]
  have hsame : ∀ x' cov', (Spec.assignments c x' cov').map (·.1) =
      (Spec.assignments c x cov).map (·.1) := by
    intro x' cov'
    simp only [Spec.assignments, List.map_append]
    congr 1 <;> split <;> simp [Function.comp_def]
  unfold Spec.assigned
  rw [List.reverse_append, List.find?_append]
  cases hfind : (Spec.assignments c x cov).reverse.find? (fun ia => decide (ia.1 = i)) with
  | some ia => rfl
  | none =>
    have : l'.reverse.find? (fun ia => decide (ia.1 = i)) = none := by
      rw [List.find?_eq_none]
      intro ia hia hi'
      rw [List.mem_reverse] at hia
      obtain ⟨x', cov', hm⟩ := hl' ia hia
      rw [hsame, List.mem_map] at hm
      obtain ⟨ib, hib, hib'⟩ := hm
      have := List.find?_eq_none.mp hfind ib (by simpa using hib)
      simp only [decide_eq_true_eq] at this hi'
      exact this (hib'.trans hi')
    rw [this]; rfl

/-- C58 fails: the vector the user gave is the one that is changed: after the call it is the vector
given to the solver, different from what the user had whenever an estimate differs. -/
theorem C58_users_vector_fails (c : Config W) (p0 : List Rat) (s : State W) (hp : s.p = some p0)
    (x cov : List Rat) (hf : Spec.ParametersFit c p0.length x cov) (i : Nat) (hi : i < p0.length)
    (hne : Spec.assigned p0 (Spec.assignments c x cov) i ≠ p0[i]?) :
    ∃ p, getParameter c x cov s = (.ok (some p), { s with p := some p }) ∧
      (getParameter c x cov s).2.p ≠ some p0 := by
  obtain ⟨p, hr, ha⟩ := getParameter_run c x cov p0 [] p0 s hp ⟨rfl, fun i _ => by
    simp [Spec.assigned]⟩ hf
  refine ⟨p, hr, ?_⟩
  rw [hr]
  intro h
  simp only [Option.some.injEq] at h
  have := ha.2 i hi
  rw [h, List.nil_append] at this
  exact hne this.symm

example : Spec.ParametersFit demoConfig 3 [5] [0] ∧
    Spec.assigned [7, 8, 9] (Spec.assignments demoConfig [5] [0]) 1 = some 5 ∧
    (getParameter demoConfig [5] [0] demoState).1 = .ok (some [7, 5, 9]) := by
  refine ⟨⟨fun _ => by decide, fun h => by cases h⟩, by decide +kernel, by decide +kernel⟩

/-- C58: positions that do not exist raise, and without a parameter vector the first assignment
raises `TypeError`; the vector is then as before. -/
theorem C58_errors (c : Config W) (x cov : List Rat) (s : State W) (ij : Nat × Nat)
    (rest : List (Nat × Nat)) (hm : c.meanAsParameter = true) (hi : c.meanIndices = ij :: rest) :
    (x.length ≤ ij.1 → getParameter c x cov s = (.error .runtimeError, s)) ∧
    (ij.1 < x.length → s.p = none → getParameter c x cov s = (.error .typeError, s)) ∧
    (∀ p, ij.1 < x.length → s.p = some p → p.length ≤ ij.2 →
      getParameter c x cov s = (.error .runtimeError, s)) := by
  refine ⟨fun h => ?_, fun h hp => ?_, fun p h hp hl => ?_⟩ <;>
    simp only [getParameter, hm, hi, whenTrue, if_true, writeParameters, Py.forEach, Py.bind_eq] <;>
    refine Py.bind_error (Py.bind_error ?_)
  · simp [entryOf, List.getElem?_eq_none h]
  · simp [entryOf, List.getElem?_eq_getElem h, writeParameter, hp]
  · simp [entryOf, List.getElem?_eq_getElem h, writeParameter, hp, Nat.not_lt.mpr hl]

/-! ## C98: no interaction -/

/-- C98 fails: every completed iteration entered the interactive debugger once. -/
theorem C98_unattended_fails (c : Config W) (n : Nat) (d : Rat)
    (hd : c.plant.points.getLast? = some d) (hn : 1 ≤ n) (s s' : State W)
    (h : run c n s = (.ok (), s')) : s'.debuggerStops = s.debuggerStops + n := by
  rw [C56_run c n hn] at h
  clear hn
  induction n generalizing s with
  | zero =>
    simp only [Spec.times, Py.pure_apply, Prod.mk.injEq] at h
    rw [← h.2]; rfl
  | succ n ih =>
    obtain ⟨_, s1, h1, h2⟩ := Py.bind_eq_ok.mp h
    obtain ⟨-, -, e⟩ := cycle_ok hd h1
    rw [ih s1 h2, e]; omega

/-! ## C99: fixed control -/

/-- C99 fails: what a fixed-control run does is the same for every control. -/
theorem C99_fixed_control_fails (c : Config W) (u u' : List Rat) (n : Nat) :
    runFixedControl c u n = runFixedControl c u' n ∧
      runFixedControlWithEstimator c u n = runFixedControlWithEstimator c u' n := ⟨rfl, rfl⟩

/-- C99: before the first solution a fixed-control run raises `TypeError` in its first iteration and
the plant stays as it is. -/
theorem C99_initial_fails (c : Config W) (u : List Rat) (n : Nat) (s : State W)
    (hs : s.lastSolutions = none) :
    runFixedControl c u (n + 1) s = (.error .typeError, { s with iteration := s.iteration + 1 }) := by
  rw [(C56_fixed c u (n + 1)).1, times_succ]
  refine Py.bind_error ?_
  simp only [fixedCycle, Py.bind_eq, Py.modify_bind]
  rw [Py.bind_ok (show getMeasurement { s with iteration := s.iteration + 1 } =
    (.ok _, { s with iteration := s.iteration + 1 }) from rfl)]
  simp [sendControl, hs, lastControlParameters]

example : demoState.lastSolutions = none := rfl

/-! ## C100: the control polynomial -/

theorem Mpc.getD_vecMat (nU n : Nat) (M : Nat → Nat → Rat) (i j : Nat) (hi : i < nU) (hj : j < n) :
    (vecMat nU n M).getD (i + j * nU) 0 = M i j := by
  rw [Nat.add_comm, List.getD_eq_getElem?_getD, (C06_parameter_layout nU n M).2 i j hi hj]
  rfl

theorem Mpc.polyRow_congr (ell : List Rat) (p q : Nat → Nat → Rat) (s : Nat)
    (h : ∀ j, j < ell.length → p s j = q s j) : polyRow ell p s = polyRow ell q s := by
  unfold polyRow
  congr 1
  apply List.map_congr_left
  intro lj hlj
  have := List.mem_zipIdx hlj
  rw [h lj.2 (by omega)]

theorem Mpc.polyRow_const (ell : List Rat) (a : Rat) (s : Nat) :
    polyRow ell (fun _ _ => a) s = ell.sum * a := by
  unfold polyRow
  rw [List.sum_map_mul_right]
  congr 1
  exact congrArg List.sum (List.zipIdx_map_fst 0 ell)

/-- C100, partial: when the degree of the control equals the degree of the states, the function given
to the plant is, over the sampling interval, the control polynomial of the first element. -/
theorem C100_polynomial_partial (roots : List Rat) (nU degree : Nat) (M : Nat → Nat → Rat)
    (t tS tau : Rat) (hS : tS ≠ 0) (hr : roots.length = degree) :
    ∃ f, makeControlFunction roots nU degree (vecMat nU degree M) t tS = .ok f ∧
      Spec.controlAt roots nU degree M tau = .ok (f (t + tau * tS)) := by
  have hl := (C06_parameter_layout nU degree M).1
  rw [Nat.mul_comm] at hl
  simp only [makeControlFunction, controlPoints, hl, if_true]
  refine ⟨_, rfl, ?_⟩
  rw [Spec.controlAt, C06_method_eq_util _ _ _ _ _ _ (Or.inr (Or.inl rfl))]
  have e : (t + tau * tS - t) / (t + tS - t) = tau := by
    rw [add_sub_cancel_left, add_sub_cancel_left, mul_div_assoc, div_self hS, mul_one]
  rw [e]
  congr 1
  unfold polyApproxUtil
  split
  · next hd =>
    apply List.map_congr_left
    intro i hi
    exact (getD_vecMat nU degree M i 0 (List.mem_range.mp hi) (by omega)).symm
  · apply List.map_congr_left
    intro i hi
    refine polyRow_congr _ _ _ _ fun j hj => (getD_vecMat nU degree M i j (List.mem_range.mp hi) ?_).symm
    have hlen : (lagrangeBasisUtil roots false tau).length = degree := by
      simp [lagrangeBasisUtil, hr]
    omega

example : ([1 / 3, 1] : List Rat).length = 2 ∧ (2 : Rat) ≠ 0 := ⟨rfl, by decide⟩

/-- C100 fails when there are several controls and they are constant in each element, which is the
default, while the states have a higher degree: sending the control raises `RuntimeError`. -/
theorem C100_constant_controls_fails (roots : List Rat) (nU degree degreeControl : Nat)
    (M : Nat → Nat → Rat) (t tS : Rat) (hne : degree ≠ degreeControl) (hU : 0 < nU)
    (h1 : nU * degreeControl ≠ 1) :
    makeControlFunction roots nU degree (vecMat nU degreeControl M) t tS = .error .runtimeError := by
  have hl : (vecMat nU degreeControl M).length = nU * degreeControl := by
    simp [vecMat, List.length_flatMap, Nat.mul_comm]
  have : nU * degreeControl ≠ nU * degree := by
    intro h
    exact hne (Nat.eq_of_mul_eq_mul_left hU h).symm
  simp only [makeControlFunction, controlPoints, hl, if_neg this, if_neg h1]
  rfl

/-- C100: one control that is constant in each element is sent as that constant. -/
theorem C100_scalar (roots : List Rat) (degree : Nat) (a t tS s : Rat) (hr : roots.length = degree)
    (hn : roots.Nodup) (hd : 1 ≤ degree) :
    ∃ f, makeControlFunction roots 1 degree [a] t tS = .ok f ∧ f s = [a] := by
  by_cases h1 : degree = 1
  · subst h1
    exact ⟨_, rfl, by simp [polyApproxUtil]⟩
  · have hp : controlPoints 1 degree [a] = .ok fun _ _ => a := by
      simp only [controlPoints, List.length_singleton, Nat.one_mul, if_neg (Ne.symm h1), if_true]
      rfl
    simp only [makeControlFunction, hp]
    refine ⟨_, rfl, ?_⟩
    have hne : interpolationNodes roots false ≠ [] := by
      simp only [interpolationNodes]
      rintro rfl
      simp at hr
      omega
    simp only [polyApproxUtil, if_neg h1, List.range_one, List.map_singleton]
    rw [polyRow_const, C06_util_partition_of_unity roots false (by simpa [interpolationNodes] using hn)
      hne, one_mul]

example : ([1 / 3, 1] : List Rat).Nodup := by decide +kernel

/-! ## C101: failures of the solver -/

/-- C101: when the solver raises, no control is sent: the plant, the last solution and the guess are
as before. -/
theorem C101_solver_failure (c : Config W) (s : State W)
    (hs : ∀ x g p u w, ∃ e w', c.solve x g p u w = (.error e, w')) :
    ∃ e s', cycle c s = (.error e, s') ∧ s'.plant = s.plant ∧ s'.lastSolutions = s.lastSolutions ∧
      s'.initialGuess = s.initialGuess ∧ s'.iteration = s.iteration + 1 := by
  let P : State W → Prop := fun s' => s'.plant = s.plant ∧ s'.lastSolutions = s.lastSolutions ∧
      s'.initialGuess = s.initialGuess ∧ s'.iteration = s.iteration + 1
  have hw : ∀ s w, P s → P { s with world := w } := fun _ _ h => h
  have hp : ∀ s p, P s → P { s with p := p } := fun _ _ h => h
  have hfail : ∀ (x u p) (s1 : State W), ∃ e, (getNewControl c x u p s1).1 = .error e := by
    intro x u p s1
    obtain ⟨e, w', h⟩ := hs x s1.initialGuess p u s1.world
    refine ⟨e, ?_⟩
    simp only [getNewControl, Py.bind_eq, Py.modify_bind, Py.get_bind]
    rw [Py.bind_error (e := e) (by simp only [onWorld, h]; rfl)]
  have hkeep : ∀ (x u p), Py.Always P (getNewControl c x u p) := by
    intro x u p s1 h1
    obtain ⟨e, w', h⟩ := hs x s1.initialGuess p u s1.world
    simp only [getNewControl, Py.bind_eq, Py.modify_bind, Py.get_bind]
    rw [Py.bind_error (e := e) (by simp only [onWorld, h]; rfl)]
    exact h1
  have key : ∃ e s', cycle c s = (.error e, s') ∧ P s' := by
    simp only [cycle, Py.bind_eq, Py.modify_bind]
    generalize h0 : ({ s with iteration := s.iteration + 1 } : State W) = s0
    have P0 : P s0 := by subst h0; exact ⟨rfl, rfl, rfl, rfl⟩
    cases h1 : getMeasurement s0 with
    | mk r1 s1 =>
    have P1 : P s1 := by simpa [h1] using keeps_getMeasurement (P := P) s0 P0
    cases r1 with
    | error e => exact ⟨e, s1, Py.bind_error h1, P1⟩
    | ok m =>
    rw [Py.bind_ok h1]
    cases h2 : getStates c m s1 with
    | mk r2 s2 =>
    have P2 : P s2 := by simpa [h2] using keeps_getStates c m hw s1 P1
    cases r2 with
    | error e => exact ⟨e, s2, Py.bind_error h2, P2⟩
    | ok xp =>
    rw [Py.bind_ok h2]
    cases h3 : getParameter c xp.1 xp.2 s2 with
    | mk r3 s3 =>
    have P3 : P s3 := by simpa [h3] using keeps_getParameter c xp.1 xp.2 hp s2 P2
    cases r3 with
    | error e => exact ⟨e, s3, Py.bind_error h3, P3⟩
    | ok p =>
    rw [Py.bind_ok h3]
    cases h4 : rearranged c xp.1 with
    | error e => exact ⟨e, s3, Py.bind_error (by simp [Py.lift]), P3⟩
    | ok x =>
    rw [Py.bind_ok (show Py.lift (Except.ok x) s3 = (.ok x, s3) from rfl)]
    obtain ⟨e, he⟩ := hfail x m.2.2 p s3
    refine ⟨e, _, Py.bind_error (Prod.ext he rfl), hkeep x m.2.2 p s3 P3⟩
  obtain ⟨e, s', h, h'⟩ := key
  exact ⟨e, s', h, h'⟩

example : ∀ x g p u w, ∃ e w', ({ demoConfig with solve := fun _ _ _ _ => Py.throw .exception } :
    Config Unit).solve x g p u w = (.error e, w') := fun _ _ _ _ w => ⟨.exception, w, rfl⟩

end Verif
