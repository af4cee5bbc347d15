import Verif.Lemmas.Plant
import Mathlib.Tactic.Positivity
import Mathlib.Data.Rat.Cast.Order
/-!
# C57, C82 and C95–C97: the simulated plant
-/
namespace Verif
open Plant

/-- A plant with one state, one algebraic variable and one control; the state integrates the
control, two sampling points. -/
def Plant.demo : Env where
  nX := 1
  nY := 1
  nU := 1
  nUPar := 1
  tS := 2
  yGuess := [0]
  points := [1 / 2, 1]
  cRows := eyeRows 2
  cCols := 2
  hasNoise := false
  simulate := fun x t tF u => .ok ([x.headD 0 + (tF - t) * u.headD 0], [x.headD 0], [u.headD 0])
  processNoise := fun _ => [0]
  measurementNoise := fun _ => [0, 0]

/-- Names of rows. -/
def Plant.demoNames : String → List String := fun _ => ["a"]

theorem Plant.demo_fits : Spec.PlantFits demo := by
  refine ⟨fun x t tF u _ _ => ⟨_, rfl, rfl, rfl, rfl⟩, rfl, fun _ => rfl, fun _ => rfl⟩

/-- C57: for every history of controls, accepted or not, the time is the initial time plus one
sampling time per accepted control; states, algebraic variables and controls are recorded at the
sampling points of every accepted control and measurements at its end; the last recorded state is
the state of the plant. Partial: the sampling points must end with 1. -/
theorem C57_clock_partial (env : Env) (he : Spec.PlantFits env) (hp : env.points.getLast? = some 1)
    (names : String → List String) (t0 : Rat) (x0 u0 : List Rat) (f : Option (Rat → List Rat))
    (hx : x0.length = env.nX) (hy : env.yGuess.length = env.nY) (hu : u0.length = env.nU)
    (hf : ∀ g, f = some g → Spec.FunctionFits env g) :
    ∃ s0, new env names t0 x0 u0 f = .ok s0 ∧ ∀ calls, Spec.CallsFit env calls →
      let k := Spec.acceptedCount env calls
      let s := runHistory (after env) calls s0
      s.t = t0 + k * env.tS ∧
      Spec.timesOf s "x" = Spec.sampleTimes env.tS env.points t0 k ∧
      Spec.timesOf s "y" = Spec.sampleTimes env.tS env.points t0 k ∧
      Spec.timesOf s "u" = Spec.sampleTimes env.tS env.points t0 k ∧
      Spec.timesOf s "meas" = Spec.measurementTimes env.tS t0 k ∧
      Spec.timesOf s "meas_wo_noise" = Spec.measurementTimes env.tS t0 k ∧
      (Spec.samplesOf s.data "x").getLast? = some (s.t, s.x) := by
  obtain ⟨s0, h0, hr, -⟩ := reached_new he names 1 t0 f hx hy hu hf
  refine ⟨s0, h0, fun calls hc => ?_⟩
  have h := reached_history he hp calls hr hc
  simp only [Nat.zero_add] at h
  obtain ⟨lx, ly, lu, lm, lc, hrun, h1, h2, h3, h4, h5, -⟩ := h.run
  simp only [Spec.timesOf, hrun.logs.x.samplesOf, hrun.logs.y.samplesOf, hrun.logs.u.samplesOf,
    hrun.logs.meas.samplesOf, hrun.logs.clean.samplesOf, h1, h2, h3, h4, h5, timesWith_one,
    Spec.measurementTimes, hrun.current, h.time, one_mul, and_self]

example : demo.points.getLast? = some 1 ∧
    Spec.CallsFit demo [.control [3], .control [], .function fun t => [t]] ∧
    Spec.acceptedCount demo [.control [3], .control [], .function fun t => [t]] = 2 ∧
    Spec.sampleTimes 2 [1 / 2, 1] 0 2 = [0, 1, 2, 3, 4] := by
  refine ⟨rfl, ?_, rfl, by decide +kernel⟩
  intro f hf
  simp only [List.mem_cons, Call.function.injEq, reduceCtorEq, List.not_mem_nil, or_false,
    false_or] at hf
  rw [hf]; exact fun _ => rfl

/-- C57: a control of the wrong size raises `ValueError` and changes nothing. -/
theorem C57_rejected (env : Env) (u : List Rat) (s : State) (hu : u.length ≠ env.nUPar) :
    setControl env u s = (.error .valueError, s) := by
  simp [setControl, Py.raiseIf, hu]

example : ([] : List Rat).length ≠ demo.nUPar := by decide

/-- C57: the recorded times are strictly increasing when the sampling time is positive and the
sampling points increase from above 0 up to 1. -/
theorem C57_increasing (tS t0 : Rat) (points : List Rat) (k : Nat) (hS : 0 < tS)
    (hpos : ∀ p ∈ points, 0 < p) (hle : ∀ p ∈ points, p ≤ 1) (hinc : points.Pairwise (· < ·)) :
    (Spec.sampleTimes tS points t0 k).Pairwise (· < ·) := by
  induction k with
  | zero => simp [Spec.sampleTimes]
  | succ k ih =>
    rw [Spec.sampleTimes, List.pairwise_append]
    refine ⟨ih, ?_, ?_⟩
    · rw [List.pairwise_map]
      exact hinc.imp (fun {a b} h => by nlinarith)
    · intro a ha b hb
      have h1 := Plant.sampleTimes_le hS hle k a ha
      simp only [List.mem_map] at hb
      obtain ⟨d, hd, rfl⟩ := hb
      have := hpos d hd
      nlinarith

/-- The default sampling points meet the hypotheses of `C57_increasing` and end with 1. -/
theorem C57_default_points (n : Nat) (hn : 0 < n) :
    (∀ p ∈ evenPoints n, 0 < p) ∧ (∀ p ∈ evenPoints n, p ≤ 1) ∧
      (evenPoints n).Pairwise (· < ·) ∧ (evenPoints n).getLast? = some 1 := by
  have hn' : (0 : Rat) < n := by exact_mod_cast hn
  have hinv : (0 : Rat) < 1 / (n : Rat) := by positivity
  refine ⟨?_, ?_, ?_, ?_⟩
  · intro p hp
    simp only [evenPoints, List.mem_map, List.mem_range] at hp
    obtain ⟨i, _, rfl⟩ := hp
    positivity
  · intro p hp
    simp only [evenPoints, List.mem_map, List.mem_range] at hp
    obtain ⟨i, hi, rfl⟩ := hp
    have : ((i : Rat) + 1) ≤ n := by exact_mod_cast hi
    rw [one_div, inv_mul_le_iff₀ hn']; linarith
  · rw [evenPoints, List.pairwise_map]
    refine (List.pairwise_lt_range (n := n)).imp fun {a b} h => ?_
    have : (a : Rat) < b := by exact_mod_cast h
    nlinarith
  · obtain ⟨m, rfl⟩ : ∃ m, n = m + 1 := ⟨n - 1, by omega⟩
    rw [evenPoints, List.getLast?_map, List.range_succ, List.getLast?_append]
    simp only [List.getLast?_singleton, Option.some_or, Option.map_some, Option.some.injEq]
    have h0 : ((m : Rat) + 1) ≠ 0 := by positivity
    push_cast
    rw [one_div, inv_mul_cancel₀ h0]

example : evenPoints 2 = [1 / 2, 1] := by decide +kernel

/-- C57 fails for sampling points that do not end with 1: an accepted control then advances the
time by another amount than the sampling time. -/
theorem C57_user_points_fails (env : Env) (he : Spec.PlantFits env) (d : Rat)
    (hp : env.points.getLast? = some d) (hd : d ≠ 1) (hS : env.tS ≠ 0)
    (names : String → List String) (t0 : Rat) (x0 u0 u : List Rat)
    (hx : x0.length = env.nX) (hy : env.yGuess.length = env.nY) (hu : u0.length = env.nU)
    (hu' : u.length = env.nUPar) :
    ∃ s0, new env names t0 x0 u0 none = .ok s0 ∧
      (after env (.control u) s0).t = t0 + d * env.tS ∧
      (after env (.control u) s0).t ≠ t0 + env.tS := by
  obtain ⟨s0, h0, hr, -⟩ := reached_new he names d t0 none hx hy hu (by simp)
  have h := reached_call he hp hr (.control u) (by simp)
  have ht := h.time
  simp only [Spec.accepted, hu', decide_true, if_true] at ht
  have ht' : (after env (.control u) s0).t = t0 + d * env.tS := by rw [ht]; push_cast; ring
  refine ⟨s0, h0, ht', ?_⟩
  rw [ht']
  intro hc
  have : (d - 1) * env.tS = 0 := by linarith
  rcases mul_eq_zero.mp this with h | h
  · exact hd (by linarith)
  · exact hS h

example : Spec.PlantFits { demo with points := [1 / 2] } ∧
    ({ demo with points := [1 / 2] } : Env).points.getLast? = some (1 / 2) := by
  exact ⟨⟨demo_fits.simulate, rfl, fun _ => rfl, fun _ => rfl⟩, rfl⟩

/-- C57: without sampling points every accepted control raises `UnboundLocalError`. -/
theorem C57_no_points (env : Env) (u : List Rat) (s : State) (hp : env.points = [])
    (hu : u.length = env.nUPar) :
    setControl env u s = (.error .unboundLocalError, { s with u := u }) := by
  simp [setControl, Py.raiseIf, hu, advance, hp, advanceLoop, bound]

/-- C57: when the simulation of the first sampling point raises, the exception reaches the caller
and time, state, measurement and data are as before. -/
theorem C57_simulation_error (env : Env) (u : List Rat) (s : State) (d : Rat) (ds : List Rat)
    (e : Err) (hp : env.points = d :: ds) (hu : u.length = env.nUPar) (hf : s.uFunction = none)
    (hs : env.simulate s.x s.t (s.t + d * env.tS) u = .error e) :
    setControl env u s = (.error e, { s with u := u }) := by
  have h1 : advanceTo env (s.t + d * env.tS) { s with u := u } =
      (.error e, { s with u := u }) := by
    have hr : refreshControl { s with u := u } = (.ok (), { s with u := u }) := by
      simp [refreshControl, hf]
    have hsim : simulateTo env (s.t + d * env.tS) { s with u := u } =
        (.error e, { s with u := u }) := by
      simp [simulateTo, hs, Py.lift]
    simp only [advanceTo, Py.bind_eq]
    rw [Py.bind_ok hr]
    exact Py.bind_error hsim
  simp only [setControl, Py.bind_eq, Py.raiseIf, hu, advance]
  simp only [hp, advanceLoop, Py.bind_eq]
  simp only [ne_eq, not_true_eq_false, decide_false, Bool.false_eq_true, if_false, Py.pure_bind,
    Py.modify_bind, Py.get_bind]
  exact Py.bind_error (Py.bind_error h1)

/-- C95: for every history of controls the recorded states are a trajectory of the model: each
recorded state is the result of the simulation from the one before, over the recorded times, under
some control. Without process noise. -/
theorem C95_trajectory (env : Env) (he : Spec.PlantFits env) (d : Rat)
    (hp : env.points.getLast? = some d) (hn : env.hasNoise = false)
    (names : String → List String) (t0 : Rat) (x0 u0 : List Rat) (f : Option (Rat → List Rat))
    (hx : x0.length = env.nX) (hy : env.yGuess.length = env.nY) (hu : u0.length = env.nU)
    (hf : ∀ g, f = some g → Spec.FunctionFits env g) :
    ∃ s0, new env names t0 x0 u0 f = .ok s0 ∧ ∀ calls, Spec.CallsFit env calls →
      Spec.Trajectory env (Spec.samplesOf (runHistory (after env) calls s0).data "x") ∧
      (Spec.samplesOf (runHistory (after env) calls s0).data "x").length =
        1 + env.points.length * Spec.acceptedCount env calls := by
  obtain ⟨s0, h0, hr, -⟩ := reached_new he names d t0 f hx hy hu hf
  refine ⟨s0, h0, fun calls hc => ?_⟩
  obtain ⟨lx, ly, lu, lm, lc, hrun, h1, -, -, -, -, h2, -⟩ := (reached_history he hp calls hr hc).run
  rw [hrun.logs.x.samplesOf]
  refine ⟨h2 hn, ?_⟩
  rw [← List.length_map (f := (·.1)), h1, Nat.zero_add]
  induction Spec.acceptedCount env calls with
  | zero => rfl
  | succ k ih => simp only [timesWith, List.length_append, List.length_map, ih, Nat.mul_succ]; omega

/-- C96, partial: when no control function was set, `set_control` simulates with the given control
only: a plant that answers the same for that control behaves the same. -/
theorem C96_control_partial (env : Env) (u : List Rat) (s : State) (hf : s.uFunction = none)
    (sim : List Rat → Rat → Rat → List Rat → Except Err (List Rat × List Rat × List Rat))
    (hsim : ∀ x t tF, sim x t tF u = env.simulate x t tF u) :
    setControl { env with simulate := sim } u s = setControl env u s := by
  have h1 : ∀ (tF : Rat) (s : State), s.uFunction = none → s.u = u →
      advanceTo { env with simulate := sim } tF s = advanceTo env tF s ∧
      (advanceTo env tF s).2.uFunction = none ∧ (advanceTo env tF s).2.u = u := by
    intro tF s hf hu
    have hr : refreshControl s = (.ok (), s) := by simp [refreshControl, hf]
    have e1 : simulateTo { env with simulate := sim } tF s = simulateTo env tF s := by
      simp [simulateTo, hu, hsim]
    have hkeep : ∀ m : Py State (List Rat × List Rat),
        (Py.Always (fun s : State => s.uFunction = none ∧ s.u = u) m) →
        (m s).2.uFunction = none ∧ (m s).2.u = u := fun m hm => hm s ⟨hf, hu⟩
    have hrec : ∀ name v, Py.Always (fun s : State => s.uFunction = none ∧ s.u = u)
        (record name v) := by
      intro name v s hs
      simp only [record, Py.bind_eq, Py.get_bind, onData]
      exact hs
    refine ⟨?_, hkeep _ ?_⟩
    · simp only [advanceTo, Py.bind_eq]
      rw [Py.bind_ok hr, Py.bind_ok hr]
      simp only [Py.bind, e1]
    · unfold advanceTo
      refine Py.Always.bind (Py.Always.modify _ ?_) fun _ => Py.Always.bind ?_ fun r =>
        Py.Always.bind ?_ fun x => Py.Always.bind (Py.Always.modify _ ?_) fun _ =>
        Py.Always.bind ?_ fun _ => Py.Always.pure _
      · rintro s ⟨h1, h2⟩; rw [h1]; exact ⟨h1, h2⟩
      · exact Py.Always.bind Py.Always.get fun _ => Py.Always.lift _
      · unfold addNoise
        split
        · exact Py.Always.bind (fun s hs => hs) fun _ => Py.Always.lift _
        · exact Py.Always.pure _
      · exact fun s hs => hs
      · exact Py.Always.bind (hrec _ _) fun _ => Py.Always.bind (hrec _ _) fun _ => hrec _ _
  have h2 : ∀ (tStart : Rat) (ds : List Rat) (last) (s : State), s.uFunction = none → s.u = u →
      advanceLoop { env with simulate := sim } tStart ds last s =
        advanceLoop env tStart ds last s := by
    intro tStart ds
    induction ds with
    | nil => intro last s _ _; rfl
    | cons d ds ih =>
      intro last s hf hu
      obtain ⟨e1, e2, e3⟩ := h1 (tStart + d * env.tS) s hf hu
      simp only [advanceLoop, Py.bind_eq, Py.bind, e1]
      generalize hm : advanceTo env (tStart + d * env.tS) s = r at e2 e3
      obtain ⟨r1, s1⟩ := r
      cases r1 with
      | error e => rfl
      | ok xy => exact ih _ _ e2 e3
  have h3 : advance { env with simulate := sim } { s with u := u } =
      advance env { s with u := u } := by
    simp only [advance, Py.bind_eq, Py.get_bind]
    simp only [Py.bind, h2 s.t env.points none { s with u := u } hf rfl]
    rfl
  by_cases hl : u.length = env.nUPar
  · simp only [setControl, Py.bind_eq, Py.raiseIf, hl, ne_eq, not_true_eq_false, decide_false,
      Bool.false_eq_true, if_false, Py.pure_bind, Py.modify_bind, h3]
  · simp only [setControl, Py.bind_eq, Py.raiseIf, hl, ne_eq, not_false_eq_true, decide_true,
      if_true, Py.throw_bind]

example : ∃ s0, new demo demoNames 0 [0] [0] none = .ok s0 ∧ s0.uFunction = none ∧
    (after demo (.control [3]) s0).x = [6] := ⟨_, rfl, rfl, by decide +kernel⟩

/-- C96 fails once a control function was set (by a call or in the constructor): the outcome of
`set_control` is then the same for every control of the right size. -/
theorem C96_control_fails (env : Env) (s : State) (f : Rat → List Rat) (hf : s.uFunction = some f)
    (hp : env.points ≠ []) (u u' : List Rat) (hu : u.length = env.nUPar)
    (hu' : u'.length = env.nUPar) : setControl env u s = setControl env u' s := by
  obtain ⟨d, ds, hds⟩ := List.exists_cons_of_ne_nil hp
  have h1 : ∀ v : List Rat, refreshControl { s with u := v } = (.ok (), { s with u := f s.t }) := by
    intro v; simp [refreshControl, hf]
  have h2 : ∀ v : List Rat, v.length = env.nUPar → setControl env v s =
      advance env { s with u := f s.t } := by
    intro v hv
    simp only [setControl, Py.bind_eq, Py.raiseIf, hv, ne_eq, not_true_eq_false, decide_false,
      Bool.false_eq_true, if_false, Py.pure_bind, Py.modify_bind]
    simp only [advance, Py.bind_eq, Py.get_bind]
    simp only [hds, advanceLoop, advanceTo, Py.bind_eq, Py.bind, h1]
  rw [h2 u hu, h2 u' hu']

example : ∃ s0, new demo demoNames 0 [0] [0] (some fun _ => [1]) = .ok s0 ∧
    s0.uFunction = some (fun _ => [1]) ∧
    (after demo (.control [3]) s0).x = [2] := ⟨_, rfl, rfl, by decide +kernel⟩

/-- C82: the ideal estimator returns the first `n_x` entries of the measurement and a covariance
with zeros only. -/
theorem C82_state (nX : Nat) (y : List Rat) :
    (∀ i, i < nX → (idealEstimate nX y).1[i]? = y[i]?) ∧
      (idealEstimate nX y).1.length = min nX y.length ∧
      ∀ c ∈ (idealEstimate nX y).2.cols, ∀ a ∈ c, a = 0 := by
  refine ⟨fun i hi => by simp [idealEstimate, hi], by simp [idealEstimate], ?_⟩
  intro c hc a ha
  simp only [idealEstimate, column, List.mem_singleton] at hc
  subst hc
  simp only [List.mem_map] at ha
  obtain ⟨_, _, rfl⟩ := ha; rfl

/-- C82: for a plant with the default measurement `[x; y]` and no noise, after every history of
controls the ideal estimator returns the state of the plant. -/
theorem C82_plant_state (env : Env) (he : Spec.PlantFits env) (d : Rat)
    (hp : env.points.getLast? = some d) (hn : env.hasNoise = false)
    (hc : env.cRows = eyeRows (env.nX + env.nY))
    (names : String → List String) (t0 : Rat) (x0 u0 : List Rat) (f : Option (Rat → List Rat))
    (hx : x0.length = env.nX) (hy : env.yGuess.length = env.nY) (hu : u0.length = env.nU)
    (hf : ∀ g, f = some g → Spec.FunctionFits env g) :
    ∃ s0, new env names t0 x0 u0 f = .ok s0 ∧ ∀ calls, Spec.CallsFit env calls →
      let s := runHistory (after env) calls s0
      (idealEstimate env.nX s.measurement).1 = s.x := by
  obtain ⟨s0, h0, hr, h1, h2, -⟩ := reached_new he names d t0 f hx hy hu hf
  refine ⟨s0, h0, fun calls hcalls => ?_⟩
  have hk := reached_history he hp calls hr hcalls
  obtain ⟨lx, ly, lu, lm, lc, hrun, -, -, -, -, -, -, hm⟩ := hk.run
  simp only [Nat.zero_add] at hm
  by_cases h : 0 < Spec.acceptedCount env calls
  · obtain ⟨y, hyl, -, hm⟩ := hm hn h
    simp only [idealEstimate, hm, hc]
    rw [eye_mul _ _ (by simp [hrun.size, hyl]), ← hrun.size, List.take_left']
    rfl
  · have hsame : ∀ (cs : List Call) (s : State), Spec.acceptedCount env cs = 0 →
        runHistory (after env) cs s = s := by
      intro cs
      induction cs with
      | nil => intros; rfl
      | cons c cs ih =>
        intro s hcs
        simp only [Spec.acceptedCount, List.countP_cons] at hcs
        have hrej : Spec.accepted env c = false := by
          cases hac : Spec.accepted env c with
          | false => rfl
          | true => rw [hac] at hcs; simp at hcs
        have : after env c s = s := by
          cases c with
          | function _ => simp [Spec.accepted] at hrej
          | control u =>
            simp only [Spec.accepted, decide_eq_false_iff_not] at hrej
            simp [after, Call.run, C57_rejected env u s hrej]
        simp only [runHistory, this]
        exact ih s (by simp only [Spec.acceptedCount]; omega)
    have h0' : Spec.acceptedCount env calls = 0 := by omega
    simp only [hsame calls s0 h0', idealEstimate, h1, h2, ← hx, List.take_length]

example : demo.cRows = eyeRows (demo.nX + demo.nY) := rfl

/-- C82 fails for the covariance: it has the shape of the state, one column, instead of a square
matrix, unless there is exactly one state. -/
theorem C82_covariance_fails (nX : Nat) (y : List Rat) (hy : nX ≤ y.length) :
    (idealEstimate nX y).2.rows = nX ∧ (idealEstimate nX y).2.cols.length = 1 ∧
      ((idealEstimate nX y).2.rows = (idealEstimate nX y).2.cols.length ↔ nX = 1) := by
  simp [idealEstimate, column, Nat.min_eq_left hy]

example : (idealEstimate 2 [5, 6, 7]) = ([5, 6], ⟨2, [[0, 0]]⟩) := by decide +kernel

/-- C97, partial: after at least one accepted control, without noise, the measurement is the
measurement matrix times the current state and the last recorded algebraic variables. -/
theorem C97_measurement_partial (env : Env) (he : Spec.PlantFits env) (d : Rat)
    (hp : env.points.getLast? = some d) (hn : env.hasNoise = false)
    (names : String → List String) (t0 : Rat) (x0 u0 : List Rat) (f : Option (Rat → List Rat))
    (hx : x0.length = env.nX) (hy : env.yGuess.length = env.nY) (hu : u0.length = env.nU)
    (hf : ∀ g, f = some g → Spec.FunctionFits env g) :
    ∃ s0, new env names t0 x0 u0 f = .ok s0 ∧ ∀ calls, Spec.CallsFit env calls →
      0 < Spec.acceptedCount env calls →
      let s := runHistory (after env) calls s0
      ∃ y, (Spec.samplesOf s.data "y").getLast? = some (s.t, y) ∧
        mulVec env.cRows env.cCols (s.x ++ y) = .ok s.measurement ∧
        getMeasurement s = (.ok (s.t, s.measurement, s.u), s) := by
  obtain ⟨s0, h0, hr, -⟩ := reached_new he names d t0 f hx hy hu hf
  refine ⟨s0, h0, fun calls hcalls hk => ?_⟩
  obtain ⟨lx, ly, lu, lm, lc, hrun, -, -, -, -, -, -, hm⟩ := (reached_history he hp calls hr hcalls).run
  simp only [Nat.zero_add] at hm
  obtain ⟨y, hyl, hlast, hm⟩ := hm hn hk
  refine ⟨y, by rw [hrun.logs.y.samplesOf, hlast], ?_, rfl⟩
  rw [hm, mulVec, if_pos (by rw [he.matrix, List.length_append, hrun.size, hyl])]

/-- C97 fails before the first control: the measurement is the initial state, whatever the
measurement matrix; the data set holds the measurement matrix times the state at that time. -/
theorem C97_first_measurement_fails (env : Env) (he : Spec.PlantFits env)
    (names : String → List String) (t0 : Rat) (x0 u0 : List Rat)
    (hx : x0.length = env.nX) (hy : env.yGuess.length = env.nY) (hu : u0.length = env.nU) :
    ∃ s0, new env names t0 x0 u0 none = .ok s0 ∧
      getMeasurement s0 = (.ok (t0, x0, u0), s0) ∧
      Spec.samplesOf s0.data "meas" =
        [(t0, env.cRows.map fun r => dot r (x0 ++ env.yGuess))] := by
  obtain ⟨s, w, h1, h2, h3, h4, h5, h6, h7, h8⟩ := fillData_run he names t0 none hx hy hu (by simp)
  refine ⟨s, h1, by simp [getMeasurement, h2, h4, h5], ?_⟩
  rw [h8.logs.meas.samplesOf, h7]

example : (eyeRows 2).map (fun r => dot r ([5] ++ [0])) ≠ [5] := by decide +kernel

end Verif
