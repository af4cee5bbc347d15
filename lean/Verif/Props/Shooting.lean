import Verif.Lemmas.Shooting
import Verif.Props.Collocation
/-!
# C53, C54, C94: the multiple-shooting problem

`m.discretize b x0 p theta lastU` gives the constraints and the cost of the multiple-shooting problem
at decision values `b`; `m.simulate` is the integrator.
-/
namespace Verif

open Spec Transcription

variable {K : Type} [Field K] [LinearOrder K] [IsStrictOrderedRing K]

set_option linter.unusedSectionVars false

/-! ## An example: two elements, one state, one algebraic, one control -/

/-- `x' = u` integrated exactly, `y = 2 x`, `x <= 1` at the end of elements. -/
def exampleShooting : ShootingMethod Rat where
  toTranscription := { exampleTranscription with gEq := [⟨fun _ pt => [pt.y.headD 0], "end"⟩] }
  simulate _ t t' x _ _ u := ([x.headD 0 + (t' - t) * u.headD 0],
    [2 * (x.headD 0 + (t' - t) * u.headD 0)])
  costAsSum := false

/-- Decision values for the example: everything zero. -/
def exampleShots : Blocks Rat where
  x := [[[0]], [[0]], [[0]]]
  y := [[[0]], [[0]]]
  u := [[[0]], [[0]]]
  eta := []
  pOpt := []
  thetaOpt := [[], []]

theorem exampleShooting_fits (sum : Bool) :
    Shootable { exampleShooting with costAsSum := sum } where
  horizon := exampleTranscription_grid.horizon
  elements := Nat.zero_lt_succ _
  states := Nat.zero_lt_succ _
  simulated _ _ _ _ _ _ _ _ := ⟨rfl, rfl⟩
  tags := by
    intro g hg
    simp only [exampleShooting, exampleTranscription, List.singleton_append, List.mem_cons,
      List.not_mem_nil, or_false] at hg
    rcases hg with rfl | rfl
    · exact .inr rfl
    · exact .inl rfl

theorem exampleShots_data : ShootingShape exampleShooting.dims exampleShots where
  u := by simp [Grid, Columns, exampleShots, exampleShooting, exampleTranscription, controlPoints]
  eta := rfl
  pOpt := rfl
  thetaOpt := by simp [Columns, exampleShots, exampleShooting, exampleTranscription]
  x := by simp [Grid, Columns, exampleShots, exampleShooting, exampleTranscription]
  y := by simp [Grid, Columns, exampleShots, exampleShooting, exampleTranscription]

theorem exampleShootingRates (sum : Bool) (lastU : Option (List Rat))
    (h : ∀ u, lastU = some u → u.length = 1) :
    RatesFit ({ exampleShooting with costAsSum := sum } : ShootingMethod Rat).toTranscription lastU :=
  let r := exampleRates lastU h
  ⟨r.min, r.max, r.uncrossed, r.controls, r.last⟩

/-! ## C94: what the constraints mean -/

namespace ShootingMethod

theorem holds_element (m : ShootingMethod K) (b : Blocks K) (p : List K) (theta : List (List K))
    (h : Shootable m) (hb : ShootingShape m.dims b) (lastU : Option (List K)) (el : Nat)
    (hel : el < m.dims.elements) :
    (∀ c ∈ consAt m b p theta lastU el, c.Holds) ↔
      ((b.x.getD (el + 1) []).getD 0 [] = nextState m (shotEnd m b p theta el).x ∧
        (b.y.getD el []).getD 0 [] = (shotEnd m b p theta el).y) ∧
      (∀ c ∈ (if m.hasDeltaU then ratesAt m.toTranscription b lastU el else []), c.Holds) ∧
      (∀ g ∈ m.gIneq, ∀ v ∈ g.value el (shotEnd m b p theta el), v ≤ 0) ∧
      (∀ g ∈ m.gEq, ∀ v ∈ g.value el (shotEnd m b p theta el), v = 0) := by
  have hx := grid_columns hb.x (show el + 1 < m.dims.elements + 1 by omega)
  have hx0 : (b.x.getD (el + 1) [])[0]? = some ((b.x.getD (el + 1) []).getD 0 []) :=
    getElem?_getD [] (by rw [hx.1]; omega)
  have hy := grid_columns hb.y hel
  have hy0 : (b.y.getD el [])[0]? = some ((b.y.getD el []).getD 0 []) :=
    getElem?_getD [] (by rw [hy.1]; omega)
  have hxl : ((b.x.getD (el + 1) []).getD 0 []).length = m.dims.nX :=
    hx.2 _ (List.mem_of_getElem? hx0)
  have hyl : ((b.y.getD el []).getD 0 []).length = m.dims.nY := hy.2 _ (List.mem_of_getElem? hy0)
  unfold consAt
  simp only [List.forall_mem_append, and_assoc, List.forall_mem_cons, List.not_mem_nil,
    false_implies, implies_true, and_true, holds_equality, List.forall_mem_map, holds_nonpositive]
  rw [zipWith_sub_zero _ _ (by rw [shot_x m b p theta h el hel, hxl]),
    zipWith_sub_zero _ _ (by rw [shot_y m b p theta h el hel, hyl]), eq_comm (a := nextState _ _),
    eq_comm (a := (shotEnd m b p theta el).y)]

end ShootingMethod
open ShootingMethod

/-- Multiple shooting can be set up, its cost is the discretised cost, and its constraints hold
exactly when each element's state is the result of simulating the element before, the algebraics are
those of the simulation, and the initial, path, rate, final and time-independent conditions hold. -/
theorem C94_feasible_iff (m : ShootingMethod K) (b : Blocks K) (x0 p : List K)
    (theta : List (List K)) (lastU : Option (List K)) (h : Shootable m)
    (hb : ShootingShape m.dims b) (hr : m.hasDeltaU = true → RatesFit m.toTranscription lastU) :
    ∃ cons, m.discretize b x0 p theta lastU =
        .ok (cons, shootingCost m b (m.fullP b p) (m.fullTheta b theta)) ∧
      ((∀ c ∈ cons, c.Holds) ↔
        Shoots m b x0 (m.fullP b p) (m.fullTheta b theta) lastU) := by
  refine ⟨_, ShootingMethod.discretize_ok m b p theta h hb x0 lastU hr, ?_⟩
  simp only [List.forall_mem_append, List.mem_flatMap, List.mem_range, forall_exists_index,
    and_imp, List.forall_mem_cons, List.not_mem_nil, false_implies, implies_true, and_true,
    holds_equality]
  have hel : (∀ c x, x < m.dims.elements →
      c ∈ ShootingMethod.consAt m b (m.fullP b p) (m.fullTheta b theta) lastU x → c.Holds) ↔
      ∀ el < m.dims.elements,
        ∀ c ∈ ShootingMethod.consAt m b (m.fullP b p) (m.fullTheta b theta) lastU el, c.Holds :=
    ⟨fun h el he c hc => h c el he hc, fun h c el he hc => h el he c hc⟩
  rw [hel]
  constructor
  · rintro ⟨⟨hi, he⟩, hf, ht⟩
    have he' := fun el hlt =>
      (ShootingMethod.holds_element m b _ _ h hb lastU el hlt).mp (he el hlt)
    exact {
      initial := hi
      states := fun el hlt => (he' el hlt).1.1
      algebraics := fun el hlt => (he' el hlt).1.2
      rates := fun el hlt => (holds_rates m.toTranscription b hb.toSharedShape lastU hr el hlt).mp
        (he' el hlt).2.1
      inequalities := fun el hlt => (he' el hlt).2.2.1
      equalities := fun el hlt => (he' el hlt).2.2.2
      final := hf
      independent := ht }
  · intro hc
    refine ⟨⟨hc.initial, fun el hlt => ?_⟩, hc.final, hc.independent⟩
    rw [ShootingMethod.holds_element m b _ _ h hb lastU el hlt]
    exact ⟨⟨hc.states el hlt, hc.algebraics el hlt⟩,
      (holds_rates m.toTranscription b hb.toSharedShape lastU hr el hlt).mpr (hc.rates el hlt),
      hc.inequalities el hlt, hc.equalities el hlt⟩

example : ∃ cons, exampleShooting.discretize exampleShots [0] [] [] none =
    .ok (cons, shootingCost exampleShooting exampleShots [] [[], []]) ∧
      ((∀ c ∈ cons, c.Holds) ↔ Shoots exampleShooting exampleShots [0] [] [[], []] none) :=
  C94_feasible_iff exampleShooting exampleShots [0] [] [] none (exampleShooting_fits false)
    exampleShots_data fun _ => exampleShootingRates false none (by simp)

/-- With the cost as a sum and a state equation whose last entry only accumulates — simulating from
another value of it shifts its end by the same amount and changes nothing else — the restarts do not
change the total: the sum is the value the last state would have without restarts. -/
theorem C94_cost_sum (m : ShootingMethod K) (b : Blocks K) (x0 p : List K)
    (theta : List (List K)) (lastU : Option (List K)) (h : Shootable m)
    (hb : ShootingShape m.dims b) (hs : m.costAsSum = true)
    (hc : Shoots m b x0 p theta lastU) (unrestarted : Nat → List K)
    (h0 : unrestarted 0 = (b.x.getD 0 []).getD 0 [])
    (hstep : ∀ el < m.dims.elements, unrestarted (el + 1) =
      (m.simulate el (elementLength m.toTranscription * (el : K))
        (elementLength m.toTranscription * ((el : K) + 1)) (unrestarted el) p (theta.getD el [])
        (b.u.getD el []).flatten).1)
    (hacc : ∀ el t t' (z : List K) (c d : K) th u, z.length + 1 = m.dims.nX →
      (m.simulate el t t' (z ++ [c + d]) p th u).1 =
        (m.simulate el t t' (z ++ [c]) p th u).1.dropLast ++
          [(m.simulate el t t' (z ++ [c]) p th u).1.getLastD 0 + d])
    (hinit : ((b.x.getD 0 []).getD 0 []).getLastD 0 = 0) :
    (unrestarted m.dims.elements).getLastD 0 =
      ((List.range m.dims.elements).map fun el => (shotEnd m b p theta el).x.getLastD 0).sum := by
  have hlen : ∀ el < m.dims.elements, (shotEnd m b p theta el).x.length = m.dims.nX :=
    fun el hel => (h.simulated _ hel _ _ _ _ _ _).1
  have key : ∀ el ≤ m.dims.elements, ∃ z : List K, z.length + 1 = m.dims.nX ∧
      (b.x.getD el []).getD 0 [] = z ++ [0] ∧
      unrestarted el = z ++ [((List.range el).map fun el =>
        (shotEnd m b p theta el).x.getLastD 0).sum] := by
    intro el
    induction el with
    | zero =>
      intro _
      have hx := grid_columns hb.x (show 0 < m.dims.elements + 1 by omega)
      have hx0 : (b.x.getD 0 [])[0]? = some ((b.x.getD 0 []).getD 0 []) :=
        getElem?_getD [] (by rw [hx.1]; omega)
      have hl := hx.2 _ (List.mem_of_getElem? hx0)
      have hne : (b.x.getD 0 []).getD 0 [] ≠ [] := by
        intro he
        rw [he] at hl
        have := h.states
        simp at hl
        omega
      have hz : (b.x.getD 0 []).getD 0 [] = ((b.x.getD 0 []).getD 0 []).dropLast ++ [0] := by
        conv_lhs => rw [← List.dropLast_append_getLast hne]
        rw [List.getLastD_eq_getLast?, List.getLast?_eq_some_getLast hne, Option.getD_some] at hinit
        rw [hinit]
      refine ⟨_, ?_, hz, ?_⟩
      · rw [List.length_dropLast, hl]; have := h.states; omega
      rw [h0]
      simpa using hz
    | succ el ih =>
      intro hel
      obtain ⟨z, hzl, hz, hu⟩ := ih (by omega)
      refine ⟨(shotEnd m b p theta el).x.dropLast, ?_, ?_, ?_⟩
      · rw [List.length_dropLast, hlen el (by omega)]; have := h.states; omega
      · rw [hc.states el (by omega), nextState, if_pos hs]
      · rw [hstep el (by omega), hu]
        have := hacc el (elementLength m.toTranscription * (el : K))
          (elementLength m.toTranscription * ((el : K) + 1)) z 0
          ((List.range el).map fun el => (shotEnd m b p theta el).x.getLastD 0).sum
          (theta.getD el []) (b.u.getD el []).flatten hzl
        rw [zero_add, ← hz] at this
        rw [this, List.range_succ, List.map_append, List.sum_append, List.map_singleton,
          List.sum_singleton, add_comm (List.sum _)]
        rfl
  obtain ⟨z, -, -, hu⟩ := key m.dims.elements le_rfl
  rw [hu]
  simp

/-- The integrator of the example accumulates. -/
example (t t' : Rat) (z : List Rat) (c d : Rat) (th u : List Rat)
    (hz : z.length + 1 = exampleShooting.dims.nX) :
    (exampleShooting.simulate 0 t t' (z ++ [c + d]) [] th u).1 =
      (exampleShooting.simulate 0 t t' (z ++ [c]) [] th u).1.dropLast ++
        [(exampleShooting.simulate 0 t t' (z ++ [c]) [] th u).1.getLastD 0 + d] := by
  cases z with
  | cons => simp [exampleShooting, exampleTranscription] at hz
  | nil =>
    simp only [exampleShooting, List.nil_append, List.headD_cons, List.dropLast_singleton,
      List.getLastD_cons, List.getLastD_nil, List.cons.injEq, and_true]
    ring

/-! ## C53: path constraints -/

/-- A path constraint tagged `end` or `default` is imposed at the end of every element. -/
theorem C53_shooting_partial (m : ShootingMethod K) (b : Blocks K) (x0 p : List K)
    (theta : List (List K)) (lastU : Option (List K)) (h : Shootable m)
    (hb : ShootingShape m.dims b) (hr : m.hasDeltaU = true → RatesFit m.toTranscription lastU) :
    ∃ cons cost, m.discretize b x0 p theta lastU = .ok (cons, cost) ∧
      ∀ el < m.dims.elements,
        (∀ g ∈ m.gIneq, ∃ c ∈ cons, c.lb = ⊥ ∧ c.ub = ((0 : K) : WithTop K) ∧
          c.value = g.value el (shotEnd m b (m.fullP b p) (m.fullTheta b theta) el)) ∧
        (∀ g ∈ m.gEq, ∃ c ∈ cons, c.lb = ((0 : K) : WithTop K) ∧ c.ub = ((0 : K) : WithTop K) ∧
          c.value = g.value el (shotEnd m b (m.fullP b p) (m.fullTheta b theta) el)) := by
  refine ⟨_, _, ShootingMethod.discretize_ok m b p theta h hb x0 lastU hr, ?_⟩
  intro el hel
  constructor
  · intro g hg
    refine ⟨Con.nonpositive _, ?_, rfl, rfl, rfl⟩
    refine List.mem_append_left _ (List.mem_append_right _ (List.mem_flatMap.mpr
      ⟨el, List.mem_range.mpr hel, ?_⟩))
    exact List.mem_append_left _ (List.mem_append_right _ (List.mem_map.mpr ⟨g, hg, rfl⟩))
  · intro g hg
    refine ⟨Con.equality _, ?_, rfl, rfl, rfl⟩
    refine List.mem_append_left _ (List.mem_append_right _ (List.mem_flatMap.mpr
      ⟨el, List.mem_range.mpr hel, ?_⟩))
    exact List.mem_append_right _ (List.mem_map.mpr ⟨g, hg, rfl⟩)

namespace ShootingMethod

/-- An error in checking the times of the first element is the result of `discretize`. -/
theorem discretize_error (m : ShootingMethod K) (b : Blocks K) (x0 p : List K)
    (theta : List (List K)) (lastU : Option (List K)) (h0 : m.t0 < m.tf)
    (hn : 0 < m.dims.elements) (hb : ShootingShape m.dims b) (e : Err)
    (hs : m.functionKeys.mapM (m.checkStart 0) = .error e) :
    m.discretize b x0 p theta lastU = .error e := by
  have hg := grid_columns hb.x (show 0 < m.dims.elements + 1 by omega)
  have hx0 : b.x[0]? = some (b.x.getD 0 []) := getElem?_getD [] (by rw [hb.x.1]; omega)
  have hx00 : (b.x.getD 0 [])[0]? = some ((b.x.getD 0 []).getD 0 []) :=
    getElem?_getD [] (by rw [hg.1]; omega)
  have hnot : m.breakpoint 0 ∉ [m.breakpoint (0 + 1)] := by
    rw [List.mem_singleton]; exact (bp_lt m h0 0 hn).ne
  have hstart : m.startState 0 = .ok () := by
    rw [startState, if_neg]
    exact hnot
  have he : m.element b (m.fullP b p) (m.fullTheta b theta) 0 = .error e := by
    unfold element
    rw [itemAt_ok hx0, ok_bind, itemAt_ok hx00, ok_bind, hstart, ok_bind, hs]
    rfl
  obtain ⟨n, hn'⟩ : ∃ n, m.dims.elements = n + 1 := ⟨m.dims.elements - 1, by omega⟩
  simp only [discretize]
  rw [itemAt_ok hx0, ok_bind, itemAt_ok hx00, ok_bind, hn', List.range_succ_eq_map,
    mapM_error _ e 0 _ he]
  rfl

theorem check_error (m : ShootingMethod K) (e : Err)
    (hg : ∃ g ∈ m.gIneq ++ m.gEq, ∀ k, m.timeDict 0 k = m.pathTimes 0 g.time →
      m.checkStart 0 k = .error e)
    (hall : ∀ k ∈ m.functionKeys, m.checkStart 0 k = .ok () ∨ m.checkStart 0 k = .error e) :
    m.functionKeys.mapM (m.checkStart 0) = .error e := by
  obtain ⟨g, hg, hk⟩ := hg
  have : ∃ k ∈ m.functionKeys, m.checkStart 0 k = .error e := by
    rcases List.mem_append.mp hg with hg | hg
    · obtain ⟨i, hi, rfl⟩ := List.mem_iff_getElem.mp hg
      exact ⟨.ineq i, by simp [functionKeys, hi], hk _ (by
        rw [timeDict, List.getElem?_eq_getElem hi, Option.bind_some])⟩
    · obtain ⟨i, hi, rfl⟩ := List.mem_iff_getElem.mp hg
      exact ⟨.eq i, by simp [functionKeys, hi], hk _ (by
        rw [timeDict, List.getElem?_eq_getElem hi, Option.bind_some])⟩
  obtain ⟨k, hk, he⟩ := this
  generalize m.functionKeys = l at hall hk
  induction l with
  | nil => cases hk
  | cons a l ih =>
    rcases hall a List.mem_cons_self with ha | ha
    · rcases List.mem_cons.mp hk with rfl | hk
      · rw [ha] at he; cases he
      · rw [List.mapM_cons, ha, ok_bind, ih (fun k hk => hall k (List.mem_cons_of_mem _ hk)) hk]
        rfl
    · exact mapM_error _ e a l ha

/-- The check of each function by the tag it has. -/
theorem check_cases (m : ShootingMethod K) (h0 : m.t0 < m.tf) (hn : 0 < m.dims.elements)
    (k : Key) (hk : k ∈ m.functionKeys) :
    m.checkStart 0 k = .ok () ∨ ∃ g ∈ m.gIneq ++ m.gEq,
      m.timeDict 0 k = m.pathTimes 0 g.time := by
  simp only [functionKeys, List.mem_append, List.mem_cons, List.mem_map, List.mem_range,
    List.not_mem_nil, or_false] at hk
  rcases hk with (⟨i, hi, rfl⟩ | ⟨i, hi, rfl⟩) | rfl
  · exact .inr ⟨m.gIneq[i], List.mem_append_left _ (List.getElem_mem hi), by
      rw [timeDict, List.getElem?_eq_getElem hi, Option.bind_some]⟩
  · exact .inr ⟨m.gEq[i], List.mem_append_right _ (List.getElem_mem hi), by
      rw [timeDict, List.getElem?_eq_getElem hi, Option.bind_some]⟩
  · left
    show (if m.breakpoint 0 ∈ [m.breakpoint (0 + 1)] then _ else _) = _
    rw [if_neg]
    rw [List.mem_singleton]; exact (bp_lt m h0 0 hn).ne

theorem check_end (m : ShootingMethod K) (h0 : m.t0 < m.tf) (hn : 0 < m.dims.elements)
    (k : Key) (tag : String) (ht : tag = "end" ∨ tag = "default")
    (hk : m.timeDict 0 k = m.pathTimes 0 tag) : m.checkStart 0 k = .ok () := by
  have : m.pathTimes 0 tag = some [m.breakpoint (0 + 1)] := by
    rcases ht with rfl | rfl <;> rfl
  rw [checkStart, hk, this]
  show (if m.breakpoint 0 ∈ [m.breakpoint (0 + 1)] then _ else _) = _
  rw [if_neg]
  rw [List.mem_singleton]; exact (bp_lt m h0 0 hn).ne

end ShootingMethod

/-- A path constraint tagged `start` cannot be used with multiple shooting: the problem cannot be
built. -/
theorem C53_shooting_start_fails (m : ShootingMethod K) (b : Blocks K) (x0 p : List K)
    (theta : List (List K)) (lastU : Option (List K)) (h0 : m.t0 < m.tf)
    (hn : 0 < m.dims.elements) (hb : ShootingShape m.dims b)
    (hk : ∀ g ∈ m.gIneq ++ m.gEq, g.time = "start" ∨ g.time = "end" ∨ g.time = "default")
    (g : PathCon K) (hg : g ∈ m.gIneq ++ m.gEq) (ht : g.time = "start") :
    m.discretize b x0 p theta lastU = .error .notImplementedError := by
  have hstart : ∀ k, m.timeDict 0 k = m.pathTimes 0 "start" →
      m.checkStart 0 k = .error .notImplementedError := by
    intro k hk
    rw [checkStart, hk]
    exact if_pos (List.mem_singleton_self _)
  apply ShootingMethod.discretize_error m b x0 p theta lastU h0 hn hb
  apply check_error
  · exact ⟨g, hg, fun k hk => hstart k (by rw [hk, ht])⟩
  · intro k hkey
    rcases check_cases m h0 hn k hkey with h | ⟨g', hg', h⟩
    · exact .inl h
    · rcases hk g' hg' with h' | h'
      · exact .inr (hstart k (by rw [h, h']))
      · exact .inl (check_end m h0 hn k _ h' h)

/-- A path constraint with an unknown time tag is reported. -/
theorem C53_shooting_unknown_tag (m : ShootingMethod K) (b : Blocks K) (x0 p : List K)
    (theta : List (List K)) (lastU : Option (List K)) (h0 : m.t0 < m.tf)
    (hn : 0 < m.dims.elements) (hb : ShootingShape m.dims b)
    (hk : ∀ g ∈ m.gIneq ++ m.gEq, g.time ≠ "start")
    (g : PathCon K) (hg : g ∈ m.gIneq ++ m.gEq) (ht : g.time ≠ "end") (ht' : g.time ≠ "default") :
    m.discretize b x0 p theta lastU = .error .keyError := by
  have hunk : ∀ tag k, tag ≠ "start" → tag ≠ "end" → tag ≠ "default" →
      m.timeDict 0 k = m.pathTimes 0 tag → m.checkStart 0 k = .error .keyError := by
    intro tag k h1 h2 h3 hk
    rw [checkStart, hk]
    simp only [ShootingMethod.pathTimes, h1, h2, h3, if_false]
  apply ShootingMethod.discretize_error m b x0 p theta lastU h0 hn hb
  apply check_error
  · exact ⟨g, hg, fun k => hunk _ k (hk g hg) ht ht'⟩
  · intro k hkey
    rcases check_cases m h0 hn k hkey with h | ⟨g', hg', h⟩
    · exact .inl h
    · by_cases h2 : g'.time = "end" ∨ g'.time = "default"
      · exact .inl (check_end m h0 hn k _ h2 h)
      · rw [not_or] at h2
        exact .inr (hunk _ k (hk g' hg') h2.1 h2.2 h)

example : ({ exampleShooting with gEq := exampleTranscription.gEq } : ShootingMethod Rat).discretize
    exampleShots [0] [] [] none = .error .notImplementedError :=
  C53_shooting_start_fails _ exampleShots [0] [] [] none exampleTranscription_grid.horizon
    (by decide) exampleShots_data (by
      intro g hg
      simp only [exampleShooting, exampleTranscription, List.singleton_append, List.mem_cons,
        List.not_mem_nil, or_false] at hg
      rcases hg with rfl | rfl
      · exact .inr (.inr rfl)
      · exact .inl rfl) ⟨fun _ pt => [pt.y.headD 0], "start"⟩ (by simp [exampleTranscription]) rfl

end Verif
