import Verif.Props.Collocation
/-!
# C51, C53, C54, C93: grid, path constraints, rate limits and degree of collocation
-/
namespace Verif

open Spec Transcription

variable {K : Type} [Field K] [LinearOrder K] [IsStrictOrderedRing K]

set_option linter.unusedSectionVars false

/-! ## C51 -/

/-- There is one breakpoint more than elements, and consecutive breakpoints are an element length
apart. -/
theorem C51_spacing (m : Transcription K) :
    m.breakpoints.length = m.dims.elements + 1 ∧
      ∀ (k : Nat) (a c : K), m.breakpoints[k]? = some a → m.breakpoints[k + 1]? = some c →
        c - a = (m.tf - m.t0) / (m.dims.elements : K) := by
  refine ⟨by simp [breakpoints], ?_⟩
  intro k a c ha hc
  simp only [breakpoints, List.getElem?_map, Option.map_eq_some_iff] at ha hc
  obtain ⟨i, hi, rfl⟩ := ha
  obtain ⟨j, hj, rfl⟩ := hc
  obtain ⟨hi', rfl⟩ := List.getElem?_eq_some_iff.mp hi
  obtain ⟨hj', rfl⟩ := List.getElem?_eq_some_iff.mp hj
  simp only [List.getElem_range]
  push_cast
  rw [deltaT]
  ring

/-- The first breakpoint is 0 and the last one is the length of the horizon. -/
theorem C51_ends (m : Transcription K) (hn : 0 < m.dims.elements) :
    m.breakpoints.head? = some 0 ∧ m.breakpoints.getLast? = some (m.tf - m.t0) := by
  constructor
  · simp [breakpoints, List.range_succ_eq_map]
  · have : (m.dims.elements : K) ≠ 0 := Nat.cast_ne_zero.mpr (by omega)
    simp only [breakpoints, List.range_succ, List.map_append, List.map_cons, List.map_nil,
      List.getLast?_append_of_ne_nil _ (List.cons_ne_nil _ _), List.getLast?_singleton, deltaT]
    congr 1
    field_simp

/-- When the horizon starts at 0, the breakpoints start at `t_0` and end at `t_f`. The full property
has no condition on `t_0`. -/
theorem C51_grid_partial (m : Transcription K) (hn : 0 < m.dims.elements) (h0 : m.t0 = 0) :
    m.breakpoints.head? = some m.t0 ∧ m.breakpoints.getLast? = some m.tf := by
  obtain ⟨h1, h2⟩ := C51_ends m hn
  rw [h0] at h2 ⊢
  rw [sub_zero] at h2
  exact ⟨h1, h2⟩

example : exampleTranscription.breakpoints = [0, 2, 4] := by decide +kernel

/-- For every horizon that starts elsewhere, the grid neither starts at `t_0` nor ends at `t_f`. -/
theorem C51_grid_fails (m : Transcription K) (hn : 0 < m.dims.elements) (h0 : m.t0 ≠ 0) :
    m.breakpoints.head? ≠ some m.t0 ∧ m.breakpoints.getLast? ≠ some m.tf := by
  obtain ⟨h1, h2⟩ := C51_ends m hn
  rw [h1, h2]
  refine ⟨fun h => h0 (Option.some.inj h).symm, fun h => h0 ?_⟩
  have := Option.some.inj h
  rwa [sub_eq_self] at this

example : ({ exampleTranscription with t0 := 1 } : Transcription Rat).breakpoints.head? = some 0 :=
  (C51_ends _ (by decide)).1

/-! ## C53 -/

/-- In every element a path inequality is imposed at its points: the start, the end or every
collocation point. -/
theorem C53_inequality (m : Transcription K) (b : Blocks K) (x0 p : List K)
    (theta : List (List K)) (lastU : Option (List K)) (h : Collocatable m)
    (hb : CollocationData m.dims b) (hr : m.hasDeltaU = true → RatesFit m lastU) :
    ∃ cons cost, m.discretize b x0 p theta lastU = .ok (cons, cost) ∧
      ∀ el < m.dims.elements, ∀ g ∈ m.gIneq, ∀ taus, pathPositions m.roots g.time = some taus →
        ∀ tau ∈ taus, ∃ c ∈ cons, c.lb = ⊥ ∧ c.ub = ((0 : K) : WithTop K) ∧
          c.value = g.value el (pointAt m b (m.fullP b p) (m.fullTheta b theta) el tau) := by
  refine ⟨_, _, discretize_ok m b p theta h hb x0 lastU hr, ?_⟩
  intro el hel g hg taus ht tau htau
  refine ⟨Con.nonpositive _, ?_, rfl, rfl, rfl⟩
  obtain ⟨i, hi, rfl⟩ := List.mem_iff_getElem.mp hg
  refine List.mem_append_left _ (List.mem_append_right _ (List.mem_flatMap.mpr
    ⟨el, List.mem_range.mpr hel, ?_⟩))
  refine List.mem_append_left _ (List.mem_append_right _ (List.mem_flatMap.mpr
    ⟨i, List.mem_range.mpr hi, List.mem_map.mpr ⟨_, ?_, rfl⟩⟩))
  refine List.mem_map.mpr ⟨tau, ?_, ?_⟩
  · simp only [Transcription.taus, List.getElem?_eq_getElem hi, Option.bind_some, ht]
    exact htau
  · simp only [valueOf, List.getElem?_eq_getElem hi]
    rfl

/-- The same for path equalities. -/
theorem C53_equality (m : Transcription K) (b : Blocks K) (x0 p : List K)
    (theta : List (List K)) (lastU : Option (List K)) (h : Collocatable m)
    (hb : CollocationData m.dims b) (hr : m.hasDeltaU = true → RatesFit m lastU) :
    ∃ cons cost, m.discretize b x0 p theta lastU = .ok (cons, cost) ∧
      ∀ el < m.dims.elements, ∀ g ∈ m.gEq, ∀ taus, pathPositions m.roots g.time = some taus →
        ∀ tau ∈ taus, ∃ c ∈ cons, c.lb = ((0 : K) : WithTop K) ∧ c.ub = ((0 : K) : WithTop K) ∧
          c.value = g.value el (pointAt m b (m.fullP b p) (m.fullTheta b theta) el tau) := by
  refine ⟨_, _, discretize_ok m b p theta h hb x0 lastU hr, ?_⟩
  intro el hel g hg taus ht tau htau
  refine ⟨Con.equality _, ?_, rfl, rfl, rfl⟩
  obtain ⟨i, hi, rfl⟩ := List.mem_iff_getElem.mp hg
  refine List.mem_append_left _ (List.mem_append_right _ (List.mem_flatMap.mpr
    ⟨el, List.mem_range.mpr hel, ?_⟩))
  refine List.mem_append_right _ (List.mem_flatMap.mpr
    ⟨i, List.mem_range.mpr hi, List.mem_map.mpr ⟨_, ?_, rfl⟩⟩)
  refine List.mem_map.mpr ⟨tau, ?_, ?_⟩
  · simp only [Transcription.taus, List.getElem?_eq_getElem hi, Option.bind_some, ht]
    exact htau
  · simp only [valueOf, List.getElem?_eq_getElem hi]
    rfl

example : ∃ cons cost, exampleTranscription.discretize exampleBlocks [0] [] [] none =
      .ok (cons, cost) ∧
      ∀ el < 2, ∀ g ∈ exampleTranscription.gIneq, ∀ taus,
        pathPositions exampleTranscription.roots g.time = some taus →
        ∀ tau ∈ taus, ∃ c ∈ cons, c.lb = ⊥ ∧ c.ub = ((0 : Rat) : WithTop Rat) ∧
          c.value = g.value el (pointAt exampleTranscription exampleBlocks [] [[], []] el tau) :=
  C53_inequality exampleTranscription exampleBlocks [0] [] [] none exampleTranscription_grid
    exampleBlocks_data fun _ => exampleRates none (by simp)

theorem evalTimes_ne (m : Transcription K) (el : Nat) : m.evalTimes el ≠ [] := by
  intro h
  have hm : m.breakpoint el + m.deltaT * 0 ∈ m.evalTimes el := by
    unfold evalTimes
    rw [(List.perm_insertionSort _ _).mem_iff, List.mem_dedup, List.mem_flatMap]
    exact ⟨.x, by simp, by simp [timeDict, stateTimes]⟩
  rw [h] at hm
  cases hm

/-- An error in the first element's evaluation is the result of `discretize`. -/
theorem discretize_error (m : Transcription K) (b : Blocks K) (x0 p : List K)
    (theta : List (List K)) (lastU : Option (List K)) (hn : 0 < m.dims.elements)
    (hb : CollocationData m.dims b) (e : Err)
    (hs : ∀ t, m.sample b (m.fullP b p) ((m.fullTheta b theta).getD 0 []) 0 t = .error e) :
    m.discretize b x0 p theta lastU = .error e := by
  have h0 := grid_columns hb.x hn
  have hx0 : b.x[0]? = some (b.x.getD 0 []) := getElem?_getD [] (by rw [hb.x.1]; exact hn)
  have hx00 : (b.x.getD 0 [])[0]? = some ((b.x.getD 0 []).getD 0 []) :=
    getElem?_getD [] (by rw [h0.1]; omega)
  have he : m.element b (m.fullP b p) (m.fullTheta b theta) 0 = .error e := by
    unfold element
    cases ht : m.evalTimes 0 with
    | nil => exact absurd ht (evalTimes_ne m 0)
    | cons t ts => rw [mapM_error _ e t ts (hs t)]; rfl
  obtain ⟨n, hn'⟩ : ∃ n, m.dims.elements = n + 1 := ⟨m.dims.elements - 1, by omega⟩
  simp only [discretize]
  rw [itemAt_ok hx0, ok_bind, itemAt_ok hx00, ok_bind, hn', List.range_succ_eq_map,
    mapM_error _ e 0 _ he]
  rfl

/-- A path constraint with an unknown time tag is reported: the problem cannot be built. -/
theorem C53_unknown_tag (m : Transcription K) (b : Blocks K) (x0 p : List K)
    (theta : List (List K)) (lastU : Option (List K)) (h : CollocationGrid m)
    (hb : CollocationData m.dims b) (g : PathCon K) (hg : g ∈ m.gIneq ++ m.gEq)
    (ht : pathPositions m.roots g.time = none) :
    m.discretize b x0 p theta lastU = .error .keyError := by
  apply discretize_error m b x0 p theta lastU h.elements hb
  intro t
  have hdt := deltaT_pos m h
  have htt : t = m.deltaT * (((0 : Nat) : K) + t / m.deltaT) := by
    rw [Nat.cast_zero]; field_simp; ring
  unfold sample
  rw [htt, stateAt_ok m b p theta h hb 0 h.elements, ok_bind,
    algebraicAt_ok m b p theta h hb 0 h.elements, ok_bind]
  have hk : m.checkKeys 0 = .error .keyError := by
    rw [checkKeys, if_neg]
    rw [List.all_eq_true]
    intro hall
    rcases List.mem_append.mp hg with hg | hg
    · obtain ⟨i, hi, rfl⟩ := List.mem_iff_getElem.mp hg
      have := hall (.ineq i) (by simp [functionKeys, hi])
      rw [timeDict, List.getElem?_eq_getElem hi, Option.bind_some,
        pathTimes_eq m 0 h.elements, ht] at this
      cases this
    · obtain ⟨i, hi, rfl⟩ := List.mem_iff_getElem.mp hg
      have := hall (.eq i) (by simp [functionKeys, hi])
      rw [timeDict, List.getElem?_eq_getElem hi, Option.bind_some,
        pathTimes_eq m 0 h.elements, ht] at this
      cases this
  rw [hk]
  rfl

example : ({ exampleTranscription with
    gIneq := [⟨fun _ pt => [pt.x.headD 0 - 1], "middle"⟩] } : Transcription Rat).discretize
      exampleBlocks [0] [] [] none = .error .keyError :=
  C53_unknown_tag _ exampleBlocks [0] [] [] none
    (⟨exampleTranscription_grid.horizon, by decide, by decide, rfl,
      exampleTranscription_grid.increasing, rfl, by decide, fun _ _ _ => rfl⟩)
    exampleBlocks_data ⟨fun _ pt => [pt.x.headD 0 - 1], "middle"⟩ (by simp) rfl

/-! ## C54 -/

/-- The limits add to the constraints exactly that the change of every control, from the last
control (if one is given) to the first element and from element to element, is within its
limits. -/
theorem C54_limits_partial (m : Transcription K) (b : Blocks K) (x0 p : List K)
    (theta : List (List K)) (lastU : Option (List K)) (h : Collocatable m)
    (hb : CollocationData m.dims b) (hr : RatesFit m lastU) :
    ∃ limited free cost, m.discretize b x0 p theta lastU = .ok (limited, cost) ∧
      (withoutLimits m).discretize b x0 p theta lastU = .ok (free, cost) ∧
      ((∀ c ∈ limited, c.Holds) ↔ (∀ c ∈ free, c.Holds) ∧ RatesHold m b lastU) := by
  have hw : (withoutLimits m).hasDeltaU = false := by
    simp [hasDeltaU, withoutLimits, List.getElem?_replicate]
  obtain ⟨c1, h1, i1⟩ := C92_feasible_iff m b x0 p theta lastU h hb fun _ => hr
  have h' : Collocatable (withoutLimits m) :=
    ⟨⟨h.horizon, h.elements, h.degree, h.points, h.increasing, h.last, h.states, h.ode⟩, h.tags⟩
  obtain ⟨c2, h2, i2⟩ := C92_feasible_iff (withoutLimits m) b x0 p theta lastU h' hb
    (fun hh => by rw [hw] at hh; cases hh)
  refine ⟨c1, c2, _, h1, h2, ?_⟩
  rw [i1, i2]
  constructor
  · intro hc
    refine ⟨⟨hc.initial, hc.continuous, hc.dynamics, hc.algebraic, ?_, hc.inequalities,
      hc.equalities, hc.final, hc.independent⟩, hc.rates⟩
    intro el hel before now _ _ i a c lo hi _ _ hlo hhi
    simp only [withoutLimits, List.getElem?_replicate, Option.ite_none_right_eq_some,
      Option.some.injEq] at hlo hhi
    rw [← hlo.2, ← hhi.2]
    exact ⟨bot_le, le_top⟩
  · rintro ⟨hc, hrt⟩
    exact ⟨hc.initial, hc.continuous, hc.dynamics, hc.algebraic, hrt, hc.inequalities,
      hc.equalities, hc.final, hc.independent⟩

example : ∃ limited free cost,
    exampleTranscription.discretize exampleBlocks [0] [] [] (some [0]) = .ok (limited, cost) ∧
      (withoutLimits exampleTranscription).discretize exampleBlocks [0] [] [] (some [0]) =
        .ok (free, cost) ∧
      ((∀ c ∈ limited, c.Holds) ↔
        (∀ c ∈ free, c.Holds) ∧ RatesHold exampleTranscription exampleBlocks (some [0])) :=
  C54_limits_partial exampleTranscription exampleBlocks [0] [] [] (some [0])
    exampleTranscription_grid exampleBlocks_data (exampleRates (some [0]) (by simp))

/-- Without a last control only the changes between elements are limited, the first control is
free. -/
theorem C54_first_free (m : Transcription K) (b : Blocks K) :
    RatesHold m b none ↔ ∀ el, el + 1 < m.dims.elements → ∀ before now,
      (b.u.getD el []).head? = some before → (b.u.getD (el + 1) []).head? = some now →
      ∀ (i : Nat) (a c : K) (lo hi : WithBot (WithTop K)), now[i]? = some a → before[i]? = some c →
        m.duMin[i]? = some lo → m.duMax[i]? = some hi →
        lo ≤ ((a - c : K) : WithTop K) ∧
          (((a - c : K) : WithTop K) : WithBot (WithTop K)) ≤ hi := by
  constructor
  · intro h el hel before now hb hn
    exact h (el + 1) hel before now hb hn
  · intro h el hel before now hb hn
    cases el with
    | zero => cases hb
    | succ el => exact h el hel before now hb hn

/-- An empty last control with a limit. -/
theorem rates_without_last (m : Transcription K) (b : Blocks K) (hb : SharedShape m.dims b)
    (hn : 0 < m.dims.elements) (hr : RatesFit m none) (hd : m.hasDeltaU = true) :
    m.rates b (some []) 0 = .error .runtimeError := by
  obtain ⟨u, rest, hu, hul⟩ := controls_head m b hb hr.controls 0 hn
  have hrate : ∀ i < m.dims.nU, (∃ c, m.rateOf u [] i = .ok c) ∨
      m.rateOf u [] i = .error .runtimeError := by
    intro i hi
    have hmax := getElem?_getD (l := m.duMax) (i := i) ⊤ (by rw [hr.max]; exact hi)
    have hmin := getElem?_getD (l := m.duMin) (i := i) ⊥ (by rw [hr.min]; exact hi)
    unfold rateOf
    rw [entryOf_ok hmax, ok_bind, entryOf_ok hmin, ok_bind]
    split
    · exact Or.inl ⟨_, rfl⟩
    · rw [entryOf_ok (getElem?_getD 0 (by omega))]
      exact Or.inr rfl
  have hbad : ∃ i ∈ List.range m.dims.nU, m.rateOf u [] i = .error .runtimeError := by
    simp only [hasDeltaU, List.any_eq_true, List.mem_range, Bool.or_eq_true,
      decide_eq_true_eq] at hd
    obtain ⟨i, hi, hl⟩ := hd
    refine ⟨i, List.mem_range.mpr hi, ?_⟩
    have hmax := getElem?_getD (l := m.duMax) (i := i) ⊤ (by rw [hr.max]; exact hi)
    have hmin := getElem?_getD (l := m.duMin) (i := i) ⊥ (by rw [hr.min]; exact hi)
    unfold rateOf
    rw [entryOf_ok hmax, ok_bind, entryOf_ok hmin, ok_bind, if_neg]
    · rw [entryOf_ok (getElem?_getD 0 (by omega))]
      rfl
    · rintro ⟨h1, h2⟩
      rw [hmax, hmin, h1, h2] at hl
      simp at hl
  unfold rates previousControl
  rw [if_pos hd, if_neg (Nat.lt_irrefl 0)]
  show (itemAt (b.u.getD 0 []) 0 >>= _) = _
  rw [hu, itemAt_ok (a := u) rfl, ok_bind, mapM_some_error _ .runtimeError _
    (fun i hi => hrate i (List.mem_range.mp hi)) hbad]
  rfl

/-- The problem the solution methods build without a last control parameter gets an empty last
control instead of none: with any limit it cannot be built at all. -/
theorem C54_without_last_fails (m : Transcription K) (b : Blocks K) (x0 p : List K)
    (theta : List (List K)) (lastU : List K) (h : Collocatable m)
    (hb : CollocationData m.dims b) (hr : RatesFit m none) (hd : m.hasDeltaU = true) :
    m.discretize b x0 p theta (lastControlArgument false lastU) = .error .runtimeError := by
  have hn := h.elements
  have h0 := grid_columns hb.x hn
  have hx0 : b.x[0]? = some (b.x.getD 0 []) := getElem?_getD [] (by rw [hb.x.1]; exact hn)
  have hx00 : (b.x.getD 0 [])[0]? = some ((b.x.getD 0 []).getD 0 []) :=
    getElem?_getD [] (by rw [h0.1]; omega)
  obtain ⟨n, hn'⟩ : ∃ n, m.dims.elements = n + 1 := ⟨m.dims.elements - 1, by omega⟩
  have hrates := rates_without_last m b hb.toSharedShape hn hr hd
  have hres : resultOf ((List.range m.dims.elements).map
      (resultAt m b (m.fullP b p) (m.fullTheta b theta))) 0 =
        resultAt m b (m.fullP b p) (m.fullTheta b theta) 0 := by
    simp [resultOf, hn]
  have hcons : m.consOf b (some []) ((List.range m.dims.elements).map
      (resultAt m b (m.fullP b p) (m.fullTheta b theta))) 0 = .error .runtimeError := by
    unfold consOf elementCons
    rw [Nat.zero_sub, hres]
    have := continuity_ok m b (m.fullP b p) (m.fullTheta b theta) h 0
    rw [Nat.zero_sub] at this
    rw [this, ok_bind, mapM_ok _ _ _ fun j hj =>
        dynamicsAt_ok m b (m.fullP b p) (m.fullTheta b theta) h hb 0 hn j (List.mem_range.mp hj),
      ok_bind, mapM_ok _ _ _ fun j hj => algebraicEq_ok m b (m.fullP b p) (m.fullTheta b theta) h 0
        j (List.mem_range.mp hj), ok_bind, hrates]
    rfl
  simp only [discretize, lastControlArgument]
  rw [itemAt_ok hx0, ok_bind, itemAt_ok hx00, ok_bind, mapM_ok _ _ _ fun el hel =>
      element_ok m b (m.fullP b p) (m.fullTheta b theta) h hb el (List.mem_range.mp hel), ok_bind]
  have : List.mapM (m.consOf b (some []) ((List.range m.dims.elements).map
      (resultAt m b (m.fullP b p) (m.fullTheta b theta)))) (List.range m.dims.elements) =
      .error .runtimeError := by
    conv_lhs => rw [hn', List.range_succ_eq_map]
    rw [hn'] at hcons
    exact mapM_error _ _ 0 _ (by rw [← List.range_succ_eq_map]; exact hcons)
  simp only [Bool.false_eq_true, if_false]
  rw [this]
  rfl

example : exampleTranscription.discretize exampleBlocks [0] [] []
    (lastControlArgument false [0]) = .error .runtimeError :=
  C54_without_last_fails exampleTranscription exampleBlocks [0] [] [] [0]
    exampleTranscription_grid exampleBlocks_data (exampleRates none (by simp)) (by decide +kernel)

/-! ## C93 -/

/-- Collocation of degree one cannot be built: the approximation of the states has one column of
parameters while an element has two states. -/
theorem C93_degree_one_fails (m : Transcription K) (b : Blocks K) (x0 p : List K)
    (theta : List (List K)) (lastU : Option (List K)) (hd : m.dims.degree = 1)
    (hn : 0 < m.dims.elements) (hx : 0 < m.dims.nX) (hb : CollocationData m.dims b) :
    m.discretize b x0 p theta lastU = .error .runtimeError := by
  apply discretize_error m b x0 p theta lastU hn hb
  intro t
  have hc := grid_columns hb.x hn
  simp only [sample, stateAt, vectorize]
  rw [flatten_size hc, hd, checkArgument, if_neg]
  · rfl
  · rw [numParameters, if_pos rfl]
    omega

/-- Every other positive degree works. -/
theorem C93_degree_partial (m : Transcription K) (b : Blocks K) (x0 p : List K)
    (theta : List (List K)) (lastU : Option (List K)) (h : Collocatable m)
    (hb : CollocationData m.dims b) (hr : m.hasDeltaU = true → RatesFit m lastU) :
    ∃ r, m.discretize b x0 p theta lastU = .ok r :=
  ⟨_, discretize_ok m b p theta h hb x0 lastU hr⟩

example : ({ exampleTranscription with
    dims := ⟨1, 1, 1, 1, 1, 1, 1, 0, 0, 0⟩, roots := [1] } : Transcription Rat).discretize
      ⟨[[[0], [0]]], [[[0]]], [[[0]]], [], [], [[]]⟩ [0] [] [] none = .error .runtimeError := by
  decide +kernel

end Verif
