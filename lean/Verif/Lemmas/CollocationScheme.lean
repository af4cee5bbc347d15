import Verif.Lemmas.Collocation
import Mathlib.Algebra.Order.Field.Basic
import Mathlib.Tactic.FieldSimp
/-! The values the collocation scheme computes, in closed form. -/
namespace Verif
namespace Transcription

open Spec

set_option linter.unusedSectionVars false

variable {K : Type} [Field K] [LinearOrder K] [IsStrictOrderedRing K]
variable (m : Transcription K) (b : Blocks K) (p : List K) (theta : List (List K))

omit [LinearOrder K] [IsStrictOrderedRing K] in
theorem breakpoint_eq (k : Nat) (hk : k ≤ m.dims.elements) : m.breakpoint k = m.deltaT * (k : K) := by
  simp [breakpoint, breakpoints, List.getD_eq_getElem?_getD, Nat.lt_succ_of_le hk]

theorem deltaT_pos (h : CollocationGrid m) : 0 < m.deltaT :=
  div_pos (sub_pos.mpr h.horizon) (Nat.cast_pos.mpr h.elements)

theorem roots_ne (h : Collocatable m) : m.roots ≠ [] := by
  intro he; have := h.last; rw [he] at this; cases this

/-- The positions of the times of a key. -/
def taus (m : Transcription K) : Key → List K
  | .x => 0 :: m.roots
  | .y => m.roots
  | .ode => 0 :: m.roots
  | .alg => m.roots
  | .sCost => [1]
  | .ineq i => ((m.gIneq[i]?).bind fun g => pathPositions m.roots g.time).getD []
  | .eq i => ((m.gEq[i]?).bind fun g => pathPositions m.roots g.time).getD []

theorem pathTimes_eq (el : Nat) (hel : el < m.dims.elements) (tag : String) :
    m.pathTimes el tag =
      (pathPositions m.roots tag).map (List.map fun tau => m.deltaT * ((el : K) + tau)) := by
  unfold pathTimes pathPositions
  split
  · simp [breakpoint_eq m el hel.le]
  · split
    · simp [breakpoint_eq m (el + 1) hel, Nat.cast_succ]
    · split
      · simp [algebraicTimes, breakpoint_eq m el hel.le, mul_add]
      · rfl

theorem timeDict_eq (el : Nat) (hel : el < m.dims.elements) (k : Key) :
    (m.timeDict el k).getD [] = (m.taus k).map fun tau => m.deltaT * ((el : K) + tau) := by
  cases k with
  | x => simp [timeDict, taus, stateTimes, breakpoint_eq m el hel.le, mul_add]
  | y => simp [timeDict, taus, algebraicTimes, breakpoint_eq m el hel.le, mul_add]
  | ode => simp [timeDict, taus, stateTimes, breakpoint_eq m el hel.le, mul_add]
  | alg => simp [timeDict, taus, algebraicTimes, breakpoint_eq m el hel.le, mul_add]
  | sCost => simp [timeDict, taus, breakpoint_eq m (el + 1) hel]
  | ineq i =>
    simp only [timeDict, taus]
    cases h : m.gIneq[i]? with
    | none => rfl
    | some g =>
      simp only [Option.bind_some, pathTimes_eq m el hel]
      cases pathPositions m.roots g.time <;> rfl
  | eq i =>
    simp only [timeDict, taus]
    cases h : m.gEq[i]? with
    | none => rfl
    | some g =>
      simp only [Option.bind_some, pathTimes_eq m el hel]
      cases pathPositions m.roots g.time <;> rfl

/-- A key the scheme asks for. -/
def Asked (m : Transcription K) (k : Key) : Prop := k ∈ [Key.x, Key.y] ++ m.functionKeys

omit [IsStrictOrderedRing K] in
theorem positions_sorted (h : Collocatable m) (tag : String) (l : List K)
    (hl : pathPositions m.roots tag = some l) : l.Pairwise (· < ·) := by
  unfold pathPositions at hl
  split at hl
  · cases hl; simp
  · split at hl
    · cases hl; simp
    · split at hl
      · cases hl; exact (List.pairwise_cons.mp h.increasing).2
      · cases hl

theorem taus_sorted (h : Collocatable m) (k : Key) : (m.taus k).Pairwise (· < ·) := by
  have h2 := (List.pairwise_cons.mp h.increasing).2
  cases k with
  | x => exact h.increasing
  | y => exact h2
  | ode => exact h.increasing
  | alg => exact h2
  | sCost => simp [taus]
  | ineq i =>
    simp only [taus]
    cases hg : m.gIneq[i]? with
    | none => simp
    | some g =>
      simp only [Option.bind_some]
      cases hp : pathPositions m.roots g.time with
      | none => simp
      | some l => exact positions_sorted m h _ l hp
  | eq i =>
    simp only [taus]
    cases hg : m.gEq[i]? with
    | none => simp
    | some g =>
      simp only [Option.bind_some]
      cases hp : pathPositions m.roots g.time with
      | none => simp
      | some l => exact positions_sorted m h _ l hp

theorem checkKeys_ok (h : Collocatable m) (el : Nat) (hel : el < m.dims.elements) :
    m.checkKeys el = .ok () := by
  rw [checkKeys, if_pos]
  rw [List.all_eq_true]
  intro k hk
  simp only [functionKeys, List.mem_append, List.mem_cons, List.mem_map, List.mem_range,
    List.not_mem_nil, or_false] at hk
  rcases hk with (((rfl | rfl) | ⟨i, hi, rfl⟩) | ⟨i, hi, rfl⟩) | rfl
  · rfl
  · rfl
  · simp only [timeDict, List.getElem?_eq_getElem hi, Option.bind_some, pathTimes_eq m el hel,
      Option.isSome_map]
    exact h.tags _ (List.mem_append_left _ (List.getElem_mem hi))
  · simp only [timeDict, List.getElem?_eq_getElem hi, Option.bind_some, pathTimes_eq m el hel,
      Option.isSome_map]
    exact h.tags _ (List.mem_append_right _ (List.getElem_mem hi))
  · rfl

theorem grid_columns {α : Type} {e k n : Nat} {g : List (List (List α))} (h : Grid e k n g)
    {el : Nat} (hel : el < e) : Columns k n (g.getD el []) := by
  rw [List.getD_eq_getElem?_getD, List.getElem?_eq_getElem (by rw [h.1]; exact hel)]
  exact h.2 _ (List.getElem_mem _)

theorem tau_eq (h : CollocationGrid m) (el : Nat) (hel : el < m.dims.elements) (tau : K) :
    (m.deltaT * ((el : K) + tau) - m.breakpoint el) /
      (m.breakpoint (el + 1) - m.breakpoint el) = tau := by
  have hdt := (deltaT_pos m h).ne'
  rw [breakpoint_eq m el hel.le, breakpoint_eq m (el + 1) hel]
  push_cast
  rw [show m.deltaT * ((el : K) + tau) - m.deltaT * el = m.deltaT * tau by ring,
    show m.deltaT * ((el : K) + 1) - m.deltaT * el = m.deltaT by ring]
  field_simp

theorem stateAt_ok (h : CollocationGrid m) (hb : CollocationData m.dims b) (el : Nat)
    (hel : el < m.dims.elements) (tau : K) :
    m.stateAt b el (m.deltaT * ((el : K) + tau)) = .ok (pointAt m b p theta el tau).x := by
  have hx := grid_columns hb.x hel
  have hd : m.dims.degree ≠ 1 := by have := h.degree; omega
  simp only [stateAt, vectorize]
  rw [show checkArgument (numParameters m.dims.nX m.dims.degree true)
    (b.x.getD el []).flatten.length = .ok () by
      rw [checkArgument, if_pos]
      rw [flatten_size hx, numParameters, if_neg hd, if_pos (by simp [h.states])]]
  rw [tau_eq m h el hel]
  exact polyApprox_states m.roots _ _ _ tau hd h.states hx

theorem algebraicAt_ok (h : CollocationGrid m) (hb : CollocationData m.dims b) (el : Nat)
    (hel : el < m.dims.elements) (tau : K) :
    m.algebraicAt b el (m.deltaT * ((el : K) + tau)) = .ok (pointAt m b p theta el tau).y := by
  have hy := grid_columns hb.y hel
  have hd : m.dims.degree ≠ 1 := by have := h.degree; omega
  simp only [algebraicAt, vectorize]
  rw [show checkArgument (numParameters m.dims.nY m.dims.degree false)
    (b.y.getD el []).flatten.length = .ok () by
      rw [checkArgument, if_pos]
      rw [flatten_size hy, numParameters, if_neg hd, if_neg (by simp)]]
  rw [tau_eq m h el hel]
  exact polyApprox_algebraics m.roots _ _ _ tau hd hy

theorem sample_ok (h : Collocatable m) (hb : CollocationData m.dims b) (el : Nat)
    (hel : el < m.dims.elements) (tau : K) :
    m.sample b p (theta.getD el []) el (m.deltaT * ((el : K) + tau)) =
      .ok (pointAt m b p theta el tau) := by
  unfold sample
  rw [stateAt_ok m b p theta h.toCollocationGrid hb el hel,
    algebraicAt_ok m b p theta h.toCollocationGrid hb el hel, checkKeys_ok m h el hel]
  rfl

/-- The results of an element. -/
noncomputable def resultAt (m : Transcription K) (b : Blocks K) (p : List K)
    (theta : List (List K)) (el : Nat) (k : Key) : List (List K) :=
  (m.taus k).map fun tau => m.valueOf el (pointAt m b p theta el tau) k

theorem asked_or (k : Key) : Asked m k ∨ m.taus k = [] := by
  cases k with
  | ineq i =>
    by_cases hi : i < m.gIneq.length
    · left; simp [Asked, functionKeys, hi]
    · right; simp [taus, List.getElem?_eq_none (not_lt.mp hi)]
  | eq i =>
    by_cases hi : i < m.gEq.length
    · left; simp [Asked, functionKeys, hi]
    · right; simp [taus, List.getElem?_eq_none (not_lt.mp hi)]
  | _ => left; simp [Asked, functionKeys]

theorem element_ok (h : Collocatable m) (hb : CollocationData m.dims b) (el : Nat)
    (hel : el < m.dims.elements) :
    m.element b p theta el = .ok (resultAt m b p theta el) := by
  have hdt := deltaT_pos m h.toCollocationGrid
  have hs : ∀ t, m.sample b p (theta.getD el []) el t =
      .ok (pointAt m b p theta el (t / m.deltaT - el)) := by
    intro t
    rw [← sample_ok m b p theta h hb el hel]
    congr 1
    field_simp
    ring
  unfold element
  rw [mapM_ok _ _ _ fun t _ => hs t]
  show Except.ok (m.collectKey el ((m.evalTimes el).map fun t =>
      pointAt m b p theta el (t / m.deltaT - el))) = _
  congr 1
  funext k
  unfold collectKey
  have ht : ∀ t, (pointAt m b p theta el (t / m.deltaT - el)).t = t := by
    intro t
    show m.deltaT * _ = t
    field_simp
    ring
  rw [List.filter_map, List.map_map]
  simp only [Function.comp_def, ht]
  have hf : (m.evalTimes el).filter (fun t => decide (t ∈ (m.timeDict el k).getD [])) =
      (m.timeDict el k).getD [] := filter_sorted
    (([Key.x, Key.y] ++ m.functionKeys).flatMap fun k => (m.timeDict el k).getD [])
    ((m.timeDict el k).getD []) (by
      rw [timeDict_eq m el hel, List.pairwise_map]
      refine (taus_sorted m h k).imp fun hab => ?_
      exact mul_lt_mul_of_pos_left (add_lt_add_of_le_of_lt le_rfl hab) hdt)
    (fun t ht => by
      rcases asked_or m k with hk | hk
      · exact List.mem_flatMap.mpr ⟨k, hk, ht⟩
      · rw [timeDict_eq m el hel, hk] at ht; cases ht)
  rw [hf, timeDict_eq m el hel, List.map_map, resultAt]
  apply List.map_congr_left
  intro tau _
  simp only [Function.comp]
  congr 2
  field_simp
  ring

/-! ## The constraints of an element -/

theorem last_root {β : Type} (h : Collocatable m) (f : K → β) :
    ((0 :: m.roots).map f).getLast? = some (f 1) := by
  rw [List.getLast?_map, List.getLast?_cons, h.last]
  rfl

theorem root_getElem (h : Collocatable m) (j : Nat) (hj : j < m.dims.degree) :
    m.roots[j]? = some (m.roots.getD j 0) := by
  rw [← h.points] at hj
  simp [hj]

/-- The dynamics equation at a position. -/
noncomputable def dynamicsCon (m : Transcription K) (b : Blocks K) (p : List K)
    (theta : List (List K)) (el : Nat) (tau : K) : Con K :=
  Con.equality (List.zipWith (fun x y => x - y)
    ((List.range m.dims.nX).map fun s =>
      (through (0 :: m.roots) (b.x.getD el []) s).derivative.eval tau)
    ((m.ode el (pointAt m b p theta el tau)).map (m.deltaT * ·)))

theorem continuity_ok (h : Collocatable m) (el : Nat) :
    continuity (resultAt m b p theta (el - 1)) (resultAt m b p theta el) el =
      .ok (if el = 0 then [] else [Con.equality (List.zipWith (fun x y => x - y)
        (pointAt m b p theta (el - 1) 1).x (pointAt m b p theta el 0).x)]) := by
  unfold continuity
  split
  · rfl
  · rw [lastItem_ok (a := (pointAt m b p theta (el - 1) 1).x) (last_root m h _),
      itemAt_ok (a := (pointAt m b p theta el 0).x) rfl]
    show (subColumns _ _ >>= _) = _
    rw [subColumns_eq (by simp [pointAt])]
    rfl

theorem dynamicsAt_ok (h : Collocatable m) (hb : CollocationData m.dims b) (el : Nat)
    (hel : el < m.dims.elements) (j : Nat) (hj : j < m.dims.degree) :
    m.dynamicsAt b (resultAt m b p theta el) el j =
      .ok (dynamicsCon m b p theta el (m.roots.getD j 0)) := by
  have hx := grid_columns hb.x hel
  have hd : m.dims.degree ≠ 1 := by have := h.degree; omega
  simp only [dynamicsAt, vectorize]
  rw [itemAt_ok (a := m.roots.getD j 0)
      (by rw [List.getElem?_cons_succ]; exact root_getElem m h j hj),
    show checkArgument (numParameters m.dims.nX m.dims.degree true)
      (b.x.getD el []).flatten.length = .ok () by
        rw [checkArgument, if_pos]
        rw [flatten_size hx, numParameters, if_neg hd, if_pos (by simp [h.states])],
    itemAt_ok (l := resultAt m b p theta el .ode)
      (a := m.ode el (pointAt m b p theta el (m.roots.getD j 0)))
      (by simp only [resultAt, taus, List.map_cons, List.getElem?_cons_succ, List.getElem?_map,
            root_getElem m h j hj]; rfl)]
  show (polyDerivative _ _ _ _ _ >>= _) = _
  rw [polyDerivative_states m.roots _ _ _ _ hd h.states hx]
  show (subColumns _ _ >>= _) = _
  rw [subColumns_eq (by simp [h.ode el hel])]
  rfl

theorem algebraicEq_ok (h : Collocatable m) (el j : Nat) (hj : j < m.dims.degree) :
    algebraicEq (resultAt m b p theta el) j =
      .ok (Con.equality (m.alg el (pointAt m b p theta el (m.roots.getD j 0)))) := by
  unfold algebraicEq
  rw [itemAt_ok (a := m.alg el (pointAt m b p theta el (m.roots.getD j 0)))
    (by simp only [resultAt, taus, List.getElem?_map, root_getElem m h j hj]; rfl)]
  rfl

/-! ## Rates -/

/-- The limit of one control's change, when there is one. -/
def rateCon (m : Transcription K) (now before : List K) (i : Nat) : List (Con K) :=
  if m.duMax.getD i ⊤ = ⊤ ∧ m.duMin.getD i ⊥ = ⊥ then []
  else [⟨[now.getD i 0 - before.getD i 0], m.duMin.getD i ⊥, m.duMax.getD i ⊤⟩]

/-- The limits of an element. -/
def ratesAt (m : Transcription K) (b : Blocks K) (lastU : Option (List K)) (el : Nat) :
    List (Con K) :=
  match controlBefore b lastU el with
  | none => []
  | some before => (List.range m.dims.nU).flatMap
      (rateCon m ((b.u.getD el []).head?.getD []) before)

theorem getElem?_getD {α : Type} {l : List α} {i : Nat} (z : α) (h : i < l.length) :
    l[i]? = some (l.getD i z) := by simp [h]

theorem rateOf_ok (lastU : Option (List K)) (hr : RatesFit m lastU) (now before : List K)
    (hn : now.length = m.dims.nU) (hbf : before.length = m.dims.nU) (i : Nat)
    (hi : i < m.dims.nU) : m.rateOf now before i = .ok (rateCon m now before i) := by
  have hmax := getElem?_getD (l := m.duMax) (i := i) ⊤ (by rw [hr.max]; exact hi)
  have hmin := getElem?_getD (l := m.duMin) (i := i) ⊥ (by rw [hr.min]; exact hi)
  unfold rateOf rateCon
  rw [entryOf_ok hmax, entryOf_ok hmin]
  show (if m.duMax.getD i ⊤ = ⊤ ∧ m.duMin.getD i ⊥ = ⊥ then _ else _) = _
  split
  · rfl
  · rw [entryOf_ok (getElem?_getD 0 (by omega)), entryOf_ok (getElem?_getD 0 (by omega))]
    show (if m.duMax.getD i ⊤ < m.duMin.getD i ⊥ then _ else _) = _
    rw [if_neg (not_lt.mpr (hr.uncrossed i _ _ hmin hmax))]
    rfl

theorem controls_head (hb : SharedShape m.dims b) (hc : 0 < controlPoints m.dims) (el : Nat)
    (hel : el < m.dims.elements) :
    ∃ u rest, b.u.getD el [] = u :: rest ∧ u.length = m.dims.nU := by
  obtain ⟨h1, h2⟩ := grid_columns hb.u hel
  cases hl : b.u.getD el [] with
  | nil => rw [hl] at h1; simp at h1; omega
  | cons u rest => exact ⟨u, rest, rfl, h2 u (by rw [hl]; exact List.mem_cons_self)⟩

theorem rates_ok (hb : SharedShape m.dims b) (lastU : Option (List K))
    (hr : m.hasDeltaU = true → RatesFit m lastU) (el : Nat) (hel : el < m.dims.elements) :
    m.rates b lastU el = .ok (if m.hasDeltaU then ratesAt m b lastU el else []) := by
  unfold rates
  split
  · next hd =>
    have hr := hr hd
    obtain ⟨u, rest, hu, hul⟩ := controls_head m b hb hr.controls el hel
    have key : ∀ before : List K, before.length = m.dims.nU →
        (do let now ← itemAt (b.u.getD el []) 0
            let cs ← (List.range m.dims.nU).mapM (m.rateOf now before)
            pure cs.flatten : Except Err (List (Con K))) =
          .ok ((List.range m.dims.nU).flatMap
            (rateCon m ((b.u.getD el []).head?.getD []) before)) := by
      intro before hbf
      rw [hu, itemAt_ok (a := u) rfl]
      show ((List.range m.dims.nU).mapM (m.rateOf u before) >>= _) = _
      rw [mapM_ok _ _ _ fun i hi => rateOf_ok m lastU hr u before hul hbf i (List.mem_range.mp hi)]
      rfl
    cases el with
    | zero =>
      unfold previousControl ratesAt controlBefore
      rw [if_neg (Nat.lt_irrefl 0)]
      cases hlast : lastU with
      | none => rfl
      | some before => exact key before (hr.last before hlast)
    | succ el =>
      obtain ⟨v, rest', hv, hvl⟩ := controls_head m b hb hr.controls el (by omega)
      unfold previousControl ratesAt controlBefore
      simp only [hv, List.head?_cons]
      rw [if_pos (Nat.succ_pos el), Nat.add_sub_cancel, hv, itemAt_ok (a := v) rfl]
      exact key v hvl
  · rfl

/-- The constraints of one element. -/
noncomputable def consAt (m : Transcription K) (b : Blocks K) (p : List K) (theta : List (List K))
    (lastU : Option (List K)) (el : Nat) : List (Con K) :=
  (if el = 0 then [] else [Con.equality (List.zipWith (fun x y => x - y)
    (pointAt m b p theta (el - 1) 1).x (pointAt m b p theta el 0).x)]) ++
  ((List.range m.dims.degree).map fun j => dynamicsCon m b p theta el (m.roots.getD j 0)) ++
  ((List.range m.dims.degree).map fun j =>
    Con.equality (m.alg el (pointAt m b p theta el (m.roots.getD j 0)))) ++
  (if m.hasDeltaU then ratesAt m b lastU el else []) ++
  ((List.range m.gIneq.length).flatMap fun i =>
    (resultAt m b p theta el (.ineq i)).map Con.nonpositive) ++
  ((List.range m.gEq.length).flatMap fun i =>
    (resultAt m b p theta el (.eq i)).map Con.equality)

theorem elementCons_ok (h : Collocatable m) (hb : CollocationData m.dims b)
    (lastU : Option (List K)) (hr : m.hasDeltaU = true → RatesFit m lastU) (el : Nat)
    (hel : el < m.dims.elements) :
    m.elementCons b lastU (resultAt m b p theta (el - 1)) (resultAt m b p theta el) el =
      .ok (consAt m b p theta lastU el) := by
  unfold elementCons
  rw [continuity_ok m b p theta h el, mapM_ok _ _ _ fun j hj =>
      dynamicsAt_ok m b p theta h hb el hel j (List.mem_range.mp hj),
    mapM_ok _ _ _ fun j hj => algebraicEq_ok m b p theta h el j (List.mem_range.mp hj),
    rates_ok m b hb.toSharedShape lastU hr el hel]
  rfl

/-- What `discretize` returns. -/
theorem discretize_ok (h : Collocatable m) (hb : CollocationData m.dims b) (x0 : List K)
    (lastU : Option (List K)) (hr : m.hasDeltaU = true → RatesFit m lastU) :
    m.discretize b x0 p theta lastU =
      .ok ([Con.equality (m.hInitial ((b.x.getD 0 []).getD 0 []) x0)] ++
        (List.range m.dims.elements).flatMap
          (consAt m b (m.fullP b p) (m.fullTheta b theta) lastU) ++
        [Con.equality (m.hFinal (pointAt m b (m.fullP b p) (m.fullTheta b theta)
          (m.dims.elements - 1) 1).x b.eta (m.fullP b p)), Con.equality (m.h (m.fullP b p))],
        collocationCost m b (m.fullP b p) (m.fullTheta b theta)) := by
  have hn := h.elements
  have h0 := grid_columns hb.x hn
  have hx0 : b.x[0]? = some (b.x.getD 0 []) := getElem?_getD [] (by rw [hb.x.1]; exact hn)
  have hx00 : (b.x.getD 0 [])[0]? = some ((b.x.getD 0 []).getD 0 []) :=
    getElem?_getD [] (by rw [h0.1]; omega)
  have hres : ∀ el < m.dims.elements, resultOf ((List.range m.dims.elements).map
      (resultAt m b (m.fullP b p) (m.fullTheta b theta))) el =
        resultAt m b (m.fullP b p) (m.fullTheta b theta) el := by
    intro el hel
    simp [resultOf, hel]
  simp only [discretize]
  rw [itemAt_ok hx0, ok_bind, itemAt_ok hx00, ok_bind, mapM_ok _ _ _ fun el hel =>
      element_ok m b (m.fullP b p) (m.fullTheta b theta) h hb el (List.mem_range.mp hel),
    ok_bind, mapM_ok _ (consAt m b (m.fullP b p) (m.fullTheta b theta) lastU) _ fun el hel => by
      have hel := List.mem_range.mp hel
      unfold consOf
      rw [hres el hel, hres (el - 1) (by omega)]
      exact elementCons_ok m b _ _ h hb lastU hr el hel,
    ok_bind, mapM_ok (elementCost (K := K)) (fun r => (r .sCost).headD [] |>.headD 0) _
      fun r hr => by
        obtain ⟨el, -, rfl⟩ := List.mem_map.mp hr
        rfl,
    ok_bind, hres _ (by omega), lastItem_ok (a := (pointAt m b (m.fullP b p) (m.fullTheta b theta)
      (m.dims.elements - 1) 1).x) (last_root m h _), ok_bind, List.map_map]
  rfl

end Transcription
end Verif
