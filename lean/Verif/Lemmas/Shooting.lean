import Verif.Spec.Shooting
import Verif.Lemmas.CollocationFeasible
/-! The values the multiple-shooting scheme computes, in closed form. -/
namespace Verif

theorem sorted_single {K : Type} [LinearOrder K] (l : List K) (t : K) (h : ∀ a ∈ l, a = t)
    (hne : l ≠ []) : (l.dedup).insertionSort (fun a b => a ≤ b) = [t] := by
  have hd : l.dedup = [t] := by
    have hmem : ∀ a, a ∈ l.dedup ↔ a = t := by
      intro a
      rw [List.mem_dedup]
      refine ⟨h a, ?_⟩
      rintro rfl
      obtain ⟨x, hx⟩ := List.exists_mem_of_ne_nil l hne
      rw [← h x hx]; exact hx
    have hp : l.dedup.Perm [t] := by
      rw [List.perm_ext_iff_of_nodup (List.nodup_dedup l) (List.nodup_singleton t)]
      intro a; rw [hmem, List.mem_singleton]
    exact List.perm_singleton.mp hp
  rw [hd]; rfl

namespace ShootingMethod

open Spec Transcription

variable {K : Type} [Field K] [LinearOrder K] [IsStrictOrderedRing K]
variable (m : ShootingMethod K) (b : Blocks K) (p : List K) (theta : List (List K))

set_option linter.unusedSectionVars false

theorem dt_pos (h0 : m.t0 < m.tf) (hn : 0 < m.dims.elements) : 0 < m.deltaT :=
  div_pos (sub_pos.mpr h0) (Nat.cast_pos.mpr hn)

theorem bp_lt (h0 : m.t0 < m.tf) (el : Nat) (hel : el < m.dims.elements) :
    m.breakpoint el < m.breakpoint (el + 1) := by
  rw [breakpoint_eq _ el hel.le, breakpoint_eq _ (el + 1) hel]
  push_cast
  exact mul_lt_mul_of_pos_left (lt_add_one _) (dt_pos m h0 (by omega))

/-- The times of a function are just the end of the element. -/
theorem timeDict_end (h : Shootable m) (el : Nat) (k : Key)
    (hk : k ∈ [Key.x, Key.y] ++ m.functionKeys) :
    m.timeDict el k = some [m.breakpoint (el + 1)] := by
  have hpath : ∀ g ∈ m.gIneq ++ m.gEq, m.pathTimes el g.time = some [m.breakpoint (el + 1)] := by
    intro g hg
    rcases h.tags g hg with ht | ht <;> rw [ht] <;> rfl
  simp only [functionKeys, List.mem_append, List.mem_cons, List.mem_map, List.mem_range,
    List.not_mem_nil, or_false] at hk
  rcases hk with (rfl | rfl) | (⟨i, hi, rfl⟩ | ⟨i, hi, rfl⟩) | rfl
  · rfl
  · rfl
  · rw [timeDict, List.getElem?_eq_getElem hi, Option.bind_some]
    exact hpath _ (List.mem_append_left _ (List.getElem_mem hi))
  · rw [timeDict, List.getElem?_eq_getElem hi, Option.bind_some]
    exact hpath _ (List.mem_append_right _ (List.getElem_mem hi))
  · rfl

theorem evalTimes_end (h : Shootable m) (el : Nat) : m.evalTimes el = [m.breakpoint (el + 1)] := by
  unfold evalTimes
  apply sorted_single
  · intro a ha
    obtain ⟨k, hk, ha⟩ := List.mem_flatMap.mp ha
    rw [timeDict_end m h el k hk] at ha
    exact List.mem_singleton.mp ha
  · intro he
    have : m.breakpoint (el + 1) ∈ ([Key.x, Key.y] ++ m.functionKeys).flatMap
        fun k => (m.timeDict el k).getD [] :=
      List.mem_flatMap.mpr ⟨.x, by simp, by simp [timeDict]⟩
    rw [he] at this
    cases this

/-- The results of an element. -/
def resultAt (m : ShootingMethod K) (b : Blocks K) (p : List K) (theta : List (List K)) (el : Nat) :
    Key → List (List K) :=
  m.collectKey el ((b.x.getD el []).getD 0 []) [shotEnd m b p theta el]

theorem resultAt_key (h : Shootable m) (el : Nat) (hel : el < m.dims.elements) (k : Key)
    (hk : k ∈ [Key.x, Key.y] ++ m.functionKeys) :
    resultAt m b p theta el k = [m.valueOf el (shotEnd m b p theta el) k] := by
  have hlt := bp_lt m h.horizon el hel
  have hnot : m.breakpoint el ∉ [m.breakpoint (el + 1)] := by
    rw [List.mem_singleton]; exact hlt.ne
  have ht : (shotEnd m b p theta el).t ∈ [m.breakpoint (el + 1)] := by
    rw [List.mem_singleton, breakpoint_eq _ (el + 1) hel]
    push_cast
    rfl
  unfold resultAt collectKey
  rw [if_neg (fun hc => hnot hc.2), timeDict_end m h el k hk, List.nil_append,
    List.filter_cons_of_pos (by simpa using ht)]
  rfl

theorem element_ok (h : Shootable m) (hb : ShootingShape m.dims b) (el : Nat)
    (hel : el < m.dims.elements) : m.element b p theta el = .ok (resultAt m b p theta el) := by
  have hlt := bp_lt m h.horizon el hel
  have hx := grid_columns hb.x (show el < m.dims.elements + 1 by omega)
  have hxe : b.x[el]? = some (b.x.getD el []) := getElem?_getD [] (by rw [hb.x.1]; omega)
  have hx0 : (b.x.getD el [])[0]? = some ((b.x.getD el []).getD 0 []) :=
    getElem?_getD [] (by rw [hx.1]; omega)
  have hnot : m.breakpoint el ∉ [m.breakpoint (el + 1)] := by
    rw [List.mem_singleton]; exact hlt.ne
  have hstart : m.startState el = .ok () := by
    rw [startState, if_neg]
    exact hnot
  have hkeys : m.functionKeys.mapM (m.checkStart el) = .ok (m.functionKeys.map fun _ => ()) := by
    apply mapM_ok
    intro k hk
    rw [checkStart, timeDict_end m h el k (List.mem_append_right _ hk)]
    exact if_neg hnot
  have hdt : elementLength m.toTranscription = m.deltaT := rfl
  have hsim : m.simulateAll b p (theta.getD el []) el (m.breakpoint el)
      ((b.x.getD el []).getD 0 []) [m.breakpoint (el + 1)] = [shotEnd m b p theta el] := by
    simp only [simulateAll, shotEnd, hdt, breakpoint_eq _ el hel.le, breakpoint_eq _ (el + 1) hel,
      vectorize]
    push_cast
    rfl
  unfold element
  rw [itemAt_ok hxe, ok_bind, itemAt_ok hx0, ok_bind, hstart, ok_bind, hkeys, ok_bind]
  simp only [evalTimes_end m h el]
  rw [List.erase_of_not_mem hnot, hsim]
  rfl

/-- The constraints of one element. -/
def consAt (m : ShootingMethod K) (b : Blocks K) (p : List K) (theta : List (List K))
    (lastU : Option (List K)) (el : Nat) : List (Con K) :=
  [Con.equality (List.zipWith (fun x y => x - y) (nextState m (shotEnd m b p theta el).x)
      ((b.x.getD (el + 1) []).getD 0 [])),
    Con.equality (List.zipWith (fun x y => x - y) (shotEnd m b p theta el).y
      ((b.y.getD el []).getD 0 []))] ++
  (if m.hasDeltaU then ratesAt m.toTranscription b lastU el else []) ++
  m.gIneq.map (fun g => Con.nonpositive (g.value el (shotEnd m b p theta el))) ++
  m.gEq.map (fun g => Con.equality (g.value el (shotEnd m b p theta el)))

theorem nextState_length (x : List K) (h : 0 < x.length) : (nextState m x).length = x.length := by
  unfold nextState
  split
  · simp; omega
  · rfl

theorem shot_x (h : Shootable m) (el : Nat) (hel : el < m.dims.elements) :
    (nextState m (shotEnd m b p theta el).x).length = m.dims.nX := by
  have : (shotEnd m b p theta el).x.length = m.dims.nX := (h.simulated _ hel _ _ _ _ _ _).1
  rw [nextState_length m _ (by rw [this]; exact h.states), this]

theorem shot_y (h : Shootable m) (el : Nat) (hel : el < m.dims.elements) :
    (shotEnd m b p theta el).y.length = m.dims.nY :=
  (h.simulated _ hel _ _ _ _ _ _).2

theorem key_ineq {i : Nat} (hi : i < m.gIneq.length) :
    Key.ineq i ∈ [Key.x, Key.y] ++ m.functionKeys := by
  simp [functionKeys, hi]

theorem key_eq {i : Nat} (hi : i < m.gEq.length) :
    Key.eq i ∈ [Key.x, Key.y] ++ m.functionKeys := by
  simp [functionKeys, hi]

theorem elementCons_ok (h : Shootable m) (hb : ShootingShape m.dims b) (lastU : Option (List K))
    (hr : m.hasDeltaU = true → RatesFit m.toTranscription lastU) (el : Nat)
    (hel : el < m.dims.elements) :
    m.elementCons b lastU (resultAt m b p theta el) el = .ok (consAt m b p theta lastU el) := by
  have hx := grid_columns hb.x (show el + 1 < m.dims.elements + 1 by omega)
  have hxe : b.x[el + 1]? = some (b.x.getD (el + 1) []) := getElem?_getD [] (by rw [hb.x.1]; omega)
  have hx0 : (b.x.getD (el + 1) [])[0]? = some ((b.x.getD (el + 1) []).getD 0 []) :=
    getElem?_getD [] (by rw [hx.1]; omega)
  have hy := grid_columns hb.y hel
  have hye : b.y[el]? = some (b.y.getD el []) := getElem?_getD [] (by rw [hb.y.1]; omega)
  have hy0 : (b.y.getD el [])[0]? = some ((b.y.getD el []).getD 0 []) :=
    getElem?_getD [] (by rw [hy.1]; omega)
  have hxl : ((b.x.getD (el + 1) []).getD 0 []).length = m.dims.nX :=
    hx.2 _ (List.mem_of_getElem? hx0)
  have hyl : ((b.y.getD el []).getD 0 []).length = m.dims.nY := hy.2 _ (List.mem_of_getElem? hy0)
  have hkx := resultAt_key m b p theta h el hel .x (by simp)
  have hky := resultAt_key m b p theta h el hel .y (by simp)
  have hrs : m.restartCost (shotEnd m b p theta el).x = nextState m (shotEnd m b p theta el).x := rfl
  have hineq : (List.range m.gIneq.length).mapM
      (fun i => itemAt (resultAt m b p theta el (.ineq i)) 0) =
      .ok (m.gIneq.map fun g => g.value el (shotEnd m b p theta el)) := by
    rw [mapM_ok _ (fun i => m.valueOf el (shotEnd m b p theta el) (.ineq i)) _ fun i hi => by
      rw [resultAt_key m b p theta h el hel _ (key_ineq m (List.mem_range.mp hi))]; rfl]
    congr 1
    apply List.ext_getElem
    · simp
    · intro i h1 h2
      have hi : i < m.gIneq.length := by simpa using h1
      simp [valueOf, hi]
  have heq : (List.range m.gEq.length).mapM
      (fun i => itemAt (resultAt m b p theta el (.eq i)) 0) =
      .ok (m.gEq.map fun g => g.value el (shotEnd m b p theta el)) := by
    rw [mapM_ok _ (fun i => m.valueOf el (shotEnd m b p theta el) (.eq i)) _ fun i hi => by
      rw [resultAt_key m b p theta h el hel _ (key_eq m (List.mem_range.mp hi))]; rfl]
    congr 1
    apply List.ext_getElem
    · simp
    · intro i h1 h2
      have hi : i < m.gEq.length := by simpa using h1
      simp [valueOf, hi]
  unfold elementCons
  rw [hkx, hky, itemAt_ok (a := (shotEnd m b p theta el).x) rfl, ok_bind,
    itemAt_ok (a := (shotEnd m b p theta el).y) rfl, ok_bind, itemAt_ok hxe, ok_bind,
    itemAt_ok hx0, ok_bind, hrs, subColumns_eq (by rw [shot_x m b p theta h el hel, hxl]), ok_bind,
    itemAt_ok hye, ok_bind, itemAt_ok hy0, ok_bind,
    subColumns_eq (by rw [shot_y m b p theta h el hel, hyl]), ok_bind,
    rates_ok m.toTranscription b hb.toSharedShape lastU hr el hel, ok_bind, hineq, ok_bind, heq,
    ok_bind]
  unfold consAt
  simp only [List.map_map]
  rfl

/-- What `discretize` returns. -/
theorem discretize_ok (h : Shootable m) (hb : ShootingShape m.dims b) (x0 : List K)
    (lastU : Option (List K)) (hr : m.hasDeltaU = true → RatesFit m.toTranscription lastU) :
    m.discretize b x0 p theta lastU =
      .ok ([Con.equality (m.hInitial ((b.x.getD 0 []).getD 0 []) x0)] ++
        (List.range m.dims.elements).flatMap
          (consAt m b (m.fullP b p) (m.fullTheta b theta) lastU) ++
        [Con.equality (m.hFinal ((b.x.getD m.dims.elements []).getD 0 []) b.eta (m.fullP b p)),
          Con.equality (m.h (m.fullP b p))],
        shootingCost m b (m.fullP b p) (m.fullTheta b theta)) := by
  have hn := h.elements
  have h0 := grid_columns hb.x (show 0 < m.dims.elements + 1 by omega)
  have hx0 : b.x[0]? = some (b.x.getD 0 []) := getElem?_getD [] (by rw [hb.x.1]; omega)
  have hx00 : (b.x.getD 0 [])[0]? = some ((b.x.getD 0 []).getD 0 []) :=
    getElem?_getD [] (by rw [h0.1]; omega)
  have hl := grid_columns hb.x (show m.dims.elements < m.dims.elements + 1 by omega)
  have hxl : b.x.getLast? = some (b.x.getD m.dims.elements []) := by
    rw [List.getLast?_eq_getElem?, hb.x.1, Nat.add_sub_cancel]
    exact getElem?_getD [] (by rw [hb.x.1]; omega)
  have hxl0 : (b.x.getD m.dims.elements [])[0]? =
      some ((b.x.getD m.dims.elements []).getD 0 []) :=
    getElem?_getD [] (by rw [hl.1]; omega)
  have hres : ∀ el < m.dims.elements, resultOf ((List.range m.dims.elements).map
      (resultAt m b (m.fullP b p) (m.fullTheta b theta))) el =
        resultAt m b (m.fullP b p) (m.fullTheta b theta) el := by
    intro el hel
    simp [resultOf, hel]
  have hcost : ((List.range m.dims.elements).map
      (resultAt m b (m.fullP b p) (m.fullTheta b theta))).mapM elementCost =
      .ok ((List.range m.dims.elements).map fun el =>
        m.sCost el (shotEnd m b (m.fullP b p) (m.fullTheta b theta) el)) := by
    rw [List.mapM_map]
    apply mapM_ok
    intro el hel
    have := resultAt_key m b (m.fullP b p) (m.fullTheta b theta) h el (List.mem_range.mp hel) .sCost
      (by simp [functionKeys])
    simp only [Function.comp, elementCost, this]
    rfl
  have hmain : m.mainCost (m.fullP b p) ((b.x.getD m.dims.elements []).getD 0 [])
      ((List.range m.dims.elements).map (resultAt m b (m.fullP b p) (m.fullTheta b theta))) =
      .ok (if m.costAsSum then ((List.range m.dims.elements).map fun el =>
        (shotEnd m b (m.fullP b p) (m.fullTheta b theta) el).x.getLastD 0).sum
      else m.vCost ((b.x.getD m.dims.elements []).getD 0 []) (m.fullP b p)) := by
    unfold mainCost
    split
    · rw [List.mapM_map, mapM_ok _ (fun el => (shotEnd m b (m.fullP b p) (m.fullTheta b theta)
        el).x.getLastD 0) _ fun el hel => ?_]
      · rfl
      · have := resultAt_key m b (m.fullP b p) (m.fullTheta b theta) h el (List.mem_range.mp hel) .x
          (by simp)
        have hxl : (shotEnd m b (m.fullP b p) (m.fullTheta b theta) el).x.length = m.dims.nX :=
          (h.simulated _ (List.mem_range.mp hel) _ _ _ _ _ _).1
        have hne : (shotEnd m b (m.fullP b p) (m.fullTheta b theta) el).x ≠ [] := by
          intro he
          rw [he] at hxl
          have := h.states
          simp at hxl
          omega
        simp only [Function.comp, elementSum, this]
        rw [itemAt_ok (a := (shotEnd m b (m.fullP b p) (m.fullTheta b theta) el).x) rfl, ok_bind,
          List.getLast?_eq_some_getLast hne, List.getLastD_eq_getLast?,
          List.getLast?_eq_some_getLast hne]
        rfl
    · rfl
  simp only [discretize]
  rw [itemAt_ok hx0, ok_bind, itemAt_ok hx00, ok_bind, mapM_ok _ _ _ fun el hel =>
      element_ok m b (m.fullP b p) (m.fullTheta b theta) h hb el (List.mem_range.mp hel),
    ok_bind, mapM_ok _ (consAt m b (m.fullP b p) (m.fullTheta b theta) lastU) _ fun el hel => by
      have hel := List.mem_range.mp hel
      unfold consOf
      rw [hres el hel]
      exact elementCons_ok m b _ _ h hb lastU hr el hel,
    ok_bind, hcost, ok_bind, lastItem_ok hxl, ok_bind, itemAt_ok hxl0, ok_bind, hmain, ok_bind]
  rfl

end ShootingMethod
end Verif
