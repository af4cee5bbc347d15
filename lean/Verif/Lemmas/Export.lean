import Verif.Lemmas.Ocp
import Verif.Spec.Export
import Verif.Lemmas.CollocationFeasible
import Verif.Lemmas.LayoutGuess
import Verif.Lemmas.Shooting
/-! Lemmas about the reported data. -/
namespace Verif
namespace Transcription
open Spec

set_option linter.unusedSectionVars false

variable {K : Type} [Field K] [LinearOrder K] [IsStrictOrderedRing K]
variable (m : Transcription K) (b : Blocks K) (p : List K) (theta : List (List K))

theorem sortedTimes_sorted (ts : List K) (h : ts.Pairwise (· < ·)) : sortedTimes ts = ts := by
  have := filter_sorted ts ts h (fun _ h => h)
  rw [List.filter_eq_self.2] at this
  · exact this
  · intro t ht
    simpa [(List.perm_insertionSort _ _).mem_iff] using ht

theorem grid_times (el : Nat) (hel : el < m.dims.elements) (taus : List K) :
    (taus.map fun tau => m.breakpoint el + m.deltaT * tau) =
      taus.map fun tau => elementLength m * ((el : K) + tau) := by
  refine List.map_congr_left fun tau _ => ?_
  rw [breakpoint_eq m el hel.le, mul_add]
  rfl

theorem controlTimes_eq (c : ControlLaw K) (el : Nat) (hel : el < m.dims.elements) :
    m.controlTimes c el = (controlPositions m.dims c).map fun tau =>
      elementLength m * ((el : K) + tau) :=
  grid_times m el hel _

theorem stateAt_withFinal (hb : CollocationData m.dims b) (el : Nat) (hel : el < m.dims.elements)
    (t : K) : m.stateAt (withFinal b) el t = m.stateAt b el t := by
  unfold stateAt
  have : (withFinal b).x.getD el [] = b.x.getD el [] := by
    unfold withFinal
    simp only [List.getD_eq_getElem?_getD]
    rw [List.getElem?_append_left (by rw [hb.x.1]; exact hel)]
  rw [this]

theorem algebraic_at_node (h : Collocatable m) (hb : CollocationData m.dims b) (el : Nat)
    (hel : el < m.dims.elements) (j : Nat) (hj : j < m.roots.length) :
    (pointAt m b p theta el m.roots[j]).y = (b.y.getD el []).getD j [] := by
  have hy := Transcription.grid_columns hb.y hel
  have hj' : j < (b.y.getD el []).length := by
    rw [hy.1, ← h.points]; simpa using hj
  have hlen : ((b.y.getD el []).getD j []).length = m.dims.nY :=
    hy.2 _ (by
      rw [List.getD_eq_getElem?_getD (l := b.y.getD el []), List.getElem?_eq_getElem hj']
      exact List.getElem_mem hj')
  rw [← range_map_getD 0 ((b.y.getD el []).getD j []), hlen]
  show List.map _ _ = _
  apply List.map_congr_left
  intro s _
  exact Lagrange.eval_interpolate_at_node
    (fun j : Fin m.roots.length => ((b.y.getD el []).getD j []).getD s 0)
    (nodes_injOn ((List.pairwise_cons.1 h.increasing).2.imp fun h => ne_of_lt h))
    (Finset.mem_univ (⟨j, hj⟩ : Fin _))

/-- A list of columns is the samples of a function that takes these values at the nodes. -/
theorem columns_eq_map {nodes : List K} {cols : List (List K)} {f : K → List K}
    (hl : cols.length = nodes.length)
    (h : ∀ (j : Nat) (hj : j < nodes.length), f nodes[j] = cols.getD j []) :
    cols = nodes.map f := by
  apply List.ext_getElem
  · simpa using hl
  · intro i h1 h2
    rw [List.getElem_map, h i (by omega)]
    simp [h1]

/-- A grid is what its elements are. -/
theorem grid_eq_map {α : Type} {n k e : Nat} {g : List (List (List α))} (h : Grid n k e g)
    {f : Nat → List (List α)} (hf : ∀ el, el < n → g.getD el [] = f el) :
    g = (List.range n).map f := by
  apply List.ext_getElem
  · simpa using h.1
  · intro i h1 h2
    have h3 : i < n := by rw [← h.1]; exact h1
    rw [List.getElem_map, List.getElem_range, ← hf i h3]
    simp [h1]

theorem states_sampled (h : Collocatable m) (hb : CollocationData m.dims b) :
    b.x = (List.range m.dims.elements).map fun el =>
      (0 :: m.roots).map fun tau => (pointAt m b p theta el tau).x := by
  refine grid_eq_map hb.x fun el hel => columns_eq_map ?_ ?_
  · rw [(Transcription.grid_columns hb.x hel).1, List.length_cons, h.points]
  · exact fun j hj => state_at_node m b p theta h hb el hel j hj

theorem algebraics_sampled (h : Collocatable m) (hb : CollocationData m.dims b) :
    b.y = (List.range m.dims.elements).map fun el =>
      m.roots.map fun tau => (pointAt m b p theta el tau).y := by
  refine grid_eq_map hb.y fun el hel => columns_eq_map ?_ ?_
  · rw [(Transcription.grid_columns hb.y hel).1, h.points]
  · exact fun j hj => algebraic_at_node m b p theta h hb el hel j hj

theorem final_state (h : Collocatable m) (hb : CollocationData m.dims b) :
    (b.x.getLast?.bind List.getLast?).getD [] =
      (pointAt m b p theta (m.dims.elements - 1) 1).x := by
  have hn := h.elements
  have hel : m.dims.elements - 1 < m.dims.elements := by omega
  have hlast : b.x.getLast? = some (b.x.getD (m.dims.elements - 1) []) := by
    rw [List.getLast?_eq_getElem?, hb.x.1, List.getD_eq_getElem?_getD,
      List.getElem?_eq_getElem (by rw [hb.x.1]; exact hel)]
    rfl
  rw [hlast, Option.bind_some, ← state_at_end m b p theta h hb _ hel]
  rfl

/-- Parametrised controls are the samples of the control law. -/
theorem controls_sampled (c : ControlLaw K) (hdt : m.deltaT ≠ 0) (hc : Parametrised m c)
    (hu : Grid m.dims.elements m.dims.degreeControl m.dims.nU b.u) (pt : Nat → K → Point K)
    (ht : ∀ el tau, (pt el tau).t = elementLength m * ((el : K) + tau))
    (hp : ∀ el tau, (pt el tau).uPar = (b.u.getD el []).flatten) :
    b.u = (List.range m.dims.elements).map fun el =>
      (controlPositions m.dims c).map fun tau => c.value el (pt el tau) := by
  refine grid_eq_map hu fun el hel => ?_
  have hcols := Transcription.grid_columns hu hel
  have htau : ∀ tau, ((pt el tau).t - m.breakpoint el) /
      (m.breakpoint (el + 1) - m.breakpoint el) = tau := by
    intro tau
    rw [ht, breakpoint_eq m el hel.le, breakpoint_eq m (el + 1) hel]
    push_cast
    show (m.deltaT * ((el : K) + tau) - m.deltaT * el) / (m.deltaT * ((el : K) + 1) - m.deltaT * el) = tau
    rw [show m.deltaT * ((el : K) + tau) - m.deltaT * el = m.deltaT * tau by ring,
      show m.deltaT * ((el : K) + 1) - m.deltaT * el = m.deltaT by ring]
    field_simp
  have hcol : ∀ j, j < m.dims.degreeControl →
      (List.range m.dims.nU).map (fun s => matOf m.dims.nU (b.u.getD el []).flatten s j) =
        (b.u.getD el []).getD j [] := by
    intro j hj
    have hj' : j < (b.u.getD el []).length := by rw [hcols.1]; exact hj
    have hlen : ((b.u.getD el []).getD j []).length = m.dims.nU :=
      hcols.2 _ (by
        rw [List.getD_eq_getElem?_getD (l := b.u.getD el []), List.getElem?_eq_getElem hj']
        exact List.getElem_mem hj')
    conv_rhs => rw [← range_map_getD 0 ((b.u.getD el []).getD j []), hlen]
    refine List.map_congr_left fun s hs => ?_
    exact flatten_entry m.dims.nU 0 _ m.dims.degreeControl hcols s j (List.mem_range.1 hs)
  have hlaw := fun tau => hc.law el (pt el tau)
  simp only [htau, hp] at hlaw
  by_cases hd : m.dims.degreeControl = 1
  · have h0 := hlaw 0
    rw [polyApproxMethod, if_pos hd] at h0
    injection h0 with h0
    rw [controlPositions, if_pos hd, List.map_singleton, ← h0, hcol 0 (by omega)]
    cases hl : b.u.getD el [] with
    | nil => rw [hl] at hcols; simp [Columns] at hcols; omega
    | cons a l =>
      cases l with
      | nil => rfl
      | cons => rw [hl] at hcols; simp [Columns] at hcols; omega
  · obtain ⟨hpts, hnd⟩ := hc.points hd
    rw [controlPositions, if_neg hd]
    refine columns_eq_map (by rw [hcols.1, hpts]) fun j hj => ?_
    have hj0 := hlaw c.roots[j]
    rw [polyApproxMethod, if_neg hd, if_neg (by simp)] at hj0
    injection hj0 with hj0
    rw [← hj0, ← hcol j (by omega)]
    refine List.map_congr_left fun s _ => ?_
    rw [lagrangeBasisMethod_one, polyRow_eq_interpolate c.roots]
    exact Lagrange.eval_interpolate_at_node
      (fun j : Fin c.roots.length => matOf m.dims.nU (b.u.getD el []).flatten s j)
      (nodes_injOn hnd) (Finset.mem_univ (⟨j, hj⟩ : Fin _))

/-- The samples of controls that are determined by the other variables. -/
theorem controlValues_ok (c : ControlLaw K) (h : CollocationGrid m) (hb : CollocationData m.dims b)
    (hc : Determined m c) (el : Nat) (hel : el < m.dims.elements) :
    m.controlValues c (withFinal b) p theta el =
      .ok ((controlPositions m.dims c).map fun tau => c.value el (pointAt m b p theta el tau)) := by
  have hdt := deltaT_pos m h
  have hu : b.u.getD el [] = [] := by
    have := (Transcription.grid_columns hb.u hel).1
    unfold controlPoints at this
    rw [if_neg (by rw [hc.free]; omega)] at this
    exact List.eq_nil_of_length_eq_zero this
  have hs : sortedTimes (m.controlTimes c el) =
      (controlPositions m.dims c).map fun tau => elementLength m * ((el : K) + tau) := by
    rw [controlTimes_eq m c el hel]
    refine sortedTimes_sorted _ ?_
    rw [List.pairwise_map]
    exact hc.increasing.imp fun hab =>
      mul_lt_mul_of_pos_left (add_lt_add_of_le_of_lt le_rfl hab) hdt
  have hone : ∀ tau : K, m.controlAt c (withFinal b) p (theta.getD el []) el
      (elementLength m * ((el : K) + tau)) = .ok (c.value el (pointAt m b p theta el tau)) := by
    intro tau
    unfold controlAt
    have h1 := stateAt_ok m b p theta h hb el hel tau
    have h2 := algebraicAt_ok m b p theta h hb el hel tau
    have hd : elementLength m = m.deltaT := rfl
    have h3 : m.algebraicAt (withFinal b) el (m.deltaT * ((el : K) + tau)) =
      m.algebraicAt b el (m.deltaT * ((el : K) + tau)) := rfl
    rw [hd, stateAt_withFinal m b hb el hel, h1, h3, h2]
    have e : (withFinal b).u.getD el [] = [] := hu
    simp only [e, bind, Except.bind, vectorize, List.flatten_nil, ite_self]
    unfold pointAt
    rw [hu]
    rfl
  unfold controlValues
  rw [hs]
  rw [mapM_ok _ (fun t => c.value el (pointAt m b p theta el (t / m.deltaT - el))) _ (by
    intro t ht
    obtain ⟨tau, -, rfl⟩ := List.mem_map.1 ht
    rw [hone tau]
    congr 3
    show tau = m.deltaT * ((el : K) + tau) / m.deltaT - el
    field_simp
    ring)]
  rw [List.map_map]
  congr 1
  refine List.map_congr_left fun tau _ => ?_
  simp only [Function.comp]
  congr 2
  show m.deltaT * ((el : K) + tau) / m.deltaT - el = tau
  field_simp
  ring

end Transcription

namespace ShootingMethod
open Spec Transcription

set_option linter.unusedSectionVars false

variable {K : Type} [Field K] [LinearOrder K] [IsStrictOrderedRing K]
variable (m : ShootingMethod K) (b : Blocks K) (p : List K) (theta : List (List K))

/-- Chained simulations of an exact integrator are simulations from the start. -/
theorem simulateAll_flow (hf : ShootingMethod.Flow m) (el : Nat) (th t0 : _) (x0 : List K) (ts : List K)
    (tInit : K) (xInit : List K)
    (hi : ∀ t, m.simulate el tInit t xInit p th (vectorize (b.u.getD el [])) =
      m.simulate el t0 t x0 p th (vectorize (b.u.getD el []))) :
    m.simulateAll b p th el tInit xInit ts = ts.map fun t =>
      ⟨t, (m.simulate el t0 t x0 p th (vectorize (b.u.getD el []))).1,
        (m.simulate el t0 t x0 p th (vectorize (b.u.getD el []))).2, p, th,
        vectorize (b.u.getD el [])⟩ := by
  induction ts generalizing tInit xInit with
  | nil => rfl
  | cons t ts ih =>
    unfold simulateAll
    simp only [List.map_cons, hi t]
    rw [ih]
    intro t'
    exact hf el t0 t t' x0 p th _

theorem start_not_asked (c : ControlLaw K) (h0 : m.t0 < m.tf) (hn : 0 < m.dims.elements)
    (el : Nat) :
    m.breakpoint el ∈ m.controlTimes c el ↔ (0 : K) ∈ controlPositions m.dims c := by
  have hdt : m.deltaT ≠ 0 := (dt_pos m h0 hn).ne'
  unfold controlTimes
  rw [show (if m.dims.degreeControl = 1 then [0] else c.roots) = controlPositions m.dims c from rfl]
  simp only [List.mem_map]
  constructor
  · rintro ⟨tau, ht, he⟩
    have : m.deltaT * tau = 0 := by
      have : m.breakpoint el + m.deltaT * tau = m.breakpoint el + 0 := by rw [he, add_zero]
      exact add_left_cancel this
    rcases mul_eq_zero.1 this with h | h
    · exact absurd h hdt
    · rwa [h] at ht
  · intro h
    exact ⟨0, h, by simp⟩

/-- The samples of controls that are determined by the other variables. -/
theorem controlValues_ok (c : ControlLaw K) (h0 : m.t0 < m.tf) (hb : ShootingShape m.dims b)
    (hf : ShootingMethod.Flow m) (hc : Determined m.toTranscription c)
    (hz : (0 : K) ∉ controlPositions m.dims c) (el : Nat) (hel : el < m.dims.elements) :
    m.controlValues c b p theta el =
      .ok ((controlPositions m.dims c).map fun tau => c.value el (shotAt m b p theta el tau)) := by
  have hn : 0 < m.dims.elements := by omega
  have hdt := dt_pos m h0 hn
  have hx := Transcription.grid_columns hb.x (el := el) (by omega)
  have h1 : itemAt b.x el = .ok (b.x.getD el []) := by
    refine itemAt_ok ?_
    rw [List.getD_eq_getElem?_getD, List.getElem?_eq_getElem (by rw [hb.x.1]; omega)]
    rfl
  have h2 : itemAt (b.x.getD el []) 0 = .ok ((b.x.getD el []).getD 0 []) := by
    refine itemAt_ok ?_
    rw [List.getD_eq_getElem?_getD (l := b.x.getD el []),
      List.getElem?_eq_getElem (by rw [hx.1]; omega)]
    rfl
  have hs : (sortedTimes (m.controlTimes c el)).erase (m.breakpoint el) =
      (controlPositions m.dims c).map fun tau => elementLength m.toTranscription * ((el : K) + tau) := by
    have hbp := (start_not_asked m c h0 hn el).not.2 hz
    rw [controlTimes_eq _ c el hel] at hbp ⊢
    rw [sortedTimes_sorted, List.erase_of_not_mem hbp]
    rw [List.pairwise_map]
    exact hc.increasing.imp fun hab =>
      mul_lt_mul_of_pos_left (add_lt_add_of_le_of_lt le_rfl hab) hdt
  have hstart : m.startControl c b p (theta.getD el []) ((b.x.getD el []).getD 0 []) el = .ok [] := by
    unfold startControl
    rw [if_neg ((start_not_asked m c h0 hn el).not.2 hz)]
    rfl
  unfold controlValues
  rw [h1]
  simp only [bind, Except.bind]
  rw [h2]
  simp only
  rw [hstart]
  simp only [List.nil_append]
  rw [hs, simulateAll_flow m b p hf el (theta.getD el []) (m.breakpoint el)
    ((b.x.getD el []).getD 0 []) _ _ _ (fun _ => rfl), List.map_map, List.map_map]
  show Except.ok _ = Except.ok _
  congr 1
  refine List.map_congr_left fun tau _ => ?_
  simp only [Function.comp]
  congr 1
  unfold shotAt
  rw [breakpoint_eq _ el hel.le]
  rfl

end ShootingMethod

theorem finalCostState_ok {K : Type} [Field K] (c : Sym) (x : List Sym) (hx : x.Nodup) (hc : c ∈ x)
    (values : List (List (List K))) (el : List (List K)) (v : List K) (hel : values.getLast? = some el)
    (hv : el.getLast? = some v) (hl : v.length = x.length) :
    ∃ a, finalCostState (some c) x values = .ok (some [a]) ∧ v[x.idxOf c]? = some a := by
  have hi : x.idxOf c < v.length := by rw [hl]; exact List.idxOf_lt_length_iff.2 hc
  refine ⟨v[x.idxOf c], ?_, List.getElem?_eq_getElem hi⟩
  unfold finalCostState
  simp only [lastItem_ok hel, lastItem_ok hv, bind, Except.bind]
  rw [findIndices_nodup [c] x hx (by simpa using hc)]
  simp only [List.map_cons, List.map_nil]
  rw [mapM_ok (entryOf v) (fun i => v.getD i 0) [x.idxOf c] (by
    intro i hi'
    simp only [List.mem_singleton] at hi'
    subst hi'
    unfold entryOf
    rw [List.getElem?_eq_getElem hi, List.getD_eq_getElem?_getD, List.getElem?_eq_getElem hi]
    rfl)]
  simp [List.getD_eq_getElem?_getD, List.getElem?_eq_getElem hi]

end Verif
