import Verif.Spec.NuUpdate
import Verif.Lemmas.AugLag
import Verif.Lemmas.Export
/-! # Facts about the violations of the relaxed constraints -/
namespace Verif.AugLag
open Verif Spec Transcription

variable {K : Type} [Field K] [LinearOrder K]

theorem nuTimes_eq {o : Opts K} {m : Transcription K} (h : SameGrid o m) {el : Nat}
    (hel : el < m.dims.elements) :
    nuTimes o el = (o.roots o.degree).map fun tau => elementLength m * ((el : K) + tau) := by
  have hdt : o.deltaT = elementLength m := by
    unfold Opts.deltaT elementLength
    rw [h.start, h.final, h.elements]
  apply List.ext_getElem
  · simp [nuTimes, h.points]
  · intro j h₁ h₂
    have hj : j < (o.roots o.degree).length := by simpa using h₂
    simp only [nuTimes, List.getElem_map, List.getElem_range, Opts.timeNu, Opts.breakpoint, hdt,
      List.getElem?_eq_getElem hj, Option.getD_some]
    ring

variable [IsStrictOrderedRing K]

theorem sorted_nuTimes {o : Opts K} {m : Transcription K} (h : SameGrid o m)
    (hp : IncreasingPoints o) (h0 : 0 < elementLength m) {el : Nat} (hel : el < m.dims.elements) :
    sortedTimes (nuTimes o el) =
      (o.roots o.degree).map fun tau => elementLength m * ((el : K) + tau) := by
  rw [nuTimes_eq h hel]
  refine sortedTimes_sorted _ ?_
  rw [List.pairwise_map]
  exact (List.pairwise_cons.1 hp).2.imp fun hab =>
    mul_lt_mul_of_pos_left (add_lt_add_of_le_of_lt le_rfl hab) h0

omit [IsStrictOrderedRing K] in
theorem collect_ok (o : Opts K) (r : Relaxed K) (points : Nat → Except Err (List (Point K)))
    (pt : Nat → K → Point K) (taus : List K) (ht : taus.length = o.degree)
    (h : ∀ el < o.elements, points el = .ok (taus.map (pt el))) :
    collect o r points = .ok ((List.range o.elements).map fun el =>
      taus.map fun tau => r.value el (pt el tau)) := by
  unfold collect
  refine mapM_ok _ _ _ fun el hel => ?_
  rw [h el (List.mem_range.1 hel)]
  show (List.range o.degree).mapM (valueAt r (taus.map (pt el)) el) = _
  rw [mapM_ok _ (fun j => r.value el (pt el (taus.getD j 0)))]
  · congr 1
    apply List.ext_getElem
    · simp [ht]
    · intro j h₁ h₂
      have hj : j < taus.length := by simpa using h₂
      simp [List.getD_eq_getElem?_getD, List.getElem?_eq_getElem hj]
  · intro j hj
    have hj' : j < taus.length := by rw [ht]; exact List.mem_range.1 hj
    unfold valueAt
    rw [itemAt_ok (a := pt el (taus.getD j 0)) (by
      simp [List.getD_eq_getElem?_getD, List.getElem?_eq_getElem hj'])]
    rfl

theorem pointsCollocation_ok {m : Transcription K} {o : Opts K} {r : Relaxed K} {b : Blocks K}
    (p : List K) (theta : List (List K)) (h : CollocationGrid m) (hb : CollocationData m.dims b)
    (hg : SameGrid o m) (hp : IncreasingPoints o) (hd : r.direct = true ∨ m.dims.nUPar = 0)
    {el : Nat} (hel : el < m.dims.elements) :
    pointsCollocation m o r (withFinal b) p theta el =
      .ok ((o.roots o.degree).map (pointAt m b p theta el)) := by
  have hdt := deltaT_pos m h
  unfold pointsCollocation
  rw [sorted_nuTimes hg hp hdt hel]
  have hu : (if r.direct = true then vectorize ((withFinal b).u.getD el []) else []) =
      (b.u.getD el []).flatten := by
    rcases hd with hd | hd
    · rw [if_pos hd]; rfl
    · have hu : b.u.getD el [] = [] := by
        have := (Transcription.grid_columns hb.u hel).1
        unfold controlPoints at this
        rw [if_neg (by rw [hd]; omega)] at this
        exact List.eq_nil_of_length_eq_zero this
      rw [hu]
      have e : (withFinal b).u.getD el [] = [] := hu
      simp only [e, vectorize, List.flatten_nil, ite_self]
  have hone : ∀ tau : K, pointOf m r (withFinal b) p (theta.getD el []) el
      (elementLength m * ((el : K) + tau)) = .ok (pointAt m b p theta el tau) := by
    intro tau
    unfold pointOf
    have h1 := stateAt_ok m b p theta h hb el hel tau
    have h2 := algebraicAt_ok m b p theta h hb el hel tau
    have h3 : m.algebraicAt (withFinal b) el (m.deltaT * ((el : K) + tau)) =
      m.algebraicAt b el (m.deltaT * ((el : K) + tau)) := rfl
    rw [show elementLength m = m.deltaT from rfl, stateAt_withFinal m b hb el hel, h1, h3, h2]
    simp only [bind, Except.bind, hu]
    rfl
  rw [mapM_ok _ (fun t => pointAt m b p theta el (t / m.deltaT - el)) _ (by
    intro t ht
    obtain ⟨tau, -, rfl⟩ := List.mem_map.1 ht
    rw [hone tau]
    congr 2
    show tau = m.deltaT * ((el : K) + tau) / m.deltaT - el
    field_simp
    ring)]
  rw [List.map_map]
  congr 1
  refine List.map_congr_left fun tau _ => ?_
  simp only [Function.comp]
  congr 1
  show m.deltaT * ((el : K) + tau) / m.deltaT - el = tau
  field_simp
  ring

theorem pointsShooting_ok {m : ShootingMethod K} {o : Opts K} {b : Blocks K} (p : List K)
    (theta : List (List K)) (h0 : m.t0 < m.tf) (hb : ShootingShape m.dims b)
    (hf : Spec.ShootingMethod.Flow m) (hg : SameGrid o m.toTranscription) (hp : IncreasingPoints o)
    {el : Nat} (hel : el < m.dims.elements) :
    pointsShooting m o b p theta el = .ok ((o.roots o.degree).map (shotAt m b p theta el)) := by
  have hn : 0 < m.dims.elements := by omega
  have hdt := ShootingMethod.dt_pos m h0 hn
  have hx := Transcription.grid_columns hb.x (el := el) (by omega)
  have h1 : itemAt b.x el = .ok (b.x.getD el []) := by
    refine itemAt_ok ?_
    rw [List.getD_eq_getElem?_getD, List.getElem?_eq_getElem (by rw [hb.x.1]; omega)]
    rfl
  have h2 : itemAt (b.x.getD el []) 0 = .ok ((b.x.getD el []).getD 0 []) := by
    refine itemAt_ok ?_
    rw [List.getD_eq_getElem?_getD (l := b.x.getD el []),
      List.getElem?_eq_getElem (by rw [hx.1]; omega)]
    rfl
  have hbp : m.breakpoint el ∉ nuTimes o el := by
    rw [nuTimes_eq hg hel, breakpoint_eq _ el hel.le]
    intro hm
    obtain ⟨tau, ht, he⟩ := List.mem_map.1 hm
    have hpos : 0 < tau := (List.pairwise_cons.1 hp).1 tau ht
    have : m.deltaT * ((el : K) + tau) = m.deltaT * el := he
    have := mul_left_cancel₀ hdt.ne' this
    have : tau = 0 := by linarith
    exact hpos.ne' this
  unfold pointsShooting
  simp only [bind, Except.bind, h1, h2]
  rw [if_neg hbp, sorted_nuTimes hg hp hdt hel,
    ShootingMethod.simulateAll_flow m b p hf el (theta.getD el []) (m.breakpoint el)
    ((b.x.getD el []).getD 0 []) _ _ _ (fun _ => rfl), List.map_map]
  congr 1
  refine List.map_congr_left fun tau _ => ?_
  simp only [Function.comp]
  unfold shotAt
  rw [breakpoint_eq _ el hel.le]
  rfl

end Verif.AugLag
