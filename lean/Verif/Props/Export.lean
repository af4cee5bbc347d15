import Verif.Lemmas.Export
import Verif.Lemmas.ResultVectors
import Verif.Props.Shooting
/-!
# C138, C139: what a result reports
-/
namespace Verif
open Spec Transcription

variable {K : Type} [Field K] [LinearOrder K] [IsStrictOrderedRing K]

/-! ## C138: the reported trajectories are those of the solution -/

/-- Collocation: the values and times reported for states, algebraics and controls are the values of the
collocation polynomials and of the control at these times; the last state is reported once more. The
rest of the solution is passed on. -/
theorem C138_collocation (m : Transcription K) (c : ControlLaw K) (b : Blocks K) (p : List K)
    (theta : List (List K)) (s : RawSolution K) (h : Collocatable m) (hb : CollocationData m.dims b)
    (hc : m.dims.nUPar > 0 ∧ Parametrised m c ∨ Determined m c) (hs : s.x = Layout.stacked b) :
    ∃ r, m.report c p theta s = .ok r ∧
      (∃ last, r.xValues = last ++ [[(pointAt m b r.p r.theta (m.dims.elements - 1) 1).x]] ∧
        Sampled m (0 :: m.roots) (fun el tau => (pointAt m b r.p r.theta el tau).x) r.xTime last) ∧
      Sampled m m.roots (fun el tau => (pointAt m b r.p r.theta el tau).y) r.yTime r.yValues ∧
      Sampled m (controlPositions m.dims c)
        (fun el tau => c.value el (pointAt m b r.p r.theta el tau)) r.uTime r.uValues ∧
      r.p = m.fullP b p ∧ r.theta = m.fullTheta b theta ∧
      r.eta = b.eta ∧ r.pOpt = b.pOpt ∧ r.thetaOpt = b.thetaOpt ∧
      r.objective = s.f ∧ r.constraints = s.g ∧ r.raw = s.x ∧ r.success = s.success := by
  have hp : m.fullP (withFinal b) p = m.fullP b p := rfl
  have ht : m.fullTheta (withFinal b) theta = m.fullTheta b theta := rfl
  have hdt := (deltaT_pos m h.toCollocationGrid).ne'
  have hlen : b.u.length = m.dims.elements := hb.u.1
  have hn := h.elements
  have hblocks : Layout.collocationBlocks m.dims s.x = .ok (withFinal b) := by
    rw [hs]
    exact Layout.collocationBlocks_stacked h.elements hb.toSharedShape hb.x hb.y
  have hfirst : itemAt (withFinal b).u 0 = .ok (b.u.getD 0 []) := by
    refine itemAt_ok ?_
    show b.u[0]? = _
    rw [List.getD_eq_getElem?_getD, List.getElem?_eq_getElem (by omega)]
    rfl
  have hcols := (Transcription.grid_columns hb.u hn).1
  have hu : m.reportedControls (withFinal b)
      (m.controlValues c (withFinal b) (m.fullP b p) (m.fullTheta b theta)) =
      .ok ((List.range m.dims.elements).map fun el => (controlPositions m.dims c).map fun tau =>
        c.value el (pointAt m b (m.fullP b p) (m.fullTheta b theta) el tau)) := by
    unfold reportedControls
    rw [hfirst]
    simp only [bind, Except.bind]
    rcases hc with ⟨hpar, hc⟩ | hc
    · have hk : controlPoints m.dims = m.dims.degreeControl := by
        unfold controlPoints; rw [if_pos hpar]
      rw [if_neg (by rw [hcols, hk]; exact hc.degree.ne')]
      have hu := hb.u
      rw [hk] at hu
      show Except.ok b.u = _
      congr 1
      exact controls_sampled m b c hdt hc hu _ (fun _ _ => rfl) (fun _ _ => rfl)
    · have hk : controlPoints m.dims = 0 := by
        unfold controlPoints; rw [if_neg (by rw [hc.free]; omega)]
      rw [if_pos (by rw [hcols, hk])]
      exact mapM_ok _ _ _ fun el hel =>
        controlValues_ok m b _ _ c h.toCollocationGrid hb hc el (List.mem_range.1 hel)
  refine ⟨{
    xValues := (withFinal b).x
    xTime := (List.range m.dims.elements).map m.stateTimes
    yValues := b.y
    yTime := (List.range m.dims.elements).map m.algebraicTimes
    uValues := (List.range m.dims.elements).map fun el => (controlPositions m.dims c).map fun tau =>
      c.value el (pointAt m b (m.fullP b p) (m.fullTheta b theta) el tau)
    uTime := (List.range m.dims.elements).map (m.controlTimes c)
    eta := b.eta
    pOpt := b.pOpt
    thetaOpt := b.thetaOpt
    p := m.fullP b p
    theta := m.fullTheta b theta
    objective := s.f
    constraints := s.g
    raw := s.x
    success := s.success }, ?_, ⟨b.x, ?_, ?_⟩, ?_, ?_, rfl, rfl, rfl, rfl, rfl, rfl, rfl, rfl, rfl⟩
  · unfold report
    rw [hblocks]
    simp only [bind, Except.bind, hp, ht]
    rw [hu]
    rfl
  · show (withFinal b).x = _
    unfold withFinal
    simp only
    rw [final_state m b _ _ h hb]
  · exact ⟨List.map_congr_left fun el hel => grid_times m el (List.mem_range.1 hel) _,
      states_sampled m b _ _ h hb⟩
  · exact ⟨List.map_congr_left fun el hel => grid_times m el (List.mem_range.1 hel) _,
      algebraics_sampled m b _ _ h hb⟩
  · exact ⟨List.map_congr_left fun el hel => controlTimes_eq m c el (List.mem_range.1 hel), rfl⟩

/-- Multiple shooting: the states are those at the start of each element and at the end of the last
one, the algebraics those at the ends of the elements; the controls are the values of the control at
the reported times. (Controls determined by the other variables are evaluated along the simulation,
which is assumed not to depend on being interrupted.) -/
theorem C138_shooting_partial (m : ShootingMethod K) (c : ControlLaw K) (b : Blocks K) (p : List K)
    (theta : List (List K)) (s : RawSolution K) (h0 : m.t0 < m.tf) (hn : 0 < m.dims.elements)
    (hb : ShootingShape m.dims b)
    (hc : m.dims.nUPar > 0 ∧ Parametrised m.toTranscription c ∨
      Determined m.toTranscription c ∧ ShootingMethod.Flow m ∧ (0 : K) ∉ controlPositions m.dims c)
    (hs : s.x = Layout.stacked b) :
    ∃ r, m.report c p theta s = .ok r ∧
      r.xValues = b.x ∧ r.xTime = (List.range (m.dims.elements + 1)).map (fun k : Nat =>
        [elementLength m.toTranscription * (k : K)]) ∧
      Sampled m.toTranscription [1] (fun el _ => (b.y.getD el []).getD 0 []) r.yTime r.yValues ∧
      Sampled m.toTranscription (controlPositions m.dims c)
        (fun el tau => c.value el (shotAt m b r.p r.theta el tau)) r.uTime r.uValues ∧
      r.p = m.fullP b p ∧ r.theta = m.fullTheta b theta ∧
      r.eta = b.eta ∧ r.pOpt = b.pOpt ∧ r.thetaOpt = b.thetaOpt ∧
      r.objective = s.f ∧ r.constraints = s.g ∧ r.raw = s.x ∧ r.success = s.success := by
  have hdt := (ShootingMethod.dt_pos m h0 hn).ne'
  have hlen : b.u.length = m.dims.elements := hb.u.1
  have hblocks : Layout.shootingBlocks m.dims s.x = .ok b := by
    rw [hs]; exact Layout.shootingBlocks_stacked hb
  have hfirst : itemAt b.u 0 = .ok (b.u.getD 0 []) := by
    refine itemAt_ok ?_
    rw [List.getD_eq_getElem?_getD, List.getElem?_eq_getElem (by omega)]
    rfl
  have hcols := (Transcription.grid_columns hb.u hn).1
  have hu : m.reportedControls b (m.controlValues c b (m.fullP b p) (m.fullTheta b theta)) =
      .ok ((List.range m.dims.elements).map fun el => (controlPositions m.dims c).map fun tau =>
        c.value el (shotAt m b (m.fullP b p) (m.fullTheta b theta) el tau)) := by
    unfold reportedControls
    rw [hfirst]
    simp only [bind, Except.bind]
    rcases hc with ⟨hpar, hc⟩ | ⟨hc, hf, hz⟩
    · have hk : controlPoints m.dims = m.dims.degreeControl := by
        unfold controlPoints; rw [if_pos hpar]
      rw [if_neg (by rw [hcols, hk]; exact hc.degree.ne')]
      have hu := hb.u
      rw [hk] at hu
      show Except.ok b.u = _
      congr 1
      exact controls_sampled m.toTranscription b c hdt hc hu _ (fun _ _ => rfl) (fun _ _ => rfl)
    · have hk : controlPoints m.dims = 0 := by
        unfold controlPoints; rw [if_neg (by rw [hc.free]; omega)]
      rw [if_pos (by rw [hcols, hk])]
      exact mapM_ok _ _ _ fun el hel =>
        ShootingMethod.controlValues_ok m b _ _ c h0 hb hf hc hz el (List.mem_range.1 hel)
  refine ⟨{
    xValues := b.x
    xTime := (List.range (m.dims.elements + 1)).map fun k => [m.breakpoint k]
    yValues := b.y
    yTime := (List.range m.dims.elements).map fun el => [m.breakpoint (el + 1)]
    uValues := (List.range m.dims.elements).map fun el => (controlPositions m.dims c).map fun tau =>
      c.value el (shotAt m b (m.fullP b p) (m.fullTheta b theta) el tau)
    uTime := m.reportedControlTimes c
    eta := b.eta
    pOpt := b.pOpt
    thetaOpt := b.thetaOpt
    p := m.fullP b p
    theta := m.fullTheta b theta
    objective := s.f
    constraints := s.g
    raw := s.x
    success := s.success }, ?_, rfl, ?_, ⟨?_, ?_⟩, ⟨?_, rfl⟩, rfl, rfl, rfl, rfl, rfl, rfl, rfl, rfl, rfl⟩
  · unfold ShootingMethod.report
    rw [hblocks]
    simp only [bind, Except.bind]
    rw [hu]
    rfl
  · refine List.map_congr_left fun k hk => ?_
    rw [breakpoint_eq _ k (by have := List.mem_range.1 hk; omega)]
    rfl
  · refine List.map_congr_left fun el hel => ?_
    rw [breakpoint_eq _ (el + 1) (List.mem_range.1 hel)]
    push_cast
    rfl
  · refine grid_eq_map hb.y fun el hel => ?_
    have hy := Transcription.grid_columns hb.y hel
    simp only [List.map_cons, List.map_nil]
    cases hl : b.y.getD el [] with
    | nil => rw [hl] at hy; simp [Columns] at hy
    | cons a l =>
      cases l with
      | nil => rfl
      | cons => rw [hl] at hy; simp [Columns] at hy
  · refine List.map_congr_left fun el hel => ?_
    show (if _ then _ else _) = _
    unfold controlPositions
    split
    · rw [breakpoint_eq _ el (List.mem_range.1 hel).le]
      simp only [List.map_cons, List.map_nil, add_zero]
      rfl
    · exact grid_times _ el (List.mem_range.1 hel) _

/-- An indirect method of degree one with multiple shooting has no result: whatever the solver
returns, storing it raises `NotImplementedError`. -/
theorem C138_shooting_fails (m : ShootingMethod K) (c : ControlLaw K) (b : Blocks K) (p : List K)
    (theta : List (List K)) (s : RawSolution K) (h0 : m.t0 < m.tf) (hn : 0 < m.dims.elements)
    (hb : ShootingShape m.dims b) (hu : m.dims.nUPar = 0) (hd : c.direct = false)
    (hz : m.dims.degreeControl = 1) (hs : s.x = Layout.stacked b) :
    m.report c p theta s = .error .notImplementedError := by
  have hlen : b.u.length = m.dims.elements := hb.u.1
  have hblocks : Layout.shootingBlocks m.dims s.x = .ok b := by
    rw [hs]; exact Layout.shootingBlocks_stacked hb
  have hfirst : itemAt b.u 0 = .ok (b.u.getD 0 []) := by
    refine itemAt_ok ?_
    rw [List.getD_eq_getElem?_getD, List.getElem?_eq_getElem (by omega)]
    rfl
  have hcols := (Transcription.grid_columns hb.u hn).1
  have hk : controlPoints m.dims = 0 := by
    unfold controlPoints; rw [if_neg (by rw [hu]; omega)]
  have hx := Transcription.grid_columns hb.x (el := 0) (by omega)
  have h1 : itemAt b.x 0 = .ok (b.x.getD 0 []) := by
    refine itemAt_ok ?_
    rw [List.getD_eq_getElem?_getD, List.getElem?_eq_getElem (by rw [hb.x.1]; omega)]
    rfl
  have h2 : itemAt (b.x.getD 0 []) 0 = .ok ((b.x.getD 0 []).getD 0 []) := by
    refine itemAt_ok ?_
    rw [List.getD_eq_getElem?_getD (l := b.x.getD 0 []),
      List.getElem?_eq_getElem (by rw [hx.1]; omega)]
    rfl
  have hel : m.controlValues c b (m.fullP b p) (m.fullTheta b theta) 0 =
      .error .notImplementedError := by
    unfold ShootingMethod.controlValues
    rw [h1]
    simp only [bind, Except.bind]
    rw [h2]
    simp only
    have : m.startControl c b (m.fullP b p) ((m.fullTheta b theta).getD 0 [])
        ((b.x.getD 0 []).getD 0 []) 0 = .error .notImplementedError := by
      unfold ShootingMethod.startControl
      rw [if_pos ((ShootingMethod.start_not_asked m c h0 hn 0).2 (by
        unfold controlPositions; rw [if_pos hz]; simp)), if_neg (by rw [hd]; simp)]
    rw [this]
  unfold ShootingMethod.report
  rw [hblocks]
  simp only [bind, Except.bind]
  have hr : m.reportedControls b (m.controlValues c b (m.fullP b p) (m.fullTheta b theta)) =
      .error .notImplementedError := by
    unfold reportedControls
    rw [hfirst]
    simp only [bind, Except.bind]
    rw [if_pos (by rw [hcols, hk])]
    obtain ⟨n, hn'⟩ : ∃ n, m.dims.elements = n + 1 := ⟨m.dims.elements - 1, by omega⟩
    rw [hn', List.range_succ_eq_map]
    exact mapM_error _ _ _ _ hel
  rw [hr]

/-- A direct method of degree one with multiple shooting of a problem with nothing to parametrise: the
control reported in each element is the one at its start. -/
theorem C138_shooting_start (m : ShootingMethod K) (c : ControlLaw K) (b : Blocks K) (p : List K)
    (theta : List (List K)) (s : RawSolution K) (h0 : m.t0 < m.tf) (hn : 0 < m.dims.elements)
    (hb : ShootingShape m.dims b) (hu : m.dims.nUPar = 0) (hd : c.direct = true)
    (hz : m.dims.degreeControl = 1) (hs : s.x = Layout.stacked b) :
    ∃ r, m.report c p theta s = .ok r ∧ r.xValues = b.x ∧
      r.uTime = (List.range m.dims.elements).map (fun el : Nat =>
        [elementLength m.toTranscription * (el : K)]) ∧
      r.uValues = (List.range m.dims.elements).map fun el : Nat =>
        [c.value el ⟨elementLength m.toTranscription * (el : K), (b.x.getD el []).getD 0 [], [], r.p,
          r.theta.getD el [], []⟩] := by
  have hlen : b.u.length = m.dims.elements := hb.u.1
  have hblocks : Layout.shootingBlocks m.dims s.x = .ok b := by
    rw [hs]; exact Layout.shootingBlocks_stacked hb
  have hfirst : itemAt b.u 0 = .ok (b.u.getD 0 []) := by
    refine itemAt_ok ?_
    rw [List.getD_eq_getElem?_getD, List.getElem?_eq_getElem (by omega)]
    rfl
  have hk : controlPoints m.dims = 0 := by
    unfold controlPoints; rw [if_neg (by rw [hu]; omega)]
  have hcols := (Transcription.grid_columns hb.u hn).1
  have hel : ∀ el ∈ List.range m.dims.elements,
      m.controlValues c b (m.fullP b p) (m.fullTheta b theta) el =
      .ok [c.value el ⟨elementLength m.toTranscription * (el : K), (b.x.getD el []).getD 0 [], [],
        m.fullP b p, (m.fullTheta b theta).getD el [], []⟩] := by
    intro el hel
    have hel := List.mem_range.1 hel
    have hx := Transcription.grid_columns hb.x (el := el) (by omega)
    have h1 : itemAt b.x el = .ok (b.x.getD el []) := by
      refine itemAt_ok ?_
      rw [List.getD_eq_getElem?_getD, List.getElem?_eq_getElem (by rw [hb.x.1]; omega)]
      rfl
    have h2 : itemAt (b.x.getD el []) 0 = .ok ((b.x.getD el []).getD 0 []) := by
      refine itemAt_ok ?_
      rw [List.getD_eq_getElem?_getD (l := b.x.getD el []),
        List.getElem?_eq_getElem (by rw [hx.1]; omega)]
      rfl
    have hul : b.u.getD el [] = [] :=
      List.length_eq_zero_iff.mp (by rw [(Transcription.grid_columns hb.u hel).1, hk])
    have ht : m.controlTimes c el = [m.breakpoint el] := by
      unfold controlTimes
      rw [if_pos hz]
      simp
    have hstart : m.startControl c b (m.fullP b p) ((m.fullTheta b theta).getD el [])
        ((b.x.getD el []).getD 0 []) el =
        .ok [c.value el ⟨m.breakpoint el, (b.x.getD el []).getD 0 [], [],
          m.fullP b p, (m.fullTheta b theta).getD el [], []⟩] := by
      unfold ShootingMethod.startControl
      rw [if_pos (by rw [ht]; simp), if_pos hd, hul]
      rfl
    unfold ShootingMethod.controlValues
    rw [h1]
    simp only [bind, Except.bind]
    rw [h2]
    simp only
    rw [hstart]
    have he : (sortedTimes (m.controlTimes c el)).erase (m.breakpoint el) = [] := by
      rw [ht]
      simp [sortedTimes]
    simp only [he]
    rw [breakpoint_eq _ el hel.le]
    rfl
  have hr : m.reportedControls b (m.controlValues c b (m.fullP b p) (m.fullTheta b theta)) =
      .ok ((List.range m.dims.elements).map fun el : Nat =>
        [c.value el ⟨elementLength m.toTranscription * (el : K), (b.x.getD el []).getD 0 [], [],
          m.fullP b p, (m.fullTheta b theta).getD el [], []⟩]) := by
    unfold reportedControls
    rw [hfirst]
    simp only [bind, Except.bind]
    rw [if_pos (by rw [hcols, hk])]
    exact mapM_ok _ _ _ hel
  unfold ShootingMethod.report
  rw [hblocks]
  simp only [bind, Except.bind]
  rw [hr]
  refine ⟨_, rfl, rfl, ?_, rfl⟩
  refine List.map_congr_left fun el hel => ?_
  rw [if_pos hz, breakpoint_eq _ el (List.mem_range.1 hel).le]
  rfl

/-- Times count from 0 instead of from the start of the horizon: unless the horizon starts at 0, the first
state is reported at a wrong time. -/
theorem C138_time_fails (m : Transcription K) (c : ControlLaw K) (b : Blocks K) (p : List K)
    (theta : List (List K)) (s : RawSolution K) (h : Collocatable m) (hb : CollocationData m.dims b)
    (hc : m.dims.nUPar > 0 ∧ Parametrised m c ∨ Determined m c) (hs : s.x = Layout.stacked b)
    (ht : m.t0 ≠ 0) :
    ∃ r ts t, m.report c p theta s = .ok r ∧ r.xTime[0]? = some ts ∧ ts[0]? = some t ∧ t ≠ m.t0 := by
  obtain ⟨r, hr, ⟨last, _, hx⟩, _⟩ := C138_collocation m c b p theta s h hb hc hs
  refine ⟨r, (0 :: m.roots).map fun tau => elementLength m * (((0 : Nat) : K) + tau), 0, hr, ?_, ?_,
    ht.symm⟩
  · rw [hx.time, List.getElem?_map, List.getElem?_range h.elements]
    rfl
  · simp

/-- The same with multiple shooting. -/
theorem C138_shooting_time_fails (m : ShootingMethod K) (c : ControlLaw K) (b : Blocks K) (p : List K)
    (theta : List (List K)) (s : RawSolution K) (h0 : m.t0 < m.tf) (hn : 0 < m.dims.elements)
    (hb : ShootingShape m.dims b)
    (hc : m.dims.nUPar > 0 ∧ Parametrised m.toTranscription c ∨
      Determined m.toTranscription c ∧ ShootingMethod.Flow m ∧ (0 : K) ∉ controlPositions m.dims c)
    (hs : s.x = Layout.stacked b) (ht : m.t0 ≠ 0) :
    ∃ r ts t, m.report c p theta s = .ok r ∧ r.xTime[0]? = some ts ∧ ts[0]? = some t ∧ t ≠ m.t0 := by
  obtain ⟨r, hr, _, hx, _⟩ := C138_shooting_partial m c b p theta s h0 hn hb hc hs
  refine ⟨r, [elementLength m.toTranscription * ((0 : Nat) : K)], 0, hr, ?_, ?_, ht.symm⟩
  · rw [hx, List.getElem?_map, List.getElem?_range (Nat.succ_pos _)]
    rfl
  · simp

omit [Field K] [LinearOrder K] [IsStrictOrderedRing K] in
/-- The parameters the constraints and the result see: the optimised ones have their optimised values,
the others the given ones. -/
theorem C92_parameters (m : Transcription K) (b : Blocks K) (p : List K) (theta : List (List K))
    (hb : SharedShape m.dims b) (hp : m.pOptIndices.length = m.dims.nPOpt ∧ m.pOptIndices.Nodup)
    (ht : m.thetaOptIndices.length = m.dims.nThetaOpt ∧ m.thetaOptIndices.Nodup) :
    ((∀ i ∈ m.pOptIndices, i < p.length) → Reports m.pOptIndices b.pOpt p (m.fullP b p)) ∧
    ∀ el < m.dims.elements, (∀ i ∈ m.thetaOptIndices, i < (theta.getD el []).length) →
      Reports m.thetaOptIndices (b.thetaOpt.getD el []) (theta.getD el [])
        ((m.fullTheta b theta).getD el []) := by
  constructor
  · exact fun hi => Vectors.reports_putValues _ _ _ hp.2 (by rw [hb.pOpt, hp.1]) hi
  · intro el hel hi
    have e : (m.fullTheta b theta).getD el [] =
        Ocp.putValues m.thetaOptIndices (b.thetaOpt.getD el []) (theta.getD el []) := by
      unfold Transcription.fullTheta
      rw [List.getD_eq_getElem?_getD, List.getElem?_map, List.getElem?_range hel]
      rfl
    rw [e]
    refine Vectors.reports_putValues _ _ _ ht.2 ?_ hi
    rw [ht.1]
    obtain ⟨h1, h2⟩ := hb.thetaOpt
    refine h2 _ ?_
    rw [List.getD_eq_getElem?_getD, List.getElem?_eq_getElem (by rw [h1]; exact hel)]
    exact List.getElem_mem _

omit [IsStrictOrderedRing K] in
/-- A vector that is no decision vector of the problem is rejected. -/
theorem C138_wrong_size (m : Transcription K) (c : ControlLaw K) (p : List K) (theta : List (List K))
    (s : RawSolution K) (e : Err) (he : Layout.collocationBlocks m.dims s.x = .error e) :
    m.report c p theta s = .error e := by
  unfold Transcription.report
  rw [he]
  rfl

/-! ## C139: the reported final cost -/

/-- The final cost a result reports is the value of the cost state at the end of the last element, and
`None` for a problem without cost state. -/
theorem C139_collocation (m : Transcription K) (c : ControlLaw K) (b : Blocks K) (p : List K)
    (theta : List (List K)) (s : RawSolution K) (h : Collocatable m) (hb : CollocationData m.dims b)
    (hc : m.dims.nUPar > 0 ∧ Parametrised m c ∨ Determined m c) (hs : s.x = Layout.stacked b)
    (x : List Sym) (hx : x.Nodup) (hl : x.length = m.dims.nX) :
    ∃ r, m.report c p theta s = .ok r ∧ finalCostState none x r.xValues = .ok none ∧
      ∀ xc ∈ x, ∃ a, finalCostState (some xc) x r.xValues = .ok (some [a]) ∧
        (pointAt m b r.p r.theta (m.dims.elements - 1) 1).x[x.idxOf xc]? = some a := by
  obtain ⟨r, hr, ⟨last, hv, _⟩, _⟩ := C138_collocation m c b p theta s h hb hc hs
  refine ⟨r, hr, rfl, fun xc hxc => ?_⟩
  rw [hv]
  exact finalCostState_ok xc x hx hxc _ _ _ (List.getLast?_concat ..) rfl (by simp [pointAt, hl])

/-- The same with multiple shooting. -/
theorem C139_shooting (m : ShootingMethod K) (c : ControlLaw K) (b : Blocks K) (p : List K)
    (theta : List (List K)) (s : RawSolution K) (h0 : m.t0 < m.tf) (hn : 0 < m.dims.elements)
    (hb : ShootingShape m.dims b)
    (hc : m.dims.nUPar > 0 ∧ Parametrised m.toTranscription c ∨
      Determined m.toTranscription c ∧ ShootingMethod.Flow m ∧ (0 : K) ∉ controlPositions m.dims c)
    (hs : s.x = Layout.stacked b) (x : List Sym) (hx : x.Nodup) (hl : x.length = m.dims.nX) :
    ∃ r, m.report c p theta s = .ok r ∧ finalCostState none x r.xValues = .ok none ∧
      ∀ xc ∈ x, ∃ a, finalCostState (some xc) x r.xValues = .ok (some [a]) ∧
        ((b.x.getD m.dims.elements []).getD 0 [])[x.idxOf xc]? = some a := by
  obtain ⟨r, hr, hv, _⟩ := C138_shooting_partial m c b p theta s h0 hn hb hc hs
  refine ⟨r, hr, rfl, fun xc hxc => ?_⟩
  rw [hv]
  have hg := Transcription.grid_columns hb.x (el := m.dims.elements) (by omega)
  cases hl' : b.x.getD m.dims.elements [] with
  | nil => rw [hl'] at hg; simp [Columns] at hg
  | cons v l =>
    cases l with
    | cons => rw [hl'] at hg; simp [Columns] at hg
    | nil =>
      rw [hl'] at hg
      refine finalCostState_ok xc x hx hxc _ [v] _ ?_ rfl (by rw [hl]; exact hg.2 v (by simp))
      rw [List.getLast?_eq_getElem?, hb.x.1, ← hl', List.getD_eq_getElem?_getD, Nat.add_sub_cancel,
        List.getElem?_eq_getElem (by rw [hb.x.1]; omega)]
      rfl

/-! ## The hypotheses are met -/

/-- One constant control per element. -/
def exampleLaw : ControlLaw Rat where
  direct := true
  roots := [1]
  value _ pt := [matOf 1 pt.uPar 0 0]

theorem exampleLaw_parametrised : Parametrised exampleTranscription exampleLaw where
  degree := by decide
  points h := absurd rfl h
  law _ _ := rfl

/-- A control `u = - x`, reported at two points per element. -/
def exampleFeedback : ControlLaw Rat where
  direct := false
  roots := [1/3, 1]
  value _ pt := [-pt.x.headD 0]

/-- The example of C94 without parametrised controls. -/
def exampleFree : ShootingMethod Rat :=
  { exampleShooting with dims := ⟨2, 2, 2, 1, 1, 1, 0, 0, 0, 0⟩ }

/-- Decision values without controls. -/
def exampleFreeShots : Blocks Rat := { exampleShots with u := [[], []] }

theorem exampleFeedback_determined : Determined exampleFree.toTranscription exampleFeedback where
  free := rfl
  increasing := by
    simp only [controlPositions, exampleFree, exampleFeedback]
    norm_num

theorem exampleFree_flow : ShootingMethod.Flow exampleFree := by
  intro el t t' t'' x p theta u
  simp only [exampleFree, exampleShooting, List.headD_cons, Prod.mk.injEq, List.cons.injEq, and_true]
  constructor <;> ring

theorem exampleFreeShots_shape : ShootingShape exampleFree.dims exampleFreeShots where
  u := by simp [Grid, Columns, exampleFreeShots, exampleFree, controlPoints]
  eta := rfl
  pOpt := rfl
  thetaOpt := exampleShots_data.thetaOpt
  x := exampleShots_data.x
  y := exampleShots_data.y

example : ∃ r, exampleTranscription.report exampleLaw [] [] ⟨Layout.stacked exampleBlocks, 0, [], true⟩ =
    .ok r ∧ ∀ xc ∈ [7], ∃ a, finalCostState (some xc) [7] r.xValues = .ok (some [a]) ∧
      (pointAt exampleTranscription exampleBlocks r.p r.theta 1 1).x[List.idxOf xc [7]]? = some a := by
  obtain ⟨r, hr, _, h⟩ := C139_collocation exampleTranscription exampleLaw exampleBlocks [] []
    ⟨Layout.stacked exampleBlocks, 0, [], true⟩ exampleTranscription_grid exampleBlocks_data
    (.inl ⟨by decide, exampleLaw_parametrised⟩) rfl [7] (by decide) rfl
  exact ⟨r, hr, h⟩

example : ∃ r, exampleFree.report exampleFeedback [] [] ⟨Layout.stacked exampleFreeShots, 0, [], true⟩ =
    .ok r ∧ r.uValues.length = 2 := by
  obtain ⟨r, hr, _, _, _, hu, _⟩ := C138_shooting_partial exampleFree exampleFeedback exampleFreeShots [] []
    ⟨Layout.stacked exampleFreeShots, 0, [], true⟩ exampleTranscription_grid.horizon (by decide)
    exampleFreeShots_shape (.inr ⟨exampleFeedback_determined, exampleFree_flow, by
      simp [controlPositions, exampleFree, exampleFeedback]⟩) rfl
  exact ⟨r, hr, by rw [hu.values]; rfl⟩

example : ({ exampleFree with dims := ⟨2, 2, 1, 1, 1, 1, 0, 0, 0, 0⟩ } : ShootingMethod Rat).report
    exampleFeedback [] [] ⟨Layout.stacked exampleFreeShots, 0, [], true⟩ =
      .error .notImplementedError :=
  C138_shooting_fails _ _ exampleFreeShots [] [] _ exampleTranscription_grid.horizon (by decide)
    ⟨⟨exampleFreeShots_shape.u, rfl, rfl, exampleShots_data.thetaOpt⟩, exampleShots_data.x,
      exampleShots_data.y⟩ rfl rfl rfl rfl

example : ∃ r, ({ exampleFree with dims := ⟨2, 2, 1, 1, 1, 1, 0, 0, 0, 0⟩ } : ShootingMethod Rat).report
    { exampleFeedback with direct := true } [] [] ⟨Layout.stacked exampleFreeShots, 0, [], true⟩ =
      .ok r ∧ r.uValues.length = 2 := by
  obtain ⟨r, hr, _, _, h⟩ := C138_shooting_start
    ({ exampleFree with dims := ⟨2, 2, 1, 1, 1, 1, 0, 0, 0, 0⟩ } : ShootingMethod Rat)
    { exampleFeedback with direct := true } exampleFreeShots [] []
    ⟨Layout.stacked exampleFreeShots, 0, [], true⟩ exampleTranscription_grid.horizon
    (by decide) ⟨⟨exampleFreeShots_shape.u, rfl, rfl, exampleShots_data.thetaOpt⟩, exampleShots_data.x,
      exampleShots_data.y⟩ rfl rfl rfl rfl
  exact ⟨r, hr, by rw [h]; rfl⟩

example : ∃ r ts t, ({ exampleTranscription with t0 := 1 } : Transcription Rat).report exampleLaw [] []
    ⟨Layout.stacked exampleBlocks, 0, [], true⟩ = .ok r ∧ r.xTime[0]? = some ts ∧ ts[0]? = some t ∧
      t ≠ 1 :=
  C138_time_fails { exampleTranscription with t0 := 1 } exampleLaw exampleBlocks [] [] _
    { exampleTranscription_grid with horizon := by norm_num [exampleTranscription] } exampleBlocks_data
    (.inl ⟨by decide, ⟨by decide, fun h => absurd rfl h, fun _ _ => rfl⟩⟩) rfl (by norm_num)

example : Reports [1] [5] [2, 3] (({ exampleTranscription with
    dims := ⟨2, 2, 1, 1, 1, 1, 1, 0, 1, 0⟩, pOptIndices := [1] } : Transcription Rat).fullP
      { exampleBlocks with pOpt := [5] } [2, 3]) :=
  (C92_parameters { exampleTranscription with
    dims := ⟨2, 2, 1, 1, 1, 1, 1, 0, 1, 0⟩, pOptIndices := [1] } { exampleBlocks with pOpt := [5] }
    [2, 3] [] ⟨exampleBlocks_data.u, rfl, rfl, exampleBlocks_data.thetaOpt⟩ (by decide) (by decide)).1
    (by decide)

end Verif
