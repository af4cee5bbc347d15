import Verif.Lemmas.SimGuess
import Verif.Props.SolverArgs
import Verif.Props.Export
/-!
# C140, C141: the initial guess by simulation
-/
namespace Verif
open Spec Transcription

variable {K : Type} [Field K] [LinearOrder K] [IsStrictOrderedRing K]

/-! ## C140: the guess is the simulated trajectory, in the layout of the decision vector -/

/-- Collocation: the guess unpacks into a trajectory that starts at the problem's initial condition
and is simulated from point to point and from element to element. -/
theorem C140_collocation (m : Transcription K) (step : Step K) (g : Layout.GuessInfo K)
    (lastU u : Option (List K)) (p : List K) (theta : Dict Nat (List K)) (h : CollocationGrid m)
    (hs : Simulates m.dims step) (hg : GuessFits m.dims g (some p) (some theta))
    (hu : (guessControl m.dims.nU u g.uGuess lastU).length = m.dims.nU) :
    ∃ v b, SimGuess.collocation m step g lastU u (some p) (some theta) = .ok v ∧
      v.length = collocationSize m.dims ∧
      Layout.collocationBlocks m.dims v = .ok (withFinal b) ∧
      SimulatedPoints m step g.x0 p theta (guessControl m.dims.nU u g.uGuess lastU) b ∧
      GuessedRest m.dims g p theta (guessControl m.dims.nU u g.uGuess lastU) b := by
  have hq : ∀ el, 0 ≤ el → el < 0 + m.dims.elements →
      SimGuess.elementParameters (some p) (some theta)
        (constantControl m.dims (guessControl m.dims.nU u g.uGuess lastU)).flatten el =
      .ok (p ++ (theta.get? el).getD [] ++
        (constantControl m.dims (guessControl m.dims.nU u g.uGuess lastU)).flatten) := by
    intro el _ hel
    obtain ⟨v, hv, _⟩ := hg.theta theta rfl el (by omega)
    simp [SimGuess.elementParameters, SimGuess.elementTheta, Layout.thetaAt, hv, bind, Except.bind]
  obtain ⟨out, hout, ho⟩ := SimGuess.runElements_ok hs _ _ (fun el => (m.stateTimes el).headD 0)
    (fun el => (m.stateTimes el).tail) m.dims.elements 0 hq g.x0 hg.x0
  rw [← List.range_eq_range'] at hout
  have hb : GuessedRest m.dims g p theta (guessControl m.dims.nU u g.uGuess lastU)
      ⟨out.map fun e => e.1 :: e.2.map Prod.fst, out.map fun e => e.2.map Prod.snd,
        List.replicate m.dims.elements
          (constantControl m.dims (guessControl m.dims.nU u g.uGuess lastU)),
        List.replicate m.dims.nEta 0, g.pOptIndices.map fun i => p.getD i 0,
        (List.range m.dims.elements).map fun el =>
          g.thetaOptIndices.map fun i => ((theta.get? el).getD []).getD i 0⟩ :=
    ⟨rfl, rfl, rfl, rfl⟩
  have hruns : ∀ i < m.dims.elements, SimGuess.Ran m.dims step i _ _ _
      (out.getD i ([], [])).1 (out.getD i ([], [])).2 := fun i hi => by
    have := ho.runs i hi
    rw [Nat.zero_add] at this
    exact this
  have hlen : ∀ i < m.dims.elements, (out.getD i ([], [])).2.length = m.dims.degree := fun i hi => by
    rw [(hruns i hi).length]
    simp [stateTimes, h.points]
  have hmem : ∀ e ∈ out, ∃ i < m.dims.elements, e = out.getD i ([], []) := by
    intro e he
    obtain ⟨i, hi, rfl⟩ := List.getElem_of_mem he
    exact ⟨i, by rw [← ho.length]; exact hi, by
      rw [List.getD_eq_getElem?_getD, List.getElem?_eq_getElem hi]; rfl⟩
  have hx : Grid m.dims.elements (m.dims.degree + 1) m.dims.nX
      (out.map fun e => e.1 :: e.2.map Prod.fst) := by
    refine ⟨by simp [ho.length], fun l hl => ?_⟩
    obtain ⟨e, he, rfl⟩ := List.mem_map.1 hl
    obtain ⟨i, hi, rfl⟩ := hmem e he
    refine ⟨by rw [List.length_cons, List.length_map, hlen i hi], fun c hc => ?_⟩
    rcases List.mem_cons.1 hc with rfl | hc
    · exact ho.sizes _ he
    · obtain ⟨s, hs', rfl⟩ := List.mem_map.1 hc
      exact ((hruns i hi).sizes s hs').1
  have hy : Grid m.dims.elements m.dims.degree m.dims.nY (out.map fun e => e.2.map Prod.snd) := by
    refine ⟨by simp [ho.length], fun l hl => ?_⟩
    obtain ⟨e, he, rfl⟩ := List.mem_map.1 hl
    obtain ⟨i, hi, rfl⟩ := hmem e he
    refine ⟨by rw [List.length_map, hlen i hi], fun c hc => ?_⟩
    obtain ⟨s, hs', rfl⟩ := List.mem_map.1 hc
    exact ((hruns i hi).sizes s hs').2
  have hstacked := Layout.collocationBlocks_stacked h.elements (SimGuess.rest_shape hg hu hb) hx hy
  have hn := h.elements
  refine ⟨_, _, ?_, ?_, hstacked, ⟨?_, ?_, ?_⟩, hb⟩
  · unfold SimGuess.collocation
    rw [SimGuess.control_eq, SimGuess.controlParameters_eq]
    show (SimGuess.runElements _ (SimGuess.elementParameters (some p) _ _) _ _ _ _ >>= _) = _
    rw [hout]
    exact SimGuess.assemble_ok hg _ _
  · obtain ⟨he, hs'⟩ := Layout.collocationBlocks_ok hstacked
    rw [← he, Layout.repack_length hs']
  · show ((out.map fun e => e.1 :: e.2.map Prod.fst).getD 0 []).getD 0 [] = _
    rw [SimGuess.getD_map _ _ _ ([], []) _ (by rw [ho.length]; exact hn)]
    exact ho.first hn
  · intro el hel j hj
    show step el _ _ (((out.map fun e => e.1 :: e.2.map Prod.fst).getD el []).getD j []) _ =
      .ok (((out.map fun e => e.1 :: e.2.map Prod.fst).getD el []).getD (j + 1) [],
        ((out.map fun e => e.2.map Prod.snd).getD el []).getD j [])
    rw [SimGuess.getD_map _ _ _ ([], []) _ (by rw [ho.length]; exact hel),
      SimGuess.getD_map _ _ _ ([], []) _ (by rw [ho.length]; exact hel)]
    have ht : (m.stateTimes el).headD 0 :: (m.stateTimes el).tail =
        (0 :: m.roots).map fun tau => elementLength m * ((el : K) + tau) := by
      rw [← grid_times m el hel]
      rfl
    have := (hruns el hel).steps j (by simp [stateTimes, h.points, hj])
    rw [ht, SimGuess.getD_map _ _ _ 0 _ (by simp [h.points]; omega),
      SimGuess.getD_map _ _ _ 0 _ (by simp [h.points]; omega)] at this
    exact this
  · intro el hel
    show ((out.map fun e => e.1 :: e.2.map Prod.fst).getD (el + 1) []).getD 0 [] =
      ((out.map fun e => e.1 :: e.2.map Prod.fst).getD el []).getD m.dims.degree []
    rw [SimGuess.getD_map _ _ _ ([], []) _ (by rw [ho.length]; exact hel),
      SimGuess.getD_map _ _ _ ([], []) _ (by rw [ho.length]; omega)]
    show (out.getD (el + 1) ([], [])).1 = _
    rw [ho.joined el hel, SimGuess.endState_eq, hlen el (by omega)]

/-- Multiple shooting: the guess unpacks into a trajectory that starts at the problem's initial
condition and is simulated from boundary to boundary. -/
theorem C140_shooting (m : Transcription K) (step : Step K) (g : Layout.GuessInfo K)
    (lastU u : Option (List K)) (p : List K) (theta : Dict Nat (List K))
    (hs : Simulates m.dims step) (hg : GuessFits m.dims g (some p) (some theta))
    (hu : (guessControl m.dims.nU u g.uGuess lastU).length = m.dims.nU) :
    ∃ v b, SimGuess.shooting m step g lastU u (some p) (some theta) = .ok v ∧
      v.length = shootingSize m.dims ∧
      Layout.shootingBlocks m.dims v = .ok b ∧ ShootingShape m.dims b ∧
      SimulatedBoundaries m step g.x0 p theta (guessControl m.dims.nU u g.uGuess lastU) b ∧
      GuessedRest m.dims g p theta (guessControl m.dims.nU u g.uGuess lastU) b := by
  have hq : ∀ el, 0 ≤ el → el < 0 + m.dims.elements →
      SimGuess.elementParameters (some p) (some theta)
        (constantControl m.dims (guessControl m.dims.nU u g.uGuess lastU)).flatten el =
      .ok (p ++ (theta.get? el).getD [] ++
        (constantControl m.dims (guessControl m.dims.nU u g.uGuess lastU)).flatten) := by
    intro el _ hel
    obtain ⟨v, hv, _⟩ := hg.theta theta rfl el (by omega)
    simp [SimGuess.elementParameters, SimGuess.elementTheta, Layout.thetaAt, hv, bind, Except.bind]
  obtain ⟨out, hout, ho⟩ := SimGuess.runElements_ok hs _ _ m.breakpoint
    (fun el => [m.breakpoint (el + 1)]) m.dims.elements 0 hq g.x0 hg.x0
  rw [← List.range_eq_range'] at hout
  have hb : GuessedRest m.dims g p theta (guessControl m.dims.nU u g.uGuess lastU)
      ⟨[[g.x0]] ++ out.map fun e => e.2.map Prod.fst, out.map fun e => e.2.map Prod.snd,
        List.replicate m.dims.elements
          (constantControl m.dims (guessControl m.dims.nU u g.uGuess lastU)),
        List.replicate m.dims.nEta 0, g.pOptIndices.map fun i => p.getD i 0,
        (List.range m.dims.elements).map fun el =>
          g.thetaOptIndices.map fun i => ((theta.get? el).getD []).getD i 0⟩ :=
    ⟨rfl, rfl, rfl, rfl⟩
  have hruns : ∀ i < m.dims.elements, SimGuess.Ran m.dims step i _ _ _
      (out.getD i ([], [])).1 (out.getD i ([], [])).2 := fun i hi => by
    have := ho.runs i hi
    rw [Nat.zero_add] at this
    exact this
  have hlen : ∀ i < m.dims.elements, (out.getD i ([], [])).2.length = 1 := fun i hi => by
    rw [(hruns i hi).length]
    rfl
  have hmem : ∀ e ∈ out, ∃ i < m.dims.elements, e = out.getD i ([], []) := by
    intro e he
    obtain ⟨i, hi, rfl⟩ := List.getElem_of_mem he
    exact ⟨i, by rw [← ho.length]; exact hi, by
      rw [List.getD_eq_getElem?_getD, List.getElem?_eq_getElem hi]; rfl⟩
  have hx : Grid (m.dims.elements + 1) 1 m.dims.nX ([[g.x0]] ++ out.map fun e => e.2.map Prod.fst) := by
    refine ⟨by simp [ho.length], fun l hl => ?_⟩
    rcases List.mem_append.1 hl with hl | hl
    · rw [List.mem_singleton.1 hl]
      exact ⟨rfl, fun c hc => by rw [List.mem_singleton.1 hc]; exact hg.x0⟩
    obtain ⟨e, he, rfl⟩ := List.mem_map.1 hl
    obtain ⟨i, hi, rfl⟩ := hmem e he
    refine ⟨by rw [List.length_map, hlen i hi], fun c hc => ?_⟩
    obtain ⟨s, hs', rfl⟩ := List.mem_map.1 hc
    exact ((hruns i hi).sizes s hs').1
  have hy : Grid m.dims.elements 1 m.dims.nY (out.map fun e => e.2.map Prod.snd) := by
    refine ⟨by simp [ho.length], fun l hl => ?_⟩
    obtain ⟨e, he, rfl⟩ := List.mem_map.1 hl
    obtain ⟨i, hi, rfl⟩ := hmem e he
    refine ⟨by rw [List.length_map, hlen i hi], fun c hc => ?_⟩
    obtain ⟨s, hs', rfl⟩ := List.mem_map.1 hc
    exact ((hruns i hi).sizes s hs').2
  have hshape : ShootingShape m.dims _ := ⟨SimGuess.rest_shape hg hu hb, hx, hy⟩
  refine ⟨_, _, ?_, Layout.stacked_length hshape, Layout.shootingBlocks_stacked hshape, hshape,
    ⟨rfl, ?_⟩, hb⟩
  · unfold SimGuess.shooting
    rw [SimGuess.control_eq, SimGuess.controlParameters_eq]
    show (SimGuess.runElements _ (SimGuess.elementParameters (some p) _ _) _ _ _ _ >>= _) = _
    rw [hout]
    exact SimGuess.assemble_ok hg _ _
  · intro el hel
    have hstart : ∀ i < m.dims.elements,
        ((([[g.x0]] ++ out.map fun e => e.2.map Prod.fst).getD i []).getD 0 []) =
          (out.getD i ([], [])).1 := by
      intro i hi
      cases i with
      | zero => exact (ho.first hi).symm
      | succ i =>
        rw [ho.joined i hi, SimGuess.endState_eq, hlen i (by omega)]
        show ((out.map fun e => e.2.map Prod.fst).getD i []).getD 0 [] = _
        rw [SimGuess.getD_map _ _ _ ([], []) _ (by rw [ho.length]; omega)]
        rfl
    show step el _ _ ((([[g.x0]] ++ out.map fun e => e.2.map Prod.fst).getD el []).getD 0 []) _ =
      .ok (((out.map fun e => e.2.map Prod.fst).getD el []).getD 0 [],
        ((out.map fun e => e.2.map Prod.snd).getD el []).getD 0 [])
    rw [hstart el hel,
      SimGuess.getD_map (fun e => e.2.map Prod.fst) out el ([], []) [] (by rw [ho.length]; exact hel),
      SimGuess.getD_map (fun e => e.2.map Prod.snd) out el ([], []) [] (by rw [ho.length]; exact hel)]
    have := (hruns el hel).steps 0 (by simp)
    have e1 : (el : K) + 1 = ((el + 1 : Nat) : K) := by push_cast; rfl
    rw [show elementLength m * (el : K) = m.breakpoint el from (breakpoint_eq m el hel.le).symm,
      e1, show elementLength m * ((el + 1 : Nat) : K) = m.breakpoint (el + 1) from
        (breakpoint_eq m (el + 1) hel).symm]
    exact this

/-- Without parameters per element there is no guess, although zeros are promised: `TypeError`. -/
theorem C140_theta_fails (m : Transcription K) (step : Step K) (g : Layout.GuessInfo K)
    (lastU u p : Option (List K)) (hn : 0 < m.dims.elements) :
    SimGuess.collocation m step g lastU u p none = .error .typeError ∧
      SimGuess.shooting m step g lastU u p none = .error .typeError := by
  obtain ⟨n, hn'⟩ : ∃ n, m.dims.elements = n + 1 := ⟨m.dims.elements - 1, by omega⟩
  constructor
  · unfold SimGuess.collocation
    rw [hn', List.range_succ_eq_map]
    show (SimGuess.runElements _ _ _ _ (0 :: _) _ >>= _) = _
    rw [SimGuess.runElements_error (e := .typeError) rfl]
    rfl
  · unfold SimGuess.shooting
    rw [hn', List.range_succ_eq_map]
    show (SimGuess.runElements _ _ _ _ (0 :: _) _ >>= _) = _
    rw [SimGuess.runElements_error (e := .typeError) rfl]
    rfl

/-- Without parameters collocation has no guess, although zeros are promised. -/
theorem C140_p_fails (m : Transcription K) (step : Step K) (g : Layout.GuessInfo K)
    (lastU u : Option (List K)) (theta : Dict Nat (List K)) (hn : 0 < m.dims.elements)
    (ht : (theta.get? 0).isSome) :
    SimGuess.collocation m step g lastU u none (some theta) = .error .notImplementedError := by
  obtain ⟨n, hn'⟩ : ∃ n, m.dims.elements = n + 1 := ⟨m.dims.elements - 1, by omega⟩
  obtain ⟨v, hv⟩ := Option.isSome_iff_exists.1 ht
  unfold SimGuess.collocation
  rw [hn', List.range_succ_eq_map]
  show (SimGuess.runElements _ _ _ _ (0 :: _) _ >>= _) = _
  rw [SimGuess.runElements_error (e := .notImplementedError) (by
    simp [SimGuess.elementParameters, SimGuess.elementTheta, Layout.thetaAt, hv, bind, Except.bind])]
  rfl

/-- Nor has multiple shooting when there is an optimised parameter: the simulation gets no value for it, and
when that goes well its entry of the guess is read from an empty vector. -/
theorem C140_shooting_p_fails (m : Transcription K) (step : Step K) (g : Layout.GuessInfo K)
    (lastU u : Option (List K)) (theta : Option (Dict Nat (List K))) (hp : g.pOptIndices ≠ []) :
    ∃ e, SimGuess.shooting m step g lastU u none theta = .error e := by
  obtain ⟨i, l, hi⟩ := List.exists_cons_of_ne_nil hp
  have hinit : Layout.pOptInit (0 : K) m.dims g.pOptIndices (some []) = .error .runtimeError := by
    rw [hi]
    simp [Layout.pOptInit, Layout.fill, Py.whenSome, Py.forEach, Py.bind, Py.lift, Layout.entry, List.zipIdx_cons]
  unfold SimGuess.shooting
  simp only [SimGuess.parametersOrNone, Option.getD_none]
  generalize SimGuess.runElements _ _ _ _ _ _ = r
  cases r with
  | error e => exact ⟨e, rfl⟩
  | ok els =>
    refine ⟨.runtimeError, ?_⟩
    simp [SimGuess.assemble, hinit, bind, Except.bind]

/-! ## C141: the guess satisfies the dynamics -/

/-- The parameters of all elements, in order. -/
def thetaList (n : Nat) (theta : Dict Nat (List K)) : List (List K) :=
  (List.range n).map fun el => (theta.get? el).getD []

/-- The ends of the simulated elements are the next states of the guess. -/
theorem simGuess_shots (m : ShootingMethod K) (step : Step K) (g : Layout.GuessInfo K)
    (lastU u : Option (List K)) (p : List K) (theta : Dict Nat (List K))
    (hs : Simulates m.dims step) (hg : GuessFits m.dims g (some p) (some theta))
    (hu : (guessControl m.dims.nU u g.uGuess lastU).length = m.dims.nU)
    (hp : g.pOptIndices = m.pOptIndices) (hth : g.thetaOptIndices = m.thetaOptIndices)
    (hsim : ∀ el t t' x th w, step el t t' x (p ++ th ++ w) = .ok (m.simulate el t t' x p th w)) :
    ∃ v b, SimGuess.shooting m.toTranscription step g lastU u (some p) (some theta) = .ok v ∧
      Layout.shootingBlocks m.dims v = .ok b ∧ ShootingShape m.dims b ∧
      (b.x.getD 0 []).getD 0 [] = g.x0 ∧
      ∀ el < m.dims.elements,
        (shotEnd m b (m.fullP b p) (m.fullTheta b (thetaList m.dims.elements theta)) el).x =
          (b.x.getD (el + 1) []).getD 0 [] ∧
        (shotEnd m b (m.fullP b p) (m.fullTheta b (thetaList m.dims.elements theta)) el).y =
          (b.y.getD el []).getD 0 [] := by
  obtain ⟨v, b, hv, _, hb, hshape, hrun, hrest⟩ := C140_shooting m.toTranscription step g lastU u p
    theta hs hg hu
  have hP : m.fullP b p = p := by
    unfold Transcription.fullP
    rw [hrest.pOpt, ← hp]
    exact SimGuess.putValues_own _ _ (hg.p p rfl)
  have hT : ∀ el < m.dims.elements,
      (m.fullTheta b (thetaList m.dims.elements theta)).getD el [] = (theta.get? el).getD [] := by
    intro el hel
    unfold Transcription.fullTheta thetaList
    rw [SimGuess.getD_map _ _ _ 0 _ (by simpa using hel)]
    simp only [List.getD_eq_getElem?_getD (l := List.range _), List.getElem?_range hel, Option.getD_some]
    rw [hrest.thetaOpt, SimGuess.getD_map _ _ _ 0 _ (by simpa using hel),
      SimGuess.getD_map _ _ _ 0 _ (by simpa using hel)]
    simp only [List.getD_eq_getElem?_getD (l := List.range _), List.getElem?_range hel, Option.getD_some]
    rw [← hth]
    obtain ⟨w, hw, hw'⟩ := hg.theta theta rfl el hel
    rw [hw]
    exact SimGuess.putValues_own _ _ hw'
  refine ⟨v, b, hv, hb, hshape, hrun.initial, fun el hel => ?_⟩
  have h1 := hrun.steps el hel
  rw [hsim] at h1
  have hU : b.u.getD el [] = constantControl m.dims (guessControl m.dims.nU u g.uGuess lastU) := by
    rw [hrest.controls, List.getD_eq_getElem?_getD, List.getElem?_replicate, if_pos hel]
    rfl
  unfold shotEnd
  simp only [hP, hT el hel, hU]
  exact Prod.mk.inj (Except.ok.inj h1)

/-- Multiple shooting: the guess starts at the problem's initial condition and joins the simulations of
all elements, as the solver's equations demand. (Partial: without the option to sum the costs of the
elements, see `C141_sum_fails`.) -/
theorem C141_shooting_partial (m : ShootingMethod K) (step : Step K) (g : Layout.GuessInfo K)
    (lastU u : Option (List K)) (p : List K) (theta : Dict Nat (List K))
    (hs : Simulates m.dims step) (hg : GuessFits m.dims g (some p) (some theta))
    (hu : (guessControl m.dims.nU u g.uGuess lastU).length = m.dims.nU)
    (hp : g.pOptIndices = m.pOptIndices) (hth : g.thetaOptIndices = m.thetaOptIndices)
    (hsim : ∀ el t t' x th w, step el t t' x (p ++ th ++ w) = .ok (m.simulate el t t' x p th w))
    (hsum : m.costAsSum = false) :
    ∃ v b, SimGuess.shooting m.toTranscription step g lastU u (some p) (some theta) = .ok v ∧
      Layout.shootingBlocks m.dims v = .ok b ∧
      (b.x.getD 0 []).getD 0 [] = g.x0 ∧
      (∀ el < m.dims.elements, (b.x.getD (el + 1) []).getD 0 [] = nextState m
        (shotEnd m b (m.fullP b p) (m.fullTheta b (thetaList m.dims.elements theta)) el).x) ∧
      ∀ el < m.dims.elements, (b.y.getD el []).getD 0 [] =
        (shotEnd m b (m.fullP b p) (m.fullTheta b (thetaList m.dims.elements theta)) el).y := by
  obtain ⟨v, b, hv, hb, _, hx0, hshot⟩ := simGuess_shots m step g lastU u p theta hs hg hu hp hth hsim
  refine ⟨v, b, hv, hb, hx0, fun el hel => ?_, fun el hel => (hshot el hel).2.symm⟩
  unfold nextState
  rw [hsum]
  exact (hshot el hel).1.symm

/-- With the option to sum the costs of the elements the guess breaks the solver's equations at the end
of every element with a cost: there the cost state should start at 0 again. -/
theorem C141_sum_fails (m : ShootingMethod K) (step : Step K) (g : Layout.GuessInfo K)
    (lastU u : Option (List K)) (p : List K) (theta : Dict Nat (List K))
    (hs : Simulates m.dims step) (hg : GuessFits m.dims g (some p) (some theta))
    (hu : (guessControl m.dims.nU u g.uGuess lastU).length = m.dims.nU)
    (hp : g.pOptIndices = m.pOptIndices) (hth : g.thetaOptIndices = m.thetaOptIndices)
    (hsim : ∀ el t t' x th w, step el t t' x (p ++ th ++ w) = .ok (m.simulate el t t' x p th w))
    (hsum : m.costAsSum = true) :
    ∃ v b, SimGuess.shooting m.toTranscription step g lastU u (some p) (some theta) = .ok v ∧
      Layout.shootingBlocks m.dims v = .ok b ∧
      ∀ el < m.dims.elements,
        (shotEnd m b (m.fullP b p) (m.fullTheta b (thetaList m.dims.elements theta)) el).x.getLastD 0 ≠
          0 →
        (b.x.getD (el + 1) []).getD 0 [] ≠ nextState m
          (shotEnd m b (m.fullP b p) (m.fullTheta b (thetaList m.dims.elements theta)) el).x := by
  obtain ⟨v, b, hv, hb, _, hx0, hshot⟩ := simGuess_shots m step g lastU u p theta hs hg hu hp hth hsim
  refine ⟨v, b, hv, hb, fun el hel hne he => hne ?_⟩
  unfold nextState at he
  rw [hsum, if_pos rfl, ← (hshot el hel).1] at he
  rw [he]
  simp [List.getLastD_eq_getLast?]

theorem callArgs_guess {α : Type} [Zero α] (s : MethodSetup α)
    (sim info : List α → Theta α → Except Err (List α)) (a : SolveArgs α) (c : CallArgs α)
    (h : s.callArgs sim info a = .ok c) (hg : a.guessDict = none) :
    s.guess a.initialGuess sim info c.p c.theta = .ok c.initialGuess := by
  unfold MethodSetup.callArgs at h
  rw [hg] at h
  cases h1 : s.initialCondition a.x0 with
  | error e => rw [h1] at h; cases h
  | ok x0 =>
    cases h2 : s.parameterValues a.p with
    | error e => rw [h1, h2] at h; cases h
    | ok p =>
      cases h3 : s.thetaValues a.theta with
      | error e => rw [h1, h2, h3] at h; cases h
      | ok th =>
        cases h4 : s.thetaVector th with
        | error e => rw [h1, h2, h3, ok_bind, ok_bind, ok_bind, h4] at h; cases h
        | ok v =>
          cases h5 : s.lastControl a.lastU with
          | error e => rw [h1, h2, h3, ok_bind, ok_bind, ok_bind, h4, ok_bind, h5] at h; cases h
          | ok l =>
            obtain ⟨lu, pl⟩ := l
            rw [h1, h2, h3, ok_bind, ok_bind, ok_bind, h4, ok_bind, h5, ok_bind] at h
            cases h6 : s.guess a.initialGuess sim info p th with
            | error e => simp only [h6] at h; cases h
            | ok g =>
              simp only [h6] at h
              cases h
              exact h6

/-- An initial condition given to `solve` is not what the guess starts from: it starts from the
problem's, and so breaks the initial condition of the solver when they differ. -/
theorem C141_given_fails (m : Transcription K) (step : Step K) (g : Layout.GuessInfo K)
    (lastU : Option (List K)) (s : MethodSetup K) (fromProblem : List K → Theta K → Except Err (List K))
    (a : SolveArgs K) (r : CallArgs K) (x0 : List K)
    (hs : Simulates m.dims step) (hg : GuessFits m.dims g (some r.p) (some r.theta))
    (hu : (guessControl m.dims.nU none g.uGuess lastU).length = m.dims.nU)
    (hh : s.heuristic = "simulation") (hga : a.initialGuess = none) (hgd : a.guessDict = none)
    (hx : a.x0 = some x0) (hne : x0 ≠ g.x0)
    (hr : s.callArgs (fun p th => SimGuess.shooting m step g lastU none (some p) (some th)) fromProblem a =
      .ok r) :
    ∃ b, Layout.shootingBlocks m.dims r.initialGuess = .ok b ∧ r.x0 = x0 ∧
      (b.x.getD 0 []).getD 0 [] ≠ r.x0 := by
  obtain ⟨h1, _⟩ := MethodSetup.callArgs_ok_iff s _ _ a r hr
  have h2 := callArgs_guess s _ _ a r hr hgd
  simp only [MethodSetup.guess, hga, hh, if_true] at h2
  obtain ⟨v, b, hv, _, hb, _, hrun, _⟩ := C140_shooting m step g lastU none r.p r.theta hs hg hu
  rw [h2] at hv
  cases hv
  have hx0 : r.x0 = x0 := by
    unfold MethodSetup.initialCondition at h1
    rw [hx, Option.getD_some] at h1
    split at h1
    · cases h1
    · exact (Except.ok.inj h1).symm
  exact ⟨b, hb, hx0, by rw [hrun.initial, hx0]; exact hne.symm⟩

/-! ## The hypotheses are met -/

/-- The integrator of the example of C94 as a simulation step. -/
def exampleStep : Step Rat := fun el t t' x q => .ok (exampleShooting.simulate el t t' x [] [] q)

theorem exampleStep_simulates : Simulates exampleShooting.dims exampleStep :=
  fun _ _ _ _ _ _ => ⟨_, rfl, rfl, rfl⟩

/-- Initial state 3, control 1. -/
def exampleInfo : Layout.GuessInfo Rat := ⟨[3], none, some [1], [], []⟩

theorem exampleInfo_fits : GuessFits exampleShooting.dims exampleInfo (some []) (some [(0, []), (1, [])]) where
  x0 := rfl
  yGuess := by rintro y ⟨⟩
  uGuess := by rintro y ⟨rfl⟩; rfl
  pOptIndices := rfl
  thetaOptIndices := rfl
  p := by rintro v ⟨rfl⟩; simp [exampleInfo]
  theta := by
    rintro th ⟨rfl⟩ el hel
    have hel : el < 2 := hel
    rcases (by omega : el = 0 ∨ el = 1) with rfl | rfl
    · exact ⟨[], rfl, by decide⟩
    · exact ⟨[], rfl, by decide⟩

/-- The states go from 3 to 7 in four time units. -/
example : SimGuess.shooting exampleShooting.toTranscription exampleStep exampleInfo none none (some [])
    (some [(0, []), (1, [])]) = .ok [3, 5, 7, 10, 14, 1, 1] := by decide +kernel

/-- The simulation goes well, the optimised parameter has no value. -/
example : SimGuess.shooting exampleShooting.toTranscription exampleStep { exampleInfo with pOptIndices := [0] } none
    none none (some [(0, []), (1, [])]) = .error .runtimeError := by decide +kernel

example : SimGuess.collocation exampleTranscription exampleStep exampleInfo none none (some [])
    (some [(0, []), (1, [])]) =
      .ok [3, 11/3, 5, 5, 17/3, 7, 22/3, 10, 34/3, 14, 1, 1] := by decide +kernel

example : ∃ v b, SimGuess.collocation exampleTranscription exampleStep exampleInfo none none (some [])
    (some [(0, []), (1, [])]) = .ok v ∧ v.length = 12 ∧
      Layout.collocationBlocks exampleTranscription.dims v = .ok (withFinal b) ∧
      (b.x.getD 0 []).getD 0 [] = [3] := by
  obtain ⟨v, b, h1, h2, h3, h4, _⟩ := C140_collocation exampleTranscription exampleStep exampleInfo none
    none [] [(0, []), (1, [])] exampleTranscription_grid.toCollocationGrid exampleStep_simulates
    exampleInfo_fits rfl
  exact ⟨v, b, h1, h2, h3, h4.initial⟩

example : ∃ v b, SimGuess.shooting exampleShooting.toTranscription exampleStep exampleInfo none none
    (some []) (some [(0, []), (1, [])]) = .ok v ∧
      Layout.shootingBlocks exampleShooting.dims v = .ok b ∧ (b.x.getD 0 []).getD 0 [] = [3] := by
  obtain ⟨v, b, h1, h2, h3, _⟩ := C141_shooting_partial { exampleShooting with
      simulate := fun el t t' x p th u => exampleShooting.simulate el t t' x [] [] (p ++ th ++ u) }
    exampleStep exampleInfo none none [] [(0, []), (1, [])] exampleStep_simulates exampleInfo_fits rfl rfl
    rfl (fun _ _ _ _ _ _ => rfl) rfl
  exact ⟨v, b, h1, h2, h3⟩

/-- A method for the example of C94. -/
def exampleMethod : MethodSetup Rat where
  nX := 1
  nU := 1
  nP := 0
  nTheta := 0
  nPOpt := 0
  nThetaOpt := 0
  elements := 2
  problemX0 := [3]

/-- A call with another initial condition. -/
example : exampleMethod.callArgs
    (fun p th => SimGuess.shooting exampleShooting.toTranscription exampleStep exampleInfo none none
      (some p) (some th)) (fun _ _ => .ok []) { x0 := some [8] } =
    .ok ⟨[3, 5, 7, 10, 14, 1, 1], [8], none, none, [], [(0, []), (1, [])], [8], none⟩ := by
  decide +kernel

end Verif
