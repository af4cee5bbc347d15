import Verif.Lemmas.NuUpdate
import Verif.Props.AugLag
import Verif.Props.Export
/-!
# C146: the violation error and the new multipliers come from the solution
-/
namespace Verif
open Spec AugLag Transcription

variable {K : Type} [Field K] [LinearOrder K] [IsStrictOrderedRing K]

/-- The values of a function at all points are as many as the method expects. -/
theorem AugLag.violations_of {o : Opts K} (value : Nat → Point K → List K) (pt : Nat → K → Point K)
    (taus : List K) (ht : taus.length = o.degree) (hl : ∀ el pt, (value el pt).length = o.nRelax) :
    Violations o ((List.range o.elements).map fun el => taus.map fun tau => value el (pt el tau)) := by
  intro el hel j hj
  refine ⟨taus.map fun tau => value el (pt el tau), value el (pt el (taus.getD j 0)), by simp [hel], ?_,
    hl _ _⟩
  simp [List.getD_eq_getElem?_getD, List.getElem?_eq_getElem (show j < taus.length by omega)]

theorem AugLag.violation_of {o : Opts K} (value : Nat → Point K → List K) (pt : Nat → K → Point K)
    (taus : List K) (hl : ∀ el pt, (value el pt).length = o.nRelax) {el j i : Nat}
    (hel : el < o.elements) (hj : j < taus.length) (hi : i < o.nRelax) :
    violation ((List.range o.elements).map fun el => taus.map fun tau => value el (pt el tau)) el j i =
      some ((value el (pt el taus[j])).getD i 0) := by
  have : i < (value el (pt el taus[j])).length := by rw [hl]; exact hi
  simp [violation, hel, List.getElem?_eq_getElem hj, List.getD_eq_getElem?_getD,
    List.getElem?_eq_getElem this]

theorem AugLag.largestOver {o : Opts K} (value : Nat → Point K → List K) (pt : Nat → K → Point K)
    (taus : List K) (ht : taus.length = o.degree) (hl : ∀ el pt, (value el pt).length = o.nRelax)
    {i : Nat} (hi : i < o.nRelax) {e : K}
    (h : LargestViolation o ((List.range o.elements).map fun el => taus.map fun tau =>
      value el (pt el tau)) i e) : LargestOver o.elements taus value pt i e := by
  obtain ⟨h0, hle, hat⟩ := h
  have hle' : ∀ el < o.elements, ∀ tau ∈ taus, |(value el (pt el tau)).getD i 0| ≤ e := by
    intro el hel tau htau
    obtain ⟨j, hj, rfl⟩ := List.getElem_of_mem htau
    exact hle el hel j (by omega) _ (violation_of value pt taus hl hel hj hi)
  refine ⟨hle', ?_⟩
  by_cases hn : o.elements = 0
  · exact .inr (.inl hn)
  · by_cases hne : taus = []
    · exact .inr (.inr hne)
    · left
      by_cases he : e = 0
      · obtain ⟨tau, l, rfl⟩ := List.exists_cons_of_ne_nil hne
        refine ⟨0, by omega, tau, by simp, ?_⟩
        have := hle' 0 (by omega) tau (by simp)
        rw [he] at this ⊢
        exact le_antisymm this (abs_nonneg _)
      · obtain ⟨el, hel, j, hj, r, hr, hre⟩ := hat he
        have hj' : j < taus.length := by omega
        rw [violation_of value pt taus hl hel hj' hi] at hr
        cases hr
        exact ⟨el, hel, taus[j], List.getElem_mem hj', hre⟩

/-- What an update does with the violations at the points `pt`: the error of each constraint is its
largest absolute value over the points, and each multiplier at each point grows by the penalty times the
value of the constraint there. -/
theorem AugLag.update_of (o : Opts K) (value : Nat → Point K → List K) (pt : Nat → K → Point K)
    (s : St K) (h : Discretised o) (hl : ∀ el pt, (value el pt).length = o.nRelax)
    (hm : s.mu.length = o.nRelax) (hc : o.skipCompute = false) (hn : o.skipUpdateNu = false)
    (hi : o.onlyImprove = false) (viol : List (List (List K)))
    (hv : viol = (List.range o.elements).map fun el => (o.roots o.degree).map fun tau =>
      value el (pt el tau)) :
    (∀ e, (updateParameters o viol s).1 = .ok e → e.length = o.nRelax ∧
      ∀ i x, e[i]? = some x → LargestOver o.elements (o.roots o.degree) value pt i x) ∧
    ∃ nu', (updateParameters o viol s).2.nuTilde = some nu' ∧
      ∀ el < o.elements, ∀ (j : Nat) (tau : K), (o.roots o.degree)[j]? = some tau → ∀ i < o.nRelax,
        ∃ v c, multiplier o s.nu el (pointTime o el j) i = some v ∧ s.mu[i]? = some c ∧
          multiplier o nu' el (pointTime o el j) i =
            some (v + c * (value el (pt el tau)).getD i 0) := by
  subst hv
  have hviol := violations_of value pt (o.roots o.degree) h.points hl
  refine ⟨fun e he => ?_, ?_⟩
  · obtain ⟨h₁, h₂⟩ := C66_error o _ s e hc hviol he
    refine ⟨h₁, fun i x hx => ?_⟩
    have hi : i < o.nRelax := by rw [← h₁]; exact (List.getElem?_eq_some_iff.1 hx).1
    exact largestOver value pt _ h.points hl hi (h₂ i x hx)
  · obtain ⟨nu', h₁, h₂⟩ := C65_update o _ s h hc hn hi hm hviol
    refine ⟨nu', h₁, fun el hel j tau htau i hi => ?_⟩
    obtain ⟨hj, rfl⟩ := List.getElem?_eq_some_iff.1 htau
    obtain ⟨v, c, r, e₁, e₂, e₃, e₄⟩ := h₂ el hel j (by rw [← h.points]; exact hj) i hi
    rw [violation_of value pt _ hl hel hj hi] at e₃
    cases e₃
    exact ⟨v, c, e₁, e₂, e₄⟩

/-- Collocation: the violation error of each relaxed constraint is its largest absolute value over the
collocation points of the solution. The multipliers grow by the penalty times the value of the
constraint there. The states and algebraics at the points are decision values. -/
theorem C146_collocation_partial (m : Transcription K) (o : Opts K) (r : Relaxed K) (b : Blocks K)
    (p : List K) (theta : List (List K)) (s : St K) (h : Collocatable m)
    (hb : CollocationData m.dims b) (hg : SameGrid o m) (ho : o.roots o.degree = m.roots)
    (hd : r.direct = true ∨ m.dims.nUPar = 0) (hdeg : o.nuDegree = o.degree)
    (hl : ∀ el pt, (relaxedAt r el pt).length = o.nRelax) (hm : s.mu.length = o.nRelax)
    (hc : o.skipCompute = false) (hn : o.skipUpdateNu = false) (hi : o.onlyImprove = false) :
    ∃ viol, violationsCollocation m o r p theta (Layout.stacked b) = .ok viol ∧
      (∀ e, (updateParameters o viol s).1 = .ok e → e.length = o.nRelax ∧
        ∀ i x, e[i]? = some x →
          LargestOver m.dims.elements m.roots (relaxedAt r) (pointAt m b p theta) i x) ∧
      (∃ nu', (updateParameters o viol s).2.nuTilde = some nu' ∧
        ∀ el < m.dims.elements, ∀ (j : Nat) (tau : K), m.roots[j]? = some tau → ∀ i < o.nRelax,
          ∃ v c, multiplier o s.nu el (pointTime o el j) i = some v ∧ s.mu[i]? = some c ∧
            multiplier o nu' el (pointTime o el j) i =
              some (v + c * (relaxedAt r el (pointAt m b p theta el tau)).getD i 0)) ∧
      ∀ el < m.dims.elements, ∀ (j : Nat) (tau : K), m.roots[j]? = some tau →
        (pointAt m b p theta el tau).x = (b.x.getD el []).getD (j + 1) [] ∧
        (pointAt m b p theta el tau).y = (b.y.getD el []).getD j [] := by
  have hv : relaxedAt r = r.value := rfl
  rw [hv] at hl ⊢
  have hinc : IncreasingPoints o := by unfold IncreasingPoints; rw [ho]; exact h.increasing
  have hblocks : Layout.collocationBlocks m.dims (Layout.stacked b) = .ok (withFinal b) :=
    Layout.collocationBlocks_stacked h.elements hb.toSharedShape hb.x hb.y
  have hdt : o.deltaT ≠ 0 := by
    have : o.deltaT = m.deltaT := by
      unfold Opts.deltaT Transcription.deltaT
      rw [hg.start, hg.final, hg.elements]
    rw [this]
    exact (deltaT_pos m h.toCollocationGrid).ne'
  have hdisc : Discretised o :=
    ⟨hdeg, hg.points, (List.pairwise_cons.1 hinc).2.imp fun h => ne_of_lt h, by
      rw [hg.degree]; have := h.degree; omega, hdt⟩
  refine ⟨(List.range o.elements).map fun el => (o.roots o.degree).map fun tau =>
    r.value el (pointAt m b p theta el tau), ?_, ?_⟩
  · unfold violationsCollocation
    rw [hblocks]
    show collect o r _ = _
    refine collect_ok o r _ (pointAt m b p theta) _ hg.points fun el hel => ?_
    exact pointsCollocation_ok p theta h.toCollocationGrid hb hg hinc hd (by rw [← hg.elements]; exact hel)
  · obtain ⟨h₁, h₂⟩ := update_of o r.value (pointAt m b p theta) s hdisc hl hm hc hn hi _ rfl
    rw [hg.elements, ho] at h₁ h₂
    rw [hg.elements, ho]
    refine ⟨h₁, h₂, fun el hel j tau htau => ?_⟩
    obtain ⟨hj, rfl⟩ := List.getElem?_eq_some_iff.1 htau
    exact ⟨state_at_node m b p theta h hb el hel (j + 1) (by simpa using hj),
      algebraic_at_node m b p theta h hb el hel j hj⟩

/-- Multiple shooting: the same, along the simulation of each element from its state. (The simulation
is assumed not to depend on being interrupted.) -/
theorem C146_shooting_partial (m : ShootingMethod K) (o : Opts K) (r : Relaxed K) (b : Blocks K)
    (p : List K) (theta : List (List K)) (s : St K) (h0 : m.t0 < m.tf) (hel : 0 < m.dims.elements)
    (hb : ShootingShape m.dims b) (hf : Spec.ShootingMethod.Flow m)
    (hg : SameGrid o m.toTranscription) (hinc : IncreasingPoints o) (hpos : 0 < o.degree)
    (hdeg : o.nuDegree = o.degree) (hl : ∀ el pt, (relaxedAt r el pt).length = o.nRelax)
    (hm : s.mu.length = o.nRelax) (hc : o.skipCompute = false) (hn : o.skipUpdateNu = false)
    (hi : o.onlyImprove = false) :
    ∃ viol, violationsShooting m o r p theta (Layout.stacked b) = .ok viol ∧
      (∀ e, (updateParameters o viol s).1 = .ok e → e.length = o.nRelax ∧
        ∀ i x, e[i]? = some x →
          LargestOver m.dims.elements (o.roots o.degree) (relaxedAt r) (shotAt m b p theta) i x) ∧
      ∃ nu', (updateParameters o viol s).2.nuTilde = some nu' ∧
        ∀ el < m.dims.elements, ∀ (j : Nat) (tau : K), (o.roots o.degree)[j]? = some tau →
          ∀ i < o.nRelax,
          ∃ v c, multiplier o s.nu el (pointTime o el j) i = some v ∧ s.mu[i]? = some c ∧
            multiplier o nu' el (pointTime o el j) i =
              some (v + c * (relaxedAt r el (shotAt m b p theta el tau)).getD i 0) := by
  have hv : relaxedAt r = r.value := rfl
  rw [hv] at hl ⊢
  have hdt : o.deltaT ≠ 0 := by
    have : o.deltaT = m.deltaT := by
      unfold Opts.deltaT Transcription.deltaT
      rw [hg.start, hg.final, hg.elements]
    rw [this]
    exact (ShootingMethod.dt_pos m h0 hel).ne'
  have hdisc : Discretised o :=
    ⟨hdeg, hg.points, (List.pairwise_cons.1 hinc).2.imp fun h => ne_of_lt h, hpos, hdt⟩
  refine ⟨(List.range o.elements).map fun el => (o.roots o.degree).map fun tau =>
    r.value el (shotAt m b p theta el tau), ?_, ?_⟩
  · unfold violationsShooting
    rw [Layout.shootingBlocks_stacked hb]
    show collect o r _ = _
    refine collect_ok o r _ (shotAt m b p theta) _ hg.points fun el hel => ?_
    exact pointsShooting_ok p theta h0 hb hf hg hinc (by rw [← hg.elements]; exact hel)
  · obtain ⟨h₁, h₂⟩ := update_of o r.value (shotAt m b p theta) s hdisc hl hm hc hn hi _ rfl
    rw [hg.elements] at h₁ h₂
    rw [hg.elements]
    exact ⟨h₁, h₂⟩

/-- Multiple shooting with a collocation point at the start of the elements: the violations cannot be
computed. -/
theorem C146_start_fails (m : ShootingMethod K) (o : Opts K) (r : Relaxed K) (b : Blocks K)
    (p : List K) (theta : List (List K)) (hel : 0 < o.elements) (hb : ShootingShape m.dims b)
    (he : o.elements = m.dims.elements) (hs : m.breakpoint 0 ∈ (List.range o.degree).map (o.timeNu 0)) :
    violationsShooting m o r p theta (Layout.stacked b) = .error .notImplementedError := by
  unfold violationsShooting
  rw [Layout.shootingBlocks_stacked hb]
  show collect o r _ = _
  obtain ⟨n, hn⟩ := Nat.exists_eq_succ_of_ne_zero hel.ne'
  have hx := Transcription.grid_columns hb.x (el := 0) (by omega)
  have h1 : itemAt b.x 0 = .ok (b.x.getD 0 []) := by
    refine itemAt_ok ?_
    rw [List.getD_eq_getElem?_getD, List.getElem?_eq_getElem (by rw [hb.x.1]; omega)]
    rfl
  have h2 : itemAt (b.x.getD 0 []) 0 = .ok ((b.x.getD 0 []).getD 0 []) := by
    refine itemAt_ok ?_
    rw [List.getD_eq_getElem?_getD (l := b.x.getD 0 []),
      List.getElem?_eq_getElem (by rw [hx.1]; omega)]
    rfl
  have h3 : pointsShooting m o b p theta 0 = .error .notImplementedError := by
    unfold pointsShooting
    rw [h1]
    simp only [bind, Except.bind, h2]
    exact if_pos hs
  unfold collect
  rw [hn, List.range_succ_eq_map, List.mapM_cons, h3]
  rfl

namespace AugLag

/-- The example of collocation with one parameter to optimise. -/
def optimisedExample : Transcription Rat :=
  { exampleTranscription with
    dims := ⟨2, 2, 1, 1, 1, 1, 1, 0, 1, 0⟩
    pOptIndices := [0] }

/-- The relaxed constraint: the parameter is one. -/
def relaxedParameter : Relaxed Rat where
  direct := true
  alg _ pt := [pt.p.headD 0 - 1]
  eq _ _ := []

/-- Options for the grid of the example. -/
def relaxedOpts : Opts Rat where
  roots _ := [1/3, 1]
  t0 := 0
  tf := 4
  nRelax := 1
  nuDegree := 2
  degree := 2
  elements := 2
  maxIter := 5
  tol := 1/100
  muMax := 100
  beta := 10
  minDecrease := 1/2

/-- A solution with the parameter at one. -/
def optimisedBlocks : Blocks Rat := { exampleBlocks with pOpt := [1] }

theorem optimisedExample_grid : Collocatable optimisedExample where
  horizon := exampleTranscription_grid.horizon
  elements := by decide
  degree := by decide
  points := rfl
  increasing := exampleTranscription_grid.increasing
  last := rfl
  states := by decide
  ode _ _ _ := rfl
  tags := exampleTranscription_grid.tags

theorem optimisedBlocks_data : CollocationData optimisedExample.dims optimisedBlocks where
  u := exampleBlocks_data.u
  eta := rfl
  pOpt := rfl
  thetaOpt := exampleBlocks_data.thetaOpt
  x := exampleBlocks_data.x
  y := exampleBlocks_data.y

theorem relaxedOpts_grid : SameGrid relaxedOpts optimisedExample := ⟨rfl, rfl, rfl, rfl, rfl⟩

end AugLag

/-- The values of optimised parameters are not used: a relaxed constraint that holds everywhere at the
solution has the error 1, because it is evaluated with the value that was given for the parameter. -/
theorem C146_optimised_fails : ∃ (m : Transcription Rat) (o : Opts Rat) (r : Relaxed Rat)
    (b : Blocks Rat) (p : List Rat) (theta : List (List Rat)), Collocatable m ∧
    CollocationData m.dims b ∧ SameGrid o m ∧
    (∀ el tau, relaxedAt r el (pointAt m b (m.fullP b p) (m.fullTheta b theta) el tau) = [0]) ∧
    ∃ viol, violationsCollocation m o r p theta (Layout.stacked b) = .ok viol ∧
      (updateParameters o viol (AugLag.start o 1)).1 = .ok [1] := by
  refine ⟨optimisedExample, relaxedOpts, relaxedParameter, optimisedBlocks, [0, 1], [[0, 0], [0, 0]],
    optimisedExample_grid, optimisedBlocks_data, relaxedOpts_grid, fun el tau => ?_,
    List.replicate 2 (List.replicate 2 [-1]), ?_, ?_⟩
  · show [(optimisedExample.fullP optimisedBlocks [0, 1]).headD 0 - 1] = [0]
    decide +kernel
  · have h : (violationsCollocation optimisedExample relaxedOpts relaxedParameter [0, 1]
        [[0, 0], [0, 0]] (Layout.stacked optimisedBlocks)).toOption =
        some (List.replicate 2 (List.replicate 2 [-1])) := by decide +kernel
    cases hv : violationsCollocation optimisedExample relaxedOpts relaxedParameter [0, 1]
        [[0, 0], [0, 0]] (Layout.stacked optimisedBlocks) with
    | error e => rw [hv] at h; cases h
    | ok v => rw [hv] at h; simpa [Except.toOption] using h
  · rfl

/-- The hypotheses can be met: the example with the relaxed constraint `y - 2 x + 1` has the error 1. -/
example : ∃ viol, violationsCollocation optimisedExample relaxedOpts
    { relaxedParameter with alg := fun _ pt => [pt.y.headD 0 - 2 * pt.x.headD 0 + 1] } [0, 1]
    [[0, 0], [0, 0]] (Layout.stacked optimisedBlocks) = .ok viol :=
  (C146_collocation_partial optimisedExample relaxedOpts
    { relaxedParameter with alg := fun _ pt => [pt.y.headD 0 - 2 * pt.x.headD 0 + 1] } optimisedBlocks
    [0, 1] [[0, 0], [0, 0]] (AugLag.start relaxedOpts 1) optimisedExample_grid optimisedBlocks_data
    relaxedOpts_grid rfl (.inl rfl) rfl (fun _ _ => rfl) rfl rfl rfl rfl).imp fun _ h => h.1

example : ∃ viol, violationsShooting exampleFree relaxedOpts relaxedParameter [0, 1]
    [[0, 0], [0, 0]] (Layout.stacked exampleFreeShots) = .ok viol :=
  (C146_shooting_partial exampleFree relaxedOpts relaxedParameter exampleFreeShots [0, 1]
    [[0, 0], [0, 0]] (AugLag.start relaxedOpts 1) exampleTranscription_grid.horizon (by decide)
    exampleFreeShots_shape exampleFree_flow ⟨rfl, rfl, rfl, rfl, rfl⟩
    optimisedExample_grid.increasing (by decide) rfl (fun _ _ => rfl) rfl rfl rfl rfl).imp fun _ h => h.1

end Verif
