import Verif.Lemmas.CollocationFeasible
import Mathlib.Algebra.Order.Field.Rat
import Mathlib.Tactic.NormNum
/-!
# C50, C51, C53, C54, C92, C93: the collocation problem

`m.discretize b x0 p theta lastU` gives the constraints and the cost of the collocation problem at
decision values `b`. `m.fullP b p` and `m.fullTheta b theta` are the parameters with the optimised
ones written in (C39).
-/
namespace Verif

open Spec Transcription

variable {K : Type} [Field K] [LinearOrder K] [IsStrictOrderedRing K]

/-! ## An example: two elements of degree two, one state, one algebraic, one control -/

/-- `x' = -x + u`, `y = 2 x`, `x <= 1` at the collocation points, `y = 0` at the start of elements,
`|Δu| <= 1`. -/
def exampleTranscription : Transcription Rat where
  dims := ⟨2, 2, 1, 1, 1, 1, 1, 0, 0, 0⟩
  roots := [1/3, 1]
  t0 := 0
  tf := 4
  ode _ pt := [pt.uPar.headD 0 - pt.x.headD 0]
  alg _ pt := [pt.y.headD 0 - 2 * pt.x.headD 0]
  sCost _ pt := pt.x.headD 0
  gIneq := [⟨fun _ pt => [pt.x.headD 0 - 1], "default"⟩]
  gEq := [⟨fun _ pt => [pt.y.headD 0], "start"⟩]
  hInitial x x0 := [x.headD 0 - x0.headD 0]
  hFinal x _ _ := [x.headD 0]
  h _ := []
  vCost x _ := x.headD 0
  duMin := [(((-1 : Rat) : WithTop Rat) : WithBot (WithTop Rat))]
  duMax := [(((1 : Rat) : WithTop Rat) : WithBot (WithTop Rat))]
  pOptIndices := []
  thetaOptIndices := []

/-- Decision values for the example: everything zero. -/
def exampleBlocks : Blocks Rat where
  x := [[[0], [0], [0]], [[0], [0], [0]]]
  y := [[[0], [0]], [[0], [0]]]
  u := [[[0]], [[0]]]
  eta := []
  pOpt := []
  thetaOpt := [[], []]

theorem exampleTranscription_grid : Collocatable exampleTranscription where
  horizon := by norm_num [exampleTranscription]
  elements := by decide
  degree := by decide
  points := rfl
  increasing := by
    simp only [exampleTranscription, List.pairwise_cons, List.forall_mem_cons, List.not_mem_nil,
      false_implies, implies_true, List.Pairwise.nil, and_true]
    norm_num
  last := rfl
  states := by decide
  ode _ _ _ := rfl
  tags := by
    intro g hg
    simp only [exampleTranscription, List.singleton_append, List.mem_cons, List.not_mem_nil,
      or_false] at hg
    rcases hg with rfl | rfl <;> rfl

theorem exampleBlocks_data : CollocationData exampleTranscription.dims exampleBlocks where
  u := by simp [Grid, Columns, exampleBlocks, exampleTranscription, controlPoints]
  eta := rfl
  pOpt := rfl
  thetaOpt := by simp [Columns, exampleBlocks, exampleTranscription]
  x := by simp [Grid, Columns, exampleBlocks, exampleTranscription]
  y := by simp [Grid, Columns, exampleBlocks, exampleTranscription]

theorem exampleRates (lastU : Option (List Rat)) (h : ∀ u, lastU = some u → u.length = 1) :
    RatesFit exampleTranscription lastU where
  min := rfl
  max := rfl
  uncrossed := by
    intro i lo hi hlo hhi
    cases i with
    | succ i => simp [exampleTranscription] at hlo
    | zero =>
      cases hlo; cases hhi
      exact WithBot.coe_le_coe.mpr (WithTop.coe_le_coe.mpr (by norm_num))
  controls := by decide
  last := h

/-! ## C92: what the constraints mean -/

/-- Collocation can be set up, its cost is the discretised cost, and its constraints hold exactly
for the solutions of the discretised optimal control problem. -/
theorem C92_feasible_iff (m : Transcription K) (b : Blocks K) (x0 p : List K)
    (theta : List (List K)) (lastU : Option (List K)) (h : Collocatable m)
    (hb : CollocationData m.dims b) (hr : m.hasDeltaU = true → RatesFit m lastU) :
    ∃ cons, m.discretize b x0 p theta lastU =
        .ok (cons, collocationCost m b (m.fullP b p) (m.fullTheta b theta)) ∧
      ((∀ c ∈ cons, c.Holds) ↔
        Collocates m b x0 (m.fullP b p) (m.fullTheta b theta) lastU) := by
  refine ⟨_, discretize_ok m b p theta h hb x0 lastU hr, ?_⟩
  simp only [List.forall_mem_append, List.mem_flatMap, List.mem_range, forall_exists_index,
    and_imp, List.forall_mem_cons, List.not_mem_nil, false_implies, implies_true, and_true,
    holds_equality]
  have hel : (∀ c x, x < m.dims.elements →
      c ∈ consAt m b (m.fullP b p) (m.fullTheta b theta) lastU x → c.Holds) ↔
      ∀ el < m.dims.elements,
        ∀ c ∈ consAt m b (m.fullP b p) (m.fullTheta b theta) lastU el, c.Holds :=
    ⟨fun h el he c hc => h c el he hc, fun h c el he hc => h el he c hc⟩
  rw [hel]
  constructor
  · rintro ⟨⟨hi, he⟩, hf, ht⟩
    have he' := fun el hlt => (holds_element m b _ _ h hb lastU el hlt).mp (he el hlt)
    exact {
      initial := hi
      continuous := fun el hlt => (he' (el + 1) hlt).1 (Nat.succ_ne_zero el)
      dynamics := fun el hlt => (he' el hlt).2.1
      algebraic := fun el hlt => (he' el hlt).2.2.1
      rates := fun el hlt => (holds_rates m b hb.toSharedShape lastU hr el hlt).mp (he' el hlt).2.2.2.1
      inequalities := fun el hlt => (he' el hlt).2.2.2.2.1
      equalities := fun el hlt => (he' el hlt).2.2.2.2.2
      final := hf
      independent := ht }
  · intro hc
    refine ⟨⟨hc.initial, fun el hlt => ?_⟩, hc.final, hc.independent⟩
    rw [holds_element m b _ _ h hb lastU el hlt]
    refine ⟨fun h0 => ?_, hc.dynamics el hlt, hc.algebraic el hlt,
      (holds_rates m b hb.toSharedShape lastU hr el hlt).mpr (hc.rates el hlt), hc.inequalities el hlt,
      hc.equalities el hlt⟩
    have := hc.continuous (el - 1) (by omega)
    rwa [Nat.sub_add_cancel (by omega)] at this

example : ∃ cons, exampleTranscription.discretize exampleBlocks [0] [] [] none =
    .ok (cons, collocationCost exampleTranscription exampleBlocks [] [[], []]) ∧
      ((∀ c ∈ cons, c.Holds) ↔
        Collocates exampleTranscription exampleBlocks [0] [] [[], []] none) :=
  C92_feasible_iff exampleTranscription exampleBlocks [0] [] [] none exampleTranscription_grid
    exampleBlocks_data fun _ => exampleRates none (by simp)

/-- The states at the positions `0` and the collocation points are the decision values. -/
theorem C92_states (m : Transcription K) (b : Blocks K) (p : List K) (theta : List (List K))
    (h : Collocatable m) (hb : CollocationData m.dims b) (el : Nat) (hel : el < m.dims.elements)
    (j : Nat) (hj : j < (0 :: m.roots).length) :
    (pointAt m b p theta el (0 :: m.roots)[j]).x = (b.x.getD el []).getD j [] :=
  state_at_node m b p theta h hb el hel j hj

/-! ## C50: how many equations there are -/

theorem rows_element (m : Transcription K) (b : Blocks K) (p : List K) (theta : List (List K))
    (lastU : Option (List K)) (size : PathCon K → Nat) (nI nF nT : Nat) (h : Collocatable m)
    (hs : FunctionSizes m size nI nF nT) (el : Nat) (hel : el < m.dims.elements) :
    rows (consAt m b p theta lastU el) = (if el = 0 then 0 else m.dims.nX) +
      m.dims.degree * (m.dims.nX + m.dims.nY) +
      rows (if m.hasDeltaU then ratesAt m b lastU el else []) + pathRows m size := by
  unfold consAt
  simp only [rows_append]
  rw [rows_const _ _ m.dims.nX (fun j _ => by simp [dynamicsCon, Con.equality, h.ode el hel]),
    rows_const _ _ m.dims.nY (fun j _ => hs.alg _ _),
    rows_path m b p theta m.gIneq el .ineq (fun _ => rfl) (fun _ _ => rfl) Con.nonpositive
      (fun _ => rfl) size (fun g hg => hs.path g (List.mem_append_left _ hg)),
    rows_path m b p theta m.gEq el .eq (fun _ => rfl) (fun _ _ => rfl) Con.equality
      (fun _ => rfl) size (fun g hg => hs.path g (List.mem_append_right _ hg)),
    pathRows, List.map_append, List.sum_append, List.length_range]
  have h1 : rows (if el = 0 then [] else [Con.equality (List.zipWith (fun x y => x - y)
      (pointAt m b p theta (el - 1) 1).x (pointAt m b p theta el 0).x)]) =
      if el = 0 then 0 else m.dims.nX := by
    split
    · rfl
    · simp [rows, Con.equality, pointAt]
  rw [h1, Nat.mul_add]
  omega

theorem sum_range_first (n a r : Nat) :
    ((List.range (n + 1)).map fun el => (if el = 0 then 0 else a) + r).sum =
      n * a + (n + 1) * r := by
  induction n with
  | zero => simp
  | succ n ih =>
    rw [List.range_succ, List.map_append, List.sum_append, ih]
    simp only [List.map_cons, List.map_nil, List.sum_cons, List.sum_nil, Nat.succ_ne_zero,
      if_false, Nat.succ_mul]
    omega

theorem sum_range_rates (n a l : Nat) (last : Bool) :
    ((List.range (n + 1)).map fun el =>
      a + if (el = 0 ∧ last = false) then 0 else l).sum =
      (n + 1) * a + (n + if last then 1 else 0) * l := by
  induction n with
  | zero => cases last <;> simp
  | succ n ih =>
    rw [List.range_succ, List.map_append, List.sum_append, ih]
    simp only [List.map_cons, List.map_nil, List.sum_cons, List.sum_nil, Nat.succ_ne_zero,
      false_and, if_false, Nat.succ_mul, Nat.add_mul]
    omega

/-- The number of scalar constraints: the initial ones, `d (n_x + n_y)` dynamics equations in each of
the `N` elements, `n_x` continuity equations between elements, the path constraints at their points,
the limited controls for every change, the final and the time-independent ones. -/
theorem C50_count (m : Transcription K) (b : Blocks K) (x0 p : List K)
    (theta : List (List K)) (lastU : Option (List K)) (size : PathCon K → Nat)
    (nInitial nFinal nTimeless : Nat) (h : Collocatable m) (hb : CollocationData m.dims b)
    (hr : m.hasDeltaU = true → RatesFit m lastU)
    (hs : FunctionSizes m size nInitial nFinal nTimeless) :
    ∃ cons cost, m.discretize b x0 p theta lastU = .ok (cons, cost) ∧
      rows cons = nInitial + m.dims.elements * (m.dims.degree * (m.dims.nX + m.dims.nY)) +
        (m.dims.elements - 1) * m.dims.nX + m.dims.elements * pathRows m size +
        (if m.hasDeltaU then
          (m.dims.elements - 1 + if lastU.isSome then 1 else 0) * limitedControls m else 0) +
        nFinal + nTimeless := by
  refine ⟨_, _, discretize_ok m b p theta h hb x0 lastU hr, ?_⟩
  obtain ⟨n, hn⟩ : ∃ n, m.dims.elements = n + 1 :=
    ⟨m.dims.elements - 1, by have := h.elements; omega⟩
  have hbody : rows ((List.range m.dims.elements).flatMap
      (consAt m b (m.fullP b p) (m.fullTheta b theta) lastU)) =
      m.dims.elements * (m.dims.degree * (m.dims.nX + m.dims.nY)) +
        (m.dims.elements - 1) * m.dims.nX + m.dims.elements * pathRows m size +
        (if m.hasDeltaU then
          (m.dims.elements - 1 + if lastU.isSome then 1 else 0) * limitedControls m else 0) := by
    rw [rows_flatMap]
    rw [List.map_congr_left fun el hel =>
      rows_element m b _ _ lastU size _ _ _ h hs el (List.mem_range.mp hel)]
    by_cases hd : m.hasDeltaU = true
    · have hr := hr hd
      have : (List.range m.dims.elements).map (fun el => (if el = 0 then 0 else m.dims.nX) +
          m.dims.degree * (m.dims.nX + m.dims.nY) +
          rows (if m.hasDeltaU then ratesAt m b lastU el else []) + pathRows m size) =
          (List.range m.dims.elements).map (fun el => ((if el = 0 then 0 else m.dims.nX) +
            (m.dims.degree * (m.dims.nX + m.dims.nY) + pathRows m size)) +
            (0 + if (el = 0 ∧ lastU.isSome = false) then 0 else limitedControls m)) := by
        apply List.map_congr_left
        intro el hel
        have hel := List.mem_range.mp hel
        rw [if_pos hd, rows_rates m b lastU el hr]
        have : (if (controlBefore b lastU el).isSome = true then limitedControls m else 0) =
            if (el = 0 ∧ lastU.isSome = false) then 0 else limitedControls m := by
          cases el with
          | zero => cases lastU <;> simp [controlBefore]
          | succ el =>
            obtain ⟨v, rest', hv, -⟩ := controls_head m b hb.toSharedShape hr.controls el (by omega)
            rw [controlBefore, hv]; simp
        rw [this]
        omega
      rw [this, List.sum_map_add, hn, sum_range_first, sum_range_rates, if_pos hd,
        Nat.add_sub_cancel, Nat.mul_add, Nat.mul_zero]
      omega
    · simp only [if_neg hd]
      have : (List.range m.dims.elements).map (fun el => (if el = 0 then 0 else m.dims.nX) +
          m.dims.degree * (m.dims.nX + m.dims.nY) + rows ([] : List (Con K)) +
          pathRows m size) = (List.range m.dims.elements).map (fun el =>
            (if el = 0 then 0 else m.dims.nX) +
            (m.dims.degree * (m.dims.nX + m.dims.nY) + pathRows m size)) := by
        apply List.map_congr_left
        intro el _
        rw [show rows ([] : List (Con K)) = 0 from rfl]
        omega
      rw [this, hn, sum_range_first, Nat.add_sub_cancel, Nat.mul_add]
      omega
  rw [rows_append, rows_append, hbody]
  have h1 : rows [Con.equality (m.hInitial ((b.x.getD 0 []).getD 0 []) x0)] = nInitial := by
    simp [rows, Con.equality, hs.initial]
  have h2 : rows [Con.equality (m.hFinal (pointAt m b (m.fullP b p) (m.fullTheta b theta)
          (m.dims.elements - 1) 1).x b.eta (m.fullP b p)), Con.equality (m.h (m.fullP b p))] =
      nFinal + nTimeless := by
    simp [rows, Con.equality, hs.final, hs.timeless]
  rw [h1, h2]
  omega

/-- Without path constraints and limits, and with an initial constraint that fixes the state, the
unknowns minus the dynamics and initial equations are the controls, the final multipliers and the
optimised parameters. -/
theorem C50_freedom (m : Transcription K) (b : Blocks K) (x0 p : List K)
    (theta : List (List K)) (lastU : Option (List K)) (size : PathCon K → Nat)
    (nFinal nTimeless : Nat) (h : Collocatable m) (hb : CollocationData m.dims b)
    (hs : FunctionSizes m size m.dims.nX nFinal nTimeless) (hg : m.gIneq = []) (he : m.gEq = [])
    (hd : m.hasDeltaU = false) :
    ∃ cons cost, m.discretize b x0 p theta lastU = .ok (cons, cost) ∧
      collocationSize m.dims + nFinal + nTimeless = rows cons + sharedSize m.dims := by
  obtain ⟨cons, cost, h1, h2⟩ := C50_count m b x0 p theta lastU size m.dims.nX nFinal nTimeless h hb
    (fun h => by rw [hd] at h; cases h) hs
  refine ⟨cons, cost, h1, ?_⟩
  obtain ⟨n, hn⟩ : ∃ n, m.dims.elements = n + 1 :=
    ⟨m.dims.elements - 1, by have := h.elements; omega⟩
  have hp : pathRows m size = 0 := by simp [pathRows, hg, he]
  rw [h2, hd, hp, collocationSize, hn]
  simp only [Nat.add_sub_cancel, Nat.mul_add, Nat.succ_mul, Nat.mul_zero, Bool.false_eq_true,
    if_false, Nat.add_mul]
  omega

example : ∃ cons cost, exampleTranscription.discretize exampleBlocks [0] [] [] (some [0]) =
    .ok (cons, cost) ∧ rows cons = 1 + 2 * (2 * (1 + 1)) + 1 * 1 + 2 * (2 + 1) + 2 * 1 + 1 + 0 := by
  have hs : FunctionSizes exampleTranscription (fun _ => 1) 1 1 0 := by
    refine ⟨fun _ _ => rfl, ?_, fun _ _ => rfl, fun _ _ _ => rfl, fun _ => rfl⟩
    intro g hg
    simp only [exampleTranscription, List.singleton_append, List.mem_cons, List.not_mem_nil,
      or_false] at hg
    rcases hg with rfl | rfl <;> exact fun _ _ => rfl
  obtain ⟨cons, cost, h1, h2⟩ := C50_count exampleTranscription exampleBlocks [0] [] []
    (some [0]) (fun _ => 1) 1 1 0 exampleTranscription_grid exampleBlocks_data
    (fun _ => exampleRates (some [0]) (by simp)) hs
  refine ⟨cons, cost, h1, h2.trans ?_⟩
  decide +kernel

end Verif
