import Verif.Lemmas.CollocationExact
import Verif.Props.Collocation
import Mathlib.Algebra.Polynomial.Div
import Mathlib.Tactic.ComputeDegree
import Mathlib.Tactic.IntervalCases
import Mathlib.Tactic.Linarith
import Mathlib.Tactic.Positivity
import Mathlib.Tactic.LinearCombination
/-!
# C158: what collocation solves without error

Exact solutions that are polynomials in every element satisfy the constraints at the same cost. A state
whose right-hand side is a polynomial in time, such as the integral of the cost, is integrated exactly.
-/
namespace Verif

open Spec Transcription Polynomial

variable {K : Type} [Field K] [LinearOrder K] [IsStrictOrderedRing K]

/-- An exact solution with states of degree at most `d` and algebraic variables of degree below `d` in
every element satisfies every constraint when sampled at the collocation points, costs the same, and the
discretised trajectory is the exact one between the points as well. Missing: a horizon that does not start
at zero with functions that depend on the time (`C158_start_fails`). -/
theorem C158_exact_partial (m : Transcription K) (z : PolySolution K) (x0 p : List K)
    (theta : List (List K)) (lastU : Option (List K)) (h : Collocatable m)
    (hc : ClockIrrelevant m) (hz : Representable m z)
    (hr : m.hasDeltaU = true → RatesFit m lastU)
    (hs : SolvesExactly m z x0 (m.fullP (sampled m z) p) (m.fullTheta (sampled m z) theta) lastU) :
    ∃ cons, m.discretize (sampled m z) x0 p theta lastU = .ok (cons,
        exactCost m z (m.fullP (sampled m z) p) (m.fullTheta (sampled m z) theta)) ∧
      (∀ c ∈ cons, c.Holds) ∧
      ∀ el < m.dims.elements, ∀ tau,
        (pointAt m (sampled m z) (m.fullP (sampled m z) p)
            (m.fullTheta (sampled m z) theta) el tau).x =
          ((List.range m.dims.nX).map fun s => (z.x el s).eval tau) ∧
        (pointAt m (sampled m z) (m.fullP (sampled m z) p)
            (m.fullTheta (sampled m z) theta) el tau).y =
          ((List.range m.dims.nY).map fun s => (z.y el s).eval tau) := by
  obtain ⟨cons, h1, h2⟩ := C92_feasible_iff m (sampled m z) x0 p theta lastU h
    (sampled_data m z h.toCollocationGrid hz) hr
  refine ⟨cons, ?_, h2.2 (sampled_collocates m z hc h.toCollocationGrid hz x0 _ _ lastU hs), ?_⟩
  · rw [h1, sampled_cost m z hc h.toCollocationGrid hz]
  · intro el he tau
    rw [sampled_point m z h.toCollocationGrid hz _ _ el he tau]
    exact ⟨rfl, rfl⟩

/-- A state whose right-hand side along the solution is a polynomial of degree below the number of
collocation points is its exact integral, at every position of the element. -/
theorem C158_integral (m : Transcription K) (b : Blocks K) (x0 p : List K)
    (theta : List (List K)) (lastU : Option (List K)) (h : Collocatable m)
    (hb : CollocationData m.dims b) (hr : m.hasDeltaU = true → RatesFit m lastU)
    (cons : List (Con K)) (cost : K) (hd : m.discretize b x0 p theta lastU = .ok (cons, cost))
    (hh : ∀ c ∈ cons, c.Holds) (el : Nat) (he : el < m.dims.elements) (s : Nat) (hs : s < m.dims.nX)
    (Q : K[X]) (hQ : Q.derivative.natDegree < m.dims.degree)
    (hq : ∀ tau ∈ m.roots, (m.ode el (pointAt m b (m.fullP b p) (m.fullTheta b theta) el tau)).getD s 0
      = Q.derivative.eval tau) (tau : K) :
    (through (0 :: m.roots) (b.x.getD el []) s).eval tau =
      ((b.x.getD el []).getD 0 []).getD s 0 + elementLength m * (Q.eval tau - Q.eval 0) := by
  obtain ⟨cons', h1, h2⟩ := C92_feasible_iff m b x0 p theta lastU h hb hr
  rw [hd] at h1
  cases h1
  have hder := state_derivative m b h.toCollocationGrid el s Q.derivative 
    (lt_of_le_of_lt Polynomial.degree_le_natDegree (by exact_mod_cast hQ)) fun tau ht => by
      rw [(h2.1 hh).dynamics el he tau ht s hs, hq tau ht]
  have hz : (through (0 :: m.roots) (b.x.getD el []) s - C (elementLength m) * Q).derivative = 0 := by
    rw [derivative_sub, derivative_C_mul, hder, sub_self]
  have hconst := Polynomial.eq_C_of_derivative_eq_zero hz
  have hev : ∀ t, (through (0 :: m.roots) (b.x.getD el []) s).eval t - elementLength m * Q.eval t =
      (through (0 :: m.roots) (b.x.getD el []) s - C (elementLength m) * Q).coeff 0 := by
    intro t
    have := congrArg (Polynomial.eval t) hconst
    rwa [eval_C, eval_sub, eval_mul, eval_C] at this
  rw [← through_node m b h hb el he s hs 0 (by simp)]
  have e1 := hev tau
  have e2 := hev 0
  simp only [List.getElem_cons_zero]
  linear_combination e1 - e2

/-- With Radau points, a state whose right-hand side along the solution is a polynomial of degree at most
`2 d - 2` is integrated exactly from the start to the end of an element. -/
theorem C158_radau (m : Transcription K) (b : Blocks K) (x0 p : List K)
    (theta : List (List K)) (lastU : Option (List K)) (h : Collocatable m)
    (hb : CollocationData m.dims b) (hr : m.hasDeltaU = true → RatesFit m lastU)
    (cons : List (Con K)) (cost : K) (hd : m.discretize b x0 p theta lastU = .ok (cons, cost))
    (hh : ∀ c ∈ cons, c.Holds) (hg : RadauPoints m.roots)
    (el : Nat) (he : el < m.dims.elements) (s : Nat) (hs : s < m.dims.nX)
    (Q : K[X]) (hQ : Q.derivative.natDegree ≤ 2 * m.dims.degree - 2)
    (hq : ∀ tau ∈ m.roots, (m.ode el (pointAt m b (m.fullP b p) (m.fullTheta b theta) el tau)).getD s 0
      = Q.derivative.eval tau) :
    ((b.x.getD el []).getD m.dims.degree []).getD s 0 =
      ((b.x.getD el []).getD 0 []).getD s 0 + elementLength m * (Q.eval 1 - Q.eval 0) := by
  obtain ⟨cons', h1, h2⟩ := C92_feasible_iff m b x0 p theta lastU h hb hr
  rw [hd] at h1
  cases h1
  have hd1 := h.degree
  have hmon := (nodePoly_monic m.roots).1
  have hdeg := (nodePoly_monic m.roots).2
  rw [h.points] at hdeg
  have hrest : (Q.derivative %ₘ nodePoly m.roots).degree < m.dims.degree := by
    have := Polynomial.degree_modByMonic_lt Q.derivative hmon
    rwa [Polynomial.degree_eq_natDegree hmon.ne_zero, hdeg] at this
  have hsum := Polynomial.modByMonic_add_div Q.derivative (nodePoly m.roots)
  have hder := state_derivative m b h.toCollocationGrid el s (Q.derivative %ₘ nodePoly m.roots) hrest
    fun tau ht => by
      rw [(h2.1 hh).dynamics el he tau ht s hs, hq tau ht]
      conv_lhs => rw [← hsum]
      rw [eval_add, eval_mul, nodePoly_root m.roots tau ht, zero_mul, add_zero]
  have hne := length_pos m h.toCollocationGrid
  have hends := hg (Q.derivative /ₘ nodePoly m.roots)
    (Q - C (elementLength m)⁻¹ * through (0 :: m.roots) (b.x.getD el []) s)
    (by rw [Polynomial.natDegree_divByMonic _ hmon, hdeg, h.points]; omega)
    (by
      rw [derivative_sub, derivative_C_mul, hder, ← mul_assoc, ← C_mul, inv_mul_cancel₀ hne, C_1, one_mul,
        sub_eq_iff_eq_add, add_comm]
      exact hsum.symm)
  rw [eval_sub, eval_sub, eval_mul, eval_mul, eval_C, eval_C] at hends
  have hlast : (0 :: m.roots)[m.dims.degree]'(by simp [h.points]) = 1 := by
    have := h.last
    rw [List.getLast?_eq_getElem?] at this
    obtain ⟨hl1, hl2⟩ := List.getElem?_eq_some_iff.1 this
    rw [← hl2, List.getElem_cons]
    simp [h.points, show m.dims.degree ≠ 0 by omega]
  rw [← through_node m b h hb el he s hs 0 (by simp),
    ← through_node m b h hb el he s hs m.dims.degree (by simp [h.points]), hlast]
  simp only [List.getElem_cons_zero]
  have hinv := mul_inv_cancel₀ hne
  linear_combination -elementLength m * hends -
    ((through (0 :: m.roots) (b.x.getD el []) s).eval 1 -
      (through (0 :: m.roots) (b.x.getD el []) s).eval 0) * hinv

/-- Over the whole horizon: with Radau points a state, such as the integral of the running cost, ends at
its initial value plus the integral of its right-hand side, if that is along the solution a polynomial of
degree at most `2 d - 2` in every element. -/
theorem C158_horizon (m : Transcription K) (b : Blocks K) (x0 p : List K)
    (theta : List (List K)) (lastU : Option (List K)) (h : Collocatable m)
    (hb : CollocationData m.dims b) (hr : m.hasDeltaU = true → RatesFit m lastU)
    (cons : List (Con K)) (cost : K) (hd : m.discretize b x0 p theta lastU = .ok (cons, cost))
    (hh : ∀ c ∈ cons, c.Holds) (hg : RadauPoints m.roots) (s : Nat) (hs : s < m.dims.nX)
    (Q : Nat → K[X])
    (hQ : ∀ el < m.dims.elements, (Q el).derivative.natDegree ≤ 2 * m.dims.degree - 2)
    (hq : ∀ el < m.dims.elements, ∀ tau ∈ m.roots,
      (m.ode el (pointAt m b (m.fullP b p) (m.fullTheta b theta) el tau)).getD s 0
        = (Q el).derivative.eval tau) :
    ((b.x.getD (m.dims.elements - 1) []).getD m.dims.degree []).getD s 0 =
      ((b.x.getD 0 []).getD 0 []).getD s 0 + elementLength m *
        ((List.range m.dims.elements).map fun el => (Q el).eval 1 - (Q el).eval 0).sum := by
  obtain ⟨cons', h1, h2⟩ := C92_feasible_iff m b x0 p theta lastU h hb hr
  have hcont : ∀ el, el + 1 < m.dims.elements →
      (b.x.getD (el + 1) []).getD 0 [] = (b.x.getD el []).getD m.dims.degree [] := by
    rw [hd] at h1
    cases h1
    intro el he
    have hc := (h2.1 hh).continuous el he
    have hl : (b.x.getD el []).length = m.dims.degree + 1 := by
      have he' : el < b.x.length := by rw [hb.x.1]; omega
      rw [List.getD_eq_getElem?_getD, List.getElem?_eq_getElem he']
      exact (hb.x.2 _ (List.getElem_mem he')).1
    rw [List.getLast?_eq_getElem?, hl, List.head?_eq_getElem?, Nat.add_sub_cancel] at hc
    rw [List.getD_eq_getElem?_getD (i := 0), ← hc, ← List.getD_eq_getElem?_getD]
  have hall : ∀ n, n < m.dims.elements →
      ((b.x.getD n []).getD m.dims.degree []).getD s 0 =
        ((b.x.getD 0 []).getD 0 []).getD s 0 + elementLength m *
          ((List.range (n + 1)).map fun el => (Q el).eval 1 - (Q el).eval 0).sum := by
    intro n
    induction n with
    | zero =>
      intro hn
      rw [C158_radau m b x0 p theta lastU h hb hr cons cost hd hh hg 0 hn s hs (Q 0) (hQ 0 hn) (hq 0 hn)]
      simp
    | succ n ih =>
      intro hn
      rw [C158_radau m b x0 p theta lastU h hb hr cons cost hd hh hg (n + 1) hn s hs (Q (n + 1))
        (hQ _ hn) (hq _ hn), hcont n hn, ih (by omega), List.range_succ (n := n + 1), List.map_append,
        List.sum_append]
      simp only [List.map_cons, List.map_nil, List.sum_cons, List.sum_nil]
      ring
  have := hall (m.dims.elements - 1) (Nat.sub_lt h.elements Nat.one_pos)
  rwa [Nat.sub_add_cancel h.elements] at this

/-! ## Examples -/

namespace Example

/-- `x' = t` over the horizon from `t0` to `t0 + 2`, two elements of degree two. -/
def rampTranscription (t0 : Rat) : Transcription Rat where
  dims := ⟨2, 2, 1, 1, 0, 0, 0, 0, 0, 0⟩
  roots := [1/3, 1]
  t0 := t0
  tf := t0 + 2
  ode _ pt := [pt.t]
  alg _ _ := []
  sCost _ _ := 0
  gIneq := [⟨fun _ pt => [-pt.x.headD 0], "default"⟩]
  gEq := []
  hInitial x x0 := [x.headD 0 - x0.headD 0]
  hFinal _ _ _ := []
  h _ := []
  vCost x _ := x.headD 0
  duMin := []
  duMax := []
  pOptIndices := []
  thetaOptIndices := []

/-- Its solution from zero: `(t² - t0²) / 2`. -/
noncomputable def rampSolution (t0 : Rat) : PolySolution Rat where
  x el _ := C ((el : Rat) * t0 + (el : Rat) ^ 2 / 2) + C (t0 + el) * X + C (1 / 2) * X ^ 2
  y _ _ := 0
  u := [[], []]
  eta := []
  pOpt := []
  thetaOpt := [[], []]

theorem ramp_grid (t0 : Rat) : Collocatable (rampTranscription t0) where
  horizon := by simp [rampTranscription]
  elements := by simp [rampTranscription]
  degree := by simp [rampTranscription]
  points := rfl
  increasing := by
    simp only [rampTranscription, List.pairwise_cons, List.forall_mem_cons, List.not_mem_nil,
      false_implies, implies_true, List.Pairwise.nil, and_true]
    norm_num
  last := rfl
  states := by simp [rampTranscription]
  ode _ _ _ := rfl
  tags := by
    intro g hg
    simp only [rampTranscription, List.append_nil, List.mem_cons, List.not_mem_nil,
      or_false] at hg
    subst hg
    rfl

theorem ramp_length (t0 : Rat) : elementLength (rampTranscription t0) = 1 := by
  simp [elementLength, rampTranscription]

theorem ramp_degree (t0 : Rat) (el s : Nat) : ((rampSolution t0).x el s).natDegree ≤ 2 := by
  simp only [rampSolution]
  compute_degree

theorem ramp_representable (t0 : Rat) : Representable (rampTranscription t0) (rampSolution t0) where
  x := ramp_degree t0
  y := by simp [rampSolution, rampTranscription]
  u := by simp [Grid, Columns, rampSolution, rampTranscription, controlPoints]
  eta := rfl
  pOpt := rfl
  thetaOpt := by simp [Columns, rampSolution, rampTranscription]

theorem ramp_solves (t0 : Rat) (h0 : 0 ≤ t0) (p : List Rat) (theta : List (List Rat)) :
    SolvesExactly (rampTranscription t0) (rampSolution t0) [0] p theta none where
  initial := by simp [rampTranscription, exactPoint, rampSolution]
  continuous := by
    intro el he s _
    simp [rampSolution]
    ring
  dynamics := by
    intro el _ tau _ _ s hs
    have : s = 0 := by simp [rampTranscription] at hs; omega
    subst this
    rw [ramp_length]
    simp [rampSolution, rampTranscription, exactPoint, elementLength]
    ring
  algebraic := by simp [rampTranscription]
  rates := by simp [RatesHold, rampTranscription]
  inequalities := by
    intro el _ g hg tau ht v hv
    simp only [rampTranscription, List.mem_singleton] at hg
    subst hg
    have h1 : 0 ≤ tau := by
      rcases ht with ht | ht | ht
      · exact absurd ht.1 (by decide)
      · exact absurd ht.1 (by decide)
      · exact ht.2.1
    simp only [rampTranscription, exactPoint, rampSolution, List.mem_singleton] at hv
    rw [hv]
    have : (0 : Rat) ≤ (el : Rat) * t0 + (el : Rat) ^ 2 / 2 + (t0 + el) * tau + 1 / 2 * tau ^ 2 := by
      positivity
    simp
    linarith
  equalities := by simp [rampTranscription]
  final := by simp [rampTranscription]
  independent := by simp [rampTranscription]

/-- The exact solution over a horizon from zero satisfies the constraints and costs `x(2) = 2`. -/
example : ∃ cons, (rampTranscription 0).discretize (sampled (rampTranscription 0) (rampSolution 0)) [0] [] [] none =
    .ok (cons, 2) ∧ ∀ c ∈ cons, c.Holds := by
  obtain ⟨cons, h1, h2, -⟩ := C158_exact_partial (rampTranscription 0) (rampSolution 0) [0] [] [] none
    (ramp_grid 0) (Or.inl rfl) (ramp_representable 0) (fun h => by cases h)
    (ramp_solves 0 le_rfl _ _)
  refine ⟨cons, ?_, h2⟩
  rw [h1]
  norm_num [exactCost, rampTranscription, exactPoint, rampSolution]

end Example

/-- A horizon that does not start at zero: `x' = t` from 1 to 3 has a solution of degree two, and its
values violate the constraints of the discretised problem, for which the time starts at zero. -/
theorem C158_start_fails :
    ∃ (m : Transcription Rat) (z : PolySolution Rat),
      Collocatable m ∧ Representable m z ∧ m.hasDeltaU = false ∧
      (∀ p theta, SolvesExactly m z [0] p theta none) ∧
      ∃ cons cost, m.discretize (sampled m z) [0] [] [] none = .ok (cons, cost) ∧
        ¬ ∀ c ∈ cons, c.Holds := by
  refine ⟨Example.rampTranscription 1, Example.rampSolution 1, Example.ramp_grid 1,
    Example.ramp_representable 1, rfl, Example.ramp_solves 1 zero_le_one, ?_⟩
  obtain ⟨cons, h1, h2⟩ := C92_feasible_iff (Example.rampTranscription 1)
    (sampled _ (Example.rampSolution 1)) [0] [] [] none (Example.ramp_grid 1)
    (sampled_data _ _ (Example.ramp_grid 1).toCollocationGrid (Example.ramp_representable 1))
    (fun h => by cases h)
  refine ⟨cons, _, h1, fun hh => ?_⟩
  have := (h2.1 hh).dynamics 0 (by simp [Example.rampTranscription]) 1
    (by simp [Example.rampTranscription]) 0 (by simp [Example.rampTranscription])
  rw [sampled_through_x _ _ (Example.ramp_grid 1).toCollocationGrid (Example.ramp_representable 1) 0
    (by simp [Example.rampTranscription]) 0 (by simp [Example.rampTranscription]),
    Example.ramp_length] at this
  norm_num [Example.rampSolution, Example.rampTranscription, pointAt, elementLength] at this

namespace Example

/-- `x' = u`, `c' = x²` with the cost `c` at the end: one element of degree two over `[0, 1]`. -/
def squareTranscription : Transcription Rat where
  dims := ⟨1, 2, 1, 2, 0, 1, 1, 0, 0, 0⟩
  roots := [1/3, 1]
  t0 := 0
  tf := 1
  ode _ pt := [pt.uPar.headD 0, pt.x.headD 0 ^ 2]
  alg _ _ := []
  sCost _ _ := 0
  gIneq := []
  gEq := []
  hInitial x x0 := List.zipWith (· - ·) x x0
  hFinal _ _ _ := []
  h _ := []
  vCost x _ := x.getD 1 0
  duMin := [⊥]
  duMax := [⊤]
  pOptIndices := []
  thetaOptIndices := []

/-- `x = t` and the collocation polynomial `2/3 t² - 1/3 t` for the cost, not its integral `t³ / 3`. -/
def squareBlocks : Blocks Rat where
  x := [[[0, 0], [1/3, -1/27], [1, 1/3]]]
  y := [[[], []]]
  u := [[[1]]]
  eta := []
  pOpt := []
  thetaOpt := [[]]

theorem square_grid : Collocatable squareTranscription where
  horizon := by simp [squareTranscription]
  elements := by simp [squareTranscription]
  degree := by simp [squareTranscription]
  points := rfl
  increasing := by
    simp only [squareTranscription, List.pairwise_cons, List.forall_mem_cons, List.not_mem_nil,
      false_implies, implies_true, List.Pairwise.nil, and_true]
    norm_num
  last := rfl
  states := by simp [squareTranscription]
  ode _ _ _ := rfl
  tags := by simp [squareTranscription]

theorem square_data : CollocationData squareTranscription.dims squareBlocks where
  u := by simp [Grid, Columns, squareBlocks, squareTranscription, controlPoints]
  eta := rfl
  pOpt := rfl
  thetaOpt := by simp [Columns, squareBlocks, squareTranscription]
  x := by simp [Grid, Columns, squareBlocks, squareTranscription]
  y := by simp [Grid, Columns, squareBlocks, squareTranscription]

theorem square_nodup : (0 :: squareTranscription.roots).Nodup :=
  square_grid.increasing.imp fun h => ne_of_lt h

theorem square_through_x :
    through (0 :: squareTranscription.roots) (squareBlocks.x.getD 0 []) 0 = X := by
  refine through_eq square_nodup (by simp [squareTranscription]) fun j hj => ?_
  have : j < 3 := hj
  interval_cases j <;> simp [squareBlocks, squareTranscription]

theorem square_through_c : through (0 :: squareTranscription.roots) (squareBlocks.x.getD 0 []) 1 =
    C (2 / 3) * X ^ 2 - C (1 / 3) * X := by
  refine through_eq square_nodup ?_ fun j hj => ?_
  · refine lt_of_le_of_lt (b := 2) ?_ (by simp [squareTranscription])
    compute_degree
  · have : j < 3 := hj
    interval_cases j <;> norm_num [squareBlocks, squareTranscription]

/-- The points 1/3 and 1 are the Radau points of degree two. -/
theorem radau_two : RadauPoints [(1 / 3 : Rat), 1] := by
  intro r P hr hP
  have h0 : r.natDegree = 0 := by simp at hr; omega
  obtain ⟨a, rfl⟩ := Polynomial.natDegree_eq_zero.1 h0
  have hz : (P - C a * (C (1 / 3) * X ^ 3 - C (2 / 3) * X ^ 2 + C (1 / 3) * X)).derivative = 0 := by
    rw [derivative_sub, hP]
    simp only [List.map_cons, List.map_nil, List.prod_cons, List.prod_nil, mul_one, derivative_C_mul,
      derivative_add, derivative_sub, derivative_X_pow, derivative_X]
    refine Polynomial.funext fun t => ?_
    simp
    ring
  have hconst := Polynomial.eq_C_of_derivative_eq_zero hz
  have e1 := congrArg (Polynomial.eval 1) hconst
  have e0 := congrArg (Polynomial.eval 0) hconst
  simp only [eval_sub, eval_mul, eval_C, eval_add, eval_pow, eval_X] at e1 e0
  linarith

theorem square_collocates :
    Collocates squareTranscription squareBlocks [0, 0] [] [[]] none where
  initial := by simp [squareTranscription, squareBlocks]
  continuous := by simp [squareTranscription]
  dynamics := by
    intro el he tau ht s hs
    have he : el = 0 := by simp [squareTranscription] at he; exact he
    subst he
    have hs : s < 2 := hs
    have hx : ((pointAt squareTranscription squareBlocks [] [[]] 0 tau).x).headD 0 = tau := by
      have : (pointAt squareTranscription squareBlocks [] [[]] 0 tau).x.headD 0 =
          (through (0 :: squareTranscription.roots) (squareBlocks.x.getD 0 []) 0).eval tau := rfl
      rw [this, square_through_x, eval_X]
    have hl : elementLength squareTranscription = 1 := by simp [elementLength, squareTranscription]
    have hroots : tau = 1 / 3 ∨ tau = 1 := by simpa [squareTranscription] using ht
    interval_cases s
    · rw [square_through_x, hl]
      simp [squareTranscription, pointAt, squareBlocks]
    · have : (squareTranscription.ode 0 (pointAt squareTranscription squareBlocks [] [[]] 0 tau)).getD 1 0
          = ((pointAt squareTranscription squareBlocks [] [[]] 0 tau).x).headD 0 ^ 2 := rfl
      rw [square_through_c, hl, this, hx]
      rcases hroots with rfl | rfl <;> norm_num
  algebraic := by simp [squareTranscription]
  rates := by
    intro el he before now hb
    have he : el = 0 := by simp [squareTranscription] at he; exact he
    subst he
    cases hb
  inequalities := by simp [squareTranscription]
  equalities := by simp [squareTranscription]
  final := by simp [squareTranscription]
  independent := by simp [squareTranscription]

/-- The integral of `t²` over `[0, 1]` is 1/3, although its integral is not a polynomial of degree two. -/
example : ((squareBlocks.x.getD 0 []).getD 2 []).getD 1 0 = 0 + 1 * (1 / 3 - 0) := by
  obtain ⟨cons, h1, h2⟩ := C92_feasible_iff squareTranscription squareBlocks [0, 0] [] [[]] none
    square_grid square_data (fun h => by cases h)
  have := C158_radau squareTranscription squareBlocks [0, 0] [] [[]] none square_grid square_data
    (fun h => by cases h) cons _ h1 (h2.2 square_collocates) radau_two 0
    (by simp [squareTranscription]) 1 (by simp [squareTranscription])
    (C (1 / 3) * X ^ 3)
    (by
      simp only [derivative_C_mul, derivative_X_pow, squareTranscription]
      compute_degree)
    (by
      intro tau _
      have : (squareTranscription.ode 0 (pointAt squareTranscription squareBlocks [] [[]] 0 tau)).getD 1 0
          = (through (0 :: squareTranscription.roots) (squareBlocks.x.getD 0 []) 0).eval tau ^ 2 := rfl
      refine this.trans ?_
      rw [square_through_x]
      simp
      ring)
  refine this.trans ?_
  norm_num [squareBlocks, elementLength, squareTranscription]

/-- The state with the constant right-hand side is its integral everywhere. -/
example (tau : Rat) :
    (through (0 :: squareTranscription.roots) (squareBlocks.x.getD 0 []) 0).eval tau =
      0 + 1 * (tau - 0) := by
  obtain ⟨cons, h1, h2⟩ := C92_feasible_iff squareTranscription squareBlocks [0, 0] [] [[]] none
    square_grid square_data (fun h => by cases h)
  have := C158_integral squareTranscription squareBlocks [0, 0] [] [[]] none square_grid square_data
    (fun h => by cases h) cons _ h1 (h2.2 square_collocates) 0
    (by simp [squareTranscription]) 0 (by simp [squareTranscription]) X
    (by simp [squareTranscription])
    (by
      intro tau _
      rw [derivative_X, eval_one]
      rfl) tau
  refine this.trans ?_
  norm_num [squareBlocks, elementLength, squareTranscription]

/-- The final cost over the horizon is the integral of `t²`. -/
example : ((squareBlocks.x.getD (1 - 1) []).getD 2 []).getD 1 0 =
    0 + 1 * ([0].map fun _ => (1 / 3 - 0 : Rat)).sum := by
  obtain ⟨cons, h1, h2⟩ := C92_feasible_iff squareTranscription squareBlocks [0, 0] [] [[]] none
    square_grid square_data (fun h => by cases h)
  have := C158_horizon squareTranscription squareBlocks [0, 0] [] [[]] none square_grid square_data
    (fun h => by cases h) cons _ h1 (h2.2 square_collocates) radau_two
    1 (by simp [squareTranscription]) (fun _ => C (1 / 3) * X ^ 3)
    (by
      intro el _
      simp only [derivative_C_mul, derivative_X_pow, squareTranscription]
      compute_degree)
    (by
      intro el he tau _
      have he : el = 0 := by simp [squareTranscription] at he; exact he
      subst he
      have : (squareTranscription.ode 0 (pointAt squareTranscription squareBlocks [] [[]] 0 tau)).getD 1 0
          = (through (0 :: squareTranscription.roots) (squareBlocks.x.getD 0 []) 0).eval tau ^ 2 := rfl
      refine this.trans ?_
      rw [square_through_x]
      simp
      ring)
  refine this.trans ?_
  norm_num [squareBlocks, elementLength, squareTranscription]

end Example

end Verif
