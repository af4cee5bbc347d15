import Verif.Lemmas.Relax
import Mathlib.Algebra.Order.Ring.Rat
import Mathlib.Tactic.Positivity
import Mathlib.Tactic.Linarith
/-!
# Relaxing constraints for the augmented Lagrangian

C67 algebraic equations, C68 path equalities, C108 bounds of states, C109 each multiplier belongs to
one constraint, C110 guesses.
-/
namespace Verif
open Spec Relax

/-! ### Examples -/

namespace Example

/-- Two algebraic variables `1`, `2` with two equations, one state `0` and one control `3`. -/
def relaxModel : SysModel :=
  { SysModel.new 10 11 with
    x := [0], x0 := [20], y := [1, 2], u := [3], uExpr := [.sym 3], uPar := [3]
    ode := [(0, some (.sym 1))]
    alg := [.sub (.sym 1) (.sym 3), .sub (.sym 2) (.sym 0)] }

/-- Bounds on the algebraic variables and on the state, one path equality. -/
def relaxProblem : Ocp :=
  { Ocp.new relaxModel (some [1]) 0 1 with
    yMin := [XRat.fin (-1), ⊥]
    yMax := [XRat.fin 1, XRat.fin 2]
    xMax := [XRat.fin 3]
    gEq := [.sub (.sym 0) (.sym 3), .sub (.sym 0) (.const 2)]
    timeGEq := ["default", "end"]
    L := .mul (.sym 3) (.sym 3) }

end Example

/-! ### Algebraic equations -/

/-- C67: relaxing algebraic equations makes the chosen variables controls with their bounds, removes
exactly the chosen equations, leaves the system square and adds exactly the terms of the removed
equations to the cost, with new multipliers and new penalty parameters. -/
theorem C67_relaxed_partial (o : Ocp) (next : Sym) (mu0 : Rat) (a : Args)
    (h : Relaxable o (a.alg o) (a.algVar o)) (ht : a.time = []) (hb : a.stateBounds = false) :
    ∃ s', relax mu0 a (start o next) = (.ok (), s') ∧
      AlgebraicRelaxed o s'.problem (a.alg o) (a.algVar o) ∧
      s'.problem.model.alg.length = s'.problem.model.y.length ∧
      s'.relaxedAlg = entriesAt o.model.alg (a.alg o) ∧ s'.relaxedEq = [] ∧
      s'.problem.model.p = o.model.p ++ s'.muSym ∧
      CostPlus o s'.problem s'.nuSym s'.muSym (entriesAt o.model.alg (a.alg o)) := by
  obtain ⟨s', hr, ha⟩ := relaxAlgebraic_run mu0 (a.alg o) (a.algVar o) (start o next) h
  have hadd := added_included mu0 (entriesAt o.model.alg (a.alg o)) (start o next) s'
    ha.nuSym ha.muSym ha.p ha.mu ha.nRelax ha.L
  obtain ⟨nu, mu, e₁, e₂, e₃, -, -, hc⟩ := hadd
  refine ⟨s', ?_, ha.relaxed, ?_, ?_, ?_, ?_, ?_⟩
  · unfold relax
    simp only [Py.bind_eq, Py.get_bind]
    have h₁ : ifEquations (a.alg o) (relaxAlgebraic mu0 (a.alg o) (a.algVar o)) (start o next) =
        (.ok (), s') := by rw [ifEquations_run h.nonempty h.equations.2]; exact hr
    rw [show (start o next).problem = o from rfl, Py.bind_ok h₁, ht, Py.bind_ok (ifEquations_nil ..),
      hb]
    rfl
  · rw [ha.relaxed.alg, ha.relaxed.y]
    have : Positions (start o next).problem.model.alg (a.alg o) := h.equations
    have h₂ : Positions (start o next).problem.model.y (a.algVar o) := h.chosen
    rw [otherEntries_length _ _ this, otherEntries_length _ _ h₂]
    have := h.square
    have := h.same
    simp only [start]; omega
  · rw [ha.relaxedAlg]; rfl
  · rw [ha.relaxedEq]; rfl
  · rw [e₃, e₂]; rfl
  · rw [e₁, e₂]
    exact hc

/-- C67: with zero multipliers the added term is never negative, and it is zero exactly when all
relaxed constraints hold. -/
theorem C67_penalty {K : Type} [Field K] [LinearOrder K] [IsStrictOrderedRing K]
    (mu r : List K) (hm : mu.length = r.length) (hpos : ∀ m ∈ mu, 0 < m) :
    0 ≤ augmentedTerms (List.replicate r.length 0) mu r ∧
      (augmentedTerms (List.replicate r.length 0) mu r = 0 ↔ ∀ e ∈ r, e = 0) := by
  induction r generalizing mu with
  | nil => simp [augmentedTerms]
  | cons e r ih =>
    cases mu with
    | nil => simp at hm
    | cons m mu =>
      have hm' : mu.length = r.length := by simpa using hm
      obtain ⟨h₁, h₂⟩ := ih mu hm' fun k hk => hpos k (by simp [hk])
      have h₃ := hpos m (by simp)
      have hsplit : augmentedTerms (List.replicate (e :: r).length 0) (m :: mu) (e :: r) =
          m / 2 * e ^ 2 + augmentedTerms (List.replicate r.length 0) mu r := by
        simp [augmentedTerms, List.replicate_succ]
      have h₄ : 0 ≤ m / 2 * e ^ 2 := by positivity
      rw [hsplit]
      refine ⟨add_nonneg h₄ h₁, ?_⟩
      rw [add_eq_zero_iff_of_nonneg h₄ h₁, h₂]
      constructor
      · rintro ⟨h₅, h₆⟩ k hk
        rcases List.mem_cons.1 hk with rfl | hk
        · rcases mul_eq_zero.1 h₅ with h | h
          · exact absurd h (by positivity)
          · exact pow_eq_zero_iff (two_ne_zero) |>.1 h
        · exact h₆ k hk
      · intro h
        refine ⟨?_, fun k hk => h k (by simp [hk])⟩
        rw [h e (by simp)]; simp

/-- C67: fails for a problem with a guess for the controls and none for the algebraic variables: the
constructor raises, and the cost of the user's problem has been changed. -/
theorem C67_guess_fails (o : Ocp) (next : Sym) (mu0 : Rat) (a : Args) (g : List Rat)
    (hs : Sized o) (hn : a.alg o ≠ []) (hp : Positions o.model.alg (a.alg o))
    (hv : Positions o.model.y (a.algVar o)) (hu : o.uGuess = some g) (hy : o.yGuess = none) :
    ∃ s', relax mu0 a (start o next) = (.error .valueError, s') ∧ s'.problem.L ≠ o.L := by
  refine ⟨included mu0 (entriesAt o.model.alg (a.alg o))
    { start o next with relaxedAlg := entriesAt o.model.alg (a.alg o) }, ?_, ?_⟩
  · have h₁ := relaxAlgebraic_guess mu0 (a.alg o) (a.algVar o) (start o next) g hs hp.2 hv.2 hu hy
    unfold relax
    simp only [Py.bind_eq, Py.get_bind]
    apply Py.bind_error
    rw [show (start o next).problem = o from rfl, ifEquations_run hn hp.2]
    exact h₁
  · simp only [included, start]
    intro h
    have := congrArg sizeOf h
    simp at this
    omega


example : (relax 1 {} (start Example.relaxProblem 100)).1 = .ok () ∧
    (relax 1 {} (start Example.relaxProblem 100)).2.problem.model.u = [3, 1, 2] ∧
    (relax 1 {} (start Example.relaxProblem 100)).2.problem.model.alg = [] ∧
    (relax 1 {} (start Example.relaxProblem 100)).2.problem.uMax =
      [⊤, XRat.fin 1, XRat.fin 2] := by decide +kernel

/-- The hypotheses of `C67_relaxed_partial` hold for the example and one chosen pair. -/
example : Relaxable Example.relaxProblem [0] [1] where
  sized := by constructor <;> decide
  distinctVariables := by decide
  distinctEquations := by decide
  square := by decide
  nonempty := by decide
  equations := by decide
  chosen := by decide
  same := by decide
  guessSize := fun g h => nomatch (show (none : Option (List Rat)) = some g from h)
  guesses := by decide

example : Sized { Example.relaxProblem with uGuess := some [0] } := by constructor <;> decide

/-! ### Path equalities -/

/-- C68: the path equalities that are not relaxed stay in their order, each with its own tag. The
constructor only does it when the indices are also positions of the algebraic equations that are
left. -/
theorem C68_tags_partial (o : Ocp) (next : Sym) (mu0 : Rat) (a : Args)
    (ha : a.alg o = [] ∨ Relaxable o (a.alg o) (a.algVar o)) (hb : a.stateBounds = false)
    (hn : a.time ≠ []) (ht : Positions o.gEq a.time) (htag : o.timeGEq.length = o.gEq.length)
    (hleft : ∀ i ∈ a.time, i + (a.alg o).length < o.model.alg.length) :
    ∃ s', relax mu0 a (start o next) = (.ok (), s') ∧
      s'.problem.gEq = otherEntries o.gEq a.time ∧
      s'.problem.timeGEq = otherEntries o.timeGEq a.time ∧
      s'.problem.timeGEq.length = s'.problem.gEq.length ∧
      s'.relaxedEq = entriesAt o.gEq a.time := by
  -- the state after the algebraic equations
  have h₁ : ∃ s₁, ifEquations (a.alg o) (relaxAlgebraic mu0 (a.alg o) (a.algVar o)) (start o next) =
      (.ok (), s₁) ∧ s₁.problem.gEq = o.gEq ∧ s₁.problem.timeGEq = o.timeGEq ∧
      s₁.relaxedEq = [] ∧ ∀ i ∈ a.time, i < s₁.problem.model.alg.length := by
    rcases ha with ha | ha
    · refine ⟨start o next, by rw [ha]; rfl, rfl, rfl, rfl, fun i hi => ?_⟩
      have := hleft i hi
      simp only [start]; omega
    · obtain ⟨s₁, hr, hs⟩ := relaxAlgebraic_run mu0 (a.alg o) (a.algVar o) (start o next) ha
      refine ⟨s₁, ?_, hs.relaxed.gEq, hs.relaxed.timeGEq, hs.relaxedEq, fun i hi => ?_⟩
      · rw [ifEquations_run ha.nonempty ha.equations.2]; exact hr
      · have hp : Positions (start o next).problem.model.alg (a.alg o) := ha.equations
        rw [hs.relaxed.alg, otherEntries_length _ _ hp]
        have := hleft i hi
        simp only [start]; omega
  obtain ⟨s₁, h₁, e₁, e₂, e₃, hl⟩ := h₁
  have h₂ := relaxTime_run mu0 a.time s₁ (by rw [e₁]; exact ht) (by rw [e₁, e₂]; exact htag)
  refine ⟨afterTime mu0 a.time s₁, ?_, ?_, ?_, ?_, ?_⟩
  · unfold relax
    simp only [Py.bind_eq, Py.get_bind]
    rw [show (start o next).problem = o from rfl, Py.bind_ok h₁]
    have h₃ : ifEquations a.time (relaxTimeEqualities mu0 a.time) s₁ =
        (.ok (), afterTime mu0 a.time s₁) := by rw [ifEquations_run hn hl]; exact h₂
    rw [Py.bind_ok h₃, hb]
    rfl
  · simp only [afterTime]; rw [e₁]
  · simp only [afterTime]; rw [e₂]
  · simp only [afterTime]
    rw [e₁, e₂, otherEntries_length _ _ ht, otherEntries_length _ _ ⟨ht.1, by
      intro i hi; rw [htag]; exact ht.2 i hi⟩, htag]
  · simp only [afterTime, included]; rw [e₁, e₃, List.nil_append]

example : Positions Example.relaxProblem.gEq [0] ∧
    (relax 1 { algIndex := some [], timeIndex := some [0] } (start Example.relaxProblem 100)).1 =
      .ok () ∧
    (relax 1 { algIndex := some [], timeIndex := some [0] }
      (start Example.relaxProblem 100)).2.problem.timeGEq = ["end"] := by decide +kernel

/-- C68: fails with the default arguments: when all algebraic equations are relaxed no path equality
can be, since the test looks at the algebraic equations that are left. -/
theorem C68_default_fails (o : Ocp) (next : Sym) (mu0 : Rat) (a : Args)
    (hd : a.algIndex = none) (ha : Relaxable o (a.alg o) (a.algVar o)) (hn : a.time ≠ []) :
    (relax mu0 a (start o next)).1 = .error .runtimeError := by
  obtain ⟨s₁, hr, hs⟩ := relaxAlgebraic_run mu0 (a.alg o) (a.algVar o) (start o next) ha
  have h₁ : ifEquations (a.alg o) (relaxAlgebraic mu0 (a.alg o) (a.algVar o)) (start o next) =
      (.ok (), s₁) := by rw [ifEquations_run ha.nonempty ha.equations.2]; exact hr
  have hlen : s₁.problem.model.alg.length = 0 := by
    have hp : Positions (start o next).problem.model.alg (a.alg o) := ha.equations
    rw [hs.relaxed.alg, otherEntries_length _ _ hp]
    have : (a.alg o).length = o.model.y.length := by simp [Args.alg, hd]
    have := ha.square
    simp only [start]; omega
  obtain ⟨i, is, hi⟩ := List.exists_cons_of_ne_nil hn
  unfold relax
  simp only [Py.bind_eq, Py.get_bind]
  rw [show (start o next).problem = o from rfl, Py.bind_ok h₁,
    Py.bind_error (ifEquations_error (i := i) (by rw [hi]; simp) (by omega))]

/-! ### Bounds of states -/

/-- C108: relaxing the bounds of the states makes one new control per bounded state, with the bounds
of that state, removes the bounds of the states and adds the terms of `copy - x` to the cost. -/
theorem C108_copies_partial (o : Ocp) (next : Sym) (mu0 : Rat) (a : Args) (hs : Sized o)
    (ha : a.alg o = []) (ht : a.time = []) (hb : a.stateBounds = true) (hg : o.uGuess = none) :
    ∃ s' copies, relax mu0 a (start o next) = (.ok (), s') ∧
      copies.length = (boundedStates o).length ∧ copies.Nodup ∧ (∀ c ∈ copies, next ≤ c) ∧
      s'.problem.model.u = o.model.u ++ copies ∧
      s'.problem.uMin = o.uMin ++ entriesAt o.xMin (boundedStates o) ∧
      s'.problem.uMax = o.uMax ++ entriesAt o.xMax (boundedStates o) ∧
      s'.problem.xMin = List.replicate o.model.x.length ⊥ ∧
      s'.problem.xMax = List.replicate o.model.x.length ⊤ ∧
      s'.problem.model.x = o.model.x ∧ s'.problem.model.ode = o.model.ode ∧
      s'.problem.model.alg = o.model.alg ∧
      CostPlus o s'.problem s'.nuSym s'.muSym (copyEquations o copies (boundedStates o)) := by
  obtain ⟨s', hr, h⟩ := relaxStates_loop mu0 (List.range o.model.x.length) (start o next)
    List.nodup_range hg (by simp [start]) hs.xMin hs.xMax
  obtain ⟨copies, c₁, c₂, c₃, -, c₅, -, nu, mu, e₁, e₂, -, -, -, c₇⟩ := h.added
  refine ⟨s', copies, ?_, c₁, c₃, c₂, c₅, h.uMin, h.uMax, ?_, ?_, h.x, h.ode, h.alg, ?_⟩
  · unfold relax
    simp only [Py.bind_eq, Py.get_bind]
    rw [show (start o next).problem = o from rfl, ha, Py.bind_ok (ifEquations_nil ..), ht,
      Py.bind_ok (ifEquations_nil ..), hb]
    exact hr
  · apply List.ext_getElem?
    intro i
    rw [h.xMin i, List.getElem?_replicate]
    by_cases hi : i < o.model.x.length
    · simp [hi]
    · have hl : (start o next).problem.xMin.length ≤ i := by
        simp only [start]; have := hs.xMin; omega
      simp [hi, List.getElem?_eq_none hl]
  · apply List.ext_getElem?
    intro i
    rw [h.xMax i, List.getElem?_replicate]
    by_cases hi : i < o.model.x.length
    · simp [hi]
    · have hl : (start o next).problem.xMax.length ≤ i := by
        simp only [start]; have := hs.xMax; omega
      simp [hi, List.getElem?_eq_none hl]
  · rw [e₁, e₂]
    exact c₇

example : boundedStates Example.relaxProblem = [0] ∧
    (relax 1 { algIndex := some [], stateBounds := true } (start Example.relaxProblem 100)).1 =
      .ok () := by decide +kernel

/-- C108: fails when the problem has a guess for its controls: the new controls have none, and the
constructor raises. -/
theorem C108_guess_fails (o : Ocp) (next : Sym) (mu0 : Rat) (a : Args) (g : List Rat) (hs : Sized o)
    (ha : a.alg o = []) (ht : a.time = []) (hb : a.stateBounds = true) (hg : o.uGuess = some g)
    (hx : boundedStates o ≠ []) :
    (relax mu0 a (start o next)).1 = .error .valueError := by
  have key : ∀ is : List Nat, (∀ i ∈ is, i < o.model.x.length) → is.filter (BoundedState o) ≠ [] →
      (Py.forEach is (relaxStateAt mu0) (start o next)).1 = .error .valueError := by
    intro is hi hne
    induction is with
    | nil => exact absurd rfl hne
    | cons i is ih =>
      have hix := hi i (by simp)
      have hi₁ : i < o.xMin.length := by rw [hs.xMin]; exact hix
      have hi₂ : i < o.xMax.length := by rw [hs.xMax]; exact hix
      have e₁ : entry o.xMax i = .ok o.xMax[i] := by
        unfold entry; rw [List.getElem?_eq_getElem hi₂]
      have e₂ : entry o.xMin i = .ok o.xMin[i] := by
        unfold entry; rw [List.getElem?_eq_getElem hi₁]
      have e₃ : entry o.model.x i = .ok o.model.x[i] := by
        unfold entry; rw [List.getElem?_eq_getElem hix]
      have hstep : relaxStateAt mu0 i (start o next) = if BoundedState o i then
          relaxState mu0 i o.model.x[i] o.xMin[i] o.xMax[i] (start o next)
          else (.ok (), start o next) := by
        unfold relaxStateAt
        simp only [Py.bind_eq, Py.get_bind]
        rw [show (start o next).problem = o from rfl]
        simp only [e₁, e₂, e₃, Py.lift_ok_bind]
        unfold BoundedState
        simp only [List.getElem?_eq_getElem hi₂, List.getElem?_eq_getElem hi₁, ne_eq,
          Option.some.injEq, Bool.or_eq_true, decide_eq_true_eq]
        split <;> rfl
      unfold Py.forEach
      by_cases hbi : BoundedState o i = true
      · rw [if_pos hbi] at hstep
        have h₁ := relaxState_guess mu0 i o.model.x[i] o.xMin[i] o.xMax[i] (start o next) g hg
        rw [← hstep] at h₁
        rw [Py.bind_error (s' := (relaxStateAt mu0 i (start o next)).2)
          (show relaxStateAt mu0 i (start o next) = _ from Prod.ext h₁ rfl)]
      · rw [if_neg hbi] at hstep
        rw [Py.bind_ok hstep]
        rw [List.filter_cons_of_neg hbi] at hne
        exact ih (fun j hj => hi j (by simp [hj])) hne
  unfold relax
  simp only [Py.bind_eq, Py.get_bind]
  rw [show (start o next).problem = o from rfl, ha, Py.bind_ok (ifEquations_nil ..), ht,
    Py.bind_ok (ifEquations_nil ..), hb]
  exact key (List.range o.model.x.length) (by simp) hx

/-! ### One multiplier per constraint -/

/-- C109: the multiplier at a position of the vector of multipliers multiplies, in the cost, the
constraint at that position of the vector of violations with which it is updated. For every
construction that returns and does not relax both path equalities and bounds of states. -/
theorem C109_own_multiplier_partial (o : Ocp) (next : Sym) (mu0 : Rat) (a : Args) (s' : Relax)
    (h : relax mu0 a (start o next) = (.ok (), s')) (hn : a.time = [] ∨ a.stateBounds = false) :
    CostPlus o s'.problem s'.nuSym s'.muSym (s'.relaxedAlg ++ s'.relaxedEq) ∧
      s'.problem.model.p = o.model.p ++ s'.muSym ∧
      s'.nRelax = (s'.relaxedAlg ++ s'.relaxedEq).length := by
  obtain ⟨r₁, r₂, r₃, ⟨⟨nu, mu, e₁, e₂, e₃, -, e₅, hc⟩, ea, ee⟩, h₂, h₃⟩ := grows_relax h
  have hr : s'.relaxedAlg ++ s'.relaxedEq = r₁ ++ r₂ ++ r₃ := by
    rw [ea, ee]
    rcases hn with hn | hn
    · rw [h₂ hn]; simp [start]
    · rw [h₃ hn]; simp [start]
  rw [hr, e₁, e₂, e₃, e₅]
  refine ⟨?_, by simp [start], by simp [start]⟩
  simpa [start] using hc

namespace Example

/-- Both the path equality and the bound of the state are relaxed. -/
def relaxBoth : Args := { algIndex := some [], timeIndex := some [0], stateBounds := true }

/-- The object after the construction. -/
def relaxedBoth : Relax := (relax 1 relaxBoth (start relaxProblem 100)).2

/-- Values of the symbols: the path equality is violated by 1, the copy of the state agrees with it,
the multiplier of the path equality is 1. -/
def relaxValues (s : Sym) : Rat := if s = 3 then 1 else if s = 100 then 1 else 0

end Example

/-- C109: fails when path equalities and bounds of states are relaxed: the multipliers are stored in
the order of the relaxations, the violations with all path equalities last. -/
theorem C109_order_fails :
    relax 1 Example.relaxBoth (start Example.relaxProblem 100) = (.ok (), Example.relaxedBoth) ∧
    ¬ CostPlus Example.relaxProblem Example.relaxedBoth.problem Example.relaxedBoth.nuSym
      Example.relaxedBoth.muSym (Example.relaxedBoth.relaxedAlg ++ Example.relaxedBoth.relaxedEq) := by
  refine ⟨by decide +kernel, ?_⟩
  rintro ⟨-, -, h⟩
  have := h Rat ⟨fun _ a => a, fun _ a _ => a⟩ Example.relaxValues
  revert this
  decide +kernel

/-! ### Guesses -/

/-- C110: with the same indices for equations and variables, the new controls get the guesses the
algebraic variables had. -/
theorem C110_guess_partial (o : Ocp) (next : Sym) (mu0 : Rat) (a : Args) (gy gu : List Rat)
    (h : Relaxable o (a.alg o) (a.algVar o)) (ht : a.time = []) (hb : a.stateBounds = false)
    (hi : a.algVarIndex = none) (hy : o.yGuess = some gy) (hu : o.uGuess = some gu)
    (hne : o.model.u ≠ []) :
    (relax mu0 a (start o next)).2.problem.uGuess = some (gu ++ entriesAt gy (a.algVar o)) ∧
      (relax mu0 a (start o next)).2.problem.yGuess = some (otherEntries gy (a.algVar o)) := by
  obtain ⟨s', hr, ha⟩ := relaxAlgebraic_run mu0 (a.alg o) (a.algVar o) (start o next) h
  have h₁ : ifEquations (a.alg o) (relaxAlgebraic mu0 (a.alg o) (a.algVar o)) (start o next) =
      (.ok (), s') := by rw [ifEquations_run h.nonempty h.equations.2]; exact hr
  have h₂ : relax mu0 a (start o next) = (.ok (), s') := by
    unfold relax
    simp only [Py.bind_eq, Py.get_bind]
    rw [show (start o next).problem = o from rfl, Py.bind_ok h₁, ht, Py.bind_ok (ifEquations_nil ..),
      hb]
    rfl
  have e : a.algVar o = a.alg o := by simp [Args.algVar, hi]
  rw [h₂]
  refine ⟨?_, ?_⟩
  · rw [ha.uGuess, e]
    simp only [start, hy, hu, Option.map_some, Ocp.controlGuess]
    rw [if_neg]
    exact fun hl => hne (List.length_eq_zero_iff.1 hl)
  · rw [ha.yGuess]
    simp only [start, hy, Option.map_some]

example : Relaxable { Example.relaxProblem with yGuess := some [5, 6], uGuess := some [7] } [0] [0] where
  sized := by constructor <;> decide
  distinctVariables := by decide
  distinctEquations := by decide
  square := by decide
  nonempty := by decide
  equations := by decide
  chosen := by decide
  same := by decide
  guessSize := by intro g h; cases h; rfl
  guesses := by decide

/-- C110: fails when variables and equations have different indices: the control made of the second
algebraic variable gets the guess of the first. -/
theorem C110_index_fails :
    (relax 1 { algIndex := some [0], algVarIndex := some [1] }
      (start { Example.relaxProblem with yGuess := some [5, 6], uGuess := some [7] } 100)).1 = .ok () ∧
    (relax 1 { algIndex := some [0], algVarIndex := some [1] }
      (start { Example.relaxProblem with yGuess := some [5, 6], uGuess := some [7] } 100)
      ).2.problem.model.u = [3, 2] ∧
    (relax 1 { algIndex := some [0], algVarIndex := some [1] }
      (start { Example.relaxProblem with yGuess := some [5, 6], uGuess := some [7] } 100)
      ).2.problem.uGuess = some [7, 5] := by decide +kernel

end Verif
