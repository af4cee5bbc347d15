import Verif.Spec.SolverArgs
import Verif.Lemmas.Collocation
import Verif.Props.Theta
/-!
# C52: the parameter vector of the optimisation problem
-/
namespace Verif
open Spec

namespace MethodSetup
variable {α : Type} [Zero α]

set_option linter.unusedSectionVars false

theorem callArgs_ok_iff (s : MethodSetup α)
    (sim info : List α → Theta α → Except Err (List α)) (a : SolveArgs α) (c : CallArgs α) :
    s.callArgs sim info a = .ok c → s.initialCondition a.x0 = .ok c.x0 ∧
      s.parameterValues a.p = .ok c.p ∧ s.thetaValues a.theta = .ok c.theta ∧
      ∃ thVec parLastU, s.thetaVector c.theta = .ok thVec ∧
        s.lastControl a.lastU = .ok (c.lastU, parLastU) ∧
        c.par = c.p ++ thVec ++ (if s.initialConditionAsParameter then c.x0 else []) ++ parLastU := by
  intro h
  unfold callArgs at h
  cases h1 : s.initialCondition a.x0 with
  | error e => rw [h1] at h; cases h
  | ok x0 =>
    cases h2 : s.parameterValues a.p with
    | error e => rw [h1, h2] at h; cases h
    | ok p =>
      cases h3 : s.thetaValues a.theta with
      | error e => rw [h1, h2, h3] at h; cases h
      | ok th =>
        cases h4 : s.thetaVector th with
        | error e => rw [h1, h2, h3, ok_bind, ok_bind, ok_bind, h4] at h; cases h
        | ok v =>
          cases h5 : s.lastControl a.lastU with
          | error e => rw [h1, h2, h3, ok_bind, ok_bind, ok_bind, h4, ok_bind, h5] at h; cases h
          | ok l =>
            obtain ⟨lu, pl⟩ := l
            rw [h1, h2, h3, ok_bind, ok_bind, ok_bind, h4, ok_bind, h5, ok_bind] at h
            cases hg : a.guessDict with
            | none =>
              simp only [hg] at h
              cases h6 : s.guess a.initialGuess sim info p th with
              | error e => rw [h6] at h; cases h
              | ok g =>
                rw [h6, ok_bind] at h
                cases h
                exact ⟨rfl, rfl, rfl, v, pl, h4, rfl, rfl⟩
            | some d =>
              simp only [hg] at h
              cases h
              exact ⟨rfl, rfl, rfl, v, pl, h4, rfl, rfl⟩

/-- The values of a block of slots. -/
theorem block_values {β : Type} (n : Nat) (f : Nat → β) (v : List α) (value : β → Option α)
    (hv : v.length = n) (h : ∀ i < n, value (f i) = v[i]?) :
    ((List.range n).map f).map value = v.map some := by
  apply List.ext_getElem
  · simp [hv]
  · intro i h1 h2
    have hi : i < n := by simpa using h1
    simp [h i hi, hv, hi]

theorem thetaVector_ok (s : MethodSetup α) (th : Theta α) (v : List α)
    (h : s.thetaVector th = .ok v) :
    (∀ el < s.elements, ∃ w, th.get? el = some w) ∧
      v = (List.range s.elements).flatMap fun el => (th.get? el).getD [] := by
  unfold thetaVector at h
  have key : ∀ (l : List Nat) ws, l.mapM (thetaAt th) = .ok ws →
      (∀ el ∈ l, ∃ w, th.get? el = some w) ∧ ws = l.map fun el => (th.get? el).getD [] := by
    intro l
    induction l with
    | nil => intro ws hw; cases hw; exact ⟨by simp, rfl⟩
    | cons a l ih =>
      intro ws hw
      rw [List.mapM_cons] at hw
      cases ha : th.get? a with
      | none => rw [thetaAt, ha] at hw; cases hw
      | some w =>
        rw [thetaAt, ha, ok_bind] at hw
        cases hl : l.mapM (thetaAt th) with
        | error e => rw [hl] at hw; cases hw
        | ok ws' =>
          rw [hl, ok_bind] at hw
          cases hw
          obtain ⟨h1, h2⟩ := ih ws' hl
          refine ⟨?_, by simp [ha, h2]⟩
          intro el hel
          rcases List.mem_cons.mp hel with rfl | hel
          · exact ⟨w, ha⟩
          · exact h1 el hel
  cases hm : (List.range s.elements).mapM (thetaAt th) with
  | error e => rw [hm] at h; cases h
  | ok ws =>
    rw [hm, ok_bind] at h
    cases h
    obtain ⟨h1, rfl⟩ := key _ ws hm
    exact ⟨fun el hel => h1 el (List.mem_range.mpr hel), by rw [List.flatMap_def]⟩

theorem flatMap_values {β : Type} (n : Nat) (f : Nat → List β) (g : Nat → List α)
    (value : β → Option α) (h : ∀ i < n, (f i).map value = (g i).map some) :
    ((List.range n).flatMap f).map value = ((List.range n).flatMap g).map some := by
  rw [List.map_flatMap, List.map_flatMap]
  exact List.flatMap_congr fun i hi => h i (List.mem_range.mp hi)

theorem parameterValues_length (s : MethodSetup α) (a : SolveArgs α) (p : List α)
    (hs : SizedArgs s a) (h : s.parameterValues a.p = .ok p) : p.length = s.nP := by
  cases hp : a.p with
  | some v => rw [hp] at h; cases h; exact hs.p _ hp
  | none =>
    rw [hp, parameterValues] at h
    split at h
    · next he => cases h; simp [he]
    · split at h
      · cases h
      · cases h; simp; omega

theorem thetaValues_length (s : MethodSetup α) (a : SolveArgs α) (th : Theta α)
    (hs : SizedArgs s a) (h : s.thetaValues a.theta = .ok th) :
    ∀ el < s.elements, ∃ v, th.get? el = some v ∧ v.length = s.nTheta := by
  cases hp : a.theta with
  | some v => rw [hp] at h; cases h; exact hs.theta _ hp
  | none =>
    rw [hp, thetaValues] at h
    have hc : ∀ n, ∀ el < s.elements, (createConstantTheta (0 : α) n s.elements).get? el =
        some (List.replicate n 0) := by
      intro n el hel
      rw [Theta.get?, createConstantTheta, lookup_map_pair, if_pos (List.mem_range.mpr hel)]
    split at h
    · next he =>
      cases h
      intro el hel
      exact ⟨_, hc _ el hel, by simp [he]⟩
    · split at h
      · cases h
      · cases h
        intro el hel
        exact ⟨_, hc _ el hel, by simp; omega⟩

theorem theta_values (s : MethodSetup α) (c : CallArgs α) (thVec : List α)
    (hth : ∀ el < s.elements, ∃ v, c.theta.get? el = some v ∧ v.length = s.nTheta)
    (hv : s.thetaVector c.theta = .ok thVec) :
    ((List.range s.elements).flatMap (fun el => (List.range s.nTheta).map (.theta el))).map
      (slotValue c) = thVec.map some := by
  obtain ⟨-, rfl⟩ := thetaVector_ok s c.theta thVec hv
  apply flatMap_values
  intro el hel
  obtain ⟨v, h1, h2⟩ := hth el hel
  apply block_values
  · rw [h1]; exact h2
  · intro i _
    simp [slotValue, h1]

theorem initialCondition_length (s : MethodSetup α) (x : Option (List α)) (x0 : List α)
    (h : s.initialCondition x = .ok x0) : x0.length = s.nX := by
  unfold initialCondition at h
  split at h
  · cases h
  · next hl => cases h; exact not_not.mp hl

/-- Sizes of the parts. -/
theorem sizes (s : MethodSetup α) (sim info : List α → Theta α → Except Err (List α))
    (a : SolveArgs α) (c : CallArgs α) (hs : SizedArgs s a) (hc : s.callArgs sim info a = .ok c) :
    ∃ parLastU : List α, s.lastControl a.lastU = .ok (c.lastU, parLastU) ∧
      c.par.length = s.nP + s.elements * s.nTheta +
        (if s.initialConditionAsParameter then s.nX else 0) + parLastU.length := by
  obtain ⟨h1, h2, h3, thVec, pl, h4, h5, h6⟩ := callArgs_ok_iff s sim info a c hc
  refine ⟨pl, h5, ?_⟩
  have ht := congrArg List.length (theta_values s c thVec (thetaValues_length s a _ hs h3) h4)
  simp only [List.length_map, List.length_flatMap, List.length_range, List.map_const',
    List.sum_replicate, smul_eq_mul] at ht
  rw [h6]
  simp only [List.length_append, parameterValues_length s a _ hs h2, ← ht]
  split
  · rw [initialCondition_length s _ _ h1]
  · rfl

theorem allSlots_length (s : MethodSetup α) : s.allSlots.length =
    s.nP + s.elements * s.nTheta + s.nX + if s.lastControlAsParameter then s.nU else 0 := by
  unfold allSlots
  split <;> simp <;> omega

end MethodSetup
open MethodSetup

variable {α : Type} [Zero α]

/-- With the initial condition as a parameter (the default), and the last control either no parameter
or the one of the problem, the vector passed to the solver has the size and the order of the
parameters the problem was built with. Missing: other options and a last control given to the call,
where it is false. -/
theorem C52_placed_partial (s : MethodSetup α)
    (sim info : List α → Theta α → Except Err (List α)) (a : SolveArgs α) (c : CallArgs α)
    (hs : SizedArgs s a) (hi : s.initialConditionAsParameter = true)
    (hl : s.lastControlAsParameter = true → a.lastU = none)
    (hc : s.callArgs sim info a = .ok c) : Placed s c := by
  obtain ⟨h1, h2, h3, thVec, pl, h4, h5, h6⟩ := callArgs_ok_iff s sim info a c hc
  have key : s.nlpParameters.map (slotValue c) = c.par.map some := by
    have hhas : s.hasParameters = true := by simp [hasParameters, hi]
    rw [nlpParameters, if_pos hhas, allSlots, h6, if_pos hi]
    simp only [List.map_append]
    rw [block_values s.nP .p c.p (slotValue c) (parameterValues_length s a _ hs h2)
        fun _ _ => rfl,
      theta_values s c thVec (thetaValues_length s a _ hs h3) h4,
      block_values s.nX .x0 c.x0 (slotValue c) (initialCondition_length s _ _ h1) fun _ _ => rfl]
    congr 1
    by_cases hp : s.lastControlAsParameter = true
    · rw [if_pos hp]
      rw [hl hp, lastControl] at h5
      simp only [hp, if_true] at h5
      cases hu : s.problemLastU with
      | none => rw [hu] at h5; cases h5
      | some u =>
        rw [hu] at h5
        simp only [Except.ok.injEq, Prod.mk.injEq] at h5
        obtain ⟨h5, rfl⟩ := h5
        apply block_values _ _ _ _ (hs.lastU u hu)
        intro i _
        simp [slotValue, ← h5]
    · rw [if_neg hp]
      cases hu : a.lastU with
      | some u =>
        rw [hu] at h5
        simp only [lastControl, Except.ok.injEq, Prod.mk.injEq] at h5
        rw [← h5.2]
        rfl
      | none =>
        rw [hu, lastControl] at h5
        simp only [hp, Except.ok.injEq, Prod.mk.injEq, Bool.false_eq_true, if_false] at h5
        rw [← h5.2]
        rfl
  have hlen : c.par.length = s.nlpParameters.length := by
    have := congrArg List.length key
    simpa using this.symm
  refine ⟨hlen, ?_⟩
  intro k slot hk
  have := congrArg (fun l => l[k]?) key
  simp only [List.getElem?_map, hk, Option.map_some] at this
  obtain ⟨hkl, -⟩ := List.getElem?_eq_some_iff.mp hk
  rw [List.getElem?_eq_getElem (by omega), Option.map_some, Option.some.injEq] at this
  rw [this, List.getElem?_eq_getElem (by omega)]

/-- Two parameters, one theta in three elements, one state and the last control of the problem. -/
def exampleSetup : MethodSetup Int :=
  { nX := 1, nU := 1, nP := 2, nTheta := 1, nPOpt := 0, nThetaOpt := 0, elements := 3
    problemX0 := [7], problemLastU := some [9] }

/-- A call of the kind. -/
example : exampleSetup.callArgs
    (fun _ _ => .ok []) (fun _ _ => .ok [])
    { p := some [1, 2], theta := some [(1, [11]), (0, [10]), (2, [12])] } =
    .ok ⟨[], [1, 2, 10, 11, 12, 7, 9], none, none, [1, 2], [(1, [11]), (0, [10]), (2, [12])], [7],
      some [9]⟩ := by decide +kernel

/-- False when a last control is given to a call of a method with the last control as a parameter:
the vector lacks the last control, so the solver call is rejected (C46). -/
theorem C52_given_last_control_fails (s : MethodSetup α)
    (sim info : List α → Theta α → Except Err (List α)) (a : SolveArgs α) (c : CallArgs α)
    (u : List α) (hs : SizedArgs s a) (hi : s.initialConditionAsParameter = true)
    (hl : s.lastControlAsParameter = true) (hu : a.lastU = some u) (hn : 0 < s.nU)
    (hc : s.callArgs sim info a = .ok c) :
    c.par.length + s.nU = s.nlpParameters.length ∧ ¬ Placed s c := by
  obtain ⟨pl, h1, h2⟩ := sizes s sim info a c hs hc
  simp only [hu, lastControl, Except.ok.injEq, Prod.mk.injEq] at h1
  obtain ⟨-, rfl⟩ := h1
  have hhas : s.hasParameters = true := by simp [hasParameters, hi]
  have : c.par.length + s.nU = s.nlpParameters.length := by
    rw [nlpParameters, if_pos hhas, allSlots_length, h2, if_pos hi, if_pos hl]
    simp
  refine ⟨this, fun hp => ?_⟩
  have := hp.1
  omega

/-- False when the initial condition is not a parameter but there are other parameters: the problem
still has the initial state among its parameters, the vector lacks it. -/
theorem C52_initial_condition_fails (s : MethodSetup α)
    (sim info : List α → Theta α → Except Err (List α)) (a : SolveArgs α) (c : CallArgs α)
    (hs : SizedArgs s a) (hi : s.initialConditionAsParameter = false)
    (hp : 0 < s.nP + s.nTheta) (hl : s.lastControlAsParameter = false) (hn : 0 < s.nX)
    (hc : s.callArgs sim info a = .ok c) :
    c.par.length + s.nX = s.nlpParameters.length ∧ ¬ Placed s c := by
  obtain ⟨pl, h1, h2⟩ := sizes s sim info a c hs hc
  have hpl : pl = [] := by
    cases hu : a.lastU with
    | some u =>
      simp only [hu, lastControl, Except.ok.injEq, Prod.mk.injEq] at h1
      exact h1.2.symm
    | none =>
      simp only [hu, lastControl, hl, Except.ok.injEq, Prod.mk.injEq, Bool.false_eq_true,
        if_false] at h1
      exact h1.2.symm
  have hhas : s.hasParameters = true := by simp [hasParameters, hp]
  have : c.par.length + s.nX = s.nlpParameters.length := by
    rw [nlpParameters, if_pos hhas, allSlots_length, h2, hi, hl, hpl]
    simp
  refine ⟨this, fun hp => ?_⟩
  have := hp.1
  omega

omit [Zero α] in
/-- False when there are no parameters at all: the problem is written with symbols for the initial
state that are neither variables nor parameters, so no solver can be built for it. -/
theorem C52_free_symbols_fails (s : MethodSetup α) (hi : s.initialConditionAsParameter = false)
    (hp : s.nP = 0) (ht : s.nTheta = 0) (hl : s.problemLastU = none) (i : Nat) (hn : i < s.nX) :
    ParSlot.x0 i ∈ s.freeSymbols ∧ ParSlot.x0 i ∉ s.nlpParameters := by
  have hhas : s.hasParameters = false := by simp [hasParameters, hi, hp, ht, hl]
  simp [freeSymbols, nlpParameters, hhas, allSlots, hn]

/-- One state and a parameter, or one state and the last control, and two elements. -/
def otherSetup (nP : Nat) (initial last : Bool) : MethodSetup Int :=
  { nX := 1, nU := 1, nP := nP, nTheta := 0, nPOpt := 0, nThetaOpt := 0, elements := 2
    problemX0 := [7], initialConditionAsParameter := initial, lastControlOption := last }

/-- Such setups exist, and the call goes through. -/
example : ((otherSetup 1 false false).callArgs (fun _ _ => .ok []) (fun _ _ => .ok [])
      { p := some [1] }).toOption.map (·.par) = some [1] ∧
    (otherSetup 1 false false).nlpParameters = [.p 0, .x0 0] ∧
    ((otherSetup 0 true true).callArgs (fun _ _ => .ok []) (fun _ _ => .ok [])
      { lastU := some [5] }).toOption.map (·.par) = some [7] ∧
    (otherSetup 0 true true).nlpParameters = [.x0 0, .lastU 0] := by
  decide +kernel

/-- What is missing is reported: an initial condition of the wrong size, parameters or thetas that
are not all optimised, a last control that is a parameter. -/
theorem C52_missing (s : MethodSetup α)
    (sim info : List α → Theta α → Except Err (List α)) (a : SolveArgs α)
    (h : (a.x0.getD s.problemX0).length ≠ s.nX ∨
      (a.p = none ∧ s.nPOpt ≠ s.nP ∧ 0 < s.nP) ∨
      (a.theta = none ∧ s.nThetaOpt ≠ s.nTheta ∧ 0 < s.nTheta) ∨
      (a.lastU = none ∧ s.lastControlAsParameter = true ∧ s.problemLastU = none)) :
    ∃ e, s.callArgs sim info a = .error e := by
  cases hc : s.callArgs sim info a with
  | error e => exact ⟨e, rfl⟩
  | ok c =>
    exfalso
    obtain ⟨h1, h2, h3, thVec, pl, h4, h5, h6⟩ := callArgs_ok_iff s sim info a c hc
    rcases h with h | ⟨hp, hn, h0⟩ | ⟨hp, hn, h0⟩ | ⟨hu, hl, hn⟩
    · rw [initialCondition, if_pos h] at h1; cases h1
    · rw [hp, parameterValues, if_neg hn, if_pos h0] at h2; cases h2
    · rw [hp, thetaValues, if_neg hn, if_pos h0] at h3; cases h3
    · rw [hu, lastControl] at h5
      simp only [hl, hn] at h5
      cases h5

/-- The initial guess is the one in the dictionary, with its multipliers; else the one given; else
that of the heuristic of the method, and an unknown heuristic is reported. -/
theorem C52_guess (s : MethodSetup α)
    (sim info : List α → Theta α → Except Err (List α)) (a : SolveArgs α) (c : CallArgs α)
    (hc : s.callArgs sim info a = .ok c) :
    (∀ x lx lg, a.guessDict = some (x, lx, lg) →
      c.initialGuess = x ∧ c.lamX = some lx ∧ c.lamG = some lg) ∧
    (a.guessDict = none → c.lamX = none ∧ c.lamG = none ∧
      (∀ g, a.initialGuess = some g → c.initialGuess = g) ∧
      (a.initialGuess = none →
        (s.heuristic = "simulation" ∧ sim c.p c.theta = .ok c.initialGuess) ∨
        (s.heuristic = "problem_info" ∧ info c.p c.theta = .ok c.initialGuess))) := by
  unfold callArgs at hc
  cases h1 : s.initialCondition a.x0 with
  | error e => rw [h1] at hc; cases hc
  | ok x0 =>
    cases h2 : s.parameterValues a.p with
    | error e => rw [h1, h2] at hc; cases hc
    | ok p =>
      cases h3 : s.thetaValues a.theta with
      | error e => rw [h1, h2, h3] at hc; cases hc
      | ok th =>
        cases h4 : s.thetaVector th with
        | error e => rw [h1, h2, h3, ok_bind, ok_bind, ok_bind, h4] at hc; cases hc
        | ok v =>
          cases h5 : s.lastControl a.lastU with
          | error e => rw [h1, h2, h3, ok_bind, ok_bind, ok_bind, h4, ok_bind, h5] at hc; cases hc
          | ok l =>
            obtain ⟨lu, pl⟩ := l
            rw [h1, h2, h3, ok_bind, ok_bind, ok_bind, h4, ok_bind, h5, ok_bind] at hc
            cases hg : a.guessDict with
            | none =>
              simp only [hg] at hc
              cases h6 : s.guess a.initialGuess sim info p th with
              | error e => rw [h6] at hc; cases hc
              | ok g =>
                rw [h6, ok_bind] at hc
                cases hc
                refine ⟨by simp, fun _ => ⟨rfl, rfl, ?_, ?_⟩⟩
                · intro g' hg'
                  rw [hg', guess] at h6
                  cases h6
                  rfl
                · intro hn
                  rw [hn, guess] at h6
                  split at h6
                  · next hh => exact .inl ⟨hh, h6⟩
                  · split at h6
                    · next hh => exact .inr ⟨hh, h6⟩
                    · cases h6
            | some d =>
              simp only [hg] at hc
              cases hc
              refine ⟨?_, by simp⟩
              rintro x lx lg ⟨⟩
              exact ⟨rfl, rfl, rfl⟩

end Verif
