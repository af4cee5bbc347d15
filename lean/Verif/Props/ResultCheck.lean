import Verif.Spec.ResultCheck
import Verif.Lemmas.Dict
/-!
# C171: `is_valid` tells whether a result is valid
-/
namespace Verif
open ResultCheck

theorem ResultCheck.checkNumber_ok (a : Attrs) (name : String) :
    checkNumber a name = .ok () ↔ ∃ r : Rat, 0 ≤ r ∧ Dict.get? a name = some (.num r) := by
  unfold checkNumber getattr
  cases Dict.get? a name with
  | none => simp [bind, Except.bind]
  | some v =>
    cases v with
    | num r =>
      by_cases h : r < 0
      · simp [bind, Except.bind, below, refuseIf, h]
      · simp [bind, Except.bind, below, refuseIf, h, not_lt.mp h]
    | _ => simp [bind, Except.bind, below]

theorem ResultCheck.bind_ok_iff {α : Type} (x : Except Err Unit) (f : Unit → Except Err α) (r : α) :
    (x >>= f) = .ok r ↔ x = .ok () ∧ f () = .ok r := by
  cases x with
  | error e => simp [bind, Except.bind]
  | ok u => simp [bind, Except.bind]

/-- `is_valid` is true exactly for a result in order that has an attribute `objective`; otherwise it
raises, it is never false. -/
theorem C171_check_partial (a : Attrs) :
    (isValid a = .ok true ↔ Spec.ValidResult a) ∧ isValid a ≠ .ok false := by
  have key : ∀ r, isValid a = .ok r ↔ Spec.ValidResult a ∧ r = true := by
    intro r
    unfold isValid Spec.ValidResult
    simp only [bind_ok_iff, checkNumber_ok, List.forall_mem_cons, List.not_mem_nil, false_imp_iff,
      implies_true, and_true]
    unfold getattr
    cases Dict.get? a "time_breakpoints" with
    | none => simp [bind, Except.bind]
    | some p =>
      cases p with
      | list l =>
        cases Dict.get? a "objective" with
        | none => cases l <;> simp [bind, Except.bind, lengthOf, refuseIf]
        | some v => cases l <;> cases v <;> cases r <;> simp [bind, Except.bind, lengthOf, refuseIf, and_assoc]
      | _ => simp [bind, Except.bind, lengthOf]
  exact ⟨by rw [key]; simp, by rw [Ne, key]; simp⟩

/-- No result of a method has the attribute `objective`: the check of a result raises, whatever has been
solved and with whatever options. -/
theorem C171_created_fails (elements degree degreeControl : Nat) (breakpoints : List Rat)
    (t0 tf objective : Rat) :
    isValid (created elements degree degreeControl breakpoints t0 tf objective) =
      if t0 < 0 ∨ tf < 0 ∨ breakpoints = [] then .error .exception else .error .attributeError := by
  have hn (n : Nat) : ¬ (n : Rat) < 0 := not_lt.mpr (Nat.cast_nonneg n)
  have h1 : Dict.get? (created elements degree degreeControl breakpoints t0 tf objective)
    "finite_elements" = some (.num elements) := rfl
  have h2 : Dict.get? (created elements degree degreeControl breakpoints t0 tf objective)
    "degree" = some (.num degree) := rfl
  have h3 : Dict.get? (created elements degree degreeControl breakpoints t0 tf objective)
    "degree_control" = some (.num degreeControl) := rfl
  have h4 : Dict.get? (created elements degree degreeControl breakpoints t0 tf objective)
    "t_0" = some (.num t0) := rfl
  have h5 : Dict.get? (created elements degree degreeControl breakpoints t0 tf objective)
    "t_f" = some (.num tf) := rfl
  have h6 : Dict.get? (created elements degree degreeControl breakpoints t0 tf objective)
    "time_breakpoints" = some (.list breakpoints) := rfl
  have h7 : Dict.get? (created elements degree degreeControl breakpoints t0 tf objective)
    "objective" = none := rfl
  unfold isValid checkNumber getattr
  simp only [h1, h2, h3, h4, h5, h6, h7, bind, Except.bind, below, refuseIf]
  simp only [hn, decide_false, Bool.false_eq_true, if_false]
  by_cases h0 : t0 < 0
  · simp [h0]
  · by_cases hf : tf < 0
    · simp [h0, hf]
    · cases breakpoints <;> simp [h0, hf, lengthOf]

/-- A fresh result raises `TypeError`: `None` is compared with a number. -/
theorem C171_fresh_fails : isValid (new []) = .error .typeError := rfl

/-- With the objective given by hand the check passes; a negative initial time is refused. -/
example : Spec.ValidResult (Dict.update (created 10 3 1 [0, 1] 0 1 7) [("objective", .num 7)]) :=
  (C171_check_partial _).1.mp rfl

example : isValid (Dict.update (created 10 3 1 [-1, 1] (-1) 1 7) [("objective", .num 7)]) =
    .error .exception := rfl

example : isValid (created 10 3 1 [0, 1] 0 1 7) = .error .attributeError := rfl

end Verif
