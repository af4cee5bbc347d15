import Verif.Props.Nlp
/-!
# C45, C46: the solver and its arguments
-/
namespace Verif
open Spec

namespace Nlp

theorem solver_kept (c : Call) (n : Nlp) (d : NlpDict) (h : n.solver = some d) :
    (c.run n).2.solver = some d := by
  refine call_cases c n (fun n => n.solver = some d) h fun n' hr => ?_
  have hv : ∀ v lb ub, includeVariable v lb ub n = (.ok (), n') → n'.solver = some d := by
    intro v lb ub hr
    obtain ⟨l, u, -, -, -, -, -, -, rfl⟩ := includeVariable_ok_iff.mp hr
    exact h
  have hi : ∀ e c lb ub, includeInequality e c lb ub n = (.ok (), n') → n'.solver = some d := by
    intro e c lb ub hr
    obtain ⟨-, -, -, -, -, rfl⟩ := includeInequality_ok_iff.mp hr
    exact h
  have he : ∀ e c r, includeEquality e c r n = (.ok (), n') → n'.solver = some d := by
    intro e c r hr
    obtain ⟨-, -, -, rfl⟩ := includeEquality_ok_iff.mp hr
    exact h
  cases c with
  | includeVariable v lb ub => exact hv v lb ub hr
  | createVariable v lb ub => exact hv v _ _ hr
  | includeParameter v =>
    simp only [Call.run, includeParameter, Py.modify_ok] at hr
    subst hr
    exact h
  | setObjective e =>
    simp only [Call.run, setObjective, Py.bind_eq, Py.raiseIf_bind_ok, Py.modify_ok] at hr
    obtain ⟨-, rfl⟩ := hr
    exact h
  | includeInequality e c lb ub => exact hi e c lb ub hr
  | includeEquality e c r => exact he e c r hr
  | includeConstraint q op l r =>
    obtain ⟨e, c, -, h' | h' | h'⟩ := includeConstraint_ok hr
    · exact he _ _ _ h'.2
    · exact hi _ _ _ _ h'.2.2
    · exact hi _ _ _ _ h'.2.2
  | getSolver =>
    simp only [Call.run, discard, Py.bind, getSolver, h, Py.pure, Prod.mk.injEq, true_and] at hr
    subst hr
    exact h

theorem after_append (a b : List Call) (n : Nlp) : after (a ++ b) n = after b (after a n) := by
  induction a generalizing n with
  | nil => rfl
  | cons c a ih => exact ih _

theorem solver_after (calls : List Call) (n : Nlp) (d : NlpDict) (h : n.solver = some d) :
    (after calls n).solver = some d := by
  induction calls generalizing n with
  | nil => exact h
  | cons c cs ih => exact ih _ (solver_kept c n d h)

end Nlp
open Nlp

/-- C45, what the code does. The solver used after any history is that of the problem at the time of
the first solve. -/
theorem C45_first_partial (pre post : List Nlp.Call) (n : Nlp) (h : (after pre n).solver = none) :
    (getSolver (after (pre ++ .getSolver :: post) n)).1 = .ok (after pre n).problemDict := by
  rw [after_append]
  have : (after (Nlp.Call.getSolver :: post) (after pre n)).solver = some (after pre n).problemDict := by
    refine solver_after post _ _ ?_
    simp only [Call.run, Nlp.discard, Py.bind, getSolver, h, Py.pure]
  simp only [getSolver, this]

/-- C45, proved part. Before any solve the solver is that of the current problem, and afterwards it is
as long as variables, constraints, parameters and objective are those of the first solve. -/
theorem C45_current_partial (pre post : List Nlp.Call) (n : Nlp) (h : (after pre n).solver = none) :
    (getSolver (after pre n)).1 = .ok (after pre n).problemDict ∧
    ((after (pre ++ .getSolver :: post) n).problemDict = (after pre n).problemDict ↔
      (getSolver (after (pre ++ .getSolver :: post) n)).1 =
        .ok (after (pre ++ .getSolver :: post) n).problemDict) := by
  rw [C45_first_partial pre post n h]
  refine ⟨by simp [getSolver, h], ?_⟩
  rw [Except.ok.injEq, eq_comm]

/-- C45 fails. A constraint included after a solve is not in the solver used by the next one, while
the bounds passed to it have one entry more than the solver has constraints. -/
theorem C45_current_fails : ∃ calls : List Nlp.Call,
    ∀ s, (getSolver (after calls {})).1 = .ok s → s ≠ (after calls {}).problemDict ∧
      s.g.length ≠ (after calls {}).gLb.length := by
  refine ⟨[.includeVariable [1] (.float ⊥) (.float ⊤), .setObjective [.mul (.sym 1) (.sym 1)],
    .getSolver, .includeEquality [.sym 1] 1 (some (.int 1))], ?_⟩
  intro s hs
  have h : (getSolver (after [.includeVariable [1] (.float ⊥) (.float ⊤),
    .setObjective [.mul (.sym 1) (.sym 1)], .getSolver,
    .includeEquality [.sym 1] 1 (some (.int 1))] {})).1 =
    .ok ⟨some (.mul (.sym 1) (.sym 1)), [], [1], []⟩ := by rfl
  rw [h] at hs
  cases hs
  decide +kernel

/-- A history that meets the hypothesis: nothing has been solved before the first solve. -/
example : (after Example.nlpHistory {}).solver = none := by decide +kernel

namespace Nlp

theorem assign_run (r : Nat) (k : String) (v : List BVal) (h : Heap) :
    assign r k v h = (.ok (), h.modify r fun d => d.set k v) := rfl

theorem modify_last {α : Type} (l : List α) (a : α) (f : α → α) :
    (l ++ [a]).modify l.length f = l ++ [f a] := by
  induction l with
  | nil => rfl
  | cons b l ih => simpa using ih

/-- The dictionary after the optional assignment. -/
def setIf (k : String) (v : Option (List BVal)) (d : CallDict) : CallDict :=
  match v with
  | none => d
  | some v => d.set k v

theorem assignIf_last (h : Heap) (d : CallDict) (k : String) (v : Option (List BVal)) :
    assignIf h.length k v (h ++ [d]) = (.ok (), h ++ [setIf k v d]) := by
  cases v with
  | none => rfl
  | some v => simp [assignIf, Py.whenSome, assign_run, setIf, modify_last]

theorem assign_last (h : Heap) (d : CallDict) (k : String) (v : List BVal) :
    assign h.length k v (h ++ [d]) = (.ok (), h ++ [d.set k v]) := by
  simp [assign_run, modify_last]

theorem get?_setIf (k k' : String) (v : Option (List BVal)) (d : CallDict) :
    (setIf k v d).get? k' = if k' = k then v.or (d.get? k') else d.get? k' := by
  cases v with
  | none => simp [setIf]
  | some v => simp [setIf, Dict.get?_set]

/-- The heap in which the arguments are copied, and the dictionary that is copied. -/
def source (n : Nlp) (cd : Option Nat) (h : Heap) : Heap × CallDict :=
  match cd with
  | some r => (h, h[r]?.getD [])
  | none => (h ++ [n.defaultCallDict], n.defaultCallDict)

theorem callArgs_run (n : Nlp) (guess : Option (List BVal)) (cd : Option Nat)
    (p lamX lamG : Option (List BVal)) (h : Heap) :
    callArgs n guess cd p lamX lamG h =
      (if (p.getD []).length = n.p.length then .ok (source n cd h).1.length else .error .valueError,
       (source n cd h).1 ++ [(setIf "lam_g0" lamG (setIf "lam_x0" lamX
          (setIf "x0" guess (source n cd h).2))).set "p" (p.getD [])]) := by
  have h₁ : callDictOr n cd h = (.ok (match cd with | some r => r | none => h.length),
      (source n cd h).1) := by cases cd <;> rfl
  have h₂ : (source n cd h).1[match cd with | some r => r | none => h.length]?.getD [] =
      (source n cd h).2 := by
    cases cd with
    | some r => rfl
    | none => simp [source]
  unfold callArgs
  simp only [Py.bind_eq]
  rw [Py.bind_ok h₁]
  generalize (match cd with | some r => r | none => h.length) = r₀ at h₂
  generalize source n cd h = hd at h₂ ⊢
  obtain ⟨h', d⟩ := hd
  simp only at h₂ ⊢
  rw [Py.bind_ok (s' := h') (a := d) (by simp [deref, h₂]),
    Py.bind_ok (show alloc d h' = (.ok h'.length, h' ++ [d]) from rfl),
    Py.bind_ok (assignIf_last _ _ _ _), Py.bind_ok (assignIf_last _ _ _ _),
    Py.bind_ok (assignIf_last _ _ _ _), Py.bind_ok (assign_last _ _ _ _)]
  by_cases hp : (p.getD []).length = n.p.length
  · rw [if_pos hp, Py.bind_ok (a := ()) (s' := _) (by simp [Py.raiseIf, hp]; rfl)]
    rfl
  · rw [if_neg hp, Py.bind_error (e := .valueError) (s' := _) (by simp [Py.raiseIf, hp]; rfl)]

end Nlp

/-- The dictionary the arguments start from: the caller's, or the bounds of the problem. -/
def Spec.givenOrDefault (n : Nlp) (h : Nlp.Heap) : Option Nat → Nlp.CallDict
  | some r => h[r]?.getD []
  | none => [("lbx", n.xLb), ("ubx", n.xUb), ("lbg", n.gLb), ("ubg", n.gUb)]

/-- C46. When the parameter vector has the size of the problem's parameters, the arguments are those
of the given dictionary (by default the bounds of the problem), with the initial point and the
multipliers replaced exactly when they are given, and the parameter vector. -/
theorem C46_arguments (n : Nlp) (guess : Option (List BVal)) (cd : Option Nat)
    (p lamX lamG : Option (List BVal)) (h : Nlp.Heap)
    (hp : (p.getD []).length = n.p.length) :
    ∃ r h' d, callArgs n guess cd p lamX lamG h = (.ok r, h') ∧ h'[r]? = some d ∧
      d.get? "p" = some (p.getD []) ∧
      d.get? "x0" = guess.or ((givenOrDefault n h cd).get? "x0") ∧
      d.get? "lam_x0" = lamX.or ((givenOrDefault n h cd).get? "lam_x0") ∧
      d.get? "lam_g0" = lamG.or ((givenOrDefault n h cd).get? "lam_g0") ∧
      ∀ k, k ∉ ["p", "x0", "lam_x0", "lam_g0"] → d.get? k = (givenOrDefault n h cd).get? k := by
  have hd : (source n cd h).2 = givenOrDefault n h cd := by cases cd <;> rfl
  rw [callArgs_run, if_pos hp]
  refine ⟨_, _, _, rfl, by simp; rfl, ?_⟩
  rw [← hd]
  refine ⟨?_, ?_, ?_, ?_, fun k hk => ?_⟩
  · simp [Dict.get?_set]
  · simp [Dict.get?_set, get?_setIf]
  · simp [Dict.get?_set, get?_setIf]
  · simp [Dict.get?_set, get?_setIf]
  · simp only [List.mem_cons, List.not_mem_nil, or_false, not_or] at hk
    simp [Dict.get?_set, get?_setIf, hk]

/-- C46. Without a given dictionary all four bounds are passed. -/
theorem C46_default_bounds (n : Nlp) (guess : Option (List BVal)) (p lamX lamG : Option (List BVal))
    (h : Nlp.Heap) (hp : (p.getD []).length = n.p.length) :
    ∃ r h' d, callArgs n guess none p lamX lamG h = (.ok r, h') ∧ h'[r]? = some d ∧
      d.get? "lbx" = some n.xLb ∧ d.get? "ubx" = some n.xUb ∧ d.get? "lbg" = some n.gLb ∧
      d.get? "ubg" = some n.gUb := by
  obtain ⟨r, h', d, h₁, h₂, -, -, -, -, h₃⟩ := C46_arguments n guess none p lamX lamG h hp
  exact ⟨r, h', d, h₁, h₂, h₃ "lbx" (by decide), h₃ "ubx" (by decide), h₃ "lbg" (by decide),
    h₃ "ubg" (by decide)⟩

/-- C46. A parameter vector of another size is rejected. -/
theorem C46_parameter_size (n : Nlp) (guess : Option (List BVal)) (cd : Option Nat)
    (p lamX lamG : Option (List BVal)) (h : Nlp.Heap) (hp : (p.getD []).length ≠ n.p.length) :
    (callArgs n guess cd p lamX lamG h).1 = .error .valueError := by
  rw [callArgs_run, if_neg hp]

/-- C46. No dictionary of the caller is modified, whether the call is accepted or not. -/
theorem C46_unmodified (n : Nlp) (guess : Option (List BVal)) (cd : Option Nat)
    (p lamX lamG : Option (List BVal)) (h : Nlp.Heap) (i : Nat) (hi : i < h.length) :
    (callArgs n guess cd p lamX lamG h).2[i]? = h[i]? := by
  rw [callArgs_run]
  simp only
  cases cd with
  | some r => simp [source, List.getElem?_append_left hi]
  | none =>
    simp only [source]
    rw [List.getElem?_append_left (by simp; omega), List.getElem?_append_left hi]

/-- The hypotheses are met: a problem with a parameter, and a dictionary with its own initial point
that is overridden. -/
example : callArgs { x := [1], xLb := [.num ⊥], xUb := [.num ⊤], p := [2] }
    (some [.num (XRat.fin 4)]) (some 0) (some [.num (XRat.fin 7)]) none none
    [[("x0", [.num (XRat.fin 1)]), ("lbx", [.num (XRat.fin 0)])]] =
    (.ok 1, [[("x0", [.num (XRat.fin 1)]), ("lbx", [.num (XRat.fin 0)])],
      [("x0", [.num (XRat.fin 4)]), ("lbx", [.num (XRat.fin 0)]), ("p", [.num (XRat.fin 7)])]]) := rfl

namespace Nlp

/-- C46. An accepted call appends its variables and parameters to those of the problem, so the values
given to the solver are for the variables and the parameters in the order of the calls. -/
theorem call_vectors (c : Call) (n n' : Nlp) (hr : c.run n = (.ok (), n')) :
    n'.x = n.x ++ variablesOf c ∧ n'.p = n.p ++ parametersOf c := by
  have hv : ∀ v lb ub, includeVariable v lb ub n = (.ok (), n') → n'.x = n.x ++ v ∧ n'.p = n.p := by
    intro v lb ub hr
    obtain ⟨l, u, -, -, -, -, -, -, rfl⟩ := includeVariable_ok_iff.mp hr
    exact ⟨rfl, rfl⟩
  have hi : ∀ e c lb ub, includeInequality e c lb ub n = (.ok (), n') → n'.x = n.x ∧ n'.p = n.p := by
    intro e c lb ub hr
    obtain ⟨-, -, -, -, -, rfl⟩ := includeInequality_ok_iff.mp hr
    exact ⟨rfl, rfl⟩
  have he : ∀ e c r, includeEquality e c r n = (.ok (), n') → n'.x = n.x ∧ n'.p = n.p := by
    intro e c r hr
    obtain ⟨-, -, -, rfl⟩ := includeEquality_ok_iff.mp hr
    exact ⟨rfl, rfl⟩
  cases c with
  | includeVariable v lb ub => simpa [variablesOf, parametersOf] using hv v lb ub hr
  | createVariable v lb ub => simpa [variablesOf, parametersOf] using hv v _ _ hr
  | includeParameter v =>
    simp only [Call.run, includeParameter, Py.modify_ok] at hr
    subst hr
    exact ⟨by simp [variablesOf], rfl⟩
  | setObjective e =>
    simp only [Call.run, setObjective, Py.bind_eq, Py.raiseIf_bind_ok, Py.modify_ok] at hr
    obtain ⟨-, rfl⟩ := hr
    simp [variablesOf, parametersOf]
  | includeInequality e c lb ub => simpa [variablesOf, parametersOf] using hi e c lb ub hr
  | includeEquality e c r => simpa [variablesOf, parametersOf] using he e c r hr
  | includeConstraint q op l r =>
    obtain ⟨e, c, -, h' | h' | h'⟩ := includeConstraint_ok hr
    · simpa [variablesOf, parametersOf] using he _ _ _ h'.2
    · simpa [variablesOf, parametersOf] using hi _ _ _ _ h'.2.2
    · simpa [variablesOf, parametersOf] using hi _ _ _ _ h'.2.2
  | getSolver =>
    simp only [Call.run, discard, Py.bind, getSolver] at hr
    cases hs : n.solver <;> rw [hs] at hr <;> simp only [Py.pure, Prod.mk.injEq, true_and] at hr <;>
      subst hr <;> simp [variablesOf, parametersOf]

end Nlp

/-- C46. After any history of calls that are all accepted, the variables and the parameters are those
of the calls, in their order. -/
theorem C46_order (calls : List Nlp.Call) (n : Nlp)
    (h : ∀ pre c post, calls = pre ++ c :: post → (c.run (after pre n)).1 = .ok ()) :
    (after calls n).x = n.x ++ calls.flatMap variablesOf ∧
    (after calls n).p = n.p ++ calls.flatMap parametersOf := by
  induction calls generalizing n with
  | nil => exact ⟨(List.append_nil _).symm, (List.append_nil _).symm⟩
  | cons c cs ih =>
    have h₀ := h [] c cs rfl
    obtain ⟨hx, hp⟩ := Nlp.call_vectors c n (c.run n).2 (Prod.ext h₀ rfl)
    obtain ⟨hx', hp'⟩ := ih (c.run n).2 fun pre d post he =>
      h (c :: pre) d post (by rw [he]; rfl)
    have ha : after (c :: cs) n = after cs (c.run n).2 := rfl
    exact ⟨by rw [ha, hx', hx]; simp, by rw [ha, hp', hp]; simp⟩

/-- Two variables and two parameters, included in turn. -/
example : (after [.includeVariable [1] (.float ⊥) (.float ⊤), .includeParameter [5, 6],
    .includeVariable [2] (.float ⊥) (.float ⊤), .includeParameter [4]] {}).p = [5, 6, 4] := by
  decide +kernel

end Verif
