import Verif.Spec.Nlp
import Verif.Lemmas.Atomic
import Verif.Lemmas.Ocp
/-! Characterisation of the successful calls that build an optimisation problem. -/
namespace Verif.Nlp
open Verif Spec

theorem entries_length (c : Col) : c.entries.length = c.numel := by
  cases c <;> simp [Col.entries, Col.numel]

theorem includeVariable_ok_iff {v : List Sym} {lb ub : BoundArg} {n n' : Nlp} :
    includeVariable v lb ub n = (.ok (), n') ↔ ∃ l u, variableBound lb = .ok l ∧
      variableBound ub = .ok u ∧ v.length = (l.spread v.length).numel ∧
      v.length = (u.spread v.length).numel ∧
      (((!(l.spread v.length).isConstant && (l.spread v.length).dependsOn n.p) ||
        (!(u.spread v.length).isConstant && (u.spread v.length).dependsOn n.p)) = false) ∧
      compareStored (l.spread v.length) (u.spread v.length) = .ok () ∧
      n' = { n with
        x := n.x ++ v
        xLb := n.xLb ++ (l.spread v.length).entries
        xUb := n.xUb ++ (u.spread v.length).entries } := by
  unfold includeVariable
  simp only [Py.bind_eq, Py.raiseIf_bind_ok, Py.lift_bind_ok, Py.get_bind, Py.modify_ok]
  constructor
  · rintro ⟨l, hl, u, hu, h₁, h₂, ⟨⟩, h₃, rfl⟩
    simp only [Bool.or_eq_false_iff, decide_eq_false_iff_not, not_not, ne_eq] at h₁
    exact ⟨l, u, hl, hu, h₁.1, h₁.2, h₂, h₃, rfl⟩
  · rintro ⟨l, u, hl, hu, h₁, h₁', h₂, h₃, rfl⟩
    exact ⟨l, hl, u, hu, by simp [← h₁, ← h₁'], h₂, (), h₃, rfl⟩

theorem includeInequality_ok_iff {e : List Expr} {c : Nat} {lb ub : Option BoundArg} {n n' : Nlp} :
    includeInequality e c lb ub n = (.ok (), n') ↔ c ≤ 1 ∧
      e.length = (inequalityBound ⊥ e.length lb).numel ∧
      e.length = (inequalityBound ⊤ e.length ub).numel ∧
      ((inequalityBound ⊥ e.length lb).dependsOn (n.x ++ n.p) ||
        (inequalityBound ⊤ e.length ub).dependsOn (n.x ++ n.p)) = false ∧
      crossed (inequalityBound ⊥ e.length lb) (inequalityBound ⊤ e.length ub) = false ∧
      n' = { n with
        g := n.g ++ e
        gLb := n.gLb ++ (inequalityBound ⊥ e.length lb).entries
        gUb := n.gUb ++ (inequalityBound ⊤ e.length ub).entries } := by
  unfold includeInequality
  simp only [Py.bind_eq, Py.raiseIf_bind_ok, Py.get_bind, Py.modify_ok, decide_eq_false_iff_not,
    not_not, ne_eq, gt_iff_lt, not_lt]

theorem includeEquality_ok_iff {e : List Expr} {c : Nat} {rhs : Option BoundArg} {n n' : Nlp} :
    includeEquality e c rhs n = (.ok (), n') ↔ c ≤ 1 ∧
      e.length = (equalityRhs e.length rhs).numel ∧
      (equalityRhs e.length rhs).dependsOn (n.x ++ n.p) = false ∧
      n' = { n with
        g := n.g ++ e
        gLb := n.gLb ++ (equalityRhs e.length rhs).entries
        gUb := n.gUb ++ (equalityRhs e.length rhs).entries } := by
  unfold includeEquality
  simp only [Py.bind_eq, Py.raiseIf_bind_ok, Py.get_bind, Py.modify_ok, decide_eq_false_iff_not,
    not_not, ne_eq, gt_iff_lt, not_lt]

/-- An accepted comparison is an accepted equality or inequality on its dependent side. -/
theorem includeConstraint_ok {q : List DmEntry → Side → Bool} {op : Op} {lhs rhs : Side} {n n' : Nlp}
    (hr : includeConstraint q op lhs rhs n = (.ok (), n')) :
    ∃ e c, ((lhs = .expr e ∧ rhs = .const c) ∨ (lhs = .const c ∧ rhs = .expr e)) ∧
      ((op = .eq ∧ includeEquality e 1 (some (.col (.dm c))) n = (.ok (), n')) ∨
       (op = .le ∧ q c rhs = true ∧ includeInequality e 1 none (some (.col (.dm c))) n = (.ok (), n')) ∨
       (op = .le ∧ q c rhs = false ∧
        includeInequality e 1 (some (.col (.dm c))) none n = (.ok (), n'))) := by
  unfold includeConstraint at hr
  simp only [Py.bind_eq, Py.raiseIf_bind_ok, Py.get_bind] at hr
  obtain ⟨h₁, h₂, h₃, h₄⟩ := hr
  have hop : op = .eq ∨ op = .le := by
    revert h₁; cases op <;> simp [isInequality, isEquality]
  have key : ∀ e c, (if isEquality op = true then
        includeEquality e 1 (some (.col (.dm c)))
      else if q c rhs = true then includeInequality e 1 none (some (.col (.dm c)))
      else includeInequality e 1 (some (.col (.dm c))) none) n = (.ok (), n') →
      ((op = .eq ∧ includeEquality e 1 (some (.col (.dm c))) n = (.ok (), n')) ∨
       (op = .le ∧ q c rhs = true ∧ includeInequality e 1 none (some (.col (.dm c))) n = (.ok (), n')) ∨
       (op = .le ∧ q c rhs = false ∧
        includeInequality e 1 (some (.col (.dm c))) none n = (.ok (), n'))) := by
    intro e c h
    rcases hop with rfl | rfl
    · exact Or.inl ⟨rfl, by simpa [isEquality] using h⟩
    · have he : isEquality Op.le = false := rfl
      rw [he] at h
      simp only [Bool.false_eq_true, if_false] at h
      split at h
      · next hq => exact Or.inr (Or.inl ⟨rfl, hq, h⟩)
      · next hq => exact Or.inr (Or.inr ⟨rfl, by simpa using hq, h⟩)
  cases lhs with
  | const c =>
    cases rhs with
    | const c' => simp [Side.isConstant] at h₂
    | expr e =>
      simp only [Side.dependsOn, Bool.false_eq_true, if_false] at h₄
      exact ⟨e, c, Or.inr ⟨rfl, rfl⟩, key e c h₄⟩
  | expr e =>
    cases hd : (Side.expr e).dependsOn (n.x ++ n.p) with
    | true =>
      rw [hd] at h₄
      simp only [if_true] at h₄
      cases rhs with
      | const c => exact ⟨e, c, Or.inl ⟨rfl, rfl⟩, key e c h₄⟩
      | expr e' => simp at h₄
    | false =>
      rw [hd] at h₄
      simp at h₄

/-- Every call that raises leaves the problem as it was. -/
theorem call_atomic (c : Call) : Py.Atomic c.run := by
  have hv : ∀ v lb ub, Py.Atomic (includeVariable v lb ub) := by
    intro v lb ub
    unfold includeVariable
    simp only [Py.bind_eq]
    exact .bind (.lift _) fun _ => .bind (.lift _) fun _ => .bind (.raiseIf _ _) fun _ =>
      .bind .get fun _ => .bind (.raiseIf _ _) fun _ => .bind (.lift _) fun _ => .modify _
  have hi : ∀ e c lb ub, Py.Atomic (includeInequality e c lb ub) := by
    intro e c lb ub
    unfold includeInequality
    simp only [Py.bind_eq]
    exact .bind (.raiseIf _ _) fun _ => .bind (.raiseIf _ _) fun _ => .bind (.raiseIf _ _) fun _ =>
      .bind .get fun _ => .bind (.raiseIf _ _) fun _ => .bind (.raiseIf _ _) fun _ => .modify _
  have he : ∀ e c r, Py.Atomic (includeEquality e c r) := by
    intro e c r
    unfold includeEquality
    simp only [Py.bind_eq]
    exact .bind (.raiseIf _ _) fun _ => .bind (.raiseIf _ _) fun _ =>
      .bind .get fun _ => .bind (.raiseIf _ _) fun _ => .modify _
  cases c with
  | includeVariable v lb ub => exact hv v lb ub
  | createVariable v lb ub => exact hv v _ _
  | includeParameter v => exact .modify _
  | setObjective e =>
    show Py.Atomic (setObjective e)
    unfold setObjective
    simp only [Py.bind_eq]
    exact .bind (.raiseIf _ _) fun _ => .modify _
  | includeInequality e c lb ub => exact hi e c lb ub
  | includeEquality e c r => exact he e c r
  | includeConstraint q op l r =>
    show Py.Atomic (includeConstraint q op l r)
    unfold includeConstraint
    simp only [Py.bind_eq]
    refine .bind (.raiseIf _ _) fun _ => .bind (.raiseIf _ _) fun _ => .bind .get fun _ =>
      .bind (.raiseIf _ _) fun _ => ?_
    generalize (if l.dependsOn _ then r else l) = indep
    cases indep with
    | expr l => exact .throw _
    | const c =>
      simp only
      split
      · exact he _ _ _
      · split
        · exact hi _ _ _ _
        · exact hi _ _ _ _
  | getSolver =>
    intro s e s' h
    simp only [Call.run, discard, Py.bind, getSolver] at h
    cases hs : s.solver <;> rw [hs] at h <;> simp at h

/-- A successful call, as a change of the state. -/
theorem call_cases (c : Call) (n : Nlp) (P : Nlp → Prop) (h₀ : P n)
    (hok : ∀ n', c.run n = (.ok (), n') → P n') : P (c.run n).2 := by
  match h : c.run n with
  | (.ok _, n') => exact hok n' h
  | (.error e, n') =>
    have := call_atomic c n e n' h
    simp only
    rw [this]
    exact h₀

end Verif.Nlp
