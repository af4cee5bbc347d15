import Verif.Lemmas.Nlp
/-!
# C42, C43: sizes and bounds of optimisation problems
-/
namespace Verif
open Spec

namespace Nlp

theorem call_sized (c : Call) (n n' : Nlp) (h : NlpSized n) (hr : c.run n = (.ok (), n')) :
    NlpSized n' := by
  have hv : ∀ v lb ub, includeVariable v lb ub n = (.ok (), n') → NlpSized n' := by
    intro v lb ub hr
    obtain ⟨l, u, -, -, h₁, h₂, -, -, rfl⟩ := includeVariable_ok_iff.mp hr
    exact ⟨by simp [h.xLb, entries_length, ← h₁], by simp [h.xUb, entries_length, ← h₂], h.gLb, h.gUb⟩
  have hi : ∀ e c lb ub, includeInequality e c lb ub n = (.ok (), n') → NlpSized n' := by
    intro e c lb ub hr
    obtain ⟨-, h₁, h₂, -, -, rfl⟩ := includeInequality_ok_iff.mp hr
    exact ⟨h.xLb, h.xUb, by simp [h.gLb, entries_length, ← h₁], by simp [h.gUb, entries_length, ← h₂]⟩
  have he : ∀ e c r, includeEquality e c r n = (.ok (), n') → NlpSized n' := by
    intro e c r hr
    obtain ⟨-, h₁, -, rfl⟩ := includeEquality_ok_iff.mp hr
    exact ⟨h.xLb, h.xUb, by simp [h.gLb, entries_length, ← h₁], by simp [h.gUb, entries_length, ← h₁]⟩
  cases c with
  | includeVariable v lb ub => exact hv v lb ub hr
  | createVariable v lb ub => exact hv v _ _ hr
  | includeParameter v =>
    simp only [Call.run, includeParameter, Py.modify_ok] at hr
    subst hr
    exact ⟨h.xLb, h.xUb, h.gLb, h.gUb⟩
  | setObjective e =>
    simp only [Call.run, setObjective, Py.bind_eq, Py.raiseIf_bind_ok, Py.modify_ok] at hr
    obtain ⟨-, rfl⟩ := hr
    exact ⟨h.xLb, h.xUb, h.gLb, h.gUb⟩
  | includeInequality e c lb ub => exact hi e c lb ub hr
  | includeEquality e c r => exact he e c r hr
  | includeConstraint q op l r =>
    obtain ⟨e, c, -, h' | h' | h'⟩ := includeConstraint_ok hr
    · exact he _ _ _ h'.2
    · exact hi _ _ _ _ h'.2.2
    · exact hi _ _ _ _ h'.2.2
  | getSolver =>
    simp only [Call.run, discard, Py.bind, getSolver] at hr
    cases hs : n.solver <;> rw [hs] at hr <;> simp only [Py.pure, Prod.mk.injEq, true_and] at hr
    · subst hr; exact ⟨h.xLb, h.xUb, h.gLb, h.gUb⟩
    · subst hr; exact h

end Nlp

/-- C42. A new problem has matching sizes. -/
theorem C42_new : NlpSized {} := ⟨rfl, rfl, rfl, rfl⟩

/-- C42. Whatever calls are made, rejected ones included, the sizes match. -/
theorem C42_sized (calls : List Nlp.Call) (n : Nlp) (h : NlpSized n) :
    NlpSized (Nlp.after calls n) := by
  induction calls generalizing n with
  | nil => exact h
  | cons c cs ih => exact ih _ (Nlp.call_cases c n NlpSized h fun n' hr => Nlp.call_sized c n n' h hr)

/-- A history with accepted and rejected calls: a vector variable with scalar bounds, crossed bounds,
a bound of the wrong size, a parameter, a broadcast inequality, an equality. -/
def Example.nlpHistory : List Nlp.Call :=
  [.includeVariable [1, 2, 3] (.float (XRat.fin (-1))) (.col (.dm [.num ⊤, .num ⊤, .num (XRat.fin 4)])),
   .includeVariable [4] (.float (XRat.fin 1)) (.float (XRat.fin 0)),
   .createVariable [5] (.int 2) (.col (.dm [.num ⊤, .num ⊤])),
   .includeParameter [6],
   .includeInequality [.sym 1, .sym 2] 1 (some (.int (-3))) none,
   .includeInequality [.sym 1] 1 (some (.col (.mx [.sym 6]))) none,
   .includeEquality [.add (.sym 1) (.sym 6)] 1 none]

example : Nlp.after Example.nlpHistory {} =
    { x := [1, 2, 3]
      p := [6]
      xLb := [.num (XRat.fin (-1)), .num (XRat.fin (-1)), .num (XRat.fin (-1))]
      xUb := [.num ⊤, .num ⊤, .num (XRat.fin 4)]
      g := [.sym 1, .sym 2, .add (.sym 1) (.sym 6)]
      gLb := [.num (XRat.fin (-3)), .num (XRat.fin (-3)), .num (XRat.fin 0)]
      gUb := [.num ⊤, .num ⊤, .num (XRat.fin 0)] } := by decide +kernel

/-- C43. A call that raises leaves the problem exactly as it was. -/
theorem C43_atomic (c : Nlp.Call) (n n' : Nlp) (e : Err) (hr : c.run n = (.error e, n')) : n' = n :=
  Nlp.call_atomic c n e n' hr

namespace Nlp

theorem Uncrossed.append {a b c d : List BVal} (hl : a.length = b.length) (h : Uncrossed a b)
    (h' : Uncrossed c d) : Uncrossed (a ++ c) (b ++ d) := by
  intro i u v hu hv
  rw [List.getElem?_append] at hu hv
  rw [← hl] at hv
  split at hu
  · next hi => rw [if_pos hi] at hv; exact h i u v hu hv
  · next hi => rw [if_neg hi] at hv; exact h' _ u v hu hv

theorem Uncrossed.refl (a : List BVal) : Uncrossed a a := by
  intro i u v hu hv
  rw [hu] at hv
  simp only [Option.some.injEq, BVal.num.injEq] at hv
  exact hv.le

theorem mem_broadcast {α : Type} {n : Nat} {l : List α} {d : α} (h : d ∈ Ocp.broadcast n l) :
    d ∈ l := by
  unfold Ocp.broadcast at h
  split at h
  · split at h
    · have := List.eq_of_mem_replicate h; simp [this]
    · exact h
  · exact h

theorem filterMap_stored (l : List DmEntry) (h : DmEntry.zero ∉ l) :
    l.filterMap DmEntry.stored = l.map DmEntry.value := by
  induction l with
  | nil => rfl
  | cons d l ih =>
    simp only [List.mem_cons, not_or] at h
    cases d with
    | zero => exact absurd rfl h.1
    | num v => simp [DmEntry.stored, DmEntry.value, ih h.2]

/-- A column without structural zeros. -/
def DenseCol : Col → Prop
  | .dm l => DmEntry.zero ∉ l
  | .mx _ => True

theorem DenseCol.spread {c : Col} (n : Nat) (h : DenseCol c) : DenseCol (c.spread n) := by
  cases c with
  | dm l => exact fun hm => h (mem_broadcast hm)
  | mx l => trivial

theorem uncrossed_of_values {l u : List DmEntry}
    (h : ∀ p ∈ (l.map DmEntry.value).zip (u.map DmEntry.value), ¬ p.2 < p.1) :
    Uncrossed (Col.dm l).entries (Col.dm u).entries := by
  intro i a b ha hb
  simp only [Col.entries, List.getElem?_map, Option.map_eq_some_iff, BVal.num.injEq] at ha hb
  obtain ⟨d, hd, rfl⟩ := ha
  obtain ⟨d', hd', rfl⟩ := hb
  refine not_lt.mp (h (d.value, d'.value) ?_)
  refine List.mem_of_getElem? (i := i) ?_
  simp [List.getElem?_zip_eq_some, hd, hd']

theorem uncrossed_mx_left (l : List Expr) (u : List BVal) : Uncrossed (Col.mx l).entries u := by
  intro i a b ha
  simp [Col.entries] at ha

theorem uncrossed_mx_right (l : List BVal) (u : List Expr) : Uncrossed l (Col.mx u).entries := by
  intro i a b _ hb
  simp [Col.entries] at hb

theorem compareStored_ok {lb ub : Col} (hl : DenseCol lb) (hu : DenseCol ub)
    (h : compareStored lb ub = .ok ()) : Uncrossed lb.entries ub.entries := by
  cases lb with
  | mx l => exact uncrossed_mx_left _ _
  | dm l =>
    cases ub with
    | mx u => exact uncrossed_mx_right _ _
    | dm u =>
      apply uncrossed_of_values
      unfold compareStored at h
      simp only at h
      split at h
      · simp at h
      · next hc =>
        rw [filterMap_stored l hl, filterMap_stored u hu] at hc
        intro p hp hlt
        exact hc (List.any_eq_true.mpr ⟨p, hp, by simpa using hlt⟩)

theorem crossed_false {lb ub : Col} (h : crossed lb ub = false) : Uncrossed lb.entries ub.entries := by
  cases lb with
  | mx l => exact uncrossed_mx_left _ _
  | dm l =>
    cases ub with
    | mx u => exact uncrossed_mx_right _ _
    | dm u =>
      apply uncrossed_of_values
      intro p hp hlt
      simp only [crossed, List.any_eq_false, decide_eq_true_eq] at h
      rw [List.zip_map] at hp
      obtain ⟨q, hq, rfl⟩ := List.mem_map.mp hp
      exact h q hq hlt

theorem DenseArg.col {a : BoundArg} {c : Col} (h : DenseArg a) (hc : variableBound a = .ok c) :
    DenseCol c := by
  cases a with
  | float v => simp only [variableBound, Except.ok.injEq] at hc; subst hc; simp [DenseCol]
  | int k => simp [variableBound] at hc
  | col c' =>
    simp only [variableBound, Except.ok.injEq] at hc; subst hc
    cases c' with
    | dm l => exact h
    | mx l => trivial

theorem DenseArg.repeated {a : BoundArg} (n : Nat) (h : DenseArg a) : DenseArg (repeated n a) := by
  cases a with
  | float v => exact fun hm => by simpa using List.eq_of_mem_replicate hm
  | int k => exact fun hm => by simpa using List.eq_of_mem_replicate hm
  | col c => exact h

theorem call_uncrossed (c : Call) (n n' : Nlp) (hs : NlpSized n) (hd : DenseCall c)
    (hx : Uncrossed n.xLb n.xUb) (hg : Uncrossed n.gLb n.gUb) (hr : c.run n = (.ok (), n')) :
    Uncrossed n'.xLb n'.xUb ∧ Uncrossed n'.gLb n'.gUb := by
  have hv : ∀ v lb ub, DenseArg lb → DenseArg ub → includeVariable v lb ub n = (.ok (), n') →
      Uncrossed n'.xLb n'.xUb ∧ Uncrossed n'.gLb n'.gUb := by
    intro v lb ub hl hu hr
    obtain ⟨l, u, h₁, h₂, -, -, -, h₃, rfl⟩ := includeVariable_ok_iff.mp hr
    exact ⟨Uncrossed.append (hs.xLb.trans hs.xUb.symm) hx
      (compareStored_ok ((DenseArg.col hl h₁).spread _) ((DenseArg.col hu h₂).spread _) h₃), hg⟩
  have hi : ∀ e c lb ub, includeInequality e c lb ub n = (.ok (), n') →
      Uncrossed n'.xLb n'.xUb ∧ Uncrossed n'.gLb n'.gUb := by
    intro e c lb ub hr
    obtain ⟨-, -, -, -, h₃, rfl⟩ := includeInequality_ok_iff.mp hr
    exact ⟨hx, Uncrossed.append (hs.gLb.trans hs.gUb.symm) hg (crossed_false h₃)⟩
  have he : ∀ e c r, includeEquality e c r n = (.ok (), n') →
      Uncrossed n'.xLb n'.xUb ∧ Uncrossed n'.gLb n'.gUb := by
    intro e c r hr
    obtain ⟨-, -, -, rfl⟩ := includeEquality_ok_iff.mp hr
    exact ⟨hx, Uncrossed.append (hs.gLb.trans hs.gUb.symm) hg (Uncrossed.refl _)⟩
  cases c with
  | includeVariable v lb ub => exact hv v lb ub hd.1 hd.2 hr
  | createVariable v lb ub => exact hv v _ _ (DenseArg.repeated _ hd.1) (DenseArg.repeated _ hd.2) hr
  | includeParameter v =>
    simp only [Call.run, includeParameter, Py.modify_ok] at hr
    subst hr
    exact ⟨hx, hg⟩
  | setObjective e =>
    simp only [Call.run, setObjective, Py.bind_eq, Py.raiseIf_bind_ok, Py.modify_ok] at hr
    obtain ⟨-, rfl⟩ := hr
    exact ⟨hx, hg⟩
  | includeInequality e c lb ub => exact hi e c lb ub hr
  | includeEquality e c r => exact he e c r hr
  | includeConstraint q op l r =>
    obtain ⟨e, c, -, h' | h' | h'⟩ := includeConstraint_ok hr
    · exact he _ _ _ h'.2
    · exact hi _ _ _ _ h'.2.2
    · exact hi _ _ _ _ h'.2.2
  | getSolver =>
    simp only [Call.run, discard, Py.bind, getSolver] at hr
    cases hs : n.solver <;> rw [hs] at hr <;> simp only [Py.pure, Prod.mk.injEq, true_and] at hr
    · subst hr; exact ⟨hx, hg⟩
    · subst hr; exact ⟨hx, hg⟩

end Nlp

/-- C43, proved part. Whatever calls are made, rejected ones included, no numeric lower bound is
above its upper bound, as long as the bounds of variables have no structural zeros. -/
theorem C43_uncrossed_partial (calls : List Nlp.Call) (hd : ∀ c ∈ calls, DenseCall c) :
    Uncrossed (Nlp.after calls {}).xLb (Nlp.after calls {}).xUb ∧
    Uncrossed (Nlp.after calls {}).gLb (Nlp.after calls {}).gUb := by
  suffices h : ∀ n : Nlp, NlpSized n → Uncrossed n.xLb n.xUb → Uncrossed n.gLb n.gUb →
      Uncrossed (Nlp.after calls n).xLb (Nlp.after calls n).xUb ∧
      Uncrossed (Nlp.after calls n).gLb (Nlp.after calls n).gUb from
    h {} C42_new (Nlp.Uncrossed.refl _) (Nlp.Uncrossed.refl _)
  induction calls with
  | nil => exact fun n _ hx hg => ⟨hx, hg⟩
  | cons c cs ih =>
    intro n hs hx hg
    have h := Nlp.call_cases c n (fun n => Uncrossed n.xLb n.xUb ∧ Uncrossed n.gLb n.gUb) ⟨hx, hg⟩
      fun n' hr => Nlp.call_uncrossed c n n' hs (hd c (by simp)) hx hg hr
    exact ih (fun c' hc' => hd c' (by simp [hc'])) _
      (Nlp.call_cases c n NlpSized hs fun n' hr => Nlp.call_sized c n n' hs hr) h.1 h.2

example : ∀ c ∈ Example.nlpHistory, DenseCall c := by
  simp [Example.nlpHistory, DenseCall, DenseArg]

/-- C43 fails. The bounds of variables are compared entry by stored entry, so a structural zero in
the lower bound shifts the comparison: `(0, 1) ≤ v ≤ (10, 0)` is accepted. -/
theorem C43_sparse_fails : ¬ ∀ calls : List Nlp.Call,
    Uncrossed (Nlp.after calls {}).xLb (Nlp.after calls {}).xUb := by
  intro h
  have := h [.includeVariable [1, 2] (.col (.dm [.zero, .num (XRat.fin 1)]))
    (.col (.dm [.num (XRat.fin 10), .num (XRat.fin 0)]))] 1 (XRat.fin 1) (XRat.fin 0)
    (by decide +kernel) (by decide +kernel)
  revert this
  decide +kernel

/-- C43 fails. For the same reason `(0, 1) ≤ v ≤ (0, 5)` is rejected when only the zero of the lower
bound is structural: `1` is compared with `0`. -/
theorem C43_sparse_rejected_fails :
    (Nlp.Call.includeVariable [1, 2] (.col (.dm [.zero, .num (XRat.fin 1)]))
      (.col (.dm [.num (XRat.fin 0), .num (XRat.fin 5)]))).run {} = (.error .valueError, {}) := by
  decide +kernel

end Verif
