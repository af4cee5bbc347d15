import Verif.Props.Nlp
/-!
# C44: including a constraint intersects the feasible set
-/
namespace Verif
open Spec

variable {K : Type} [Field K] [LinearOrder K]

namespace Nlp

/-- All entries of a list of constraints lie between their bounds. -/
def AllBetween (ops : Expr.Ops K) (ρ : Sym → K) (e : List Expr) (lb ub : List BVal) : Prop :=
  ∀ (i : Nat) a l u, e[i]? = some a → lb[i]? = some l → ub[i]? = some u →
    Between ops ρ l u (a.eval ops ρ)

theorem allBetween_append (ops : Expr.Ops K) (ρ : Sym → K) {e e' : List Expr}
    {lb lb' ub ub' : List BVal} (hl : lb.length = e.length) (hu : ub.length = e.length) :
    AllBetween ops ρ (e ++ e') (lb ++ lb') (ub ++ ub') ↔
      AllBetween ops ρ e lb ub ∧ AllBetween ops ρ e' lb' ub' := by
  constructor
  · intro h
    refine ⟨fun i a l u ha hl' hu' => h i a l u ?_ ?_ ?_, fun i a l u ha hl' hu' =>
      h (e.length + i) a l u ?_ ?_ ?_⟩
    · rw [List.getElem?_append_left (List.getElem?_eq_some_iff.mp ha).1, ha]
    · rw [List.getElem?_append_left (List.getElem?_eq_some_iff.mp hl').1, hl']
    · rw [List.getElem?_append_left (List.getElem?_eq_some_iff.mp hu').1, hu']
    · rw [List.getElem?_append_right (by omega)]; simpa using ha
    · rw [List.getElem?_append_right (by omega), hl]; simpa using hl'
    · rw [List.getElem?_append_right (by omega), hu]; simpa using hu'
  · rintro ⟨h, h'⟩ i a l u ha hl' hu'
    rw [List.getElem?_append] at ha hl' hu'
    rw [hl] at hl'
    rw [hu] at hu'
    split at ha
    · next hi => rw [if_pos hi] at hl' hu'; exact h i a l u ha hl' hu'
    · next hi => rw [if_neg hi] at hl' hu'; exact h' _ a l u ha hl' hu'

theorem feasible_iff (ops : Expr.Ops K) (ρ : Sym → K) (n : Nlp) : Feasible ops n ρ ↔
    AllBetween ops ρ (n.x.map .sym) n.xLb n.xUb ∧ AllBetween ops ρ n.g n.gLb n.gUb := by
  unfold Feasible AllBetween
  refine and_congr ?_ Iff.rfl
  constructor
  · intro h i a l u ha hl hu
    simp only [List.getElem?_map, Option.map_eq_some_iff] at ha
    obtain ⟨s, hs, rfl⟩ := ha
    exact h i s l u hs hl hu
  · intro h i s l u hs hl hu
    exact h i (.sym s) l u (by simp [hs]) hl hu

theorem broadcast_getElem? {α : Type} (l : List α) (m i : Nat) (hi : i < m)
    (hm : m = (Ocp.broadcast m l).length) : (Ocp.broadcast m l)[i]? = entryAt l i := by
  unfold Ocp.broadcast at hm ⊢
  unfold entryAt
  split
  · next a =>
    simp only at hm ⊢
    split
    · simp [hi]
    · next h => obtain rfl : i = 0 := by omega
                simp
  · next h =>
    rw [if_neg]
    intro h1
    obtain ⟨a, rfl⟩ := List.length_eq_one_iff.mp h1
    exact h a rfl

theorem spread_entries (c : Col) (m i : Nat) (hi : i < m) (hm : m = (c.spread m).numel) :
    (c.spread m).entries[i]? = entryAt c.entries i := by
  cases c with
  | dm l =>
    simp only [Col.spread, Col.numel] at hm
    simp only [Col.spread, Col.entries, List.getElem?_map, broadcast_getElem? l m i hi hm]
    unfold entryAt
    simp only [List.length_map, List.getElem?_map]
    split <;> rfl
  | mx l =>
    simp only [Col.spread, Col.numel] at hm
    simp only [Col.spread, Col.entries, List.getElem?_map, broadcast_getElem? l m i hi hm]
    unfold entryAt
    simp only [List.length_map, List.getElem?_map]
    split <;> rfl

theorem inequalityBound_at (d : XRat) (m i : Nat) (b : BoundArg) (hi : i < m)
    (hm : m = (inequalityBound d m (some b)).numel) :
    (inequalityBound d m (some b)).entries[i]? = argAt b i := by
  cases b with
  | float v => rw [show inequalityBound d m (some (.float v)) = (Col.dm [.num v]).spread m from rfl] at *
               rw [spread_entries _ _ _ hi hm]; rfl
  | int k =>
    rw [show inequalityBound d m (some (.int k)) = (Col.dm [.num (XRat.fin k)]).spread m from rfl] at *
    rw [spread_entries _ _ _ hi hm]; rfl
  | col c =>
    rw [show inequalityBound d m (some (.col c)) = c.spread m from rfl] at *
    rw [spread_entries _ _ _ hi hm]; rfl

theorem equalityRhs_at (m i : Nat) (b : BoundArg) (hi : i < m)
    (hm : m = (equalityRhs m (some b)).numel) :
    (equalityRhs m (some b)).entries[i]? = argAt b i := by
  have h : equalityRhs m (some b) = inequalityBound ⊥ m (some b) := by cases b <;> rfl
  rw [h] at hm ⊢
  exact inequalityBound_at _ _ _ _ hi hm

theorem variableBound_at (m i : Nat) (b : BoundArg) (c : Col) (hb : variableBound b = .ok c)
    (hi : i < m) (hm : m = (c.spread m).numel) : (c.spread m).entries[i]? = argAt b i := by
  rw [spread_entries _ _ _ hi hm]
  cases b with
  | float v => simp only [variableBound, Except.ok.injEq] at hb; subst hb; rfl
  | int k => simp [variableBound] at hb
  | col c' => simp only [variableBound, Except.ok.injEq] at hb; subst hb; rfl

theorem numel_getElem {c : Col} {m i : Nat} (hi : i < m) (hm : m = c.numel) :
    ∃ v, c.entries[i]? = some v :=
  ⟨_, List.getElem?_eq_getElem (by rw [entries_length, ← hm]; exact hi)⟩

end Nlp

open Nlp

/-- C44. After an accepted inequality a point is feasible exactly when it was feasible before and
each entry of the expression lies between the given bounds (absent bounds ask nothing, scalars hold
for every entry). -/
theorem C44_inequality (ops : Expr.Ops K) (e : List Expr) (c : Nat) (lb ub : Option BoundArg)
    (n n' : Nlp) (hs : NlpSized n) (hr : includeInequality e c lb ub n = (.ok (), n'))
    (ρ : Sym → K) :
    Feasible ops n' ρ ↔ Feasible ops n ρ ∧ ∀ (i : Nat) a, e[i]? = some a →
      (∀ b, lb = some b → ∃ v, argAt b i = some v ∧ boundValue ops ρ v ≤ finite (a.eval ops ρ)) ∧
      (∀ b, ub = some b → ∃ v, argAt b i = some v ∧ finite (a.eval ops ρ) ≤ boundValue ops ρ v) := by
  obtain ⟨-, h₁, h₂, -, -, rfl⟩ := includeInequality_ok_iff.mp hr
  simp only [feasible_iff, allBetween_append ops ρ hs.gLb hs.gUb, and_assoc]
  refine and_congr Iff.rfl (and_congr Iff.rfl ?_)
  constructor
  · intro h i a ha
    have hi := (List.getElem?_eq_some_iff.mp ha).1
    obtain ⟨l, hl⟩ := numel_getElem hi h₁
    obtain ⟨u, hu⟩ := numel_getElem hi h₂
    have := h i a l u ha hl hu
    refine ⟨?_, ?_⟩
    · rintro b rfl
      exact ⟨l, (inequalityBound_at _ _ _ _ hi h₁).symm.trans hl, this.1⟩
    · rintro b rfl
      exact ⟨u, (inequalityBound_at _ _ _ _ hi h₂).symm.trans hu, this.2⟩
  · intro h i a l u ha hl hu
    have hi := (List.getElem?_eq_some_iff.mp ha).1
    obtain ⟨hlo, hup⟩ := h i a ha
    constructor
    · cases lb with
      | none =>
        simp only [inequalityBound, Col.entries, List.map_replicate, List.getElem?_replicate, if_pos hi,
          DmEntry.value, Option.some.injEq] at hl
        subst hl
        exact bot_le
      | some b =>
        obtain ⟨v, hv, hv'⟩ := hlo b rfl
        rw [inequalityBound_at _ _ _ _ hi h₁, hv] at hl
        cases hl
        exact hv'
    · cases ub with
      | none =>
        simp only [inequalityBound, Col.entries, List.map_replicate, List.getElem?_replicate, if_pos hi,
          DmEntry.value, Option.some.injEq] at hu
        subst hu
        exact le_top
      | some b =>
        obtain ⟨v, hv, hv'⟩ := hup b rfl
        rw [inequalityBound_at _ _ _ _ hi h₂, hv] at hu
        cases hu
        exact hv'

/-- C44. After an accepted equality a point is feasible exactly when it was feasible before and each
entry of the expression equals the right-hand side (zero when none is given). -/
theorem C44_equality (ops : Expr.Ops K) (e : List Expr) (c : Nat) (rhs : Option BoundArg)
    (n n' : Nlp) (hs : NlpSized n) (hr : includeEquality e c rhs n = (.ok (), n')) (ρ : Sym → K) :
    Feasible ops n' ρ ↔ Feasible ops n ρ ∧ ∀ (i : Nat) a, e[i]? = some a →
      ∃ v, rhsAt rhs i = some v ∧
        finite (a.eval ops ρ) = boundValue ops ρ v := by
  obtain ⟨-, h₁, -, rfl⟩ := includeEquality_ok_iff.mp hr
  simp only [feasible_iff, allBetween_append ops ρ hs.gLb hs.gUb, and_assoc]
  refine and_congr Iff.rfl (and_congr Iff.rfl ?_)
  have key : ∀ i, i < e.length → (equalityRhs e.length rhs).entries[i]? =
      rhsAt rhs i := by
    intro i hi
    cases rhs with
    | none => simp [equalityRhs, Col.entries, hi, DmEntry.value, rhsAt]
    | some b => exact equalityRhs_at _ _ _ hi h₁
  constructor
  · intro h i a ha
    have hi := (List.getElem?_eq_some_iff.mp ha).1
    obtain ⟨l, hl⟩ := numel_getElem hi h₁
    have := h i a l l ha hl hl
    exact ⟨l, (key i hi).symm.trans hl, le_antisymm this.2 this.1⟩
  · intro h i a l u ha hl hu
    have hi := (List.getElem?_eq_some_iff.mp ha).1
    obtain ⟨v, hv, hv'⟩ := h i a ha
    rw [key i hi, hv] at hl hu
    cases hl
    cases hu
    exact ⟨hv'.ge, hv'.le⟩

/-- C44, for variables. After a variable is accepted a point is feasible exactly when it was feasible
before and each entry of the variable lies between the given bounds. -/
theorem C44_variable (ops : Expr.Ops K) (v : List Sym) (lb ub : BoundArg) (n n' : Nlp)
    (hs : NlpSized n) (hr : includeVariable v lb ub n = (.ok (), n')) (ρ : Sym → K) :
    Feasible ops n' ρ ↔ Feasible ops n ρ ∧ ∀ (i : Nat) s, v[i]? = some s →
      ∃ l u, argAt lb i = some l ∧ argAt ub i = some u ∧ Between ops ρ l u (ρ s) := by
  obtain ⟨l, u, hl, hu, h₁, h₂, -, -, rfl⟩ := includeVariable_ok_iff.mp hr
  simp only [feasible_iff, List.map_append]
  rw [allBetween_append ops ρ (by simp [hs.xLb]) (by simp [hs.xUb]), and_assoc, and_assoc]
  refine and_congr Iff.rfl ?_
  rw [and_comm]
  refine and_congr Iff.rfl ?_
  constructor
  · intro h i s hsy
    have hi := (List.getElem?_eq_some_iff.mp hsy).1
    obtain ⟨l', hl'⟩ := numel_getElem hi h₁
    obtain ⟨u', hu'⟩ := numel_getElem hi h₂
    exact ⟨l', u', (variableBound_at _ _ _ _ hl hi h₁).symm.trans hl',
      (variableBound_at _ _ _ _ hu hi h₂).symm.trans hu',
      h i (.sym s) l' u' (by simp [hsy]) hl' hu'⟩
  · intro h i a l' u' ha hl' hu'
    simp only [List.getElem?_map, Option.map_eq_some_iff] at ha
    obtain ⟨s, hsy, rfl⟩ := ha
    have hi := (List.getElem?_eq_some_iff.mp hsy).1
    obtain ⟨l'', u'', hl'', hu'', hb⟩ := h i s hsy
    rw [variableBound_at _ _ _ _ hl hi h₁, hl''] at hl'
    rw [variableBound_at _ _ _ _ hu hi h₂, hu''] at hu'
    cases hl'
    cases hu'
    exact hb

namespace Nlp

/-- The entries of an expression side against those of a constant side that is broadcast to it. -/
theorem side_entries {e : List Expr} {c : List DmEntry} {d : XRat}
    (h : e.length = (inequalityBound d e.length (some (.col (.dm c)))).numel) :
    max e.length c.length = e.length ∧
    ∀ (i : Nat) a, e[i]? = some a → sideAt (.expr e) i = some (.sym a) := by
  simp only [inequalityBound, Col.spread, Col.numel] at h
  constructor
  · apply max_eq_left
    unfold Ocp.broadcast at h
    split at h
    · split at h
      · simp; omega
      · simp at h; simp [h]
    · exact h.ge
  · intro i a ha
    unfold sideAt entryAt
    simp only [List.length_map, List.getElem?_map]
    split
    · next h1 =>
      obtain rfl : i = 0 := by
        have := (List.getElem?_eq_some_iff.mp ha).1; omega
      simp [ha]
    · simp [ha]

theorem constraint_iff {ops : Expr.Ops K} {ρ : Sym → K} {e : List Expr} {c : List DmEntry}
    {lhs rhs : Side} (R : BVal → BVal → Prop) {op : Op}
    (hs : (lhs = .expr e ∧ rhs = .const c) ∨ (lhs = .const c ∧ rhs = .expr e))
    (hlen : e.length = (inequalityBound ⊥ e.length (some (.col (.dm c)))).numel)
    (hR : ∀ a b, R a b ↔ (op = .eq → boundValue ops ρ a = boundValue ops ρ b) ∧
      (op = .le → boundValue ops ρ a ≤ boundValue ops ρ b)) :
    Holds ops ρ op lhs rhs ↔ ∀ (i : Nat) a, e[i]? = some a → ∃ v,
      argAt (.col (.dm c)) i = some v ∧
      ((lhs = .expr e ∧ rhs = .const c ∧ R (.sym a) v) ∨
       (lhs = .const c ∧ rhs = .expr e ∧ R v (.sym a))) := by
  obtain ⟨hmax, hside⟩ := side_entries hlen
  have hc : ∀ i, sideAt (.const c) i = argAt (.col (.dm c)) i := fun i => rfl
  rcases hs with ⟨rfl, rfl⟩ | ⟨rfl, rfl⟩
  · unfold Holds
    simp only [sideSize, hmax]
    constructor
    · intro h i a ha
      obtain ⟨x, y, hx, hy, hxy⟩ := h i (List.getElem?_eq_some_iff.mp ha).1
      rw [hside i a ha] at hx
      cases hx
      exact ⟨y, hy, Or.inl ⟨trivial, trivial, (hR _ _).mpr hxy⟩⟩
    · intro h i hi
      obtain ⟨v, hv, h' | h'⟩ := h i e[i] (List.getElem?_eq_getElem hi)
      · exact ⟨_, v, hside i _ (List.getElem?_eq_getElem hi), hv, (hR _ _).mp h'.2.2⟩
      · simp at h'
  · unfold Holds
    simp only [sideSize]
    rw [max_comm, hmax]
    constructor
    · intro h i a ha
      obtain ⟨x, y, hx, hy, hxy⟩ := h i (List.getElem?_eq_some_iff.mp ha).1
      rw [hside i a ha] at hy
      cases hy
      exact ⟨x, hx, Or.inr ⟨trivial, trivial, (hR _ _).mpr hxy⟩⟩
    · intro h i hi
      obtain ⟨v, hv, h' | h'⟩ := h i e[i] (List.getElem?_eq_getElem hi)
      · simp at h'
      · exact ⟨v, _, hv, hside i _ (List.getElem?_eq_getElem hi), (hR _ _).mp h'.2.2⟩

/-- An accepted equality, whichever side carries the variables. -/
theorem equality_holds (ops : Expr.Ops K) {e : List Expr} {c : List DmEntry} {lhs rhs : Side}
    {n n' : Nlp} (hs : NlpSized n)
    (hside : (lhs = .expr e ∧ rhs = .const c) ∨ (lhs = .const c ∧ rhs = .expr e))
    (hr : includeEquality e 1 (some (.col (.dm c))) n = (.ok (), n')) (ρ : Sym → K) :
    Feasible ops n' ρ ↔ Feasible ops n ρ ∧ Holds ops ρ .eq lhs rhs := by
  have hlen := (includeEquality_ok_iff.mp hr).2.1
  rw [C44_equality ops e 1 _ n n' hs hr ρ]
  refine and_congr Iff.rfl ?_
  rw [constraint_iff (fun a b => boundValue ops ρ a = boundValue ops ρ b) hside hlen
    (fun a b => by simp)]
  refine forall_congr' fun i => forall_congr' fun a => forall_congr' fun ha => exists_congr fun v => ?_
  refine and_congr Iff.rfl ?_
  rcases hside with ⟨rfl, rfl⟩ | ⟨rfl, rfl⟩
  · simp [boundValue]
  · simp [boundValue, eq_comm]

end Nlp

/-- C44, proved part. If CasADi's `is_equal` compares a constant with a constant by value, then after
an accepted comparison a point is feasible exactly when it was feasible before and the comparison
holds at it. -/
theorem C44_constraint_partial (ops : Expr.Ops K) (q : List DmEntry → Side → Bool)
    (hq : ∀ c s, q c s = true ↔ s = .const c) (op : Op) (lhs rhs : Side) (n n' : Nlp)
    (hs : NlpSized n) (hr : includeConstraint q op lhs rhs n = (.ok (), n')) (ρ : Sym → K) :
    Feasible ops n' ρ ↔ Feasible ops n ρ ∧ Holds ops ρ op lhs rhs := by
  obtain ⟨e, c, hside, ⟨rfl, h⟩ | ⟨rfl, hqr, h⟩ | ⟨rfl, hqr, h⟩⟩ := includeConstraint_ok hr
  · exact equality_holds ops hs hside h ρ
  · have hlen := (includeInequality_ok_iff.mp h).2.2.1
    rw [C44_inequality ops e 1 _ _ n n' hs h ρ]
    refine and_congr Iff.rfl ?_
    rw [constraint_iff (fun a b => boundValue ops ρ a ≤ boundValue ops ρ b) hside
      hlen (fun a b => by simp)]
    rw [(hq _ _).mp hqr] at hside ⊢
    refine forall_congr' fun i => forall_congr' fun a => forall_congr' fun ha => ?_
    rcases hside with ⟨rfl, -⟩ | ⟨-, h'⟩
    · simp [boundValue]
    · simp at h'
  · have hlen := (includeInequality_ok_iff.mp h).2.1
    rw [C44_inequality ops e 1 _ _ n n' hs h ρ]
    refine and_congr Iff.rfl ?_
    rw [constraint_iff (fun a b => boundValue ops ρ a ≤ boundValue ops ρ b) hside hlen
      (fun a b => by simp)]
    refine forall_congr' fun i => forall_congr' fun a => forall_congr' fun ha => ?_
    rcases hside with ⟨-, rfl⟩ | ⟨rfl, rfl⟩
    · have := (hq c (.const c)).mpr rfl
      rw [this] at hqr
      simp at hqr
    · simp [boundValue]

/-- C44, proved part. Whatever `is_equal` answers, equalities are included as written. -/
theorem C44_equality_constraint_partial (ops : Expr.Ops K) (q : List DmEntry → Side → Bool)
    (lhs rhs : Side) (n n' : Nlp) (hs : NlpSized n)
    (hr : includeConstraint q .eq lhs rhs n = (.ok (), n')) (ρ : Sym → K) :
    Feasible ops n' ρ ↔ Feasible ops n ρ ∧ Holds ops ρ .eq lhs rhs := by
  obtain ⟨e, c, hside, ⟨-, h⟩ | ⟨h', -⟩ | ⟨h', -⟩⟩ := includeConstraint_ok hr
  · exact equality_holds ops hs hside h ρ
  · simp at h'
  · simp at h'

/-- `is_equal` at depth 0 compares nodes; the constant that was converted to `DM` and back is a new
node, so it is never the right side. -/
def Nlp.sameNode : List DmEntry → Side → Bool := fun _ _ => false

/-- C44 fails. With `is_equal` comparing nodes, `x ≤ 1` is included as `1 ≤ x`: the feasible point
`0` is lost and the infeasible point `2` accepted. -/
theorem C44_constraint_fails : ∃ n n', NlpSized n ∧
    includeConstraint sameNode .le (.expr [.sym 1]) (.const [.num (XRat.fin 1)]) n = (.ok (), n') ∧
    ∀ ops : Expr.Ops ℚ, ¬ Feasible ops n' (fun _ => 0) ∧ Feasible ops n' (fun _ => 2) ∧
      Feasible ops n (fun _ => 0) ∧
      Holds ops (fun _ => 0) .le (.expr [.sym 1]) (.const [.num (XRat.fin 1)]) ∧
      ¬ Holds ops (fun _ => 2) .le (.expr [.sym 1]) (.const [.num (XRat.fin 1)]) := by
  refine ⟨{ x := [1], xLb := [.num ⊥], xUb := [.num ⊤] },
    { x := [1], xLb := [.num ⊥], xUb := [.num ⊤], g := [.sym 1], gLb := [.num (XRat.fin 1)],
      gUb := [.num ⊤] }, ⟨rfl, rfl, rfl, rfl⟩, by decide +kernel, fun ops => ?_⟩
  have h01 : ¬ (finite (1 : ℚ) ≤ finite (0 : ℚ)) := by decide +kernel
  have h12 : finite (1 : ℚ) ≤ finite (2 : ℚ) := by decide +kernel
  have h21 : ¬ (finite (2 : ℚ) ≤ finite (1 : ℚ)) := by decide +kernel
  have h01' : finite (0 : ℚ) ≤ finite (1 : ℚ) := by decide +kernel
  have he : extended (K := ℚ) (XRat.fin 1) = finite 1 := rfl
  refine ⟨?_, ?_, ?_, ?_, ?_⟩
  · intro h
    exact h01 (h.2 0 (.sym 1) _ _ rfl rfl rfl).1
  · refine ⟨?_, ?_⟩
    · intro i s lb ub hs hl hu
      match i with
      | 0 => cases hl; cases hu; exact ⟨bot_le, le_top⟩
      | i + 1 => simp at hs
    · intro i s lb ub hs hl hu
      match i with
      | 0 => cases hs; cases hl; cases hu; exact ⟨h12, le_top⟩
      | i + 1 => simp at hs
  · refine ⟨?_, ?_⟩
    · intro i s lb ub hs hl hu
      match i with
      | 0 => cases hl; cases hu; exact ⟨bot_le, le_top⟩
      | i + 1 => simp at hs
    · intro i s lb ub hs
      simp at hs
  · intro i hi
    obtain rfl : i = 0 := by simpa [sideSize] using hi
    exact ⟨_, _, rfl, rfl, by simp, fun _ => h01'⟩
  · intro h
    obtain ⟨a, b, ha, hb, -, h'⟩ := h 0 (by simp [sideSize])
    cases ha
    cases hb
    exact h21 (h' rfl)

/-- The hypotheses of C44 are met: a broadcast scalar on either side. -/
example : ∃ n', includeConstraint (fun c s => decide (s = .const c)) .le
    (.const [.num (XRat.fin 1)]) (.expr [.sym 1, .mul (.sym 2) (.sym 2)])
    { x := [1, 2], xLb := [.num ⊥, .num ⊥], xUb := [.num ⊤, .num ⊤] } = (.ok (), n') ∧
    n'.gLb = [.num (XRat.fin 1), .num (XRat.fin 1)] ∧ n'.gUb = [.num ⊤, .num ⊤] :=
  ⟨_, rfl, rfl, rfl⟩

end Verif
