import Verif.Model.Py
/-! Rules for reasoning about `Py` computations. -/
namespace Verif.Py

variable {σ : Type u} {α β : Type v}

@[simp] theorem bind_eq (m : Py σ α) (f : α → Py σ β) : (m >>= f) = Py.bind m f := rfl
@[simp] theorem pure_eq (a : α) : (Pure.pure a : Py σ α) = Py.pure a := rfl

theorem bind_ok {m : Py σ α} {f : α → Py σ β} {s s' : σ} {a : α} (h : m s = (.ok a, s')) :
    Py.bind m f s = f a s' := by simp [Py.bind, h]

theorem bind_error {m : Py σ α} {f : α → Py σ β} {s s' : σ} {e : Err}
    (h : m s = (.error e, s')) : Py.bind m f s = (.error e, s') := by simp [Py.bind, h]

theorem bind_eq_ok {m : Py σ α} {f : α → Py σ β} {s s'' : σ} {b : β} :
    Py.bind m f s = (.ok b, s'') ↔ ∃ a s', m s = (.ok a, s') ∧ f a s' = (.ok b, s'') := by
  unfold Py.bind
  match h : m s with
  | (.ok a, s') =>
    constructor
    · intro h'; exact ⟨a, s', rfl, h'⟩
    · rintro ⟨a', s₁, h₁, h₂⟩
      cases h₁; exact h₂
  | (.error e, s') => simp

@[simp] theorem modify_bind (f : σ → σ) (g : Unit → Py σ β) (s : σ) :
    Py.bind (Py.modify f) g s = g () (f s) := rfl
@[simp] theorem get_bind (g : σ → Py σ β) (s : σ) : Py.bind Py.get g s = g s s := rfl
@[simp] theorem pure_bind (a : α) (g : α → Py σ β) (s : σ) :
    Py.bind (Py.pure a) g s = g a s := rfl
@[simp] theorem throw_bind (e : Err) (g : α → Py σ β) (s : σ) :
    Py.bind (Py.throw e) g s = (.error e, s) := rfl
@[simp] theorem lift_ok_bind (a : α) (g : α → Py σ β) (s : σ) :
    Py.bind (Py.lift (.ok a)) g s = g a s := rfl
@[simp] theorem lift_error_bind (e : Err) (g : α → Py σ β) (s : σ) :
    Py.bind (Py.lift (.error e)) g s = (.error e, s) := rfl
@[simp] theorem pure_apply (a : α) (s : σ) : Py.pure a s = (.ok a, s) := rfl
@[simp] theorem throw_apply (e : Err) (s : σ) : (Py.throw e : Py σ α) s = (.error e, s) := rfl
@[simp] theorem modify_apply (f : σ → σ) (s : σ) : Py.modify f s = (.ok (), f s) := rfl

/-- If the call returns from a state with `P`, the state reached has `Q`. -/
def Triple (P : σ → Prop) (m : Py σ α) (Q : σ → Prop) : Prop :=
  ∀ s a s', P s → m s = (.ok a, s') → Q s'

theorem Triple.bind {P Q R : σ → Prop} {m : Py σ α} {f : α → Py σ β}
    (h₁ : Triple P m Q) (h₂ : ∀ a, Triple Q (f a) R) : Triple P (Py.bind m f) R := by
  intro s b s'' hP h
  obtain ⟨a, s', ha, hb⟩ := bind_eq_ok.mp h
  exact h₂ a s' b s'' (h₁ s a s' hP ha) hb

theorem Triple.pure {P : σ → Prop} (a : α) : Triple P (Py.pure a) P := by
  intro s b s' hP h
  simp only [Py.pure, Prod.mk.injEq] at h
  exact h.2 ▸ hP

theorem Triple.throw {P Q : σ → Prop} (e : Err) : Triple P (Py.throw e : Py σ α) Q := by
  intro s b s' hP h
  simp [Py.throw] at h

theorem Triple.modify {P Q : σ → Prop} (f : σ → σ) (h : ∀ s, P s → Q (f s)) :
    Triple P (Py.modify f) Q := by
  intro s b s' hP hm
  simp only [Py.modify, Prod.mk.injEq] at hm
  exact hm.2 ▸ h s hP

theorem Triple.get {P : σ → Prop} : Triple P (Py.get : Py σ σ) P := by
  intro s b s' hP h
  simp only [Py.get, Prod.mk.injEq] at h
  exact h.2 ▸ hP

theorem Triple.lift {P : σ → Prop} (r : Except Err α) : Triple P (Py.lift r) P := by
  intro s b s' hP h
  simp only [Py.lift, Prod.mk.injEq] at h
  exact h.2 ▸ hP

theorem Triple.conseq {P P' Q Q' : σ → Prop} {m : Py σ α} (h : Triple P m Q)
    (hp : ∀ s, P' s → P s) (hq : ∀ s, Q s → Q' s) : Triple P' m Q' :=
  fun s a s' hP hm => hq _ (h s a s' (hp _ hP) hm)

theorem Triple.forEach {ι : Type w} {P : σ → Prop} (l : List ι) (f : ι → Py σ Unit)
    (h : ∀ i ∈ l, Triple P (f i) P) : Triple P (Py.forEach l f) P := by
  induction l with
  | nil => exact Triple.pure _
  | cons a l ih =>
    exact Triple.bind (h a (by simp)) fun _ => ih fun i hi => h i (by simp [hi])

/-- Loop rule with a predicate that depends on the part of the list already processed. -/
theorem Triple.forEach_prefix {ι : Type w} (P : List ι → σ → Prop) (l : List ι)
    (f : ι → Py σ Unit)
    (h : ∀ pre i post, pre ++ i :: post = l → Triple (P pre) (f i) (P (pre ++ [i]))) :
    ∀ rest pre, pre ++ rest = l → Triple (P pre) (Py.forEach rest f) (P l) := by
  intro rest
  induction rest with
  | nil => intro pre hpre; simp only [List.append_nil] at hpre; subst hpre; exact Triple.pure _
  | cons a rest ih =>
    intro pre hpre
    exact Triple.bind (h pre a rest hpre) fun _ => ih (pre ++ [a]) (by simpa using hpre)

/-- The call keeps `P`, whether it returns or raises. -/
def Always (P : σ → Prop) (m : Py σ α) : Prop := ∀ s, P s → P (m s).2

theorem Always.bind {P : σ → Prop} {m : Py σ α} {f : α → Py σ β}
    (h₁ : Always P m) (h₂ : ∀ a, Always P (f a)) : Always P (Py.bind m f) := by
  intro s hP
  have := h₁ s hP
  unfold Py.bind
  match h : m s with
  | (.ok a, s') => rw [h] at this; exact h₂ a s' this
  | (.error e, s') => rw [h] at this; exact this

theorem Always.pure {P : σ → Prop} (a : α) : Always P (Py.pure a : Py σ α) := fun _ h => h
theorem Always.throw {P : σ → Prop} (e : Err) : Always P (Py.throw e : Py σ α) := fun _ h => h
theorem Always.get {P : σ → Prop} : Always P (Py.get : Py σ σ) := fun _ h => h
theorem Always.lift {P : σ → Prop} (r : Except Err α) : Always P (Py.lift r) := fun _ h => h
theorem Always.raiseIf {P : σ → Prop} (c : Bool) (e : Err) : Always P (Py.raiseIf c e) := by
  intro s h; unfold Py.raiseIf; split <;> exact h
theorem Always.modify {P : σ → Prop} (f : σ → σ) (h : ∀ s, P s → P (f s)) :
    Always P (Py.modify f) := h
theorem Always.whenSome {P : σ → Prop} (a : Option α) (f : α → Py σ Unit)
    (h : ∀ v, a = some v → Always P (f v)) : Always P (Py.whenSome a f) := by
  cases a with
  | none => exact Always.pure _
  | some v => exact h v rfl
theorem Triple.whenSome {P : σ → Prop} (a : Option α) (f : α → Py σ Unit)
    (h : ∀ v, a = some v → Triple P (f v) P) : Triple P (Py.whenSome a f) P := by
  cases a with
  | none => exact Triple.pure _
  | some v => exact h v rfl
theorem Always.forEach {ι : Type w} {P : σ → Prop} (l : List ι) (f : ι → Py σ Unit)
    (h : ∀ i ∈ l, Always P (f i)) : Always P (Py.forEach l f) := by
  induction l with
  | nil => exact Always.pure _
  | cons a l ih => exact Always.bind (h a (by simp)) fun _ => ih fun i hi => h i (by simp [hi])

theorem Triple.raiseIf {P : σ → Prop} (c : Bool) (e : Err) :
    Triple P (Py.raiseIf c e) (fun s => P s ∧ c = false) := by
  intro s b s' hP h
  unfold Py.raiseIf at h
  split at h
  · simp [Py.throw] at h
  · next hc =>
    simp only [Py.pure, Prod.mk.injEq] at h
    exact h.2 ▸ ⟨hP, by simpa using hc⟩

theorem Triple.get_bind {P : σ → Prop} {Q : σ → Prop} {f : σ → Py σ β}
    (h : ∀ s₀, P s₀ → Triple (fun s => s = s₀) (f s₀) Q) : Triple P (Py.bind Py.get f) Q := by
  intro s b s'' hP hm
  exact h s hP s b s'' rfl hm

theorem Triple.lift_bind {P : σ → Prop} {Q : σ → Prop} {r : Except Err α} {f : α → Py σ β}
    (h : ∀ a, r = .ok a → Triple P (f a) Q) : Triple P (Py.bind (Py.lift r) f) Q := by
  intro s b s'' hP hm
  obtain ⟨a, s', ha, hb⟩ := bind_eq_ok.mp hm
  simp only [Py.lift, Prod.mk.injEq] at ha
  obtain ⟨ha, rfl⟩ := ha
  exact h a ha s b s'' hP hb

/-- Goals `Always P m` for a computation built from the combinators; the terms are lemmas for the
calls in it. -/
syntax "py_always" "[" term,* "]" : tactic
macro_rules
  | `(tactic| py_always [$ts,*]) => do
    let alts ← ts.getElems.mapM fun t => `(tactic| with_reducible apply $t)
    `(tactic| (
      try simp only [Py.bind_eq, Py.pure_eq]
      repeat' (first
        | assumption
        | with_reducible apply Py.Always.bind
        | with_reducible apply Py.Always.pure
        | with_reducible apply Py.Always.throw
        | with_reducible apply Py.Always.get
        | with_reducible apply Py.Always.lift
        | with_reducible apply Py.Always.raiseIf
        | (with_reducible apply Py.Always.modify; intro s h; exact h)
        $[| $alts:tactic]*
        | with_reducible apply Py.Always.forEach
        | with_reducible apply Py.Always.whenSome
        | split
        | intro _)))

end Verif.Py
