import Verif.Lemmas.Py
/-! Calls that check everything before they change anything. -/
namespace Verif.Py

variable {σ : Type u} {α β : Type v}

/-- The call does not change the state. -/
def ReadOnly (m : Py σ α) : Prop := ∀ s, (m s).2 = s

/-- When the call raises, the state is unchanged. -/
def Atomic (m : Py σ α) : Prop := ∀ s e s', m s = (.error e, s') → s' = s

theorem ReadOnly.lift (r : Except Err α) : ReadOnly (Py.lift r : Py σ α) := fun _ => rfl
theorem ReadOnly.get : ReadOnly (Py.get : Py σ σ) := fun _ => rfl
theorem ReadOnly.pure (a : α) : ReadOnly (Py.pure a : Py σ α) := fun _ => rfl
theorem ReadOnly.raiseIf (c : Bool) (e : Err) : ReadOnly (Py.raiseIf c e : Py σ Unit) := by
  intro s; unfold Py.raiseIf; split <;> rfl

theorem ReadOnly.bind {m : Py σ α} {f : α → Py σ β} (h : ReadOnly m) (hf : ∀ a, ReadOnly (f a)) :
    ReadOnly (Py.bind m f) := by
  intro s
  have := h s
  unfold Py.bind
  match hm : m s with
  | (.ok a, s') => rw [hm] at this; simp only at this; rw [this]; exact hf a s
  | (.error e, s') => rw [hm] at this; exact this

theorem Atomic.bind {m : Py σ α} {f : α → Py σ β} (h : ReadOnly m) (hf : ∀ a, Atomic (f a)) :
    Atomic (Py.bind m f) := by
  intro s e s'' hr
  have := h s
  unfold Py.bind at hr
  match hm : m s with
  | (.ok a, s') =>
    rw [hm] at this hr
    simp only at this hr
    subst this
    exact hf a _ e _ hr
  | (.error e', s') =>
    rw [hm] at this hr
    simp only [Prod.mk.injEq] at this hr
    exact hr.2.symm.trans this

theorem Atomic.modify (f : σ → σ) : Atomic (Py.modify f) := by
  intro s e s' h
  simp [Py.modify] at h

theorem Atomic.pure (a : α) : Atomic (Py.pure a : Py σ α) := by
  intro s e s' h
  simp [Py.pure] at h

theorem Atomic.throw (e : Err) : Atomic (Py.throw e : Py σ α) := by
  intro s e' s' h
  simp only [Py.throw, Prod.mk.injEq] at h
  exact h.2.symm

end Verif.Py
