import Verif.Model.Simulate
import Mathlib.Data.List.Basic
/-! Lemmas on simulation. -/
namespace Verif
namespace SimArgs

/-- What one element of the loop does: from `(t, x, y)` to `(x', y')` with output `u'`. -/
def Steps (a : SimArgs) (k : Nat) (t t' : Rat) (x : Vec) (y : Option Vec) (x' y' u' : Vec) : Prop :=
  ∃ th u, a.theta.get? k = some th ∧ a.u.get? k = some u ∧
    a.dae.simulate a.integ a.ty x t' t (a.p ++ th ++ u) y = .ok (x', y') ∧
    u' = a.fu t' x' y' a.p th u

theorem dictGet_ok (d : Dict Nat Vec) (k : Nat) (v : Vec) :
    dictGet d k = .ok v ↔ d.get? k = some v := by
  unfold dictGet
  cases d.get? k <;> simp

theorem step_ok (a : SimArgs) (k : Nat) (t : Rat) (s s' : SimState) :
    a.step k t s = .ok s' ↔ ∃ x' y' u', a.Steps k s.t t s.xk s.yk x' y' u' ∧
      s' = ⟨t, x', some y', ⟨s.out.tx ++ [t], s.out.tyu ++ [t], s.out.x ++ [x'],
        s.out.y ++ [y'], s.out.u ++ [u']⟩⟩ := by
  unfold step Steps
  constructor
  · intro h
    match h₁ : dictGet a.theta k with
    | .error e => rw [h₁] at h; simp [bind, Except.bind] at h
    | .ok th =>
      match h₂ : dictGet a.u k with
      | .error e => rw [h₁, h₂] at h; simp [bind, Except.bind] at h
      | .ok u =>
        match h₃ : a.dae.simulate a.integ a.ty s.xk t s.t (a.p ++ th ++ u) s.yk with
        | .error e => rw [h₁, h₂] at h; simp only [bind, Except.bind, h₃] at h; cases h
        | .ok r =>
          rw [h₁, h₂] at h
          simp only [bind, Except.bind, h₃, pure, Except.pure, Except.ok.injEq] at h
          exact ⟨r.1, r.2, _, ⟨th, u, (dictGet_ok ..).mp h₁, (dictGet_ok ..).mp h₂, h₃, rfl⟩,
            h.symm⟩
  · rintro ⟨x', y', u', ⟨th, u, h₁, h₂, h₃, rfl⟩, rfl⟩
    rw [(dictGet_ok ..).mpr h₁, (dictGet_ok ..).mpr h₂]
    simp only [bind, Except.bind, h₃, pure, Except.pure]

/-- The loop, unrolled. -/
theorem loop_cons (a : SimArgs) (k : Nat) (t : Rat) (ts : List Rat) (s s' : SimState) :
    a.loop k (t :: ts) s = .ok s' ↔ ∃ s₁, a.step k t s = .ok s₁ ∧ a.loop (k + 1) ts s₁ = .ok s' := by
  rw [loop]
  cases h : a.step k t s with
  | error e => simp [bind, Except.bind]
  | ok s₁ => simp [bind, Except.bind]

theorem loop_append (a : SimArgs) (k : Nat) (ts ts' : List Rat) (s s' : SimState) :
    a.loop k (ts ++ ts') s = .ok s' ↔
      ∃ s₁, a.loop k ts s = .ok s₁ ∧ a.loop (k + ts.length) ts' s₁ = .ok s' := by
  induction ts generalizing k s with
  | nil => simp [loop]
  | cons t ts ih =>
    rw [List.cons_append, loop_cons]
    constructor
    · rintro ⟨s₁, h₁, h₂⟩
      obtain ⟨s₂, h₃, h₄⟩ := (ih (k + 1) s₁).mp h₂
      refine ⟨s₂, (loop_cons ..).mpr ⟨s₁, h₁, h₃⟩, ?_⟩
      rw [List.length_cons, Nat.add_comm ts.length, ← Nat.add_assoc]; exact h₄
    · rintro ⟨s₂, h₁, h₂⟩
      obtain ⟨s₁, h₃, h₄⟩ := (loop_cons ..).mp h₁
      refine ⟨s₁, h₃, (ih (k + 1) s₁).mpr ⟨s₂, h₄, ?_⟩⟩
      rw [List.length_cons, Nat.add_comm ts.length, ← Nat.add_assoc] at h₂; exact h₂

/-- What the loop appends, element by element. -/
theorem loop_ok (a : SimArgs) (k : Nat) (ts : List Rat) (s s' : SimState)
    (h : a.loop k ts s = .ok s') :
    ∃ xs ys us, s'.out = ⟨s.out.tx ++ ts, s.out.tyu ++ ts, s.out.x ++ xs, s.out.y ++ ys,
        s.out.u ++ us⟩ ∧
      xs.length = ts.length ∧ ys.length = ts.length ∧ us.length = ts.length ∧
      (s'.t = (s.t :: ts).getLast (by simp) ∧ s'.xk = (s.xk :: xs).getLast (by simp) ∧
        s'.yk = (s.yk :: ys.map some).getLast (by simp)) ∧
      ∀ j t t' x y x' y' u', (s.t :: ts)[j]? = some t → ts[j]? = some t' →
        (s.xk :: xs)[j]? = some x → (s.yk :: ys.map some)[j]? = some y →
        xs[j]? = some x' → ys[j]? = some y' → us[j]? = some u' →
        a.Steps (k + j) t t' x y x' y' u' := by
  induction ts generalizing k s with
  | nil =>
    simp only [loop, Except.ok.injEq] at h
    subst h
    refine ⟨[], [], [], by simp, rfl, rfl, rfl, by simp, ?_⟩
    intro j t t' x y x' y' u' _ h
    simp at h
  | cons t₁ ts ih =>
    obtain ⟨s₁, h₁, h₂⟩ := (loop_cons ..).mp h
    obtain ⟨x₁, y₁, u₁, hst, rfl⟩ := (step_ok ..).mp h₁
    obtain ⟨xs, ys, us, ho, hx, hy, hu, hl, hj⟩ := ih (k + 1) _ h₂
    refine ⟨x₁ :: xs, y₁ :: ys, u₁ :: us, ?_, by simp [hx], by simp [hy], by simp [hu], ?_, ?_⟩
    · rw [ho]; simp
    · refine ⟨?_, ?_, ?_⟩
      · rw [List.getLast_cons (by simp)]; exact hl.1
      · rw [List.getLast_cons (by simp)]; exact hl.2.1
      · simp only [List.map_cons]
        rw [List.getLast_cons (by simp)]; exact hl.2.2
    · intro j t t' x y x' y' u' e₁ e₂ e₃ e₄ e₅ e₆ e₇
      cases j with
      | zero =>
        simp only [List.getElem?_cons_zero, Option.some.injEq] at e₁ e₂ e₃ e₄ e₅ e₆ e₇
        subst e₁ e₂ e₃ e₄ e₅ e₆ e₇
        exact hst
      | succ j =>
        simp only [List.map_cons, List.getElem?_cons_succ] at e₁ e₂ e₃ e₄ e₅ e₆ e₇
        have := hj j t t' x y x' y' u' e₁ e₂ e₃ e₄ e₅ e₆ e₇
        rwa [Nat.add_assoc, Nat.add_comm 1] at this

/-- The loop with shifted dictionaries. -/
theorem loop_shift (a b : SimArgs) (k n : Nat) (ts : List Rat) (s : SimState)
    (hab : b = { a with theta := b.theta, u := b.u })
    (hth : ∀ j, k ≤ j → j < k + ts.length → b.theta.get? j = a.theta.get? (n + j))
    (hu : ∀ j, k ≤ j → j < k + ts.length → b.u.get? j = a.u.get? (n + j)) :
    a.loop (n + k) ts s = b.loop k ts s := by
  induction ts generalizing k s with
  | nil => rfl
  | cons t ts ih =>
    have hstep : a.step (n + k) t s = b.step k t s := by
      have h₁ : dictGet b.theta k = dictGet a.theta (n + k) := by
        unfold dictGet; rw [hth k (le_refl _) (by simp)]
      have h₂ : dictGet b.u k = dictGet a.u (n + k) := by
        unfold dictGet; rw [hu k (le_refl _) (by simp)]
      unfold step
      rw [h₁, h₂, hab]
    rw [loop, loop, hstep]
    cases b.step k t s with
    | error e => rfl
    | ok s₁ =>
      simp only [bind, Except.bind]
      rw [Nat.add_assoc]
      exact ih (k + 1) s₁ (fun j h₁ h₂ => hth j (by omega) (by simp; omega))
        (fun j h₁ h₂ => hu j (by omega) (by simp; omega))

/-- The lists only grow at the end; what is appended does not depend on what they hold. -/
theorem loop_out (a : SimArgs) (k : Nat) (ts : List Rat) (t : Rat) (x : Vec) (y : Option Vec)
    (o o' : SimOut) (s : SimState) (h : a.loop k ts ⟨t, x, y, o⟩ = .ok s) :
    ∃ xs ys us, s.out = ⟨o.tx ++ ts, o.tyu ++ ts, o.x ++ xs, o.y ++ ys, o.u ++ us⟩ ∧
      a.loop k ts ⟨t, x, y, o'⟩ = .ok ⟨s.t, s.xk, s.yk,
        ⟨o'.tx ++ ts, o'.tyu ++ ts, o'.x ++ xs, o'.y ++ ys, o'.u ++ us⟩⟩ := by
  induction ts generalizing k t x y o o' with
  | nil =>
    simp only [loop, Except.ok.injEq] at h
    subst h
    exact ⟨[], [], [], by simp, by simp [loop]⟩
  | cons t₁ ts ih =>
    obtain ⟨s₁, h₁, h₂⟩ := (loop_cons ..).mp h
    obtain ⟨x₁, y₁, u₁, hst, rfl⟩ := (step_ok ..).mp h₁
    obtain ⟨xs, ys, us, e₁, e₂⟩ := ih (k + 1) t₁ x₁ (some y₁) _
      ⟨o'.tx ++ [t₁], o'.tyu ++ [t₁], o'.x ++ [x₁], o'.y ++ [y₁], o'.u ++ [u₁]⟩ h₂
    refine ⟨x₁ :: xs, y₁ :: ys, u₁ :: us, by rw [e₁]; simp, ?_⟩
    rw [loop_cons]
    refine ⟨_, (step_ok ..).mpr ⟨x₁, y₁, u₁, hst, rfl⟩, ?_⟩
    rw [e₂]
    simp

end SimArgs
end Verif
