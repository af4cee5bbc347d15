import Verif.Props.DiffEquations
import Verif.Model.Expr
import Mathlib.Algebra.Field.Basic
/-!
# C199: a call of `include_equations` takes every equation or none

The claim would be: a call either takes every equation it is given, or raises and leaves the model as it was.
Neither is true. A positional argument that is not an equation `==` (an expression meant to be zero, say) is
ignored. And the algebraic equations are added before anything can be rejected, so after a rejected call they
are in the model, and twice when the call is repeated with the mistake repaired; and so are the differential
equations given in equation form when those given as `ode=` are rejected.
-/
namespace Verif
open SysModel

/-- The algebraic equations among the arguments, each as an expression that is to be zero. -/
def Spec.asZeros : List EqArg → List Expr
  | [] => []
  | .equality l r :: rest => .sub l r :: asZeros rest
  | _ :: rest => asZeros rest

theorem EquationCalls.residuals_eq (args : List EqArg) : args.flatMap EqArg.residuals = Spec.asZeros args := by
  induction args with
  | nil => rfl
  | cons a l ih =>
    rw [List.flatMap_cons, ih]
    cases a <;> rfl

/-- Such an expression is zero exactly when the two sides of the equation are equal. -/
theorem EquationCalls.zero_iff_equal {K : Type} [Field K] (ops : Expr.Ops K) (ρ : Sym → K) (args : List EqArg) :
    (∀ e ∈ Spec.asZeros args, e.eval ops ρ = 0) ↔
      ∀ l r, EqArg.equality l r ∈ args → l.eval ops ρ = r.eval ops ρ := by
  induction args with
  | nil => simp [Spec.asZeros]
  | cons a rest ih =>
    cases a with
    | equality l r =>
      simp only [Spec.asZeros, List.mem_cons, forall_eq_or_imp, ih, Expr.eval, sub_eq_zero, EqArg.equality.injEq]
      constructor
      · rintro ⟨h, hr⟩ l' r' (⟨rfl, rfl⟩ | h')
        · exact h
        · exact hr _ _ h'
      · exact fun h => ⟨h l r (Or.inl ⟨rfl, rfl⟩), fun l' r' h' => h l' r' (Or.inr h')⟩
    | diff xs es => simp [Spec.asZeros, ih]
    | other => simp [Spec.asZeros, ih]

/-- An argument that is not an equation is ignored, wherever it stands. -/
theorem C199_ignored_fails (before after : List EqArg) (h : before ++ after ≠ []) (ode : Option (List Expr))
    (x : Option (List Sym)) (alg : List Expr) :
    includeEquations (before ++ .other :: after) ode x alg = includeEquations (before ++ after) ode x alg := by
  have h₁ : includeArgs (before ++ .other :: after) = includeArgs (before ++ after) := by
    have : 0 < (before ++ after).length := List.length_pos_of_ne_nil h
    rw [includeArgs, includeArgs, if_pos (by simp), if_pos this]
    simp [includeFromDiff, EqArg.states, EqArg.rhss]
  have h₂ : includeAlgEquations (before ++ .other :: after) alg = includeAlgEquations (before ++ after) alg := by
    simp [includeAlgEquations, EqArg.residuals]
  simp only [includeEquations, h₁, h₂]

/-- A call with nothing but such an argument succeeds and changes nothing. -/
theorem C199_alone_fails (m : SysModel) : includeEquations [.other] none none [] m = (.ok (), m) := by
  simp [includeEquations, includeAlgEquations, includeArgs, includeFromDiff, includeFromKwargs, EqArg.states,
    EqArg.rhss, EqArg.residuals, Py.bind_eq, Py.modify_bind, Dict.update]

/-- The algebraic equations after a rejected call. -/
theorem EquationCalls.rejected (args : List EqArg) (ode : Option (List Expr)) (x : Option (List Sym)) (alg : List Expr)
    (m m' : SysModel) (e : Err) (h : includeEquations args ode x alg m = (.error e, m')) :
    m'.alg = m.alg ++ (alg ++ args.flatMap EqArg.residuals) := by
  have hk : ∀ (xs : List Sym) (es : List Expr) (s : SysModel), (includeFromKwargs xs es s).2.alg = s.alg := by
    intro xs es s
    unfold includeFromKwargs
    split
    · rfl
    · split <;> rfl
  have ha : ∀ s, (includeArgs args s).2.alg = s.alg := by
    intro s
    unfold includeArgs
    split
    · exact hk _ _ s
    · rfl
  unfold includeEquations at h
  simp only [Py.bind_eq, includeAlgEquations, Py.modify_bind] at h
  generalize hs : ({ m with alg := m.alg ++ (alg ++ args.flatMap EqArg.residuals) } : SysModel) = s at h
  have hs' : s.alg = m.alg ++ (alg ++ args.flatMap EqArg.residuals) := by rw [← hs]
  rw [← hs']
  have two : ∀ (f : Py SysModel Unit), (∀ s, (f s).2.alg = s.alg) →
      (Py.bind (includeArgs args) (fun _ => f) s) = (.error e, m') → m'.alg = s.alg := by
    intro f hf hr
    unfold Py.bind at hr
    rcases hi : includeArgs args s with ⟨r, s₁⟩
    have h₁ := ha s
    rw [hi] at hr h₁
    cases r with
    | error e' => cases hr; exact h₁
    | ok _ =>
      have h₂ := hf s₁
      simp only at hr
      rw [hr] at h₂
      exact h₂.trans h₁
  match ode, x, h with
  | none, some _, h => cases h; rfl
  | none, none, h =>
    have h : includeArgs args s = (.error e, m') := h
    have := ha s
    rw [h] at this
    exact this
  | some es, some xs, h => exact two _ (hk xs es) h
  | some es, none, h =>
    refine two _ ?_ h
    intro s₂
    show (Py.bind Py.get _ s₂).2.alg = _
    simp only [Py.bind, Py.get, Py.lift]
    cases guessStates s₂ es.length with
    | error _ => rfl
    | ok xs => exact hk xs es s₂

/-- A rejected call has added its algebraic equations: the model is another one when there are any. -/
theorem C199_fails (args : List EqArg) (ode : Option (List Expr)) (x : Option (List Sym)) (alg : List Expr)
    (m m' : SysModel) (e : Err) (h : includeEquations args ode x alg m = (.error e, m')) :
    m'.alg = m.alg ++ (alg ++ Spec.asZeros args) ∧
      (alg ++ Spec.asZeros args ≠ [] → m' ≠ m) := by
  have h₁ := EquationCalls.rejected args ode x alg m m' e h
  rw [EquationCalls.residuals_eq] at h₁
  refine ⟨h₁, ?_⟩
  rintro hne rfl
  exact hne (List.self_eq_append_right.1 h₁)

/-- When the equations given as `ode=` are rejected, those given in equation form stay. -/
theorem C199_both_fails (args : List EqArg) (xs : List Sym) (es : List Expr) (m m' : SysModel)
    (h : includeEquations args none none [] m = (.ok (), m')) (hl : es.length ≠ xs.length) :
    includeEquations args (some es) (some xs) [] m = (.error .assertionError, m') := by
  unfold includeEquations at h ⊢
  simp only [Py.bind_eq, includeAlgEquations, Py.modify_bind] at h ⊢
  refine (Py.bind_ok h).trans ?_
  simp [includeFromKwargs, hl]

/-- When a call is rejected and repeated with its mistake repaired, its algebraic equations are in the model
twice. -/
theorem C199_twice_fails (args args' : List EqArg) (ode : Option (List Expr)) (x : Option (List Sym))
    (alg : List Expr) (m m' m'' : SysModel) (e : Err) (h : includeEquations args ode x alg m = (.error e, m'))
    (h' : includeEquations args' none none alg m' = (.ok (), m'')) :
    m''.alg = m.alg ++ (alg ++ Spec.asZeros args) ++ (alg ++ Spec.asZeros args') := by
  rw [← EquationCalls.residuals_eq args, ← EquationCalls.residuals_eq args',
    ← EquationCalls.rejected args ode x alg m m' e h]
  unfold includeEquations at h'
  simp only [Py.bind_eq, includeAlgEquations, Py.modify_bind, includeArgs] at h'
  split at h'
  · rw [includeFromDiff, includeFromKwargs_ok_iff] at h'
    rw [h'.2.2]
  · cases h'
    rfl

/-- A call that succeeds adds exactly the algebraic equations given, in order. -/
theorem C199_taken (args : List EqArg) (alg : List Expr) (m m' : SysModel)
    (h : includeEquations args none none alg m = (.ok (), m')) :
    m'.alg = m.alg ++ (alg ++ Spec.asZeros args) ∧ m'.x = m.x ∧ m'.y = m.y ∧ m'.u = m.u := by
  rw [← EquationCalls.residuals_eq]
  unfold includeEquations at h
  simp only [Py.bind_eq, includeAlgEquations, Py.modify_bind, includeArgs] at h
  split at h
  · rw [includeFromDiff, includeFromKwargs_ok_iff] at h
    rw [h.2.2]
    exact ⟨rfl, rfl, rfl, rfl⟩
  · cases h
    exact ⟨rfl, rfl, rfl, rfl⟩

/-- A rejected call without algebraic equations, and with differential equations in one form only, leaves the
model as it was. -/
theorem C199_partial (args : List EqArg) (ode : Option (List Expr)) (x : Option (List Sym))
    (hr : Spec.asZeros args = []) (hone : args = [] ∨ ode = none) (m m' : SysModel) (e : Err)
    (h : includeEquations args ode x [] m = (.error e, m')) : m' = m := by
  have hk : ∀ (xs : List Sym) (es : List Expr) (s s' : SysModel), includeFromKwargs xs es s = (.error e, s') →
      s' = s := by
    intro xs es s s' hs
    unfold includeFromKwargs at hs
    split at hs
    · cases hs; rfl
    · split at hs
      · cases hs; rfl
      · cases hs
  unfold includeEquations at h
  rw [← EquationCalls.residuals_eq] at hr
  simp only [Py.bind_eq, includeAlgEquations, Py.modify_bind, hr, List.append_nil] at h
  have hnil : includeArgs [] = Py.pure () := by simp [includeArgs]
  match ode, x, hone, h with
  | none, some _, _, h => cases h; rfl
  | none, none, _, h =>
    have h : includeArgs args m = (.error e, m') := h
    unfold includeArgs at h
    split at h
    · exact hk _ _ _ _ h
    · cases h
  | some es, some xs, .inl ha, h =>
    rw [ha, hnil] at h
    exact hk _ _ _ _ h
  | some es, none, .inl ha, h =>
    rw [ha, hnil] at h
    simp only [Py.bind, Py.pure, Py.get, Py.lift] at h
    cases hg : guessStates m es.length with
    | error _ => rw [hg] at h; cases h; rfl
    | ok xs => rw [hg] at h; exact hk _ _ _ _ h

/-- The state 5 is not in the model: the algebraic equation stays, and is there twice in the end. -/
example : includeEquations [.diff [5] [.sym 2]] none none [.sym 3]
    { t := 0, tau := 1, x := [2], y := [3], ode := [(2, none)] } =
      (.error .keyError, { t := 0, tau := 1, x := [2], y := [3], ode := [(2, none)], alg := [.sym 3] }) := by
  decide +kernel

example : includeEquations [.diff [2] [.sym 2]] none none [.sym 3]
    { t := 0, tau := 1, x := [2], y := [3], ode := [(2, none)], alg := [.sym 3] } =
      (.ok (), { t := 0, tau := 1, x := [2], y := [3], ode := [(2, some (.sym 2))], alg := [.sym 3, .sym 3] }) := by
  decide +kernel

example : includeEquations [.diff [2] [.sym 2]] (some [.sym 2]) (some []) []
    { t := 0, tau := 1, x := [2, 3], ode := [(2, none), (3, none)] } =
      (.error .assertionError, { t := 0, tau := 1, x := [2, 3], ode := [(2, some (.sym 2)), (3, none)] }) := by
  decide +kernel

/-- Without algebraic equations nothing stays. -/
example : includeEquations [.diff [5] [.sym 2]] none none []
    { t := 0, tau := 1, x := [2], ode := [(2, none)] } =
      (.error .keyError, { t := 0, tau := 1, x := [2], ode := [(2, none)] }) := by
  decide +kernel

end Verif
