import Verif.Lemmas.SystemModel
/-!
# C10-C14: states and their equations
-/
namespace Verif
open SysModel

/-- Each state has exactly one slot in the equation table, in the order of the state vector, and
no state appears twice. -/
def Spec.StatesAligned (x slots : List Sym) : Prop := slots = x ∧ x.Nodup

/-- The model is aligned. -/
def Aligned (m : SysModel) : Prop := Spec.StatesAligned m.x m.ode.keys

theorem aligned_always {α} {c : Py SysModel α}
    (h : ∀ X Kk, Py.Always (HasStates X Kk) c) : Py.Always Aligned c := by
  rintro m ⟨h₁, h₂⟩
  obtain ⟨hx, hk⟩ := h m.x m.ode.keys m ⟨rfl, rfl⟩
  exact ⟨by rw [hk, hx, h₁], by rw [hx]; exact h₂⟩

theorem aligned_triple {α} {c : Py SysModel α} (h : Py.Always Aligned c) :
    Py.Triple Aligned c Aligned := by
  intro s a s' hs hm
  have := h s hs
  rwa [hm] at this

theorem aligned_includeState {var ode x0 fresh} :
    Py.Triple Aligned (includeState var ode x0 fresh) Aligned := by
  rintro m ⟨⟩ m' ⟨h₁, h₂⟩ hm
  obtain ⟨_, hn, hd, _, rfl⟩ := (includeState_ok_iff ..).mp hm
  refine ⟨?_, ?_⟩
  · simp only [keys_tableWith, h₁]
  · rw [h₁] at hd
    exact List.Nodup.append h₂ hn fun a ha hv => hd a hv ha

theorem aligned_removeState {var} : Py.Triple Aligned (removeState var) Aligned := by
  rintro m ⟨⟩ m' ⟨h₁, h₂⟩ hm
  obtain ⟨_, _, _, rfl⟩ := (removeState_ok_iff ..).mp hm
  refine ⟨?_, h₂.filter _⟩
  change Dict.keys (m.ode.filter _) = m.x.filter _
  rw [← h₁]
  simp only [Dict.keys, List.filter_map]
  rfl

theorem aligned_includeModel (k) : Py.Triple Aligned (includeModel k) Aligned := by
  refine Py.Triple.bind (aligned_includeState) fun _ => aligned_triple (aligned_always ?_)
  intro X Kk
  py_always [always_includeAlgebraic, always_includeControl, always_includeParameter,
    always_includeTheta, always_includeEquations, always_replaceVariable]

theorem aligned_includeModels (ks) : Py.Triple Aligned (includeModels ks) Aligned :=
  Py.Triple.forEach _ _ fun k _ => aligned_includeModel k

theorem aligned_call (c : Call) : Py.Triple Aligned c.run Aligned := by
  cases c with
  | includeState => exact aligned_includeState
  | removeState => exact aligned_removeState
  | includeAlgebraic => exact aligned_triple (aligned_always fun _ _ => always_includeAlgebraic)
  | removeAlgebraic => exact aligned_triple (aligned_always fun _ _ => always_removeAlgebraic)
  | includeControl => exact aligned_triple (aligned_always fun _ _ => always_includeControl)
  | removeControl => exact aligned_triple (aligned_always fun _ _ => always_removeControl)
  | parametrizeControl => exact aligned_triple (aligned_always fun _ _ => always_parametrizeControl)
  | includeParameter => exact aligned_triple (aligned_always fun _ _ => always_includeParameter)
  | removeParameter => exact aligned_triple (aligned_always fun _ _ => always_removeParameter)
  | includeTheta => exact aligned_triple (aligned_always fun _ _ => always_includeTheta)
  | removeTheta => exact aligned_triple (aligned_always fun _ _ => always_removeTheta)
  | includeEquations => exact aligned_triple (aligned_always fun _ _ => always_includeEquations)
  | replaceVariable => exact aligned_triple (aligned_always fun _ _ => always_replaceVariable)
  | includeVariables x y u p th fresh =>
    refine Py.Triple.bind (Q := Aligned) ?_ fun _ => aligned_triple (aligned_always ?_)
    · exact Py.Triple.whenSome _ _ fun v _ => aligned_includeState
    · intro X Kk
      py_always [always_includeAlgebraic, always_includeControl, always_includeParameter,
        always_includeTheta]
  | includeModels ks => exact aligned_includeModels ks
  | merge ks c =>
    refine Py.Triple.bind (aligned_includeModels ks) fun _ => aligned_triple (aligned_always ?_)
    intro X Kk
    py_always [always_includeEquations]
  | connect => exact aligned_triple (aligned_always fun _ _ => always_connect)

/-- C10. After every program of building calls that did not raise, starting from a new model, the
states and the equation table are aligned. -/
theorem C10_states_aligned (t tau : Sym) (calls : List Call) (m : SysModel)
    (h : runCalls calls (SysModel.new t tau) = (.ok (), m)) :
    Spec.StatesAligned m.x m.ode.keys :=
  Py.Triple.forEach calls Call.run (fun c _ => aligned_call c) _ () m
    ⟨rfl, List.nodup_nil⟩ h

/-- The calls that may lose alignment when they raise. -/
def Call.touchesStates : Call → Bool
  | .includeState .. => true
  | .removeState .. => true
  | .includeVariables .. => true
  | .includeModels .. => true
  | .merge .. => true
  | _ => false

/-- C10, with exceptions caught by the caller: a call that does not include or remove states keeps
alignment even when it raises. -/
theorem C10_rejected_calls (c : Call) (hc : Call.touchesStates c = false) (m : SysModel)
    (hm : Spec.StatesAligned m.x m.ode.keys) :
    Spec.StatesAligned (c.run m).2.x (c.run m).2.ode.keys := by
  have key : ∀ {d : Py SysModel Unit}, (∀ X Kk, Py.Always (HasStates X Kk) d) →
      Spec.StatesAligned (d m).2.x (d m).2.ode.keys := fun h => aligned_always h m hm
  cases c with
  | includeState => simp [Call.touchesStates] at hc
  | removeState => simp [Call.touchesStates] at hc
  | includeVariables => simp [Call.touchesStates] at hc
  | includeModels => simp [Call.touchesStates] at hc
  | merge => simp [Call.touchesStates] at hc
  | includeAlgebraic => exact key fun _ _ => always_includeAlgebraic
  | removeAlgebraic => exact key fun _ _ => always_removeAlgebraic
  | includeControl => exact key fun _ _ => always_includeControl
  | removeControl => exact key fun _ _ => always_removeControl
  | parametrizeControl => exact key fun _ _ => always_parametrizeControl
  | includeParameter => exact key fun _ _ => always_includeParameter
  | removeParameter => exact key fun _ _ => always_removeParameter
  | includeTheta => exact key fun _ _ => always_includeTheta
  | removeTheta => exact key fun _ _ => always_removeTheta
  | includeEquations => exact key fun _ _ => always_includeEquations
  | replaceVariable => exact key fun _ _ => always_replaceVariable
  | connect => exact key fun _ _ => always_connect

/-- Non-vacuity: a program with two inclusions, an equation and a removal returns. -/
example : runCalls [.includeState [2, 3] none none 10,
    .includeEquations [] (some [.sym 2]) (some [3]) [], .removeState [2]] (SysModel.new 0 1) =
      (.ok (), { t := 0, tau := 1, x := [3], x0 := [10, 11], ode := [(3, some (.sym 2))] }) := by
  decide +kernel

/-! ## C11 -/

/-- The initial conditions passed to the call have the sizes of the states, and no state is
removed. -/
def Call.keepsX0 : Call → Prop
  | .includeState var _ (some v) _ => v.length = var.length
  | .removeState _ => False
  | .includeModels ks => ∀ k ∈ ks, k.x0.length = k.x.length
  | .merge ks _ => ∀ k ∈ ks, k.x0.length = k.x.length
  | _ => True

/-- `x` and `x_0` are `X`, `Z`. -/
def HasX0 (X Z : List Sym) (m : SysModel) : Prop := m.x = X ∧ m.x0 = Z

section
variable {X Z : List Sym}

theorem x0_includeFromKwargs {x e} : Py.Always (HasX0 X Z) (includeFromKwargs x e) := by
  intro m h
  unfold includeFromKwargs
  split
  · exact h
  · split
    · exact h
    · exact h

theorem x0_includeEquations {a o x g} : Py.Always (HasX0 X Z) (includeEquations a o x g) := by
  unfold includeEquations includeArgs includeFromDiff includeAlgEquations
  py_always [x0_includeFromKwargs]

theorem x0_replaceVariable {v w} : Py.Always (HasX0 X Z) (replaceVariable v w) := by
  intro m h; unfold replaceVariable; split <;> exact h

theorem x0_register {a} : Py.Always (HasX0 X Z) (registerParametrized a) := by
  intro m h; unfold registerParametrized; split <;> exact h

theorem x0_includeAlgebraic {v a} : Py.Always (HasX0 X Z) (includeAlgebraic v a) := by
  unfold includeAlgebraic; py_always [x0_includeEquations]

theorem x0_removeControl {v} : Py.Always (HasX0 X Z) (removeControl v) := by
  unfold removeControl; py_always []

theorem x0_call (c : Call) (hc : Call.touchesStates c = false) :
    Py.Always (HasX0 X Z) c.run := by
  cases c <;> simp only [Call.touchesStates, reduceCtorEq] at hc <;>
    simp only [Call.run, removeAlgebraic, includeControl, parametrizeControl,
      includeParameter, removeParameter, includeTheta, removeTheta, connect] <;>
    py_always [x0_includeAlgebraic, x0_removeControl, x0_register, x0_replaceVariable,
      x0_includeEquations]
end

/-- One initial-condition symbol per state. -/
def SameSize (m : SysModel) : Prop := m.x0.length = m.x.length

theorem sameSize_always {α} {c : Py SysModel α} (h : ∀ X Z, Py.Always (HasX0 X Z) c) :
    Py.Triple SameSize c SameSize := by
  intro m a m' hm hr
  obtain ⟨h₁, h₂⟩ := h m.x m.x0 m ⟨rfl, rfl⟩
  rw [hr] at h₁ h₂
  unfold SameSize at hm ⊢
  rw [h₁, h₂]
  exact hm

theorem sameSize_includeState (var ode x0 fresh)
    (h : ∀ v, x0 = some v → v.length = var.length) :
    Py.Triple SameSize (includeState var ode x0 fresh) SameSize := by
  rintro m ⟨⟩ m' hm hr
  obtain ⟨_, _, _, _, rfl⟩ := (includeState_ok_iff ..).mp hr
  have hn : (newX0 var x0 fresh).length = var.length := by
    cases x0 with
    | none => simp [newX0]
    | some v => exact h v rfl
  unfold SameSize at hm
  simp [SameSize, hm, hn]

theorem sameSize_includeModels (ks : List SysModel) (h : ∀ k ∈ ks, k.x0.length = k.x.length) :
    Py.Triple SameSize (includeModels ks) SameSize := by
  refine Py.Triple.forEach _ _ fun k hk => ?_
  refine Py.Triple.bind (sameSize_includeState _ _ _ _ ?_) fun _ => sameSize_always fun X Z => ?_
  · intro v hv; cases hv; exact h k hk
  · simp only [includeControl, includeParameter, includeTheta]
    py_always [x0_includeAlgebraic, x0_includeEquations, x0_replaceVariable]

/-- C11, for programs that remove no state and pass initial conditions of the right sizes: as many
initial-condition symbols as states. What is missing: removals, where it is false
(`C11_removal_fails`), and wrongly sized `x_0` arguments (`C11_wrong_size_fails`). -/
theorem C11_x0_size_partial (t tau : Sym) (calls : List Call) (m : SysModel)
    (hc : ∀ c ∈ calls, Call.keepsX0 c)
    (h : runCalls calls (SysModel.new t tau) = (.ok (), m)) : m.x0.length = m.x.length := by
  refine Py.Triple.forEach (P := SameSize) calls Call.run (fun c hcm => ?_) (SysModel.new t tau) () m rfl h
  have hk := hc c hcm
  cases c with
  | includeState var ode x0 fresh =>
    refine sameSize_includeState _ _ _ _ ?_
    rintro v rfl; exact hk
  | removeState => exact hk.elim
  | includeModels ks => exact sameSize_includeModels ks hk
  | merge ks c =>
    refine Py.Triple.bind (sameSize_includeModels ks hk) fun _ => sameSize_always fun X Z => ?_
    py_always [x0_includeEquations]
  | includeVariables x y u p th fresh =>
    refine Py.Triple.bind (Q := SameSize) ?_ fun _ => sameSize_always fun X Z => ?_
    · exact Py.Triple.whenSome _ _ fun v _ => sameSize_includeState _ _ _ _ (by simp)
    · have h₁ : ∀ v, Py.Always (HasX0 X Z) (includeControl v) := fun _ _ h => h
      have h₂ : ∀ v, Py.Always (HasX0 X Z) (includeParameter v) := fun _ _ h => h
      have h₃ : ∀ v, Py.Always (HasX0 X Z) (includeTheta v) := fun _ _ h => h
      py_always [x0_includeAlgebraic, h₁, h₂, h₃]
  | _ => exact sameSize_always fun X Z => x0_call _ rfl

/-- C11: a successful inclusion pairs each new state with its new initial-condition symbol and
keeps all earlier pairs. -/
theorem C11_positions_partial (var : List Sym) (ode : Option (List Expr)) (z : List Sym)
    (fresh : Sym) (m m' : SysModel) (hm : m.x0.length = m.x.length)
    (h : includeState var ode (some z) fresh m = (.ok (), m')) :
    m'.x.zip m'.x0 = m.x.zip m.x0 ++ var.zip z := by
  obtain ⟨_, _, _, _, rfl⟩ := (includeState_ok_iff ..).mp h
  simp only [newX0]
  exact List.zip_append hm.symm

/-- C11 is false: `remove_state` succeeds and leaves the initial condition of the removed state. -/
theorem C11_removal_fails : ∃ (calls : List Call) (m : SysModel),
    runCalls calls (SysModel.new 0 1) = (.ok (), m) ∧ m.x0.length ≠ m.x.length :=
  ⟨[.includeState [2, 3] none (some [4, 5]) 0, .removeState [2]], _, rfl, by decide⟩

/-- After that removal the surviving state is paired with the removed state's symbol. -/
theorem C11_removal_shifts_fails : ∃ (m : SysModel),
    runCalls [.includeState [2, 3] none (some [4, 5]) 0, .removeState [2]] (SysModel.new 0 1) =
      (.ok (), m) ∧ m.x.zip m.x0 = [(3, 4)] := ⟨_, rfl, rfl⟩

/-- C11 is also false when the caller passes an `x_0` of another size: it is accepted. -/
theorem C11_wrong_size_fails : ∃ (m : SysModel),
    runCalls [.includeState [2, 3] none (some [4]) 0] (SysModel.new 0 1) = (.ok (), m) ∧
      m.x0.length ≠ m.x.length := ⟨_, rfl, by decide⟩

/-- Non-vacuity of the partial theorem. -/
example : ∃ (m : SysModel),
    runCalls [.includeState [2, 3] none (some [4, 5]) 0, .includeControl [6],
      .includeVariables (some [7]) none none none none 20] (SysModel.new 0 1) = (.ok (), m) ∧
      m.x0 = [4, 5, 20] := ⟨_, rfl, rfl⟩

/-! ## C12 -/

/-- C12 is false: including a present state raises `ValueError` but the state vector has grown. -/
theorem C12_not_atomic_fails : ∃ (m : SysModel) (var : List Sym),
    Py.raises (includeState var none none 50) m .valueError ∧
      Py.stateAfter (includeState var none none 50) m ≠ m :=
  ⟨{ t := 0, tau := 1, x := [2], x0 := [3], ode := [(2, none)] }, [2], rfl, by decide⟩

/-- When `include_state` raises at the duplicate check, exactly the state vector, the
initial-condition vector and the slots created before the duplicate differ: the names before the
first duplicate (`good`) got slots, the vectors got everything. -/
theorem C12_rejected_effect_partial (good : List Sym) (dup : Sym) (rest : List Sym)
    (ode : Option (List Expr)) (x0 : Option (List Sym)) (fresh : Sym) (m : SysModel)
    (hgood : good.Nodup) (hnew : ∀ v ∈ good, v ∉ m.ode.keys)
    (hdup : dup ∈ m.ode.keys ∨ dup ∈ good) :
    includeState (good ++ dup :: rest) ode x0 fresh m =
      (.error .valueError,
        { m with x := m.x ++ (good ++ dup :: rest)
                 x0 := m.x0 ++ newX0 (good ++ dup :: rest) x0 fresh
                 ode := m.ode ++ good.map fun v => (v, none) }) := by
  have loop : ∀ (l : List Sym) (s : SysModel), l.Nodup → (∀ v ∈ l, v ∉ s.ode.keys) →
      (dup ∈ s.ode.keys ∨ dup ∈ l) →
      Py.forEach (l ++ dup :: rest) addSlot s =
        (.error .valueError, { s with ode := s.ode ++ l.map fun v => (v, none) }) := by
    intro l
    induction l with
    | nil =>
      intro s _ _ h
      have hd : s.ode.has dup = true := (Dict.has_iff _ _).mpr (h.resolve_right (by simp))
      simp only [List.nil_append, Py.forEach]
      rw [Py.bind_error (s' := s) (e := .valueError) (by simp [addSlot, hd])]
      simp
    | cons a l ih =>
      intro s hn hnew h
      simp only [List.nodup_cons] at hn
      have ha : a ∉ s.ode.keys := hnew a (by simp)
      simp only [List.cons_append, Py.forEach]
      rw [Py.bind_ok (a := ()) (s' := { s with ode := s.ode ++ [(a, none)] })
        (by simp [addSlot, (Dict.has_eq_false_iff _ _).mpr ha, Dict.set_new _ _ _ ha])]
      have hk : Dict.keys (s.ode ++ [(a, none)]) = s.ode.keys ++ [a] := by simp [Dict.keys]
      rw [ih _ hn.2]
      · simp
      · intro v hv
        simp only [hk, List.mem_append, List.mem_singleton, not_or]
        exact ⟨hnew v (by simp [hv]), fun hh => hn.1 (hh ▸ hv)⟩
      · simp only [hk, List.mem_append, List.mem_singleton]
        rcases h with h | h
        · exact .inl (.inl h)
        · rcases List.mem_cons.mp h with h | h
          · exact .inl (.inr h)
          · exact .inr h
  unfold includeState
  simp only [Py.bind_eq, Py.modify_bind]
  rw [Py.bind_ok (a := newX0 (good ++ dup :: rest) x0 fresh)
    (s' := { m with x := m.x ++ (good ++ dup :: rest) })
    (by cases x0 with
        | some v => rfl
        | none => simp [newX0])]
  rw [Py.modify_bind]
  exact Py.bind_error (loop good
    { m with x := m.x ++ (good ++ dup :: rest),
             x0 := m.x0 ++ newX0 (good ++ dup :: rest) x0 fresh } hgood hnew hdup)

/-- Non-vacuity: the second of three names is present already. -/
example : includeState [7, 2, 8] none none 50
    { t := 0, tau := 1, x := [2], x0 := [3], ode := [(2, none)] } =
    (.error .valueError,
      { t := 0, tau := 1, x := [2, 7, 2, 8], x0 := [3, 50, 51, 52],
        ode := [(2, none), (7, none)] }) := rfl

/-! ## C13 -/

/-- What `include_equations(ode=e)` without states does. It returns exactly when the first slot is
empty and `0 < e.length ≤` number of slots; then the first `e.length` slots hold `e` in order and
the other slots are unchanged. -/
theorem C13_guess_partial (e : List Expr) (m : SysModel) (hm : Aligned m) :
    includeEquations [] (some e) none [] m =
      if m.ode.values.head? = some none ∧ 0 < e.length ∧ e.length ≤ m.x.length then
        (.ok (), { m with ode := m.ode.update ((m.x.take e.length).zip (e.map some)) })
      else (.error (if m.ode.values.head? = some none then
          (if e = [] then .notImplementedError else .assertionError) else .valueError), m) := by
  have h0 : includeEquations [] (some e) none [] m =
      Py.bind (Py.lift (guessStates m e.length)) (fun xs => includeFromKwargs xs e) m := by
    simp [includeEquations, includeAlgEquations, includeArgs]
  rw [h0]
  have hk : m.ode.keys = m.x := hm.1
  match hd : m.ode with
  | [] =>
    have : guessStates m e.length = .error .valueError := by
      simp [guessStates, hd, Dict.values]
    rw [this]
    simp [Dict.values]
  | (k, some v) :: d =>
    have : guessStates m e.length = .error .valueError := by
      simp only [guessStates, hd, Dict.values, List.map_cons, List.findIdx?_cons, Option.isNone_some]
      cases h : List.findIdx? Option.isNone (List.map (·.2) d) <;> simp
    rw [this]
    simp [Dict.values]
  | (k, none) :: d =>
    have hx : m.x = k :: Dict.keys d := by rw [← hk, hd]; rfl
    have hg : guessStates m e.length =
        if m.x.take e.length = [] then .error .notImplementedError else .ok (m.x.take e.length) := by
      simp [guessStates, hd, Dict.values, ← hk, List.findIdx?_cons]
    rw [hg]
    have hhead : (Dict.values ((k, (none : Option Expr)) :: d)).head? = some none := rfl
    by_cases he : e = []
    · subst he
      simp [hhead]
    · have hpos : 0 < e.length := List.length_pos_of_ne_nil he
      have hne : m.x.take e.length ≠ [] := by
        rw [hx]
        cases e with
        | nil => exact absurd rfl he
        | cons a e => simp
      rw [if_neg hne, Py.lift_ok_bind]
      by_cases hle : e.length ≤ m.x.length
      · have hlen : (m.x.take e.length).length = e.length := by simpa using hle
        rw [if_pos ⟨hhead, hpos, hle⟩]
        rw [(includeFromKwargs_ok_iff (m.x.take e.length) e m _).mpr ⟨hlen.symm, ?_, rfl⟩]
        · rw [hd]
        · intro v hv; rw [hk]; exact List.mem_of_mem_take hv
      · rw [if_neg (fun h => hle h.2.2)]
        have : e.length ≠ (m.x.take e.length).length := by
          rw [List.length_take]; omega
        simp only [includeFromKwargs, if_pos this, hhead, if_true, if_neg he]

/-- C13 is false: an equation-less state followed by a state with an equation is accepted ... -/
theorem C13_no_error_fails : ∃ (m m' : SysModel), Aligned m ∧
    m.ode = [(2, none), (3, some (.const 1))] ∧
    includeEquations [] (some [.const 5]) none [] m = (.ok (), m') :=
  ⟨{ t := 0, tau := 1, x := [2, 3], ode := [(2, none), (3, some (.const 1))] }, _,
    ⟨rfl, by decide⟩, rfl, rfl⟩

/-- ... and then overwrites the equation of a state that had one, leaving an empty slot empty. -/
theorem C13_overwrites_fails : ∃ (m m' : SysModel), Aligned m ∧
    m.ode = [(2, none), (3, some (.const 1)), (4, none)] ∧
    includeEquations [] (some [.const 5, .const 6]) none [] m = (.ok (), m') ∧
    m'.ode = [(2, some (.const 5)), (3, some (.const 6)), (4, none)] :=
  ⟨{ t := 0, tau := 1, x := [2, 3, 4], ode := [(2, none), (3, some (.const 1)), (4, none)] }, _,
    ⟨rfl, by decide⟩, rfl, rfl, rfl⟩

/-- C13 is false in the other direction too: trailing empty slots after filled ones are refused. -/
theorem C13_trailing_refused_fails : ∃ (m : SysModel), Aligned m ∧
    m.ode = [(2, some (.const 1)), (3, none)] ∧
    Py.raises (includeEquations [] (some [.const 5]) none []) m .valueError :=
  ⟨{ t := 0, tau := 1, x := [2, 3], ode := [(2, some (.const 1)), (3, none)] },
    ⟨rfl, by decide⟩, rfl, rfl⟩

/-- C13 as stated holds when the equation-less states are all the states: the `k`-th expression
goes to the `k`-th state and the remaining slots stay empty. -/
theorem C13_all_empty_partial (e : List Expr) (m m' : SysModel) (hm : Aligned m)
    (hall : ∀ v ∈ m.ode.values, v = none)
    (h : includeEquations [] (some e) none [] m = (.ok (), m')) :
    m'.x = m.x ∧ m'.alg = m.alg ∧
    ∀ k (hk : k < m.x.length), m'.ode.get? m.x[k] =
      some (e[k]?) := by
  rw [C13_guess_partial e m hm] at h
  split at h
  · next hc =>
    simp only [Prod.mk.injEq, true_and] at h
    subst h
    refine ⟨rfl, rfl, fun k hk => ?_⟩
    have hmem : m.x[k] ∈ m.ode.keys := by rw [hm.1]; exact List.getElem_mem hk
    have hnone : m.ode.get? m.x[k] = some none := by
      cases hg : m.ode.get? m.x[k] with
      | none => exact absurd hmem ((Dict.get?_eq_none_iff _ _).mp hg)
      | some v =>
        have : v ∈ m.ode.values := by
          clear hall hc
          generalize m.x[k] = s at hg
          generalize m.ode = d at hg ⊢
          induction d with
          | nil => simp [Dict.get?] at hg
          | cons kv d ih =>
            obtain ⟨k', v'⟩ := kv
            by_cases h : s = k'
            · simp only [Dict.get?, if_pos h, Option.some.injEq] at hg
              simp [Dict.values, hg]
            · simp only [Dict.get?, if_neg h] at hg
              have := ih hg
              simp only [Dict.values, List.map_cons, List.mem_cons] at this ⊢
              exact .inr this
        rw [hall v this]
    rw [Dict.get?_update]
    have hlen : (m.x.take e.length).length = e.length := by simpa using hc.2.2
    by_cases hke : k < e.length
    · have hfilter : ((m.x.take e.length).zip (e.map some)).filter
          (fun kv => decide (kv.1 = m.x[k])) = [(m.x[k], some e[k])] := by
        have hnd : ((m.x.take e.length).zip (e.map some)).Nodup := by
          refine List.Nodup.of_map Prod.fst ?_
          rw [List.map_fst_zip (by simp)]
          exact hm.2.sublist (List.take_sublist _ _)
        have hin : (m.x[k], some e[k]) ∈ (m.x.take e.length).zip (e.map some) := by
          have : ((m.x.take e.length).zip (e.map some))[k]'(by simp [hk, hke]) =
              (m.x[k], some e[k]) := by simp
          rw [← this]; exact List.getElem_mem _
        have huniq : ∀ kv ∈ (m.x.take e.length).zip (e.map some),
            kv.1 = m.x[k] → kv = (m.x[k], some e[k]) := by
          intro kv hkv hk1
          obtain ⟨j, hj, rfl⟩ := List.getElem_of_mem hkv
          simp only [List.getElem_zip, List.getElem_take, List.getElem_map] at hk1 ⊢
          have : j = k := (List.Nodup.getElem_inj_iff hm.2).mp hk1
          subst this; rfl
        have hsub : ((m.x.take e.length).zip (e.map some)).filter
            (fun kv => decide (kv.1 = m.x[k])) =
            ((m.x.take e.length).zip (e.map some)).filter
            (fun kv => decide (kv = (m.x[k], some e[k]))) := by
          apply List.filter_congr
          intro kv hkv
          simp only [decide_eq_decide]
          exact ⟨huniq kv hkv, fun h => by rw [h]⟩
        rw [hsub]
        have := List.Nodup.filter (fun kv => decide (kv = (m.x[k], some e[k]))) hnd
        have hall' : ∀ kv ∈ ((m.x.take e.length).zip (e.map some)).filter
            (fun kv => decide (kv = (m.x[k], some e[k]))), kv = (m.x[k], some e[k]) := by
          intro kv hkv; simpa using (List.mem_filter.mp hkv).2
        have hmemf : (m.x[k], some e[k]) ∈ ((m.x.take e.length).zip (e.map some)).filter
            (fun kv => decide (kv = (m.x[k], some e[k]))) := by simp [List.mem_filter, hin]
        generalize ((m.x.take e.length).zip (e.map some)).filter
            (fun kv => decide (kv = (m.x[k], some e[k]))) = L at this hall' hmemf
        match L, this, hall', hmemf with
        | [a], _, ha, _ => rw [ha a (by simp)]
        | a :: b :: L, hn, ha, _ =>
          have h1 := ha a (by simp)
          have h2 := ha b (by simp)
          simp [h1, h2] at hn
      rw [hfilter]
      simp [hke]
    · have hfilter : ((m.x.take e.length).zip (e.map some)).filter
          (fun kv => decide (kv.1 = m.x[k])) = [] := by
        rw [List.filter_eq_nil_iff]
        intro kv hkv
        obtain ⟨j, hj, rfl⟩ := List.getElem_of_mem hkv
        simp only [List.length_zip, List.length_take, List.length_map] at hj
        simp only [List.getElem_zip, List.getElem_take, decide_eq_true_eq]
        intro hjk
        have : j = k := (List.Nodup.getElem_inj_iff hm.2).mp hjk
        omega
      rw [hfilter]
      simp [hnone, hke]
  · simp at h

end Verif
