import Verif.Model.SystemModel
import Verif.Lemmas.Py
import Verif.Lemmas.Dict
import Verif.Lemmas.Vectors
/-! Lemmas on the building calls of `SystemModel`. -/
namespace Verif.SysModel
open Verif

/-- States and table keys are `X` and `Kk`. -/
def HasStates (X Kk : List Sym) (m : SysModel) : Prop := m.x = X ∧ m.ode.keys = Kk

theorem addSlots_ok_iff (var : List Sym) (m m' : SysModel) :
    Py.forEach var addSlot m = (.ok (), m') ↔
      var.Nodup ∧ (∀ v ∈ var, v ∉ m.ode.keys) ∧
        m' = { m with ode := m.ode ++ var.map fun v => (v, none) } := by
  induction var generalizing m with
  | nil => simp [Py.forEach, Py.pure, eq_comm]
  | cons a var ih =>
    simp only [Py.forEach]
    by_cases h : m.ode.has a
    · have ha : a ∈ m.ode.keys := (Dict.has_iff _ _).mp h
      rw [Py.bind_error (s' := m) (e := .valueError) (by simp [addSlot, h])]
      simp only [Prod.mk.injEq, reduceCtorEq, false_and, false_iff, not_and, List.mem_cons,
        forall_eq_or_imp]
      intro _ h'; exact absurd ha h'.1
    · have ha : a ∉ m.ode.keys := fun hh => h ((Dict.has_iff _ _).mpr hh)
      rw [Py.bind_ok (a := ()) (s' := { m with ode := m.ode.set a none }) (by simp [addSlot, h]),
        ih, Dict.set_new _ _ _ ha]
      have hk : Dict.keys (m.ode ++ [(a, none)]) = m.ode.keys ++ [a] := by simp [Dict.keys]
      simp only [hk, List.mem_append, List.mem_cons, List.not_mem_nil, or_false, not_or,
        List.nodup_cons, forall_eq_or_imp, List.map_cons, List.append_assoc, List.singleton_append]
      constructor
      · rintro ⟨h₁, h₂, h₃⟩
        exact ⟨⟨fun hh => (h₂ a hh).2 rfl, h₁⟩, ⟨ha, fun v hv => (h₂ v hv).1⟩, h₃⟩
      · rintro ⟨⟨h₀, h₁⟩, ⟨_, h₂⟩, h₃⟩
        exact ⟨h₁, fun v hv => ⟨h₂ v hv, fun hh => h₀ (hh ▸ hv)⟩, h₃⟩

theorem addSlots_error (var : List Sym) (m : SysModel) (er : Err)
    (h : (Py.forEach var addSlot m).1 = .error er) : er = .valueError := by
  induction var generalizing m with
  | nil => simp [Py.forEach, Py.pure] at h
  | cons a var ih =>
    simp only [Py.forEach] at h
    by_cases ha : m.ode.has a = true
    · rw [Py.bind_error (e := .valueError) (s' := m) (by simp [addSlot, ha])] at h
      simpa using h.symm
    · rw [Py.bind_ok (a := ()) (s' := { m with ode := m.ode.set a none })
        (by simp [addSlot, ha])] at h
      exact ih _ h

theorem delSlots_ok_iff (var : List Sym) (m m' : SysModel) :
    Py.forEach var delSlot m = (.ok (), m') ↔
      var.Nodup ∧ (∀ v ∈ var, v ∈ m.ode.keys) ∧
        m' = { m with ode := m.ode.filter fun kv => decide (kv.1 ∉ var) } := by
  induction var generalizing m with
  | nil => simp [Py.forEach, Py.pure, eq_comm]
  | cons a var ih =>
    simp only [Py.forEach]
    by_cases h : m.ode.has a
    · have ha : a ∈ m.ode.keys := (Dict.has_iff _ _).mp h
      rw [Py.bind_ok (a := ()) (s' := { m with ode := m.ode.del a }) (by simp [delSlot, h]), ih]
      simp only [Dict.keys_del, List.mem_filter, decide_eq_true_eq, List.nodup_cons, List.mem_cons,
        forall_eq_or_imp]
      have hf : (Dict.del m.ode a).filter (fun kv => decide (kv.1 ∉ var)) =
          m.ode.filter fun kv => decide ¬(kv.1 = a ∨ kv.1 ∈ var) := by
        simp only [Dict.del, List.filter_filter]
        congr 1
        funext kv
        by_cases h₁ : kv.1 = a <;> by_cases h₂ : kv.1 ∈ var <;> simp [h₁, h₂]
      rw [hf]
      constructor
      · rintro ⟨h₁, h₂, h₃⟩
        exact ⟨⟨fun hh => (h₂ a hh).2 rfl, h₁⟩, ⟨ha, fun v hv => (h₂ v hv).1⟩, h₃⟩
      · rintro ⟨⟨h₀, h₁⟩, ⟨_, h₂⟩, h₃⟩
        exact ⟨h₁, fun v hv => ⟨h₂ v hv, fun hh => h₀ (hh ▸ hv)⟩, h₃⟩
    · have ha : a ∉ m.ode.keys := fun hh => h ((Dict.has_iff _ _).mpr hh)
      rw [Py.bind_error (s' := m) (e := .keyError) (by simp [delSlot, h])]
      simp only [Prod.mk.injEq, reduceCtorEq, false_and, false_iff, not_and, List.mem_cons,
        forall_eq_or_imp]
      intro _ h'; exact absurd h'.1 ha

theorem includeFromKwargs_ok_iff (x : List Sym) (e : List Expr) (m m' : SysModel) :
    includeFromKwargs x e m = (.ok (), m') ↔
      e.length = x.length ∧ (∀ v ∈ x, v ∈ m.ode.keys) ∧
        m' = { m with ode := m.ode.update (x.zip (e.map some)) } := by
  unfold includeFromKwargs
  by_cases h₁ : e.length = x.length
  · rw [if_neg (by simpa using h₁)]
    by_cases h₂ : x.any (fun xi => !m.ode.has xi) = true
    · rw [if_pos h₂]
      simp only [List.any_eq_true, Bool.not_eq_true', Dict.has_eq_false_iff] at h₂
      obtain ⟨v, hv, hk⟩ := h₂
      simp only [Prod.mk.injEq, reduceCtorEq, false_and, false_iff, not_and]
      intro _ h; exact absurd (h v hv) hk
    · rw [if_neg h₂]
      have h₂' : ∀ v ∈ x, v ∈ m.ode.keys := by
        intro v hv
        by_contra hk
        exact h₂ (List.any_eq_true.mpr ⟨v, hv, by simp [Dict.has_eq_false_iff, hk]⟩)
      simp only [Prod.mk.injEq, true_and, h₁]
      constructor
      · rintro rfl; exact ⟨h₂', rfl⟩
      · rintro ⟨_, rfl⟩; rfl
  · rw [if_pos (by simpa using h₁)]
    simp [h₁]

theorem keys_zip_update (d : Dict Sym (Option Expr)) (x : List Sym) (e : List Expr)
    (h : ∀ v ∈ x, v ∈ d.keys) : (d.update (x.zip (e.map some))).keys = d.keys := by
  apply Dict.keys_update_of_mem
  intro kv hkv
  exact h _ (List.of_mem_zip hkv).1

/-! ### Calls that keep the states and the keys of the table, even when they raise -/

variable {X Kk : List Sym}

theorem always_includeAlgEquations {a g} :
    Py.Always (HasStates X Kk) (includeAlgEquations a g) :=
  Py.Always.modify _ fun _ h => h

theorem always_includeFromKwargs {x e} :
    Py.Always (HasStates X Kk) (includeFromKwargs x e) := by
  rintro m ⟨hx, hk⟩
  match h : includeFromKwargs x e m with
  | (.ok (), m') =>
    obtain ⟨_, h₂, rfl⟩ := (includeFromKwargs_ok_iff ..).mp h
    exact ⟨hx, by rw [← hk]; exact keys_zip_update _ _ _ h₂⟩
  | (.error er, m') =>
    unfold includeFromKwargs at h
    split at h
    · cases h; exact ⟨hx, hk⟩
    · split at h
      · cases h; exact ⟨hx, hk⟩
      · cases h

theorem always_includeFromDiff {a} :
    Py.Always (HasStates X Kk) (includeFromDiff a) := always_includeFromKwargs

theorem always_includeEquations {a o x g} :
    Py.Always (HasStates X Kk) (includeEquations a o x g) := by
  unfold includeEquations includeArgs
  py_always [always_includeAlgEquations, always_includeFromDiff, always_includeFromKwargs]

theorem always_replaceVariable {v w} :
    Py.Always (HasStates X Kk) (replaceVariable v w) := by
  rintro m ⟨hx, hk⟩
  unfold replaceVariable
  split
  · exact ⟨hx, hk⟩
  · refine ⟨hx, ?_⟩
    simp only
    split
    · rw [Dict.keys_map_snd m.ode fun kv => substSlot v w kv.2]; exact hk
    · exact hk

theorem always_includeAlgebraic {v a} :
    Py.Always (HasStates X Kk) (includeAlgebraic v a) := by
  unfold includeAlgebraic
  py_always [always_includeEquations]

theorem always_removeAlgebraic {v e} :
    Py.Always (HasStates X Kk) (removeAlgebraic v e) := by
  unfold removeAlgebraic
  py_always []

theorem always_includeControl {v} : Py.Always (HasStates X Kk) (includeControl v) :=
  Py.Always.modify _ fun _ h => h

theorem always_removeControl {v} : Py.Always (HasStates X Kk) (removeControl v) := by
  unfold removeControl
  py_always []

theorem always_registerParametrized {a} :
    Py.Always (HasStates X Kk) (registerParametrized a) := by
  intro m h
  unfold registerParametrized
  split <;> exact h

theorem always_parametrizeControl {u e up} :
    Py.Always (HasStates X Kk) (parametrizeControl u e up) := by
  unfold parametrizeControl
  py_always [always_registerParametrized, always_replaceVariable]

theorem always_connect {u y r} : Py.Always (HasStates X Kk) (connect u y r) := by
  unfold connect
  py_always [always_includeEquations, always_includeAlgebraic, always_removeControl,
    always_replaceVariable]

theorem always_includeParameter {v} : Py.Always (HasStates X Kk) (includeParameter v) :=
  Py.Always.modify _ fun _ h => h

theorem always_includeTheta {v} : Py.Always (HasStates X Kk) (includeTheta v) :=
  Py.Always.modify _ fun _ h => h

theorem always_removeParameter {v} : Py.Always (HasStates X Kk) (removeParameter v) := by
  unfold removeParameter
  py_always []

theorem always_removeTheta {v} : Py.Always (HasStates X Kk) (removeTheta v) := by
  unfold removeTheta
  py_always []

/-! ### Calls on states -/

/-- The initial-condition symbols added by `include_state`. -/
def newX0 (var : List Sym) (x0 : Option (List Sym)) (fresh : Sym) : List Sym :=
  match x0 with
  | some v => v
  | none => (List.range var.length).map (fresh + ·)

/-- The table after including states with optional equations. -/
def tableWith (d : Dict Sym (Option Expr)) (var : List Sym) (ode : Option (List Expr)) :
    Dict Sym (Option Expr) :=
  match ode with
  | none => d ++ var.map fun v => (v, none)
  | some e => Dict.update (d ++ var.map fun v => (v, none)) (var.zip (e.map some))

theorem keys_append (d d' : Dict Sym (Option Expr)) :
    Dict.keys (d ++ d') = Dict.keys d ++ Dict.keys d' := by simp [Dict.keys]

theorem keys_new (var : List Sym) :
    Dict.keys (var.map fun v => (v, (none : Option Expr))) = var := by
  simp [Dict.keys, Function.comp_def]

theorem keys_tableWith (d : Dict Sym (Option Expr)) (var : List Sym) (ode) :
    (tableWith d var ode).keys = d.keys ++ var := by
  unfold tableWith
  cases ode with
  | none => simp only [keys_append, keys_new]
  | some e =>
    simp only
    rw [keys_zip_update, keys_append, keys_new]
    intro v hv
    rw [keys_append, keys_new]
    simp [hv]

theorem includeEquations_ode_x (e : List Expr) (x : List Sym) (g : List Expr) (m : SysModel) :
    includeEquations [] (some e) (some x) g m =
      includeFromKwargs x e { m with alg := m.alg ++ g } := by
  simp [includeEquations, includeAlgEquations, includeArgs]

theorem includeEquations_alg (g : List Expr) (m : SysModel) :
    includeEquations [] none none g m = (.ok (), { m with alg := m.alg ++ g }) := by
  simp [includeEquations, includeAlgEquations, includeArgs]

theorem includeState_ok_iff (var : List Sym) (ode : Option (List Expr)) (x0 : Option (List Sym))
    (fresh : Sym) (m m' : SysModel) :
    includeState var ode x0 fresh m = (.ok (), m') ↔
      (x0 = none → var ≠ []) ∧ var.Nodup ∧ (∀ v ∈ var, v ∉ m.ode.keys) ∧
      (∀ e, ode = some e → e.length = var.length) ∧
      m' = { m with x := m.x ++ var, x0 := m.x0 ++ newX0 var x0 fresh,
                    ode := tableWith m.ode var ode } := by
  unfold includeState
  simp only [Py.bind_eq, Py.modify_bind]
  by_cases hx0 : x0 = none ∧ var = []
  · obtain ⟨rfl, rfl⟩ := hx0
    simp [Py.bind, Py.throw]
  have hx0' : x0 = none → var ≠ [] := fun h h' => hx0 ⟨h, h'⟩
  rw [Py.bind_ok (a := newX0 var x0 fresh) (s' := { m with x := m.x ++ var })
    (by cases x0 with
        | some v => rfl
        | none => simp [newX0, hx0' rfl, Py.pure])]
  rw [Py.modify_bind, Py.bind_eq_ok]
  constructor
  · rintro ⟨⟨⟩, s₁, h₁, h₂⟩
    obtain ⟨hn, hd, rfl⟩ := (addSlots_ok_iff ..).mp h₁
    refine ⟨hx0', hn, hd, ?_⟩
    cases ode with
    | none => exact ⟨by simp, by simpa [Py.pure, tableWith, eq_comm] using h₂⟩
    | some e =>
      simp only at h₂
      rw [includeEquations_ode_x, includeFromKwargs_ok_iff] at h₂
      obtain ⟨hl, _, rfl⟩ := h₂
      exact ⟨fun _ he => by cases he; exact hl, by simp [tableWith]⟩
  · rintro ⟨_, hn, hd, he, rfl⟩
    refine ⟨(), _, (addSlots_ok_iff ..).mpr ⟨hn, hd, rfl⟩, ?_⟩
    cases ode with
    | none => simp [Py.pure, tableWith]
    | some e =>
      simp only
      rw [includeEquations_ode_x, includeFromKwargs_ok_iff]
      refine ⟨he e rfl, ?_, by simp [tableWith]⟩
      intro v hv
      change v ∈ Dict.keys (_ ++ _)
      rw [keys_append, keys_new]
      simp [hv]

theorem removeState_ok_iff (var : List Sym) (m m' : SysModel) :
    removeState var m = (.ok (), m') ↔
      (∃ v ∈ var, v ∈ m.x) ∧ var.Nodup ∧ (∀ v ∈ var, v ∈ m.ode.keys) ∧
      m' = { m with x := m.x.filter fun a => decide (a ∉ var),
                    ode := m.ode.filter fun kv => decide (kv.1 ∉ var) } := by
  unfold removeState
  simp only [Py.bind_eq, Py.get_bind, removeVars_eq]
  by_cases h : ∃ v ∈ var, v ∈ m.x
  · rw [if_pos h, Py.lift_ok_bind, Py.modify_bind, delSlots_ok_iff]
    simp [h]
  · rw [if_neg h, Py.lift_error_bind]
    simp [h]

end Verif.SysModel
