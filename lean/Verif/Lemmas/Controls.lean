import Verif.Lemmas.SystemModel
import Verif.Lemmas.Expr
import Verif.Spec.Calls
/-! Lemmas on controls. -/
namespace Verif.SysModel
open Verif

theorem forall₂_keepUnlisted {α β : Type*} {R : α → β → Prop} (js : List Int) (a : List α)
    (b : List β) (h : List.Forall₂ R a b) :
    List.Forall₂ R (keepUnlisted js a) (keepUnlisted js b) := by
  unfold keepUnlisted
  suffices H : ∀ n, List.Forall₂ R
      ((a.zipIdx n).filterMap fun p => if js.contains (p.2 : Int) then none else some p.1)
      ((b.zipIdx n).filterMap fun p => if js.contains (p.2 : Int) then none else some p.1) from H 0
  induction h with
  | nil => intro n; exact .nil
  | @cons x y a b hxy _ ih =>
    intro n
    simp only [List.zipIdx_cons, List.filterMap_cons]
    by_cases hj : js.contains (n : Int) = true
    · simp only [hj, if_true]; exact ih (n + 1)
    · simp only [hj]; exact .cons hxy (ih (n + 1))

/-- Each control is parametrised or has itself as expression. -/
def ControlsOk (m : SysModel) : Prop :=
  List.Forall₂ (fun s e => s ∉ m.parametrized → e = Expr.sym s) m.u m.uExpr

theorem controls_of_same {m m' : SysModel} (h : ControlsOk m) (hu : m'.u = m.u)
    (he : m'.uExpr = m.uExpr) (hp : ∀ s ∈ m.parametrized, s ∈ m'.parametrized) :
    ControlsOk m' := by
  unfold ControlsOk at *
  rw [hu, he]
  exact h.imp fun s e hse hs => hse fun hh => hs (hp s hh)

theorem register_loop (u : List Sym) (m : SysModel) :
    ∃ pre, (Py.forEach u registerParametrized m).2 =
        { m with parametrized := m.parametrized ++ pre } ∧
      ((Py.forEach u registerParametrized m).1 = .ok () → pre = u) := by
  induction u generalizing m with
  | nil => exact ⟨[], by simp [Py.forEach], fun _ => rfl⟩
  | cons a u ih =>
    simp only [Py.forEach]
    by_cases h : m.controlIsParametrized a
    · rw [Py.bind_error (e := .valueError) (s' := m) (by simp [registerParametrized, h])]
      exact ⟨[], by simp, by simp⟩
    · rw [Py.bind_ok (a := ()) (s' := { m with parametrized := m.parametrized ++ [a] })
        (by simp [registerParametrized, h])]
      obtain ⟨pre, h₁, h₂⟩ := ih { m with parametrized := m.parametrized ++ [a] }
      exact ⟨a :: pre, by rw [h₁]; simp, fun hok => by rw [h₂ hok]⟩

/-- The registration loop returns exactly when no control is registered yet and none is listed
twice. -/
theorem register_ok_iff (u : List Sym) (m : SysModel) :
    (Py.forEach u registerParametrized m).1 = .ok () ↔
      u.Nodup ∧ ∀ s ∈ u, s ∉ m.parametrized := by
  induction u generalizing m with
  | nil => simp [Py.forEach]
  | cons a u ih =>
    simp only [Py.forEach]
    by_cases h : m.controlIsParametrized a
    · rw [Py.bind_error (e := .valueError) (s' := m) (by simp [registerParametrized, h])]
      have ha : a ∈ m.parametrized := by simpa [controlIsParametrized] using h
      simp [ha]
    · rw [Py.bind_ok (a := ()) (s' := { m with parametrized := m.parametrized ++ [a] })
        (by simp [registerParametrized, h]), ih]
      have ha : a ∉ m.parametrized := by simpa [controlIsParametrized] using h
      simp only [List.mem_append, List.mem_cons, List.not_mem_nil, or_false, not_or,
        List.nodup_cons, forall_eq_or_imp, ha, not_false_eq_true, true_and]
      constructor
      · rintro ⟨h₁, h₂⟩
        exact ⟨⟨fun hh => (h₂ a hh).2 rfl, h₁⟩, fun s hs => (h₂ s hs).1⟩
      · rintro ⟨⟨h₀, h₁⟩, h₂⟩
        exact ⟨h₁, fun s hs => ⟨h₂ s hs, fun hh => h₀ (hh ▸ hs)⟩⟩

theorem register_error (u : List Sym) (m : SysModel) (e : Err)
    (h : (Py.forEach u registerParametrized m).1 = .error e) : e = .valueError := by
  induction u generalizing m with
  | nil => simp [Py.forEach] at h
  | cons a u ih =>
    simp only [Py.forEach] at h
    by_cases hc : m.controlIsParametrized a
    · rw [Py.bind_error (e := .valueError) (s' := m) (by simp [registerParametrized, hc])] at h
      simpa using h.symm
    · rw [Py.bind_ok (a := ()) (s' := { m with parametrized := m.parametrized ++ [a] })
        (by simp [registerParametrized, hc])] at h
      exact ih _ h

theorem controls_includeControl (v) : Py.Always ControlsOk (includeControl v) := by
  intro m h
  have hv : List.Forall₂ (fun s e => s ∉ m.parametrized → e = Expr.sym s) v (v.map .sym) := by
    induction v with
    | nil => exact .nil
    | cons a v ih => exact .cons (fun _ => rfl) ih
  exact List.rel_append h hv

theorem removeControl_run (v : List Sym) (m : SysModel) (hlen : m.u.length = m.uExpr.length) :
    removeControl v m =
      if (∃ s ∈ v, s ∈ m.u) then
        let m₁ := { m with uExpr := keepUnlisted ((findIndices v m.u).map Int.ofNat) m.uExpr,
                           u := m.u.filter fun a => decide (a ∉ v) }
        if (∃ s ∈ v, s ∈ m.uPar) then
          (.ok (), { m₁ with uPar := m.uPar.filter fun a => decide (a ∉ v) })
        else (.error .valueError, m₁)
      else (.error .valueError, m) := by
  have hidx : removeByIndices ((findIndices v m.u).map Int.ofNat) m.uExpr =
      .ok (keepUnlisted ((findIndices v m.u).map Int.ofNat) m.uExpr) := by
    rw [removeByIndices_eq, if_neg]
    rintro ⟨j, hj, hout⟩
    obtain ⟨i, hi, rfl⟩ := List.mem_map.mp hj
    have := findIndices_lt hi
    simp only [Int.ofNat_eq_natCast] at hout
    omega
  unfold removeControl
  simp only [Py.bind_eq, Py.get_bind, hidx, Py.lift_ok_bind, Py.modify_bind, removeVars_eq]
  by_cases h₁ : ∃ s ∈ v, s ∈ m.u
  · rw [if_pos h₁, if_pos h₁, Py.lift_ok_bind, Py.modify_bind]
    by_cases h₂ : ∃ s ∈ v, s ∈ m.uPar
    · rw [if_pos h₂, if_pos h₂, Py.lift_ok_bind]; rfl
    · rw [if_neg h₂, if_neg h₂, Py.lift_error_bind]
  · rw [if_neg h₁, if_neg h₁, Py.lift_error_bind]
    have hnil : findIndices v m.u = [] := by
      rw [List.eq_nil_iff_forall_not_mem]
      intro i hi
      obtain ⟨s, hs, hsi⟩ := mem_findIndices.mp hi
      exact h₁ ⟨s, hs, List.mem_of_getElem? hsi⟩
    have hk : keepUnlisted ((findIndices v m.u).map Int.ofNat) m.uExpr = m.uExpr := by
      rw [hnil]
      unfold keepUnlisted
      simp only [List.map_nil, List.contains_nil, Bool.false_eq_true, if_false]
      change List.filterMap (some ∘ Prod.fst) _ = _
      rw [List.filterMap_eq_map]
      simp
    rw [hk]

theorem controls_removeControl (v) : Py.Always ControlsOk (removeControl v) := by
  intro m h
  rw [removeControl_run v m h.length_eq]
  have hk : List.Forall₂ (fun s e => s ∉ m.parametrized → e = Expr.sym s)
      (m.u.filter fun a => decide (a ∉ v))
      (keepUnlisted ((findIndices v m.u).map Int.ofNat) m.uExpr) := by
    rw [← keepUnlisted_findIndices]
    exact forall₂_keepUnlisted _ _ _ h
  split
  · simp only
    split
    · exact hk
    · exact hk
  · exact h

theorem controls_replace (v : List Sym) (w : List Expr) (m : SysModel) (h : ControlsOk m)
    (hv : ∀ s ∈ v, s ∈ m.parametrized) : ControlsOk (replaceVariable v w m).2 := by
  unfold replaceVariable
  split
  · exact h
  · unfold ControlsOk at h ⊢
    simp only
    rw [List.forall₂_map_right_iff]
    refine h.imp fun s e hse hs => ?_
    rw [hse hs]
    exact Expr.subst_eq_self v w _ fun r hr hrs => by
      simp only [Expr.syms, List.mem_singleton] at hrs
      exact hs (hrs ▸ hv r hr)

theorem parametrize_run (u : List Sym) (e : List Expr) (up : Option (List Sym)) (m : SysModel) :
    parametrizeControl u e up m =
      if u.length ≠ e.length then (.error .valueError, m)
      else if ¬ (u.Nodup ∧ ∀ s ∈ u, s ∉ m.parametrized) then
        (.error .valueError, (Py.forEach u registerParametrized m).2)
      else if ¬ ∃ s ∈ u, s ∈ m.uPar then
        (.error .valueError, { m with parametrized := m.parametrized ++ u })
      else replaceVariable u e { m with
        parametrized := m.parametrized ++ u
        uPar := (m.uPar.filter fun a => decide (a ∉ u)) ++ (match up with
          | none => []
          | some v => v) } := by
  unfold parametrizeControl
  simp only [Py.bind_eq, Py.raiseIf]
  by_cases h₀ : u.length = e.length
  · simp only [h₀, ne_eq, not_true_eq_false, decide_false, Bool.false_eq_true, if_false,
      Py.pure_bind]
    by_cases h₁ : u.Nodup ∧ ∀ s ∈ u, s ∉ m.parametrized
    · rw [if_neg (not_not.mpr h₁)]
      have hok := (register_ok_iff u m).mpr h₁
      obtain ⟨pre, hpre, hpu⟩ := register_loop u m
      have := hpu hok
      subst this
      rw [Py.bind_ok (a := ()) (s' := { m with parametrized := m.parametrized ++ pre })
        (by rw [← hok, ← hpre])]
      rw [Py.get_bind, removeVars_eq]
      by_cases h₂ : ∃ s ∈ pre, s ∈ m.uPar
      · rw [if_pos h₂, if_neg (not_not.mpr h₂), Py.lift_ok_bind, Py.modify_bind]
        cases up with
        | none => simp [Py.whenSome]
        | some v => simp [Py.whenSome]
      · rw [if_neg h₂, if_pos h₂, Py.lift_error_bind]
    · rw [if_pos h₁]
      match hr : Py.forEach u registerParametrized m with
      | (.ok (), s') => exact absurd ((register_ok_iff u m).mp (by rw [hr])) h₁
      | (.error er, s') =>
        rw [Py.bind_error hr]
        have := register_error u m er (by rw [hr])
        rw [this]
  · simp [h₀]

theorem controls_parametrize (u e up) : Py.Always ControlsOk (parametrizeControl u e up) := by
  intro m h
  rw [parametrize_run]
  split
  · exact h
  · split
    · obtain ⟨pre, hpre, _⟩ := register_loop u m
      rw [hpre]
      exact controls_of_same h rfl rfl fun s hs => by simp [hs]
    · split
      · exact controls_of_same h rfl rfl fun s hs => by simp [hs]
      · exact controls_replace u e _ (controls_of_same h rfl rfl fun s hs => by simp [hs])
          fun s hs => by simp [hs]

theorem controls_untouched {α} {c : Py SysModel α}
    (h : ∀ U E P, Py.Always (fun m => m.u = U ∧ m.uExpr = E ∧ m.parametrized = P) c) :
    Py.Always ControlsOk c := by
  intro m hm
  obtain ⟨h₁, h₂, h₃⟩ := h m.u m.uExpr m.parametrized m ⟨rfl, rfl, rfl⟩
  exact controls_of_same hm h₁ h₂ fun s hs => by rw [h₃]; exact hs

section
variable {U : List Sym} {E : List Expr} {P : List Sym}

/-- Controls, expressions and registered controls are as given. -/
def HasControls (U : List Sym) (E : List Expr) (P : List Sym) (m : SysModel) : Prop :=
  m.u = U ∧ m.uExpr = E ∧ m.parametrized = P

theorem u_includeFromKwargs {x e} : Py.Always (HasControls U E P) (includeFromKwargs x e) := by
  intro m h
  unfold includeFromKwargs
  split
  · exact h
  · split
    · exact h
    · exact h

theorem u_includeEquations {a o x g} :
    Py.Always (HasControls U E P) (includeEquations a o x g) := by
  unfold includeEquations includeArgs includeFromDiff includeAlgEquations
  py_always [u_includeFromKwargs]

theorem u_addSlot {a} : Py.Always (HasControls U E P) (addSlot a) := by
  intro m h; unfold addSlot; split <;> exact h

theorem u_delSlot {a} : Py.Always (HasControls U E P) (delSlot a) := by
  intro m h; unfold delSlot; split <;> exact h

theorem u_includeState {v o x f} : Py.Always (HasControls U E P) (includeState v o x f) := by
  unfold includeState
  py_always [u_addSlot, u_includeEquations]

theorem u_includeAlgebraic {v a} : Py.Always (HasControls U E P) (includeAlgebraic v a) := by
  unfold includeAlgebraic
  py_always [u_includeEquations]

theorem u_includeParameter {v} : Py.Always (HasControls U E P) (includeParameter v) :=
  fun _ h => h

theorem u_includeTheta {v} : Py.Always (HasControls U E P) (includeTheta v) := fun _ h => h
end

theorem controls_call (c : Call) (hc : Call.isControlCall c = true) : Py.Always ControlsOk c.run := by
  cases c with
  | includeControl => exact controls_includeControl _
  | removeControl => exact controls_removeControl _
  | parametrizeControl => exact controls_parametrize _ _ _
  | includeState => exact controls_untouched fun U E P => u_includeState
  | removeState =>
    refine controls_untouched fun U E P => ?_
    change Py.Always (HasControls U E P) _
    simp only [Call.run, removeState]
    py_always [u_delSlot]
  | includeAlgebraic => exact controls_untouched fun U E P => u_includeAlgebraic
  | removeAlgebraic =>
    refine controls_untouched fun U E P => ?_
    change Py.Always (HasControls U E P) _
    simp only [Call.run, removeAlgebraic]
    py_always []
  | includeParameter => exact controls_untouched fun U E P _ h => h
  | includeTheta => exact controls_untouched fun U E P _ h => h
  | removeParameter =>
    refine controls_untouched fun U E P => ?_
    change Py.Always (HasControls U E P) _
    simp only [Call.run, removeParameter]
    py_always []
  | removeTheta =>
    refine controls_untouched fun U E P => ?_
    change Py.Always (HasControls U E P) _
    simp only [Call.run, removeTheta]
    py_always []
  | includeEquations => exact controls_untouched fun U E P => u_includeEquations
  | includeVariables x y u p th f =>
    simp only [Call.run, includeVariables]
    have h₁ : ∀ {v o x f}, Py.Always ControlsOk (includeState v o x f) :=
      controls_untouched fun U E P => u_includeState
    have h₂ : ∀ {v a}, Py.Always ControlsOk (includeAlgebraic v a) :=
      controls_untouched fun U E P => u_includeAlgebraic
    have h₃ : ∀ {v}, Py.Always ControlsOk (includeParameter v) :=
      controls_untouched fun U E P => u_includeParameter
    have h₄ : ∀ {v}, Py.Always ControlsOk (includeTheta v) :=
      controls_untouched fun U E P => u_includeTheta
    py_always [h₁, h₂, h₃, h₄, controls_includeControl]
  | replaceVariable => simp [Call.isControlCall] at hc
  | includeModels => simp [Call.isControlCall] at hc
  | merge => simp [Call.isControlCall] at hc
  | connect u y r =>
    cases r with
    | true => simp [Call.isControlCall] at hc
    | false =>
      simp only [Call.run, connect, Bool.false_eq_true, if_false]
      have h₁ : ∀ {a o x g}, Py.Always ControlsOk (includeEquations a o x g) :=
        controls_untouched fun U E P => u_includeEquations
      have h₂ : ∀ {v a}, Py.Always ControlsOk (includeAlgebraic v a) :=
        controls_untouched fun U E P => u_includeAlgebraic
      py_always [h₁, h₂, controls_removeControl]

theorem keepUnlisted_findIndices_map {α β : Type*} [DecidableEq α] (f : β → α) (var : List α)
    (l : List β) : keepUnlisted ((findIndices var (l.map f)).map Int.ofNat) l =
      l.filter fun b => decide (f b ∉ var) := by
  rw [keepUnlisted_eq_range]
  have hr : ∀ (l : List β) (q : β → Bool), l.filter q =
      ((List.range l.length).filter fun i => (l[i]?.map q).getD false).filterMap fun i => l[i]? := by
    intro l q
    induction l with
    | nil => rfl
    | cons a l ih =>
      rw [List.length_cons, List.range_succ_eq_map, List.filter_cons, List.filter_cons]
      have htail : ((List.range l.length).map Nat.succ).filter
          (fun i => (((a :: l)[i]?).map q).getD false) =
          ((List.range l.length).filter fun i => (l[i]?.map q).getD false).map Nat.succ := by
        rw [List.filter_map]; rfl
      rw [htail]
      by_cases ha : q a = true
      · simp [ha, List.filterMap_map, ← ih]
      · simp [ha, List.filterMap_map, ← ih]
  rw [hr l fun b => decide (f b ∉ var)]
  congr 1
  refine List.filter_congr fun i hi => ?_
  have hil : i < l.length := List.mem_range.mp hi
  rw [List.getElem?_eq_getElem hil, Option.map_some, Option.getD_some, decide_eq_decide]
  have : (i : Int) ∈ (findIndices var (l.map f)).map Int.ofNat ↔ f l[i] ∈ var := by
    rw [List.mem_map]
    constructor
    · rintro ⟨j, hj, hji⟩
      have : j = i := by simpa using hji
      subst this
      obtain ⟨v, hv, hv'⟩ := mem_findIndices.1 hj
      rw [List.getElem?_map, List.getElem?_eq_getElem hil, Option.map_some,
        Option.some.injEq] at hv'
      rwa [hv']
    · intro h
      exact ⟨i, mem_findIndices.2 ⟨_, h, by simp [hil]⟩, rfl⟩
  rw [this]

/-- What stays after removing controls: the pairs of control and expression not listed. -/
theorem removeControl_pairs (v : List Sym) (m : SysModel) (hlen : m.u.length = m.uExpr.length) :
    keepUnlisted ((findIndices v m.u).map Int.ofNat) m.uExpr =
      ((m.u.zip m.uExpr).filter fun p => decide (p.1 ∉ v)).map Prod.snd := by
  have h₁ : m.u = (m.u.zip m.uExpr).map Prod.fst := by
    rw [List.map_fst_zip (by omega)]
  have h₂ : m.uExpr = (m.u.zip m.uExpr).map Prod.snd := by
    rw [List.map_snd_zip (by omega)]
  rw [← keepUnlisted_findIndices_map Prod.fst v, ← h₁]
  conv_lhs => rw [h₂]
  unfold keepUnlisted
  simp only [List.zipIdx_map, List.filterMap_map, List.map_filterMap]
  refine List.filterMap_congr fun q _ => ?_
  simp only [Function.comp_def, Prod.map, id]
  clear h₁ h₂
  generalize (((findIndices v m.u).map Int.ofNat).contains ((q.2 : Nat) : Int)) = b
  cases b <;> rfl

end Verif.SysModel
