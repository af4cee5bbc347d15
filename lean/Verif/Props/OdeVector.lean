import Verif.Props.States
/-!
# C14: the ode vector matches the state vector
-/
namespace Verif
open SysModel

/-- The last expression given for `s` in a sequence of (state, expression) pairs. -/
def Spec.lastGiven (pairs : List (Sym × Expr)) (s : Sym) : Option Expr :=
  ((pairs.filter fun kv => decide (kv.1 = s)).getLast?).map (·.2)

theorem odeVec_eq (d : Dict Sym (Option Expr)) (h : ∀ v ∈ d.values, v ≠ none) :
    (d.values.filterMap id).map some = d.values := by
  induction d with
  | nil => rfl
  | cons kv d ih =>
    obtain ⟨k, v⟩ := kv
    cases v with
    | none => exact absurd rfl (h none (by simp [Dict.values]))
    | some e =>
      have := ih fun v hv => h v (by simp only [Dict.values, List.map_cons, List.mem_cons] at hv ⊢; exact .inr hv)
      simpa [Dict.values] using this

/-- When every state has an equation, the ode vector has one entry per state, and its `i`-th entry
is the equation of the `i`-th state. -/
theorem C14_complete (m : SysModel) (hm : Spec.StatesAligned m.x m.ode.keys)
    (hfull : ∀ s ∈ m.x, m.ode.get? s ≠ some none) :
    m.odeVec.length = m.x.length ∧
    ∀ i (hi : i < m.x.length), ∃ e, m.ode.get? m.x[i] = some (some e) ∧ m.odeVec[i]? = some e := by
  obtain ⟨hk, hn⟩ := hm
  have hkn : m.ode.keys.Nodup := by rw [hk]; exact hn
  have hv : ∀ v ∈ m.ode.values, v ≠ none := by
    intro v hv hvn
    subst hvn
    simp only [Dict.values, List.mem_map] at hv
    obtain ⟨⟨k, v⟩, hkv, rfl⟩ := hv
    obtain ⟨i, hi, hget⟩ := List.getElem_of_mem hkv
    have := Dict.get?_of_getElem m.ode hkn i k none (by rw [List.getElem?_eq_getElem hi, hget])
    have hmem : k ∈ m.x := by
      rw [← hk]; exact List.mem_map.mpr ⟨_, hkv, rfl⟩
    exact hfull k hmem this
  have hmap := odeVec_eq m.ode hv
  have hlen : m.odeVec.length = m.x.length := by
    have h1 := congrArg List.length hmap
    have h2 := congrArg List.length hk
    simp only [List.length_map, Dict.values, Dict.keys] at h1 h2
    simp only [odeVec, Dict.values]
    omega
  refine ⟨hlen, fun i hi => ?_⟩
  have hio : i < m.ode.length := by
    have h2 := congrArg List.length hk
    simp only [List.length_map, Dict.keys] at h2
    omega
  have hval : m.ode.values[i]? = some (m.ode[i].2) := by simp [Dict.values, hio]
  have hkey : m.x[i] = m.ode[i].1 := by simp [← hk, Dict.keys]
  have hvec : (m.odeVec.map some)[i]? = some (m.ode[i].2) := by
    rw [show m.odeVec.map some = m.ode.values from hmap]; exact hval
  have hi' : i < m.odeVec.length := hlen ▸ hi
  refine ⟨m.odeVec[i], ?_, by simp [hi']⟩
  rw [hkey]
  apply Dict.get?_of_getElem m.ode hkn i
  simp only [List.getElem?_map, List.getElem?_eq_getElem hi', Option.map_some,
    Option.some.injEq] at hvec
  rw [List.getElem?_eq_getElem hio, hvec]

/-- The ode vector is never longer than the state vector, and it is shorter exactly when some
state has no equation. -/
theorem C14_shorter_iff (m : SysModel) (hm : Spec.StatesAligned m.x m.ode.keys) :
    m.odeVec.length ≤ m.x.length ∧
    (m.odeVec.length < m.x.length ↔ ∃ s ∈ m.x, m.ode.get? s = some none) := by
  have hle : m.odeVec.length ≤ m.x.length := by
    rw [← hm.1]
    simp only [odeVec, Dict.keys, Dict.values, List.length_map]
    exact (List.length_filterMap_le _ _).trans (by simp)
  refine ⟨hle, ?_⟩
  constructor
  · intro hlt
    by_contra hno
    have := (C14_complete m hm fun s hs h => hno ⟨s, hs, h⟩).1
    omega
  · rintro ⟨s, hs, hnone⟩
    have hmem : (none : Option Expr) ∈ m.ode.values := by
      clear hle
      generalize m.ode = d at hnone
      induction d with
      | nil => simp [Dict.get?] at hnone
      | cons kv d ih =>
        obtain ⟨k', v'⟩ := kv
        by_cases h : s = k'
        · simp only [Dict.get?, if_pos h, Option.some.injEq] at hnone
          simp [Dict.values, hnone]
        · simp only [Dict.get?, if_neg h] at hnone
          have := ih hnone
          simp only [Dict.values, List.map_cons, List.mem_cons] at this ⊢
          exact .inr this
    have : ∀ l : List (Option Expr), none ∈ l → (l.filterMap id).length < l.length := by
      intro l hl
      induction l with
      | nil => simp at hl
      | cons a l ih =>
        have hle : (l.filterMap id).length ≤ l.length := List.length_filterMap_le id l
        cases a with
        | none => rw [List.filterMap_cons_none rfl, List.length_cons]; omega
        | some e =>
          have := ih (by simpa using hl)
          simpa using this
    have := this _ hmem
    rw [← hm.1]
    simpa [odeVec, Dict.keys, Dict.values] using this

/-- An inclusion of differential equations that names its states: `der(x) == e` arguments and
optionally `ode=`, `x=`. -/
structure Inclusion where
  args : List EqArg
  kw : Option (List Sym × List Expr)

/-- Execute it. -/
def Inclusion.run (i : Inclusion) : Py SysModel Unit :=
  includeEquations i.args (i.kw.map (·.2)) (i.kw.map (·.1)) []

/-- The (state, expression) pairs it gives, in order. -/
def Inclusion.pairs (i : Inclusion) : List (Sym × Expr) :=
  (i.args.flatMap EqArg.states).zip (i.args.flatMap EqArg.rhss) ++
    match i.kw with
    | none => []
    | some (x, e) => x.zip e

theorem zip_map_some (x : List Sym) (e : List Expr) :
    x.zip (e.map some) = (x.zip e).map fun kv => (kv.1, some kv.2) := by
  rw [List.zip_map_right]; rfl

theorem inclusion_ok (i : Inclusion) (m m' : SysModel) (h : i.run m = (.ok (), m')) :
    m'.ode = m.ode.update (i.pairs.map fun kv => (kv.1, some kv.2)) ∧ m'.x = m.x := by
  obtain ⟨args, kw⟩ := i
  have hdiff : ∀ (s s' : SysModel),
      includeArgs args s = (.ok (), s') →
      s'.ode = s.ode.update
        (((args.flatMap EqArg.states).zip (args.flatMap EqArg.rhss)).map
          fun kv => (kv.1, some kv.2)) ∧ s'.x = s.x := by
    intro s s' hs
    unfold includeArgs at hs
    cases args with
    | nil =>
      simp only [List.length_nil, gt_iff_lt, Nat.lt_irrefl, if_false, Py.pure_apply,
        Prod.mk.injEq, true_and] at hs
      subst hs
      exact ⟨rfl, rfl⟩
    | cons a args =>
      rw [if_pos (by simp), includeFromDiff, includeFromKwargs_ok_iff] at hs
      obtain ⟨_, _, rfl⟩ := hs
      exact ⟨by rw [← zip_map_some], rfl⟩
  unfold Inclusion.run includeEquations at h
  simp only [Py.bind_eq, includeAlgEquations, Py.modify_bind] at h
  cases kw with
  | none =>
    obtain ⟨h₁, h₂⟩ := hdiff _ _ h
    exact ⟨by simpa [Inclusion.pairs] using h₁, h₂⟩
  | some xe =>
    obtain ⟨x, e⟩ := xe
    simp only [Option.map_some] at h
    obtain ⟨⟨⟩, s₁, hs₁, hs₂⟩ := Py.bind_eq_ok.mp h
    obtain ⟨h₁, h₂⟩ := hdiff _ _ hs₁
    obtain ⟨_, _, rfl⟩ := (includeFromKwargs_ok_iff ..).mp hs₂
    refine ⟨?_, h₂⟩
    simp only [Inclusion.pairs, List.map_append, Dict.update_append, ← zip_map_some]
    rw [h₁, ← zip_map_some]

theorem filter_map_some (l : List (Sym × Expr)) (s : Sym) :
    (l.map fun kv => (kv.1, some kv.2)).filter (fun kv => decide (kv.1 = s)) =
      (l.filter fun kv => decide (kv.1 = s)).map fun kv => (kv.1, some kv.2) := by
  rw [List.filter_map]; rfl

/-- Whatever the order and grouping in which equations were supplied, each state ends up with the
last equation given for it; states that were given none keep what they had. -/
theorem C14_last_given (incs : List Inclusion) (m m' : SysModel)
    (h : Py.forEach incs Inclusion.run m = (.ok (), m')) (s : Sym) :
    m'.x = m.x ∧
    (∀ e, Spec.lastGiven (incs.flatMap Inclusion.pairs) s = some e →
      m'.ode.get? s = some (some e)) ∧
    (Spec.lastGiven (incs.flatMap Inclusion.pairs) s = none → m'.ode.get? s = m.ode.get? s) := by
  have key : m'.ode = m.ode.update ((incs.flatMap Inclusion.pairs).map
      fun kv => (kv.1, some kv.2)) ∧ m'.x = m.x := by
    induction incs generalizing m with
    | nil =>
      simp only [Py.forEach, Py.pure_apply, Prod.mk.injEq, true_and] at h
      subst h; exact ⟨rfl, rfl⟩
    | cons i incs ih =>
      obtain ⟨⟨⟩, s₁, hs₁, hs₂⟩ := Py.bind_eq_ok.mp h
      obtain ⟨h₁, h₁'⟩ := inclusion_ok i _ _ hs₁
      obtain ⟨h₂, h₂'⟩ := ih _ hs₂
      refine ⟨?_, h₂'.trans h₁'⟩
      rw [h₂, h₁, List.flatMap_cons, List.map_append, Dict.update_append]
  refine ⟨key.2, ?_, ?_⟩
  · intro e he
    rw [key.1, Dict.get?_update, filter_map_some, List.getLast?_map]
    simp only [Spec.lastGiven, Option.map_eq_some_iff] at he
    obtain ⟨kv, hkv, rfl⟩ := he
    simp [hkv]
  · intro he
    rw [key.1, Dict.get?_update, filter_map_some, List.getLast?_map]
    simp only [Spec.lastGiven, Option.map_eq_none_iff] at he
    simp [he]

/-- Non-vacuity: equations given out of order and one of them twice. -/
example : Py.forEach
    [⟨[], some ([3], [.const 7])⟩, ⟨[.diff [2] [.sym 3]], none⟩, ⟨[], some ([3], [.sym 2])⟩]
    Inclusion.run { t := 0, tau := 1, x := [2, 3], ode := [(2, none), (3, none)] } =
    (.ok (), { t := 0, tau := 1, x := [2, 3], ode := [(2, some (.sym 3)), (3, some (.sym 2))] }) := by
  decide +kernel

end Verif
