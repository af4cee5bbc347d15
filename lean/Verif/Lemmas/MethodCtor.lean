import Verif.Spec.MethodCtor
import Verif.Lemmas.Dict
import Verif.Lemmas.Ocp
/-!
# Lemmas on the constructors of the solution methods
-/
namespace Verif
namespace MethodCtor
open Spec

/-- What an update with distinct keys assigns. -/
theorem get?_update_nodup (a : Attrs) (kvs : List (String × Val)) (hn : (Dict.keys kvs).Nodup)
    (k : String) : (Dict.update a kvs).get? k = (Dict.get? kvs k).or (a.get? k) := by
  induction kvs generalizing a with
  | nil => rfl
  | cons kv kvs ih =>
    obtain ⟨k', v⟩ := kv
    simp only [Dict.keys, List.map_cons, List.nodup_cons] at hn
    have h : Dict.update a ((k', v) :: kvs) = Dict.update (a.set k' v) kvs := rfl
    rw [h, ih _ hn.2, Dict.get?_set]
    by_cases hk : k = k'
    · subst hk
      have : Dict.get? kvs k = none := (Dict.get?_eq_none_iff kvs k).mpr hn.1
      simp [this, Dict.get?]
    · simp [hk, Dict.get?]

/-- The keywords can be set iff none of them is a property. -/
theorem setAll_eq (c : Class) (a : Attrs) (kvs : List (String × Val))
    (h : ∀ k ∈ Dict.keys kvs, ¬(c = .indirect ∧ k = "degree_control") ∧ k ∉ readOnly) :
    setAll c a kvs = .ok (Dict.update a kvs) := by
  induction kvs generalizing a with
  | nil => rfl
  | cons kv kvs ih =>
    obtain ⟨h1, h2⟩ := h kv.1 (by simp [Dict.keys])
    have hs : setAttr c a kv = .ok (a.set kv.1 kv.2) := by rw [setAttr, if_neg h1, if_neg h2]
    rw [setAll, hs]
    exact ih _ fun k hk => h k (by simp only [Dict.keys, List.map_cons, List.mem_cons]; exact .inr hk)

theorem setAll_ok {c : Class} {a a' : Attrs} {kvs : List (String × Val)}
    (h : setAll c a kvs = .ok a') :
    ∀ k ∈ Dict.keys kvs, ¬(c = .indirect ∧ k = "degree_control") ∧ k ∉ readOnly := by
  induction kvs generalizing a with
  | nil => simp [Dict.keys]
  | cons kv kvs ih =>
    intro k hk
    rw [setAll] at h
    by_cases h1 : c = .indirect ∧ kv.1 = "degree_control"
    · rw [setAttr, if_pos h1] at h; cases h
    by_cases h2 : kv.1 ∈ readOnly
    · rw [setAttr, if_neg h1, if_pos h2] at h; cases h
    rw [setAttr, if_neg h1, if_neg h2] at h
    simp only [Dict.keys, List.map_cons, List.mem_cons] at hk
    rcases hk with rfl | hk
    · exact ⟨h1, h2⟩
    · exact ih h k hk

theorem get?_filter (d : Dict String Val) (p : String → Bool) (k : String) :
    Dict.get? (d.filter fun kv => p kv.1) k = if p k then d.get? k else none := by
  induction d with
  | nil => simp [Dict.get?]
  | cons kv d ih =>
    obtain ⟨k', v⟩ := kv
    by_cases hp : p k' = true
    · rw [List.filter_cons_of_pos (by simpa using hp)]
      by_cases hk : k = k'
      · subst hk; simp [Dict.get?, hp]
      · simp [Dict.get?, hk, ih]
    · rw [List.filter_cons_of_neg (by simpa using hp), ih]
      by_cases hk : k = k'
      · subst hk; simp [hp]
      · simp [Dict.get?, hk]

theorem get?_kwargs (given : Dict String Val) (k : String) :
    (kwargs given).get? k = if k ∈ named.map (·.1) then none else given.get? k := by
  have := get?_filter given (fun k => decide (k ∉ named.map (·.1))) k
  unfold kwargs
  rw [this]
  by_cases h : k ∈ named.map (·.1) <;> simp [h]

theorem keys_kwargs (given : Dict String Val) (k : String) :
    k ∈ (kwargs given).keys ↔ k ∈ given.keys ∧ k ∉ named.map (·.1) := by
  simp only [kwargs, Dict.keys, List.mem_map, List.mem_filter, decide_eq_true_eq]
  constructor
  · rintro ⟨a, ⟨h1, h2⟩, rfl⟩; exact ⟨⟨a, h1, rfl⟩, h2⟩
  · rintro ⟨⟨a, h1, rfl⟩, h2⟩; exact ⟨a, ⟨h1, h2⟩, rfl⟩

theorem kwargs_nodup (given : Dict String Val) (h : given.keys.Nodup) : (kwargs given).keys.Nodup :=
  h.sublist (List.Sublist.map _ List.filter_sublist)

/-- The attributes once all keywords are set. -/
def keywordAttrs (a : Attrs) (given : Dict String Val) : Attrs :=
  Dict.update ((a.update internals).update (namedAttrs given)) (kwargs given)

theorem get?_keywordAttrs (a : Attrs) (given : Dict String Val) (hn : given.keys.Nodup)
    (k : String) : (keywordAttrs a given).get? k =
      ((kwargs given).get? k).or
        ((Dict.get? (namedAttrs given) k).or ((Dict.get? internals k).or (a.get? k))) := by
  have h1 : (Dict.keys (namedAttrs given)).Nodup := by
    have : Dict.keys (namedAttrs given) = named.map (·.1) := by
      simp [Dict.keys, namedAttrs]
    rw [this]
    decide +kernel
  rw [keywordAttrs, get?_update_nodup _ _ (kwargs_nodup given hn), get?_update_nodup _ _ h1,
    get?_update_nodup _ _ (by decide +kernel)]

theorem get?_namedAttrs (given : Dict String Val) (k : String) :
    Dict.get? (namedAttrs given) k = (Dict.get? named k).map fun v => (given.get? k).getD v := by
  unfold namedAttrs
  generalize named = l
  induction l with
  | nil => rfl
  | cons kv l ih =>
    obtain ⟨k', v⟩ := kv
    by_cases h : k = k'
    · subst h; simp [Dict.get?]
    · simpa [Dict.get?, h] using ih

/-- Options that are arguments of the constructor. -/
theorem keyword_named (a : Attrs) (given : Dict String Val) (hn : given.keys.Nodup) (k : String)
    (v : Val) (hk : Dict.get? named k = some v) (hm : k ∈ named.map (·.1)) :
    (keywordAttrs a given).get? k = some (given? given k v) := by
  rw [get?_keywordAttrs a given hn, get?_kwargs, if_pos hm, get?_namedAttrs, hk]
  rfl

/-- Options that are other keywords. -/
theorem keyword_other (a : Attrs) (given : Dict String Val) (hn : given.keys.Nodup) (k : String)
    (hm : k ∉ named.map (·.1)) (hi : Dict.get? internals k = none) :
    (keywordAttrs a given).get? k = (given.get? k).or (a.get? k) := by
  have h2 : Dict.get? named k = none := (Dict.get?_eq_none_iff named k).mpr hm
  rw [get?_keywordAttrs a given hn, get?_kwargs, if_neg hm, get?_namedAttrs, h2, hi]
  rfl

theorem hasDeltaU_iff (o : Ocp) : o.hasDeltaU = true ↔ HasRateLimit o := by
  simp [Ocp.hasDeltaU, HasRateLimit]

theorem schemeCheck_ok_iff (c : Class) (o : Ocp) (a : Attrs) :
    schemeCheck c o.hasDeltaU a = .ok () ↔
      ∃ v, getAttr c a "degree_control" = .ok v ∧ DegreeOk o v := by
  unfold schemeCheck
  cases hg : getAttr c a "degree_control" with
  | error e => simp [bind, Except.bind]
  | ok v =>
    simp only [bind, Except.bind]
    cases v with
    | int n =>
      simp only [isAboveOne]
      constructor
      · intro h
        refine ⟨_, rfl, fun hr => ?_⟩
        rw [← hasDeltaU_iff] at hr
        by_contra hlt
        push Not at hlt
        simp [hr, hlt] at h
      · rintro ⟨v, hv, hd⟩
        cases hv
        by_cases hr : o.hasDeltaU = true
        · have := hd ((hasDeltaU_iff o).mp hr)
          have h1 : ¬ (1 < n) := by omega
          simp [h1]
        · simp [hr]
    | bool b => simp [isAboveOne, DegreeOk]
    | none => simp [isAboveOne, DegreeOk]
    | str s => simp [isAboveOne, DegreeOk]
    | obj n => simp [isAboveOne, DegreeOk]

theorem baseInit_ok_iff (c : Class) (o : Ocp) (a : Attrs) (given : Dict String Val) (A : Attrs) :
    baseInit c o a given = .ok A ↔
      ("problem" ∉ given.keys ∧ "self" ∉ given.keys) ∧
      (∀ k ∈ (kwargs given).keys, ¬(c = .indirect ∧ k = "degree_control") ∧ k ∉ readOnly) ∧
      ∃ s, getAttr c (withLastControl o.lastU.isSome (keywordAttrs a given))
          "discretization_scheme" = .ok s ∧ IsScheme s ∧
        (∃ v, getAttr c (withLastControl o.lastU.isSome (keywordAttrs a given))
          "degree_control" = .ok v ∧ DegreeOk o v) ∧
        A = (withLastControl o.lastU.isSome (keywordAttrs a given)).set "discretizer" s := by
  unfold baseInit
  by_cases hp : (given.has "problem" || given.has "self") = true
  · rw [if_pos hp]
    simp only [Bool.or_eq_true, Dict.has_iff] at hp
    constructor
    · intro h; cases h
    · rintro ⟨⟨h1, h2⟩, -⟩
      exact (hp.elim h1 h2).elim
  rw [if_neg hp]
  simp only [Bool.or_eq_true, Dict.has_iff, not_or] at hp
  by_cases hk : ∀ k ∈ (kwargs given).keys, ¬(c = .indirect ∧ k = "degree_control") ∧ k ∉ readOnly
  · rw [setAll_eq c _ _ hk]
    simp only [bind, Except.bind]
    change chooseScheme c o.hasDeltaU (withLastControl o.lastU.isSome (keywordAttrs a given)) = _ ↔ _
    generalize withLastControl o.lastU.isSome (keywordAttrs a given) = b
    refine Iff.trans ?_ ⟨fun h => ⟨hp, hk, h⟩, fun h => h.2.2⟩
    unfold chooseScheme
    cases hs : getAttr c b "discretization_scheme" with
    | error e => simp [bind, Except.bind]
    | ok s =>
      simp only [bind, Except.bind]
      by_cases hi : s = .str "multiple-shooting" ∨ s = .str "collocation"
      · rw [if_pos hi]
        rw [← schemeCheck_ok_iff]
        cases hc : schemeCheck c o.hasDeltaU b with
        | error e => simp
        | ok u =>
          obtain ⟨⟩ := u
          simp only [Except.ok.injEq, true_and]
          constructor
          · intro h; exact ⟨s, rfl, hi.symm, h.symm⟩
          · rintro ⟨s', rfl, -, rfl⟩; rfl
      · rw [if_neg hi]
        constructor
        · intro h; cases h
        · rintro ⟨s', h, h', -⟩
          cases h
          exact absurd h'.symm hi
  · constructor
    · intro h
      cases hc : setAll c ((a.update internals).update (namedAttrs given)) (kwargs given) with
      | error e => rw [hc] at h; cases h
      | ok b => exact absurd (setAll_ok hc) hk
    · rintro ⟨-, h, -⟩
      exact absurd h hk

theorem withLastControl_get? (b : Bool) (a : Attrs) (k : String)
    (h : b = false ∨ k ≠ "last_control_as_parameter") :
    (withLastControl b a).get? k = a.get? k := by
  unfold withLastControl
  split
  · rename_i hb
    rw [Dict.get?_set, if_neg (h.resolve_left (by simp [hb]))]
  · rfl

/-- What the constructor of the base class starts with. -/
def startAttrs (c : Class) (given : Dict String Val) : Attrs :=
  match c with
  | .direct => [("cost_as_a_sum", .bool false)]
  | .indirect => [("create_cost_state", (given.get? "create_cost_state").getD (.bool false)),
      ("has_cost_state", .bool false)]

/-- The keywords the constructor of the base class gets. -/
def baseKeywords (c : Class) (given : Dict String Val) : Dict String Val :=
  match c with
  | .direct => given
  | .indirect => given.del "create_cost_state"

/-- What is set afterwards. -/
def lastAttrs (c : Class) (a : Attrs) : Attrs :=
  match c with
  | .direct => (a.set "solution_class" (.str "direct")).set "has_cost_state" (.bool false)
  | .indirect =>
    (a.set "solution_class" (.str "indirect")).set "initial_guess_heuristic" (.str "problem_info")

theorem init_ok_iff (c : Class) (o : Ocp) (given : Dict String Val) (A : Attrs) :
    init c o given = .ok A ↔ ∃ b, baseInit c o (startAttrs c given) (baseKeywords c given) = .ok b ∧
      A = lastAttrs c b := by
  cases c
  · simp only [init, directInit, startAttrs, baseKeywords, lastAttrs, bind, Except.bind]
    cases baseInit .direct o [("cost_as_a_sum", Val.bool false)] given with
    | error e => simp
    | ok b => simp [eq_comm]
  · simp only [init, indirectInit, startAttrs, baseKeywords, lastAttrs, bind, Except.bind]
    cases baseInit .indirect o _ (given.del "create_cost_state") with
    | error e => simp
    | ok b => simp [eq_comm]

theorem baseKeywords_nodup (c : Class) (given : Dict String Val) (h : given.keys.Nodup) :
    (baseKeywords c given).keys.Nodup := by
  cases c
  · exact h
  · show (given.del _).keys.Nodup
    rw [Dict.keys_del]
    exact h.filter _

theorem get?_baseKeywords (c : Class) (given : Dict String Val) (k : String)
    (h : c = .direct ∨ k ≠ "create_cost_state") : (baseKeywords c given).get? k = given.get? k := by
  cases c
  · rfl
  · exact Dict.get?_del given _ k (h.resolve_left (by simp))

theorem construct_ok {c : Class} {given : Dict String Val} {o o' : Ocp} {A : Attrs}
    (h : construct c given o = (.ok A, o')) : init c o given = .ok A := by
  simp only [construct, Py.bind_eq, Py.get_bind] at h
  obtain ⟨a, ha, h⟩ := Py.lift_bind_ok.mp h
  obtain ⟨_, o₁, _, h⟩ := Py.bind_eq_ok.mp h
  cases h
  exact ha

/-- The value of an option in the end. -/
theorem final_get? (c : Class) (o : Ocp) (given : Dict String Val) (A : Attrs)
    (h : init c o given = .ok A) (k : String)
    (h1 : k ≠ "solution_class") (h2 : k ≠ "discretizer") (h3 : c = .direct → k ≠ "has_cost_state")
    (h4 : c = .indirect → k ≠ "initial_guess_heuristic")
    (h5 : o.lastU = none ∨ k ≠ "last_control_as_parameter") :
    A.get? k = (keywordAttrs (startAttrs c given) (baseKeywords c given)).get? k := by
  obtain ⟨b, hb, rfl⟩ := (init_ok_iff ..).mp h
  obtain ⟨-, -, s, -, -, -, rfl⟩ := (baseInit_ok_iff ..).mp hb
  have h5' : o.lastU.isSome = false ∨ k ≠ "last_control_as_parameter" :=
    h5.imp (fun e => by rw [e]; rfl) id
  cases c
  · simp only [lastAttrs, Dict.get?_set, if_neg h1, if_neg h2, if_neg (h3 rfl),
      withLastControl_get? _ _ _ h5']
  · simp only [lastAttrs, Dict.get?_set, if_neg h1, if_neg h2, if_neg (h4 rfl),
      withLastControl_get? _ _ _ h5']

theorem plainAttr_some {a : Attrs} {k : String} {v : Val} (h : a.get? k = some v) :
    plainAttr a k = .ok v := by simp [plainAttr, h]

theorem plainAttr_class {a : Attrs} {k : String} {v w : Val} {g : Option Val} (h : a.get? k = g)
    (hc : classAttrs.get? k = some w) (hv : v = g.getD w) : plainAttr a k = .ok v := by
  subst hv
  cases g <;> simp [plainAttr, h, hc]

/-- An option that is an argument of the base class. -/
theorem named_option (c : Class) (given : Dict String Val) (hn : given.keys.Nodup)
    (k : String) (v : Val) (hk : Dict.get? named k = some v) (hc : k ≠ "create_cost_state") :
    (keywordAttrs (startAttrs c given) (baseKeywords c given)).get? k = some (given? given k v) := by
  have hm : k ∈ named.map (·.1) := by
    by_contra hm
    rw [(Dict.get?_eq_none_iff named k).mpr hm] at hk
    cases hk
  rw [keyword_named _ _ (baseKeywords_nodup c given hn) k v hk hm, given?, given?,
    get?_baseKeywords c given k (.inr hc)]

theorem other_option (c : Class) (given : Dict String Val) (hn : given.keys.Nodup)
    (k : String) (hm : k ∉ named.map (·.1)) (hi : Dict.get? internals k = none)
    (hc : c = .direct ∨ k ≠ "create_cost_state") :
    (keywordAttrs (startAttrs c given) (baseKeywords c given)).get? k =
      (given.get? k).or ((startAttrs c given).get? k) := by
  rw [keyword_other _ _ (baseKeywords_nodup c given hn) k hm hi, get?_baseKeywords c given k hc]

theorem keyword_createCost (given : Dict String Val) (hn : given.keys.Nodup) :
    (keywordAttrs (startAttrs .indirect given) (baseKeywords .indirect given)).get?
      "create_cost_state" = some (given? given "create_cost_state" (.bool false)) := by
  rw [keyword_other _ _ (baseKeywords_nodup .indirect given hn) _ (by decide +kernel)
    (by decide +kernel)]
  have h : (baseKeywords .indirect given).get? "create_cost_state" = none := by
    rw [Dict.get?_eq_none_iff]
    show _ ∉ (given.del _).keys
    rw [Dict.keys_del]
    simp
  rw [h]
  rfl

/-- The options that are read while the method is made. -/
theorem read_early (c : Class) (o : Ocp) (given : Dict String Val) (hn : given.keys.Nodup)
    (hf : ∀ k ∈ given.keys, ¬ Forbidden c k) :
    getAttr c (withLastControl o.lastU.isSome
      (keywordAttrs (startAttrs c given) (baseKeywords c given))) "discretization_scheme" =
      .ok (given? given "discretization_scheme" (.str "collocation")) ∧
    getAttr c (withLastControl o.lastU.isSome
      (keywordAttrs (startAttrs c given) (baseKeywords c given))) "degree_control" =
      .ok (controlDegree c given) := by
  constructor
  · rw [getAttr, if_neg (by simp)]
    apply plainAttr_some
    rw [withLastControl_get? _ _ _ (.inr (by decide +kernel))]
    exact named_option c given hn _ _ (by decide +kernel) (by decide +kernel)
  · cases c with
    | direct =>
      rw [getAttr, if_neg (by simp)]
      refine plainAttr_class (g := given.get? "degree_control") ?_ (w := .int 1) (by decide +kernel) rfl
      rw [withLastControl_get? _ _ _ (.inr (by decide +kernel)),
        other_option .direct given hn _ (by decide +kernel) (by decide +kernel) (.inl rfl)]
      cases given.get? "degree_control" <;> rfl
    | indirect =>
      rw [getAttr, if_pos (by simp)]
      refine plainAttr_class (g := given.get? "degree") ?_ (w := .int 3) (by decide +kernel) rfl
      rw [withLastControl_get? _ _ _ (.inr (by decide +kernel)),
        other_option .indirect given hn _ (by decide +kernel) (by decide +kernel)
          (.inr (by decide +kernel))]
      have : (startAttrs .indirect given).get? "degree" = none := by
        simp [startAttrs, Dict.get?]
      rw [this, Option.or_none]

end MethodCtor
end Verif
