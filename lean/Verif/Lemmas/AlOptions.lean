import Verif.Spec.AlOptions
import Verif.Lemmas.Dict
import Verif.Lemmas.Py
/-!
# Lemmas about the options of the augmented Lagrangian methods
-/
namespace Verif.AlOptions
open Spec

theorem obj_set (w : World) (o o' : Loc) (x : Dict String Val) (h : o < w.objs.length) :
    (World.mk (w.objs.set o x) w.dicts w.methods w.dists).obj o' = if o' = o then x else w.obj o' := by
  simp only [World.obj, List.getD_eq_getElem?_getD]
  by_cases e : o' = o
  · subst e; simp [h]
  · rw [List.getElem?_set_ne (fun h' => e h'.symm), if_neg e]

theorem dict_set (w : World) (r r' : Loc) (x : Dict String Val) (h : r < w.dicts.length) :
    (World.mk w.objs (w.dicts.set r x) w.methods w.dists).dict r' =
      if r' = r then x else w.dict r' := by
  simp only [World.dict, List.getD_eq_getElem?_getD]
  by_cases e : r' = r
  · subst e; simp [h]
  · rw [List.getElem?_set_ne (fun h' => e h'.symm), if_neg e]

/-- What one round of the loop leaves: `val` is the value of `k` afterwards. -/
structure Synced (w w' : World) (o so : Loc) (k : String) (val : Val) : Prop where
  objs : w'.objs.length = w.objs.length
  dicts : w'.dicts.length = w.dicts.length
  methods : w'.methods = w.methods
  dists : w'.dists = w.dists
  self : ∀ k', (w'.obj o).get? k' = if k' = k then some val else (w.obj o).get? k'
  others : ∀ o', o' ≠ o → w'.obj o' = w.obj o'
  dict : ∀ k', (w'.dict so).get? k' = if k' = k then some val else (w.dict so).get? k'
  otherDicts : ∀ r, r ≠ so → w'.dict r = w.dict r

theorem sync_ok {o so : Loc} {kw : Dict String Val} {k : String} {w : World} {v : Val}
    (ho : o < w.objs.length) (hso : so < w.dicts.length) (hk : alFields.has k = true)
    (hv : (w.obj o).get? k = some v)
    (hc : ∀ s, (w.dict so).get? k = some s → kw.get? k = none ∨ kw.get? k = some s) :
    ∃ w', sync o so kw k w = (.ok (), w') ∧ Synced w w' o so k (((w.dict so).get? k).getD v) := by
  cases hd : (w.dict so).get? k with
  | none =>
    have ha : w.attr o k = v := by simp [World.attr, hv]
    refine ⟨w.setItem so k v, by simp [sync, hd, ha], ?_⟩
    refine ⟨rfl, by simp [World.setItem], rfl, rfl, ?_, fun _ _ => rfl, ?_, ?_⟩
    · intro k'
      show (w.obj o).get? k' = _
      by_cases e : k' = k
      · subst e; simp [hv]
      · simp [e]
    · intro k'
      show ((World.mk w.objs _ w.methods w.dists).dict so).get? k' = _
      rw [dict_set _ _ _ _ hso, if_pos rfl, Dict.get?_set]
      simp
    · intro r hr
      show ((World.mk w.objs _ w.methods w.dists).dict r) = _
      rw [dict_set _ _ _ _ hso, if_neg hr]
  | some s =>
    have hs : sync o so kw k w = (.ok (), w.setAttr o k s) := by
      rcases hc s hd with h | h <;> simp [sync, hd, h]
    refine ⟨_, hs, ?_⟩
    have e : w.setAttr o k s = World.mk (w.objs.set o ((w.obj o).set k s)) w.dicts w.methods w.dists := by
      simp [World.setAttr, hk]
    rw [e]
    refine ⟨by simp, rfl, rfl, rfl, ?_, ?_, ?_, fun _ _ => rfl⟩
    · intro k'
      rw [obj_set _ _ _ _ ho, if_pos rfl, Dict.get?_set]
      simp
    · intro o' h
      rw [obj_set _ _ _ _ ho, if_neg h]
    · intro k'
      show (w.dict so).get? k' = _
      by_cases e : k' = k
      · subst e; simp [hd]
      · simp [e]

theorem get?_update_keys (d kvs : Dict String Val) (hn : kvs.keys.Nodup) (k : String) :
    (d.update kvs).get? k = match kvs.get? k with
      | some v => some v
      | none => d.get? k := by
  induction kvs generalizing d with
  | nil => rfl
  | cons kv kvs ih =>
    have hn' : kv.1 ∉ Dict.keys kvs ∧ (Dict.keys kvs).Nodup := by
      simpa [Dict.keys] using hn
    show ((d.set kv.1 kv.2).update kvs).get? k = _
    rw [ih _ hn'.2, Dict.get?_set]
    obtain ⟨a, b⟩ := kv
    simp only [Dict.get?]
    by_cases e : k = a
    · subst e
      rw [(Dict.get?_eq_none_iff kvs k).mpr hn'.1]
      simp
    · simp [e]

theorem get?_dataclass {fields d x : Dict String Val} (h : dataclass fields d = .ok x)
    (hn : d.keys.Nodup) (k : String) :
    x.get? k = match d.get? k with
      | some v => some v
      | none => fields.get? k := by
  unfold dataclass at h
  split at h
  · cases h
    exact get?_update_keys _ _ hn k
  · cases h

/-- The dictionary a constructor is given or makes. -/
theorem takeDict_ok (w : World) (r : Option Loc) (hr : dictExists w r = true) :
    ∃ so w', takeDict r w = (.ok so, w') ∧ so < w'.dicts.length ∧ w'.objs = w.objs ∧
      w'.methods = w.methods ∧ w'.dists = w.dists ∧ w.dicts.length ≤ w'.dicts.length ∧
      (∀ r', r' < w.dicts.length → w'.dict r' = w.dict r') ∧
      w'.dict so = (r.map w.dict).getD [] ∧ (∀ s, r = some s → so = s) ∧
      (r = none → so = w.dicts.length) := by
  cases r with
  | none =>
    refine ⟨w.dicts.length, { w with dicts := w.dicts ++ [[]] }, rfl, by simp, rfl, rfl, rfl, by simp, ?_,
      by simp [World.dict], by simp, fun _ => rfl⟩
    intro r' hr'
    simp [World.dict, List.getElem?_append_left hr']
  | some s =>
    refine ⟨s, w, rfl, ?_, rfl, rfl, rfl, Nat.le_refl _, fun _ _ => rfl, rfl, ?_, by simp⟩
    · simpa [dictExists] using hr
    · intro s' h; simpa using h

/-- `if x.k:`, for the attributes `x` of an options object. -/
def isSet (x : Dict String Val) (k : String) : Bool := ((x.get? k).getD .none).truth

/-- What making a method with a dictionary of options leaves; `x` are the options asked for, `D` the
solver options before. -/
structure Made (w w' : World) (so : Loc) (x D : Dict String Val) (xd xe : Val) (m : Method) : Prop where
  methods : w'.methods = w.methods ++ [m]
  dists : w'.dists = w.dists
  options : m.options = w.objs.length
  objs : w'.objs.length = w.objs.length + 1
  others : ∀ o, o < w.objs.length → w'.obj o = w.obj o
  self : ∀ k, (w'.obj m.options).get? k =
    if k = "degree" then some ((D.get? "degree").getD xd)
    else if k = "finite_elements" then some ((D.get? "finite_elements").getD xe)
    else x.get? k
  degree : m.multDegree = none ∨ m.multDegree = some xd
  elements : m.multElements = none ∨ m.multElements = some xe
  made : isSet x "debug_skip_initialize" = false → isSet x "debug_skip_parametrize" = false →
    m.multDegree = some xd
  inner : m.inner = w'.dict so
  dict : ∀ k, (w'.dict so).get? k =
    if k = "degree" then some ((D.get? "degree").getD xd)
    else if k = "finite_elements" then some ((D.get? "finite_elements").getD xe)
    else D.get? k
  dicts : w.dicts.length ≤ w'.dicts.length
  otherDicts : ∀ r, r < w.dicts.length → r ≠ so → w'.dict r = w.dict r

theorem newMethod_made (inner : Dict String Val → Except Err Unit) (w : World) (a : Args)
    (d x : Dict String Val) (ho : a.options = .dict d ∨ (a.options = .absent ∧ d = []))
    (hx : dataclass alFields d = .ok x) (hr : dictExists w a.solverOptions = true) (xd xe : Val)
    (hd : x.get? "degree" = some xd) (he : x.get? "finite_elements" = some xe)
    (hc : ∀ k, k = "degree" ∨ k = "finite_elements" → ∀ s,
      ((a.solverOptions.map w.dict).getD []).get? k = some s →
        a.kwargs.get? k = none ∨ a.kwargs.get? k = some s)
    (hi : Accepts inner ((a.solverOptions.map w.dict).getD [])) :
    ∃ w' so m, newMethod inner a w = (.ok (), w') ∧
      Made w w' so x ((a.solverOptions.map w.dict).getD []) xd xe m ∧
      (∀ s, a.solverOptions = some s → so = s) := by
  obtain ⟨so, w₁, h₁, hlt, hobjs, hm, hds, hle, hdict, hD, hso, -⟩ := takeDict_ok w _ hr
  generalize (a.solverOptions.map w.dict).getD [] = D at *
  have h₂ : takeOptions a.options w₁ = (.ok w₁.objs.length, { w₁ with objs := w₁.objs ++ [x] }) := by
    rcases ho with ho | ⟨ho, rfl⟩ <;> rw [ho] <;> simp only [takeOptions, hx] <;> rfl
  generalize hw₂ : ({ w₁ with objs := w₁.objs ++ [x] } : World) = w₂ at h₂
  have hobj₂ : w₂.obj w₁.objs.length = x := by rw [← hw₂]; simp [World.obj]
  have hlen₂ : w₂.objs.length = w₁.objs.length + 1 := by rw [← hw₂]; simp
  have hold₂ : ∀ o, o < w₁.objs.length → w₂.obj o = w₁.obj o := by
    intro o h; rw [← hw₂]; simp [World.obj, List.getElem?_append_left h]
  have hdict₂ : ∀ r, w₂.dict r = w₁.dict r := by intro r; rw [← hw₂]; rfl
  have hdl₂ : w₂.dicts.length = w₁.dicts.length := by rw [← hw₂]
  have hmm₂ : w₂.methods = w₁.methods := by rw [← hw₂]
  have hdd₂ : w₂.dists = w₁.dists := by rw [← hw₂]
  have hlo : w₁.objs.length < w₂.objs.length := by rw [hlen₂]; exact Nat.lt_succ_self _
  have hls : so < w₂.dicts.length := by rw [hdl₂]; exact hlt
  obtain ⟨w₃, h₃, s₃⟩ := sync_ok (o := w₁.objs.length) (so := so) (kw := a.kwargs) (k := "degree")
    (w := w₂) (v := xd) hlo hls (by decide) (by rw [hobj₂]; exact hd)
    (by rw [hdict₂, hD]; exact hc _ (.inl rfl))
  obtain ⟨w₄, h₄, s₄⟩ := sync_ok (o := w₁.objs.length) (so := so) (kw := a.kwargs)
    (k := "finite_elements") (w := w₃) (v := xe) (by rw [s₃.objs]; exact hlo) (by rw [s₃.dicts]; exact hls)
    (by decide) (by rw [s₃.self, if_neg (by decide), hobj₂]; exact he)
    (by rw [s₃.dict, if_neg (by decide), hdict₂, hD]; exact hc _ (.inr rfl))
  have hdict₄ : ∀ k, (w₄.dict so).get? k =
      if k = "degree" then some ((D.get? "degree").getD xd)
      else if k = "finite_elements" then some ((D.get? "finite_elements").getD xe)
      else D.get? k := by
    intro k
    rw [s₄.dict, s₃.dict, s₃.dict, hdict₂, hD]
    by_cases e : k = "finite_elements"
    · subst e; simp
    · simp [e]
  have hin : inner (w₄.dict so) = .ok () := by
    refine hi _ fun k h1 h2 => ?_
    rw [hdict₄, if_neg h1, if_neg h2]
  have hadd : ∀ k, w₂.attr w₁.objs.length k = (x.get? k).getD .none := by
    intro k; simp only [World.attr, hobj₂]
  generalize hmeth : (Method.mk w₁.objs.length (multDegree w₂ w₁.objs.length)
    (multElements w₂ w₁.objs.length a.nuGiven) (w₄.dict so)) = m
  refine ⟨{ w₄ with methods := w₄.methods ++ [m] }, so, m, ?_,
    ⟨?_, ?_, ?_, ?_, ?_, ?_, ?_, ?_, ?_, ?_, hdict₄, ?_, ?_⟩, hso⟩
  · unfold newMethod
    rw [Py.bind_ok h₁, Py.bind_ok h₂, Py.get_bind, Py.bind_ok h₃, Py.bind_ok h₄, Py.get_bind, hin]
    simp only [Py.lift_ok_bind, Py.modify_apply, hmeth]
  · show w₄.methods ++ [m] = _
    rw [s₄.methods, s₃.methods, hmm₂, hm]
  · show w₄.dists = _
    rw [s₄.dists, s₃.dists, hdd₂, hds]
  · rw [← hmeth, ← hobjs]
  · show w₄.objs.length = _
    rw [s₄.objs, s₃.objs, hlen₂, hobjs]
  · intro o h
    rw [← hobjs] at h
    show w₄.obj o = _
    rw [s₄.others o (Nat.ne_of_lt h), s₃.others o (Nat.ne_of_lt h), hold₂ o h]
    simp only [World.obj, hobjs]
  · intro k
    rw [← hmeth]
    show (w₄.obj w₁.objs.length).get? k = _
    rw [s₄.self, s₃.self, s₃.dict, hdict₂, hD, hobj₂]
    by_cases e : k = "finite_elements"
    · subst e; simp
    · simp [e]
  · rw [← hmeth]
    simp only [multDegree, hadd, hd]
    split
    · exact .inl rfl
    · split
      · exact .inl rfl
      · exact .inr rfl
  · rw [← hmeth]
    simp only [multElements, hadd, he]
    split
    · exact .inl rfl
    · split
      · exact .inl rfl
      · exact .inr rfl
  · intro h1 h2
    rw [← hmeth]
    simp only [isSet] at h1 h2
    simp only [multDegree, hadd, hd, h1, h2]
    rfl
  · rw [← hmeth]; rfl
  · show w.dicts.length ≤ w₄.dicts.length
    rw [s₄.dicts, s₃.dicts, hdl₂]; exact hle
  · intro r h1 h2
    show w₄.dict r = _
    rw [s₄.otherDicts r h2, s₃.otherDicts r h2, hdict₂, hdict r h1]

/-! ## The nodes of a distributed method -/

/-- The model has the defaults of the specification. -/
theorem alDefaults_eq : alDefaults = alFields := rfl

theorem alFields_nodup : alFields.keys.Nodup := by decide +kernel

theorem get?_asdict (x : Dict String Val) (k : String) :
    (asdict x).get? k = (alFields.get? k).map fun v => (x.get? k).getD v := by
  unfold asdict
  generalize alFields = l
  induction l with
  | nil => rfl
  | cons kv l ih =>
    obtain ⟨a, b⟩ := kv
    simp only [List.map_cons, Dict.get?]
    by_cases e : k = a
    · subst e; simp
    · simp only [e, if_false]; exact ih

theorem keys_asdict (x : Dict String Val) : (asdict x).keys = alFields.keys := by
  simp [asdict, Dict.keys, List.map_map, Function.comp_def]

theorem keys_nodeOptions (w : World) (d : Dist) : (nodeOptions w d).keys = alFields.keys := by
  unfold nodeOptions
  rw [Dict.keys_update_of_mem _ _ ?_, keys_asdict]
  rw [keys_asdict]
  intro kv h
  simp only [List.mem_cons, List.not_mem_nil, or_false] at h
  rcases h with rfl | rfl | rfl | rfl <;> simp only <;> decide +kernel

theorem get?_nodeOptions (w : World) (d : Dist) (k : String) (hk : AlOption k) :
    (nodeOptions w d).get? k = askedOfNode w d k := by
  unfold nodeOptions
  rw [get?_update_keys _ _ (by simp only [Dict.keys, List.map_cons, List.map_nil]; decide), get?_asdict]
  unfold askedOfNode
  have hk' : (alFields.get? k).isSome := by
    rw [Option.isSome_iff_ne_none]
    intro h
    exact (Dict.get?_eq_none_iff _ _).mp h hk
  obtain ⟨v, hv⟩ := Option.isSome_iff_exists.mp hk'
  have hv' : alDefaults.get? k = some v := hv
  simp only [Dict.get?, hv, hv', Option.map_some, Option.getD_some]
  by_cases h1 : k = "degree"
  · simp [h1]
  · by_cases h2 : k = "finite_elements"
    · simp [h2]
    · by_cases h3 : k = "max_iter"
      · simp [h3]
      · by_cases h4 : k = "verbose"
        · simp [h4]
        · simp [h1, h2, h3, h4]

theorem dataclass_nodeOptions (w : World) (d : Dist) :
    ∃ x, dataclass alFields (nodeOptions w d) = .ok x ∧
      ∀ k, AlOption k → x.get? k = askedOfNode w d k := by
  have h : dataclass alFields (nodeOptions w d) = .ok (alFields.update (nodeOptions w d)) := by
    unfold dataclass
    rw [if_pos]
    rw [List.all_eq_true]
    intro kv hkv
    rw [Dict.has_iff, ← keys_nodeOptions w d]
    exact List.mem_map_of_mem hkv
  refine ⟨_, h, fun k hk => ?_⟩
  rw [get?_dataclass h (by rw [keys_nodeOptions]; exact alFields_nodup), get?_nodeOptions w d k hk]
  cases e : askedOfNode w d k with
  | some v => rfl
  | none => unfold askedOfNode at e; split_ifs at e

/-- The method of a node: `ask` is what it was asked to have, `dv` and `ev` are the degree and the number
of elements it has. -/
structure NodeMade (w : World) (d : Dist) (ask : String → Option Val) (dv ev : Val) (m : Method) :
    Prop where
  lt : m.options < w.objs.length
  degree : (w.obj m.options).get? "degree" = some dv
  elements : (w.obj m.options).get? "finite_elements" = some ev
  rest : ∀ k, AlOption k → k ≠ "degree" → k ≠ "finite_elements" → (w.obj m.options).get? k = ask k
  mult : m.multDegree = none ∨ m.multDegree = some (d.attr "degree")
  multElements : m.multElements = none ∨ m.multElements = some (d.attr "finite_elements")
  made : ((ask "debug_skip_initialize").getD .none).truth = false →
    ((ask "debug_skip_parametrize").getD .none).truth = false → m.multDegree = some (d.attr "degree")
  inner : m.inner.get? "degree" = some dv
  innerElements : m.inner.get? "finite_elements" = some ev

theorem NodeMade.frame {w w' : World} {d : Dist} {ask : String → Option Val} {dv ev : Val} {m : Method}
    (h : NodeMade w d ask dv ev m) (hl : w.objs.length ≤ w'.objs.length)
    (ho : ∀ o, o < w.objs.length → w'.obj o = w.obj o) : NodeMade w' d ask dv ev m := by
  have e := ho _ h.lt
  exact ⟨Nat.lt_of_lt_of_le h.lt hl, by rw [e]; exact h.degree, by rw [e]; exact h.elements,
    by rw [e]; exact h.rest, h.mult, h.multElements, h.made, h.inner, h.innerElements⟩

theorem newNodes_made (inner : Dict String Val → Except Err Unit) (d : Dist) (n : Nat) :
    ∀ (w : World) (dv ev : Val), d.alOptions < w.objs.length → d.solverOptions < w.dicts.length →
    Accepts inner (w.dict d.solverOptions) →
    dv = ((w.dict d.solverOptions).get? "degree").getD (d.attr "degree") →
    ev = ((w.dict d.solverOptions).get? "finite_elements").getD (d.attr "finite_elements") →
    ∃ w' ms, newNodes inner d n w = (.ok (), w') ∧ w'.methods = w.methods ++ ms ∧ ms.length = n ∧
      (∀ m ∈ ms, NodeMade w' d (askedOfNode w d) dv ev m) ∧ w'.dists = w.dists ∧
      w.objs.length ≤ w'.objs.length ∧ (∀ o, o < w.objs.length → w'.obj o = w.obj o) ∧
      w.dicts.length ≤ w'.dicts.length ∧
      (∀ r, r < w.dicts.length → r ≠ d.solverOptions → w'.dict r = w.dict r) ∧
      (∀ k, (w'.dict d.solverOptions).get? k =
        if n = 0 then (w.dict d.solverOptions).get? k
        else if k = "degree" then some dv else if k = "finite_elements" then some ev
        else (w.dict d.solverOptions).get? k) := by
  induction n with
  | zero =>
    intro w dv ev _ _ _ _ _
    exact ⟨w, [], rfl, by simp, rfl, by simp, rfl, Nat.le_refl _, fun _ _ => rfl, Nat.le_refl _,
      fun _ _ _ => rfl, by simp⟩
  | succ n ih =>
    intro w dv ev hal hso hacc hdv hev
    obtain ⟨x, hx, hask⟩ := dataclass_nodeOptions w d
    obtain ⟨w₁, so, m, h₁, hm, hs⟩ := newMethod_made inner w
      { options := .dict (nodeOptions w d), solverOptions := some d.solverOptions } _ x (.inl rfl) hx
      (by simpa [dictExists] using hso) (d.attr "degree") (d.attr "finite_elements")
      (by rw [hask _ (by unfold AlOption; decide +kernel)]; simp [askedOfNode])
      (by rw [hask _ (by unfold AlOption; decide +kernel)]; simp [askedOfNode])
      (by intro k _ s _; exact .inl rfl) hacc
    have hs' : so = d.solverOptions := hs _ rfl
    subst hs'
    simp only [Option.map_some, Option.getD_some] at hm
    have hdeg : (w₁.dict d.solverOptions).get? "degree" = some dv := by rw [hm.dict, if_pos rfl, hdv]
    have hel : (w₁.dict d.solverOptions).get? "finite_elements" = some ev := by
      rw [hm.dict, if_neg (by decide), if_pos rfl, hev]
    have hal₁ : w₁.obj d.alOptions = w.obj d.alOptions := hm.others _ hal
    obtain ⟨w', ms, h', hms, hn, hnode, hds, hol, hoo, hdl, hdo, hdk⟩ := ih w₁ dv ev
      (Nat.lt_of_lt_of_le hal (by rw [hm.objs]; exact Nat.le_succ _)) (Nat.lt_of_lt_of_le hso hm.dicts)
      (by
        intro D' hD'
        refine hacc D' fun k h1 h2 => ?_
        rw [hD' k h1 h2, hm.dict, if_neg h1, if_neg h2])
      (by rw [hdeg]; rfl) (by rw [hel]; rfl)
    have hask' : askedOfNode w₁ d = askedOfNode w d := by
      funext k; unfold askedOfNode; rw [hal₁]
    have hle : w.objs.length ≤ w₁.objs.length := by rw [hm.objs]; exact Nat.le_succ _
    refine ⟨w', m :: ms, ?_, ?_, by simp [hn], ?_, by rw [hds, hm.dists],
      Nat.le_trans hle hol, ?_, Nat.le_trans hm.dicts hdl, ?_, ?_⟩
    · show Py.bind _ _ _ = _
      rw [Py.bind_ok (a := ()) (s' := w₁)]
      · exact h'
      · exact h₁
    · rw [hms, hm.methods]; simp
    · have hnm : NodeMade w₁ d (askedOfNode w d) dv ev m := by
        refine ⟨by rw [hm.options, hm.objs]; exact Nat.lt_succ_self _, ?_, ?_, ?_, hm.degree, hm.elements,
          ?_, ?_, ?_⟩
        · rw [hm.self, if_pos rfl, hdv]
        · rw [hm.self, if_neg (by decide), if_pos rfl, hev]
        · intro k hk h1 h2
          rw [hm.self, if_neg h1, if_neg h2, hask k hk]
        · intro h1 h2
          refine hm.made ?_ ?_
          · unfold isSet; rw [hask _ (by unfold AlOption; decide +kernel)]; exact h1
          · unfold isSet; rw [hask _ (by unfold AlOption; decide +kernel)]; exact h2
        · rw [hm.inner]; exact hdeg
        · rw [hm.inner]; exact hel
      intro m' hm'
      rcases List.mem_cons.mp hm' with rfl | hm'
      · exact hnm.frame hol hoo
      · have := hnode m' hm'
        rwa [hask'] at this
    · intro o ho
      rw [hoo o (Nat.lt_of_lt_of_le ho hle), hm.others o ho]
    · intro r hr hne
      rw [hdo r (Nat.lt_of_lt_of_le hr hm.dicts) hne, hm.otherDicts r hr hne]
    · intro k
      rw [hdk, if_neg (Nat.succ_ne_zero n)]
      split
      · rw [hm.dict, hdv, hev]
      · by_cases h1 : k = "degree"
        · simp [h1]
        · by_cases h2 : k = "finite_elements"
          · simp [h2]
          · rw [if_neg h1, if_neg h2, if_neg h1, if_neg h2, hm.dict, if_neg h1, if_neg h2]

/-! ## What the rest of a program leaves alone -/

/-- Sequencing for a property `P` of the state that holds even when the call raises; `R` holds between
the two parts. -/
theorem after_bind {σ : Type u} {α β : Type v} {P : σ → Prop} {R : α → σ → Prop}
    {m : Py σ α} {f : α → Py σ β} {s : σ}
    (hm : (∀ a s', m s = (.ok a, s') → R a s') ∧ (∀ e s', m s = (.error e, s') → P s'))
    (hf : ∀ a s', R a s' → P (f a s').2) : P (Py.bind m f s).2 := by
  cases h : m s with
  | mk r s' =>
    cases r with
    | ok a =>
      have e : Py.bind m f s = f a s' := Py.bind_ok h
      exact e ▸ hf a s' (hm.1 a s' h)
    | error e =>
      have e' : Py.bind m f s = (.error e, s') := Py.bind_error h
      exact e' ▸ hm.2 e s' h

/-- All references are to objects that exist. -/
structure Sound (w : World) : Prop where
  pos : 0 < w.objs.length
  methods : ∀ m ∈ w.methods, m.options < w.objs.length
  dists : ∀ d ∈ w.dists, d.alOptions < w.objs.length ∧ d.solverOptions < w.dicts.length

/-- Only the method with number `i` has the options object `o`, with the attributes `x`. -/
structure Private (w : World) (i : Nat) (o : Loc) (x : Dict String Val) (m : Method) : Prop where
  lt : o < w.objs.length
  obj : w.obj o = x
  method : w.methods[i]? = some m
  options : m.options = o
  only : ∀ j m', w.methods[j]? = some m' → m'.options = o → j = i

/-- Between the statements of a constructor: the options object `o'` is not `o`. -/
theorem Private.congr {w w' : World} {i : Nat} {o : Loc} {x : Dict String Val} {m : Method}
    (h : Private w i o x m) (hl : w.objs.length ≤ w'.objs.length) (ho : w'.obj o = w.obj o)
    (hm : w'.methods = w.methods) : Private w' i o x m :=
  ⟨Nat.lt_of_lt_of_le h.lt hl, ho.trans h.obj, by rw [hm]; exact h.method, h.options,
    by rw [hm]; exact h.only⟩

theorem setAttr_objs (w : World) (o : Loc) (k : String) (v : Val) :
    (w.setAttr o k v).objs.length = w.objs.length ∧ (w.setAttr o k v).methods = w.methods ∧
    (w.setAttr o k v).dicts = w.dicts ∧ (w.setAttr o k v).dists = w.dists ∧
    ∀ o', o' ≠ o → (w.setAttr o k v).obj o' = w.obj o' := by
  unfold World.setAttr
  split
  · refine ⟨by simp, rfl, rfl, rfl, fun o' h => ?_⟩
    simp only [World.obj, List.getD_eq_getElem?_getD]
    rw [List.getElem?_set_ne (fun h' => h h'.symm)]
  · exact ⟨rfl, rfl, rfl, rfl, fun _ _ => rfl⟩

theorem sync_frame (o so : Loc) (kw : Dict String Val) (k : String) (w : World) :
    (sync o so kw k w).2.objs.length = w.objs.length ∧ (sync o so kw k w).2.methods = w.methods ∧
    (sync o so kw k w).2.dicts.length = w.dicts.length ∧ (sync o so kw k w).2.dists = w.dists ∧
    ∀ o', o' ≠ o → (sync o so kw k w).2.obj o' = w.obj o' := by
  have ha := setAttr_objs w o k
  have h0 : w.objs.length = w.objs.length ∧ w.methods = w.methods ∧ w.dicts.length = w.dicts.length ∧
      w.dists = w.dists ∧ ∀ o', o' ≠ o → w.obj o' = w.obj o' :=
    ⟨rfl, rfl, rfl, rfl, fun _ _ => rfl⟩
  unfold sync
  split
  · rename_i s _
    split
    · split
      · exact h0
      · exact ⟨(ha s).1, (ha s).2.1, by rw [(ha s).2.2.1], (ha s).2.2.2⟩
    · exact ⟨(ha s).1, (ha s).2.1, by rw [(ha s).2.2.1], (ha s).2.2.2⟩
  · exact ⟨rfl, rfl, by simp [World.setItem], rfl, fun _ _ => rfl⟩

/-- What a call of the constructor of a method leaves, whether or not it raises: at most one method
more, with an options object that is new or the one given. -/
structure Left (w w' : World) (given : Loc → Prop) : Prop where
  objs : w.objs.length ≤ w'.objs.length
  dicts : w.dicts.length ≤ w'.dicts.length
  dists : w'.dists = w.dists
  obj : ∀ o, o < w.objs.length → ¬ given o → w'.obj o = w.obj o
  methods : ∃ ms : List Method, w'.methods = w.methods ++ ms ∧
    ∀ m ∈ ms, (w.objs.length ≤ m.options ∨ given m.options) ∧
      (m.options < w'.objs.length ∨ given m.options)

theorem Left.refl (w : World) (given : Loc → Prop) : Left w w given :=
  ⟨Nat.le_refl _, Nat.le_refl _, rfl, fun _ _ _ => rfl, [], by simp⟩

theorem Left.trans {w w₁ w₂ : World} {given : Loc → Prop} (h : Left w w₁ given)
    (h' : Left w₁ w₂ given) : Left w w₂ given := by
  obtain ⟨ms, hm, hp⟩ := h.methods
  obtain ⟨ms', hm', hp'⟩ := h'.methods
  refine ⟨Nat.le_trans h.objs h'.objs, Nat.le_trans h.dicts h'.dicts, h'.dists.trans h.dists,
    ?_, ms ++ ms', by rw [hm', hm]; simp, ?_⟩
  · intro o ho hg
    rw [h'.obj o (Nat.lt_of_lt_of_le ho h.objs) hg, h.obj o ho hg]
  · intro m hm
    rcases List.mem_append.mp hm with hm | hm
    · exact ⟨(hp m hm).1, (hp m hm).2.imp_left fun h1 => Nat.lt_of_lt_of_le h1 h'.objs⟩
    · exact ⟨(hp' m hm).1.imp_left fun h1 => Nat.le_trans h.objs h1, (hp' m hm).2⟩

/-- The options object given to a constructor. -/
def Options.isObject : Options → Loc → Prop
  | .object r, o => r = o
  | _, _ => False

theorem left_newMethod (inner : Dict String Val → Except Err Unit) (a : Args) (w : World) :
    Left w (newMethod inner a w).2 a.options.isObject := by
  unfold newMethod
  -- the dictionary
  refine after_bind (P := fun s => Left w s a.options.isObject)
    (R := fun _ s => Left w s a.options.isObject ∧ s.objs = w.objs ∧
    s.methods = w.methods) ⟨?_, ?_⟩ ?_
  · intro so s h
    cases hs : a.solverOptions with
    | none =>
      rw [hs] at h
      cases h
      exact ⟨⟨Nat.le_refl _, by simp, rfl, fun _ _ _ => rfl, [], by simp⟩, rfl, rfl⟩
    | some r => rw [hs] at h; cases h; exact ⟨Left.refl _ _, rfl, rfl⟩
  · intro e s h
    cases hs : a.solverOptions <;> rw [hs] at h <;> cases h
  rintro so s₁ ⟨hl₁, ho₁, hm₁⟩
  -- the options
  refine after_bind (P := fun s => Left w s a.options.isObject)
    (R := fun o s => Left w s a.options.isObject ∧ s.methods = w.methods ∧
    (w.objs.length ≤ o ∨ a.options.isObject o) ∧ (o < s.objs.length ∨ a.options.isObject o)) ⟨?_, ?_⟩ ?_
  · intro o s h
    have new : ∀ x, (s = { s₁ with objs := s₁.objs ++ [x] } ∧ o = s₁.objs.length) →
        Left w s a.options.isObject ∧ s.methods = w.methods ∧
        (w.objs.length ≤ o ∨ a.options.isObject o) ∧ (o < s.objs.length ∨ a.options.isObject o) := by
      rintro x ⟨rfl, rfl⟩
      refine ⟨hl₁.trans ⟨by simp, Nat.le_refl _, rfl, ?_, [], by simp⟩, hm₁, .inl ?_, .inl (by simp)⟩
      · intro o ho _
        simp [World.obj, List.getElem?_append_left ho]
      · rw [ho₁]; exact Nat.le_refl _
    cases hopt : a.options with
    | absent =>
      rw [hopt] at h new
      cases hd : dataclass alFields [] with
      | ok x => simp only [takeOptions, hd, Py.lift_ok_bind] at h; cases h; exact new x ⟨rfl, rfl⟩
      | error e => simp only [takeOptions, hd, Py.lift_error_bind] at h; cases h
    | dict d =>
      rw [hopt] at h new
      cases hd : dataclass alFields d with
      | ok x => simp only [takeOptions, hd, Py.lift_ok_bind] at h; cases h; exact new x ⟨rfl, rfl⟩
      | error e => simp only [takeOptions, hd, Py.lift_error_bind] at h; cases h
    | object r =>
      rw [hopt] at h hl₁
      cases h
      exact ⟨hl₁, hm₁, .inr rfl, .inr rfl⟩
  · intro e s h
    cases hopt : a.options with
    | absent =>
      rw [hopt] at h hl₁
      cases hd : dataclass alFields [] with
      | ok x => simp only [takeOptions, hd, Py.lift_ok_bind] at h; cases h
      | error e => simp only [takeOptions, hd, Py.lift_error_bind] at h; cases h; exact hl₁
    | dict d =>
      rw [hopt] at h hl₁
      cases hd : dataclass alFields d with
      | ok x => simp only [takeOptions, hd, Py.lift_ok_bind] at h; cases h
      | error e => simp only [takeOptions, hd, Py.lift_error_bind] at h; cases h; exact hl₁
    | object r => rw [hopt] at h; cases h
  rintro o s₂ ⟨hl₂, hm₂, hge, hlt⟩
  rw [Py.get_bind]
  -- the two rounds of the loop
  have round : ∀ k s, (Left w s a.options.isObject ∧ s.methods = w.methods ∧
      (o < s.objs.length ∨ a.options.isObject o)) →
      Left w (sync o so a.kwargs k s).2 a.options.isObject ∧
      (sync o so a.kwargs k s).2.methods = w.methods ∧
      (o < (sync o so a.kwargs k s).2.objs.length ∨ a.options.isObject o) := by
    rintro k s ⟨hl, hm, ho⟩
    obtain ⟨f1, f2, f3, f4, f5⟩ := sync_frame o so a.kwargs k s
    refine ⟨?_, f2.trans hm, by rw [f1]; exact ho⟩
    refine ⟨by rw [f1]; exact hl.objs, by rw [f3]; exact hl.dicts, f4.trans hl.dists,
      ?_, [], by rw [f2, hm]; simp⟩
    · intro o' h1 h2
      rw [f5 o' ?_, hl.obj o' h1 h2]
      rintro rfl
      rcases hge with h | h
      · exact absurd h1 (Nat.not_lt.mpr h)
      · exact h2 h
  refine after_bind (P := fun s => Left w s a.options.isObject)
    (R := fun _ s => Left w s a.options.isObject ∧ s.methods = w.methods ∧
    (o < s.objs.length ∨ a.options.isObject o)) ⟨?_, ?_⟩ ?_
  · intro _ s h
    have := round "degree" s₂ ⟨hl₂, hm₂, hlt⟩
    rw [h] at this; exact this
  · intro e s h
    have := round "degree" s₂ ⟨hl₂, hm₂, hlt⟩
    rw [h] at this; exact this.1
  rintro _ s₃ h₃
  refine after_bind (P := fun s => Left w s a.options.isObject)
    (R := fun _ s => Left w s a.options.isObject ∧ s.methods = w.methods ∧
    (o < s.objs.length ∨ a.options.isObject o)) ⟨?_, ?_⟩ ?_
  · intro _ s h
    have := round "finite_elements" s₃ h₃
    rw [h] at this; exact this
  · intro e s h
    have := round "finite_elements" s₃ h₃
    rw [h] at this; exact this.1
  rintro _ s₄ ⟨hl₄, hm₄, hlt₄⟩
  rw [Py.get_bind]
  cases inner (s₄.dict so) with
  | error e => exact hl₄
  | ok u =>
    refine ⟨hl₄.objs, hl₄.dicts, hl₄.dists, hl₄.obj, [_], by
      show s₄.methods ++ _ = _
      rw [hm₄], ?_⟩
    intro m hm
    rw [List.mem_singleton] at hm
    subst hm
    exact ⟨hge, hlt₄⟩

theorem left_newNodes (inner : Dict String Val → Except Err Unit) (d : Dist) (n : Nat) (w : World) :
    Left w (newNodes inner d n w).2 fun _ => False := by
  induction n generalizing w with
  | zero => exact Left.refl _ _
  | succ n ih =>
    refine after_bind (P := fun s => Left w s fun _ => False) (R := fun _ s => Left w s fun _ => False) ⟨?_, ?_⟩ ?_
    · intro _ s h
      have := left_newMethod inner
        { options := .dict (nodeOptions w d), solverOptions := some d.solverOptions } w
      have e : newMethod inner
        { options := .dict (nodeOptions w d), solverOptions := some d.solverOptions } w = (.ok (), s) := h
      rw [e] at this; exact this
    · intro er s h
      have := left_newMethod inner
        { options := .dict (nodeOptions w d), solverOptions := some d.solverOptions } w
      have e : newMethod inner
        { options := .dict (nodeOptions w d), solverOptions := some d.solverOptions } w =
          (.error er, s) := h
      rw [e] at this; exact this
    · intro _ s h
      exact h.trans (ih s)

theorem Private.left {w w' : World} {i : Nat} {o : Loc} {x : Dict String Val} {m : Method}
    {given : Loc → Prop} (h : Private w i o x m) (hl : Left w w' given) (hg : ¬ given o) :
    Private w' i o x m := by
  obtain ⟨ms, hm, hp⟩ := hl.methods
  have hi : i < w.methods.length := (List.getElem?_eq_some_iff.mp h.method).1
  refine ⟨Nat.lt_of_lt_of_le h.lt hl.objs, by rw [hl.obj o h.lt hg]; exact h.obj, ?_, h.options, ?_⟩
  · rw [hm, List.getElem?_append_left hi]; exact h.method
  · intro j m' hj ho
    rw [hm] at hj
    by_cases hlt : j < w.methods.length
    · rw [List.getElem?_append_left hlt] at hj
      exact h.only j m' hj ho
    · rw [List.getElem?_append_right (Nat.le_of_not_lt hlt)] at hj
      have := (hp m' (List.mem_of_getElem? hj)).1
      rw [ho] at this
      rcases this with h1 | h1
      · exact absurd h.lt (Nat.not_lt.mpr h1)
      · exact absurd h1 hg

theorem Sound.left {w w' : World} {given : Loc → Prop} (h : Sound w) (hl : Left w w' given)
    (hg : ∀ o, given o → o < w.objs.length) : Sound w' := by
  obtain ⟨ms, hm, hp⟩ := hl.methods
  refine ⟨Nat.lt_of_lt_of_le h.pos hl.objs, ?_, ?_⟩
  · intro m hmm
    rw [hm] at hmm
    rcases List.mem_append.mp hmm with h1 | h1
    · exact Nat.lt_of_lt_of_le (h.methods m h1) hl.objs
    · rcases (hp m h1).2 with h2 | h2
      · exact h2
      · exact Nat.lt_of_lt_of_le (hg _ h2) hl.objs
  · intro d hd
    rw [hl.dists] at hd
    exact ⟨Nat.lt_of_lt_of_le (h.dists d hd).1 hl.objs, Nat.lt_of_lt_of_le (h.dists d hd).2 hl.dicts⟩

/-- What a call of the constructor of a distributed method leaves. -/
theorem left_newDist (a : DistArgs) (w : World) (h : Sound w)
    (hd : dictExists w a.solverOptions = true) (ho : a.alOptions.exists w = true) :
    Sound (newDist a w).2 ∧ w.objs.length ≤ (newDist a w).2.objs.length ∧
      (newDist a w).2.methods = w.methods ∧
      ∀ o, o < w.objs.length → (newDist a w).2.obj o = w.obj o := by
  obtain ⟨so, w₁, h₁, hlt, hobjs, hm, hds, hle, hdict, -, -, -⟩ := takeDict_ok w _ hd
  have h₁' : Sound w₁ := ⟨by rw [hobjs]; exact h.pos, by rw [hm, hobjs]; exact h.methods, by
    rw [hds, hobjs]; exact fun d hd => ⟨(h.dists d hd).1, Nat.lt_of_lt_of_le (h.dists d hd).2 hle⟩⟩
  have hk : Sound w₁ ∧ w.objs.length ≤ w₁.objs.length ∧ w₁.methods = w.methods ∧
      ∀ o, o < w.objs.length → w₁.obj o = w.obj o :=
    ⟨h₁', by rw [hobjs]; exact Nat.le_refl _, hm, fun o _ => by simp only [World.obj, hobjs]⟩
  unfold newDist
  rw [Py.bind_ok h₁]
  cases he : dataclass distFields a.options with
  | error e => exact hk
  | ok at' =>
    simp only [Py.lift_ok_bind]
    have fin : ∀ (w₂ : World) (al : Loc), Sound w₂ → w.objs.length ≤ w₂.objs.length →
        w₂.methods = w.methods → (∀ o, o < w.objs.length → w₂.obj o = w.obj o) → al < w₂.objs.length →
        so < w₂.dicts.length →
        let w' : World := { w₂ with dists := w₂.dists ++ [⟨at', al, so⟩] }
        Sound w' ∧ w.objs.length ≤ w'.objs.length ∧ w'.methods = w.methods ∧
          ∀ o, o < w.objs.length → w'.obj o = w.obj o := by
      intro w₂ al hs hl hm ho hal hso
      refine ⟨⟨hs.pos, hs.methods, ?_⟩, hl, hm, ho⟩
      intro d hd
      rcases List.mem_append.mp hd with hd | hd
      · exact hs.dists d hd
      · rw [List.mem_singleton] at hd; subst hd; exact ⟨hal, hso⟩
    cases hopt : a.alOptions with
    | absent => exact fin w₁ 0 hk.1 hk.2.1 hk.2.2.1 hk.2.2.2 h₁'.pos hlt
    | object r =>
      refine fin w₁ r hk.1 hk.2.1 hk.2.2.1 hk.2.2.2 ?_ hlt
      rw [hopt] at ho
      rw [hobjs]; simpa [Options.exists] using ho
    | dict d =>
      cases hx : dataclass alFields d with
      | error e => simp only [takeAlOptions, hx]; exact hk
      | ok x =>
        simp only [takeAlOptions, hx]
        refine fin { w₁ with objs := w₁.objs ++ [x] } w₁.objs.length ⟨by simp, ?_, ?_⟩ ?_ hm ?_
          (by simp) hlt
        · intro m hm
          exact Nat.lt_of_lt_of_le (h₁'.methods m hm) (by simp)
        · intro d hd
          exact ⟨Nat.lt_of_lt_of_le (h₁'.dists d hd).1 (by simp), (h₁'.dists d hd).2⟩
        · exact Nat.le_trans hk.2.1 (by simp)
        · intro o ho
          rw [← hk.2.2.2 o ho]
          simp [World.obj, List.getElem?_append_left (Nat.lt_of_lt_of_le ho hk.2.1)]

theorem sound_setAttr {w : World} (h : Sound w) (o : Loc) (k : String) (v : Val) :
    Sound (w.setAttr o k v) := by
  obtain ⟨h1, h2, h3, h4, -⟩ := setAttr_objs w o k v
  exact ⟨by rw [h1]; exact h.pos, by rw [h1, h2]; exact h.methods, by rw [h1, h3, h4]; exact h.dists⟩

theorem sound_run {w : World} (h : Sound w) (c : Call) : Sound (c.run w) := by
  cases c with
  | dictionary d =>
    exact ⟨h.pos, h.methods, fun d hd => ⟨(h.dists d hd).1, Nat.lt_of_lt_of_le (h.dists d hd).2 (by simp [Call.run])⟩⟩
  | assign r k v =>
    exact ⟨h.pos, h.methods, fun d hd => ⟨(h.dists d hd).1, by
      show _ < (w.dicts.set _ _).length
      rw [List.length_set]; exact (h.dists d hd).2⟩⟩
  | object d =>
    simp only [Call.run, Py.stateAfter]
    cases dataclass alFields d with
    | error e => exact h
    | ok x =>
      exact ⟨by show 0 < (w.objs ++ [x]).length; simp,
        fun m hm => Nat.lt_of_lt_of_le (h.methods m hm) (by show _ ≤ (w.objs ++ [x]).length; simp),
        fun d hd => ⟨Nat.lt_of_lt_of_le (h.dists d hd).1 (by show _ ≤ (w.objs ++ [x]).length; simp),
          (h.dists d hd).2⟩⟩
  | setObject o k v => exact sound_setAttr h o k v
  | method inner a =>
    simp only [Call.run]
    split
    · rename_i he
      rw [Bool.and_eq_true] at he
      refine h.left (left_newMethod inner a w) ?_
      intro o ho
      cases hopt : a.options with
      | absent => rw [hopt] at ho; exact ho.elim
      | dict d => rw [hopt] at ho; exact ho.elim
      | object r =>
        rw [hopt] at ho he
        have : r = o := ho
        subst this
        simpa [Options.exists] using he.1
    · exact h
  | setMethod i k v =>
    simp only [Call.run]
    split
    · exact sound_setAttr h _ k v
    · exact h
  | dist a =>
    simp only [Call.run]
    split
    · rename_i he
      rw [Bool.and_eq_true] at he
      exact (left_newDist a w h he.2 he.1).1
    · exact h
  | setDist i k v =>
    refine ⟨h.pos, h.methods, ?_⟩
    intro d hd
    have hd : d ∈ w.dists.modify i _ := hd
    obtain ⟨j, hj⟩ := List.getElem?_of_mem hd
    rw [List.getElem?_modify] at hj
    cases hw : w.dists[j]? with
    | none => rw [hw] at hj; cases hj
    | some d' =>
      rw [hw] at hj
      have hb := h.dists d' (List.mem_of_getElem? hw)
      have : d = d' ∨ d = { d' with attrs := d'.attrs.set k v } := by
        split at hj
        · simp only [Option.map_eq_map, Option.map_some, Option.some.injEq] at hj
          split at hj
          · exact .inr hj.symm
          · exact .inl hj.symm
        · simp only [Option.map_eq_map, Option.map_some, Option.some.injEq] at hj
          exact .inl hj.symm
      rcases this with rfl | rfl
      · exact hb
      · exact hb
  | prepare inner i n =>
    simp only [Call.run]
    split
    · exact h.left (left_newNodes inner _ n w) fun o ho => ho.elim
    · exact h

theorem sound_start : Sound World.start :=
  ⟨by decide, fun _ hm => (nomatch hm), fun _ hd => (nomatch hd)⟩

theorem sound_all (cs : List Call) {w : World} (h : Sound w) : Sound (runAll w cs) := by
  induction cs generalizing w with
  | nil => exact h
  | cons c cs ih => exact ih (sound_run h c)

theorem private_run {w : World} {i : Nat} {o : Loc} {x : Dict String Val} {m : Method}
    (h : Private w i o x m) (hs : Sound w) (c : Call) (hc : ¬ Concerns i o c) :
    Private (c.run w) i o x m := by
  cases c with
  | dictionary d => exact h.congr (Nat.le_refl _) rfl rfl
  | assign r k v => exact h.congr (Nat.le_refl _) rfl rfl
  | object d =>
    simp only [Call.run, Py.stateAfter]
    cases dataclass alFields d with
    | error e => exact h
    | ok y =>
      refine h.congr (w' := { w with objs := w.objs ++ [y] }) (by simp) ?_ rfl
      simp [World.obj, List.getElem?_append_left h.lt]
  | setObject r k v =>
    obtain ⟨h1, h2, -, -, h3⟩ := setAttr_objs w r k v
    exact h.congr (Nat.le_of_eq h1.symm) (h3 o fun e => hc e.symm) h2
  | method inner a =>
    simp only [Call.run]
    split
    · refine h.left (left_newMethod inner a w) ?_
      intro ho
      apply hc
      cases hopt : a.options with
      | absent => rw [hopt] at ho; exact ho.elim
      | dict d => rw [hopt] at ho; exact ho.elim
      | object r => rw [hopt] at ho; simp only [Concerns, hopt]; exact ho
    · exact h
  | setMethod j k v =>
    simp only [Call.run]
    split
    · rename_i m' hm'
      obtain ⟨h1, h2, -, -, h3⟩ := setAttr_objs w m'.options k v
      exact h.congr (Nat.le_of_eq h1.symm) (h3 o fun e => hc (h.only j m' hm' e.symm)) h2
    · exact h
  | dist a =>
    simp only [Call.run]
    split
    · rename_i he
      rw [Bool.and_eq_true] at he
      obtain ⟨-, h1, h2, h3⟩ := left_newDist a w hs he.2 he.1
      exact h.congr h1 (h3 o h.lt) h2
    · exact h
  | setDist j k v => exact h.congr (Nat.le_refl _) rfl rfl
  | prepare inner j n =>
    simp only [Call.run]
    split
    · exact h.left (left_newNodes inner _ n w) fun ho => ho
    · exact h

theorem private_all (cs : List Call) {w : World} {i : Nat} {o : Loc} {x : Dict String Val} {m : Method}
    (h : Private w i o x m) (hs : Sound w) (hc : ∀ c ∈ cs, ¬ Concerns i o c) :
    Private (runAll w cs) i o x m := by
  induction cs generalizing w with
  | nil => exact h
  | cons c cs ih =>
    exact ih (private_run h hs c (hc c (by simp))) (sound_run hs c) fun c' h' => hc c' (by simp [h'])

theorem runAll_append (w : World) (cs cs' : List Call) :
    runAll w (cs ++ cs') = runAll (runAll w cs) cs' := by simp [runAll]

theorem takeOptions_dicts (o : Options) (w : World) : (takeOptions o w).2.dicts = w.dicts := by
  cases o with
  | absent => simp only [takeOptions]; cases dataclass alFields [] <;> rfl
  | dict d => simp only [takeOptions]; cases dataclass alFields d <;> rfl
  | object r => rfl

theorem sync_absent (o so : Loc) (kw : Dict String Val) (k : String) (w : World)
    (h : (w.dict so).get? k = none) :
    sync o so kw k w = (.ok (), w.setItem so k (w.attr o k)) := by
  simp [sync, h]

end Verif.AlOptions
