import Verif.Lemmas.AlOptions
/-!
# C179: the options of the augmented Lagrangian methods
-/
namespace Verif
open AlOptions Spec

theorem AlOptions.optionOf_eq {w : World} {i : Nat} {m : Method} (h : w.methods[i]? = some m)
    (k : String) : optionOf w i k = (w.obj m.options).get? k := by
  simp [optionOf, h]

/-- C179, proved part, for an augmented Lagrangian made anywhere in a program with a dictionary of
options, or none: it has the options asked for, and one degree and number of elements is used
throughout, provided the dictionary of solver options does not ask for others. It keeps all this
whatever the rest of the program does to other methods, dictionaries and options, as long as it does not
set an option of this method. -/
theorem C179_method_partial (before cs : List Call) (inner : Dict String Val → Except Err Unit) (a : Args)
    (d : Dict String Val) (ho : a.options = .dict d ∨ (a.options = .absent ∧ d = []))
    (hn : d.keys.Nodup) (hd : ∀ k ∈ d.keys, AlOption k) (w : World) (hw : w = runAll World.start before)
    (hr : dictExists w a.solverOptions = true) (vd ve : Val) (hvd : asked d "degree" = some vd)
    (hve : asked d "finite_elements" = some ve)
    (hsd : SaysOnly ((a.solverOptions.map w.dict).getD []) "degree" vd)
    (hse : SaysOnly ((a.solverOptions.map w.dict).getD []) "finite_elements" ve)
    (hkd : SaysOnly a.kwargs "degree" vd) (hke : SaysOnly a.kwargs "finite_elements" ve)
    (hi : Accepts inner ((a.solverOptions.map w.dict).getD []))
    (hcs : ∀ c ∈ cs, ¬ Concerns w.methods.length w.objs.length c) :
    (∀ k, AlOption k →
      optionOf (runAll World.start (before ++ .method inner a :: cs)) w.methods.length k = asked d k) ∧
    OneDiscretisation (runAll World.start (before ++ .method inner a :: cs)) w.methods.length vd ve := by
  have hsound : Sound w := hw ▸ sound_all before sound_start
  have hx : dataclass alFields d = .ok (alFields.update d) := by
    unfold dataclass
    rw [if_pos]
    rw [List.all_eq_true]
    intro kv hkv
    rw [Dict.has_iff]
    exact hd _ (List.mem_map_of_mem hkv)
  generalize alFields.update d = x at hx
  have hask : ∀ k, x.get? k = asked d k := fun k => get?_dataclass hx hn k
  obtain ⟨w₁, so, m, h₁, hm, -⟩ := newMethod_made inner w a d x ho hx hr vd ve
    (by rw [hask, hvd]) (by rw [hask, hve])
    (by
      rintro k (rfl | rfl) s hs
      · rcases hsd with h | h
        · rw [h] at hs; cases hs
        · rw [h] at hs; cases hs; exact hkd
      · rcases hse with h | h
        · rw [h] at hs; cases hs
        · rw [h] at hs; cases hs; exact hke) hi
  have hrun : (Call.method inner a).run w = w₁ := by
    have he : a.options.exists w = true := by
      rcases ho with h | ⟨h, -⟩ <;> rw [h] <;> rfl
    simp only [Call.run, he, hr, Bool.and_self, if_true, Py.stateAfter, h₁]
  have hs₁ : Sound w₁ := hrun ▸ sound_run hsound _
  generalize (a.solverOptions.map w.dict).getD [] = D at *
  have hsd' : (D.get? "degree").getD vd = vd := by rcases hsd with h | h <;> rw [h] <;> rfl
  have hse' : (D.get? "finite_elements").getD ve = ve := by rcases hse with h | h <;> rw [h] <;> rfl
  have hp : Private w₁ w.methods.length w.objs.length (w₁.obj m.options) m := by
    refine ⟨by rw [hm.objs]; exact Nat.lt_succ_self _, by rw [hm.options], by rw [hm.methods]; simp,
      hm.options, ?_⟩
    intro j m' hj ho'
    rw [hm.methods] at hj
    by_cases hlt : j < w.methods.length
    · rw [List.getElem?_append_left hlt] at hj
      have := hsound.methods m' (List.mem_of_getElem? hj)
      rw [ho'] at this
      exact absurd this (Nat.lt_irrefl _)
    · have := (List.getElem?_eq_some_iff.mp hj).1
      simp only [List.length_append, List.length_singleton] at this
      omega
  have hp' := private_all cs hp hs₁ hcs
  have e : runAll World.start (before ++ .method inner a :: cs) = runAll w₁ cs := by
    rw [runAll_append, ← hw]
    show runAll (Call.run w (.method inner a)) cs = _
    rw [hrun]
  rw [e]
  have hopt : ∀ k, optionOf (runAll w₁ cs) w.methods.length k =
      if k = "degree" then some vd else if k = "finite_elements" then some ve else asked d k := by
    intro k
    rw [optionOf_eq hp'.method, hp'.options, hp'.obj, hm.self, hsd', hse', hask]
  refine ⟨fun k hk => ?_, ?_, ?_, m, hp'.method, hm.degree, hm.elements, ?_, ?_⟩
  · rw [hopt]
    split_ifs with h1 h2
    · rw [h1, hvd]
    · rw [h2, hve]
    · rfl
  · rw [hopt, if_pos rfl]
  · rw [hopt, if_neg (by decide), if_pos rfl]
  · rw [hm.inner, hm.dict, if_pos rfl, hsd']
  · rw [hm.inner, hm.dict, if_neg (by decide), if_pos rfl, hse']

/-- C179, proved part, for the nodes of a distributed method: all of them have the degree and the number
of elements of the distributed method, one iteration, and the other options of its `al_options`, provided
its dictionary of solver options does not ask for another degree or number of elements. -/
theorem C179_nodes_partial (before : List Call) (w : World) (hw : w = runAll World.start before)
    (inner : Dict String Val → Except Err Unit) (i n : Nat) (d : Dist) (hd : w.dists[i]? = some d)
    (hsd : SaysOnly (w.dict d.solverOptions) "degree" (d.attr "degree"))
    (hse : SaysOnly (w.dict d.solverOptions) "finite_elements" (d.attr "finite_elements"))
    (hi : Accepts inner (w.dict d.solverOptions)) :
    (Call.run w (.prepare inner i n)).methods.length = w.methods.length + n ∧
    ∀ j, j < n →
      (∀ k, AlOption k →
        optionOf (Call.run w (.prepare inner i n)) (w.methods.length + j) k = askedOfNode w d k) ∧
      OneDiscretisation (Call.run w (.prepare inner i n)) (w.methods.length + j) (d.attr "degree")
        (d.attr "finite_elements") := by
  have hsound : Sound w := hw ▸ sound_all before sound_start
  have hb := hsound.dists d (List.mem_of_getElem? hd)
  obtain ⟨w', ms, h', hms, hn, hnode, -⟩ := newNodes_made inner d n w (d.attr "degree")
    (d.attr "finite_elements") hb.1 hb.2 hi
    (by rcases hsd with h | h <;> rw [h] <;> rfl) (by rcases hse with h | h <;> rw [h] <;> rfl)
  have hrun : Call.run w (.prepare inner i n) = w' := by
    simp only [Call.run, hd, Py.stateAfter, h']
  rw [hrun]
  refine ⟨by rw [hms]; simp [hn], fun j hj => ?_⟩
  have hj' : j < ms.length := hn ▸ hj
  have hget : w'.methods[w.methods.length + j]? = some ms[j] := by
    rw [hms, List.getElem?_append_right (Nat.le_add_right _ _)]
    simp [hj']
  have hm := hnode ms[j] (List.getElem_mem hj')
  refine ⟨fun k hk => ?_, ?_, ?_, ms[j], hget, hm.mult, hm.multElements, hm.inner, hm.innerElements⟩
  · rw [optionOf_eq hget]
    by_cases h1 : k = "degree"
    · subst h1; rw [hm.degree]; simp [askedOfNode]
    · by_cases h2 : k = "finite_elements"
      · subst h2; rw [hm.elements]; simp [askedOfNode]
      · exact hm.rest k hk h1 h2
  · rw [optionOf_eq hget, hm.degree]
  · rw [optionOf_eq hget, hm.elements]

/-- C179 fails for a dictionary of solver options used for two distributed methods: the nodes of the
first write their degree into it, and the nodes of the second take that degree, while their multipliers
have the degree asked for. -/
theorem C179_reuse_fails (before : List Call) (w : World) (hw : w = runAll World.start before)
    (inner : Dict String Val → Except Err Unit) (i j n n' : Nat) (d d' : Dist)
    (hd : w.dists[i]? = some d) (hd' : w.dists[j]? = some d') (hs : d'.solverOptions = d.solverOptions)
    (hnone : (w.dict d.solverOptions).get? "degree" = none)
    (hnone' : (w.dict d.solverOptions).get? "finite_elements" = none) (hn : 0 < n)
    (h1 : w.attr d'.alOptions "debug_skip_initialize" = .bool false)
    (h2 : w.attr d'.alOptions "debug_skip_parametrize" = .bool false)
    (hi : Accepts inner (w.dict d.solverOptions)) :
    ∀ l, l < n' → ∃ m,
      (runAll w [.prepare inner i n, .prepare inner j n']).methods[w.methods.length + n + l]? = some m ∧
      m.multDegree = some (d'.attr "degree") ∧
      optionOf (runAll w [.prepare inner i n, .prepare inner j n']) (w.methods.length + n + l) "degree" =
        some (d.attr "degree") ∧
      m.inner.get? "degree" = some (d.attr "degree") := by
  intro l hl
  have hsound : Sound w := hw ▸ sound_all before sound_start
  have hb := hsound.dists d (List.mem_of_getElem? hd)
  have hb' := hsound.dists d' (List.mem_of_getElem? hd')
  obtain ⟨w₁, ms, h₁, hms, hlen, -, hds, hol, hoo, hdl, -, hdk⟩ := newNodes_made inner d n w
    (d.attr "degree") (d.attr "finite_elements") hb.1 hb.2 hi (by rw [hnone]; rfl) (by rw [hnone']; rfl)
  have hdeg : (w₁.dict d.solverOptions).get? "degree" = some (d.attr "degree") := by
    rw [hdk, if_neg (by omega), if_pos rfl]
  have hel : (w₁.dict d.solverOptions).get? "finite_elements" = some (d.attr "finite_elements") := by
    rw [hdk, if_neg (by omega), if_neg (by decide), if_pos rfl]
  obtain ⟨w₂, ms', h₂, hms', hlen', hnode, -⟩ := newNodes_made inner d' n' w₁
    (d.attr "degree") (d.attr "finite_elements") (Nat.lt_of_lt_of_le hb'.1 hol)
    (Nat.lt_of_lt_of_le hb'.2 hdl)
    (by
      rw [hs]
      intro D' hD'
      refine hi D' fun k k1 k2 => ?_
      rw [hD' k k1 k2, hdk, if_neg (by omega), if_neg k1, if_neg k2])
    (by rw [hs, hdeg]; rfl) (by rw [hs, hel]; rfl)
  have hrun : runAll w [.prepare inner i n, .prepare inner j n'] = w₂ := by
    have e1 : Call.run w (.prepare inner i n) = w₁ := by simp only [Call.run, hd, Py.stateAfter, h₁]
    have e2 : Call.run w₁ (.prepare inner j n') = w₂ := by
      simp only [Call.run, hds, hd', Py.stateAfter, h₂]
    simp only [runAll, List.foldl_cons, List.foldl_nil, e1, e2]
  rw [hrun]
  have hl' : l < ms'.length := hlen' ▸ hl
  have hget : w₂.methods[w.methods.length + n + l]? = some ms'[l] := by
    have : w.methods.length + n = w₁.methods.length := by rw [hms]; simp [hlen]
    rw [hms', this, List.getElem?_append_right (Nat.le_add_right _ _)]
    simp [hl']
  have hm := hnode ms'[l] (List.getElem_mem hl')
  have hsk : ∀ k, k ≠ "degree" → k ≠ "finite_elements" → k ≠ "max_iter" → k ≠ "verbose" →
      (alDefaults.get? k).getD .none = .bool false → w.attr d'.alOptions k = .bool false →
      askedOfNode w₁ d' k = some (.bool false) := by
    intro k k1 k2 k3 k4 k5 k6
    unfold askedOfNode
    rw [if_neg k1, if_neg k2, if_neg k3, if_neg k4, hoo _ hb'.1, k5]
    unfold World.attr at k6
    cases hg : (w.obj d'.alOptions).get? k with
    | none => rfl
    | some v => rw [hg] at k6; simpa using k6
  refine ⟨ms'[l], hget, hm.made ?_ ?_, by rw [optionOf_eq hget, hm.degree], hm.inner⟩
  · rw [hsk _ (by decide) (by decide) (by decide) (by decide) (by decide +kernel) h1]; rfl
  · rw [hsk _ (by decide) (by decide) (by decide) (by decide) (by decide +kernel) h2]; rfl

/-- Distributed methods made without `al_options` have the same options object. -/
theorem AlOptions.newDist_default (w : World) (a : DistArgs) (ha : a.alOptions = .absent)
    (hr : dictExists w a.solverOptions = true) (hk : ∀ k ∈ a.options.keys, k ∈ distFields.keys) :
    ∃ d, (Call.run w (.dist a)).dists = w.dists ++ [d] ∧ d.alOptions = 0 ∧
      (Call.run w (.dist a)).objs = w.objs := by
  obtain ⟨so, w₁, h₁, -, hobjs, -, hds, -⟩ := takeDict_ok w _ hr
  have hx : dataclass distFields a.options = .ok (distFields.update a.options) := by
    unfold dataclass
    rw [if_pos]
    rw [List.all_eq_true]
    intro kv hkv
    rw [Dict.has_iff]
    exact hk _ (List.mem_map_of_mem hkv)
  have e : newDist a w = (.ok (), { w₁ with
      dists := w₁.dists ++ [⟨distFields.update a.options, 0, so⟩] }) := by
    unfold newDist
    rw [Py.bind_ok h₁, hx, ha]
    rfl
  refine ⟨⟨distFields.update a.options, 0, so⟩, ?_, rfl, ?_⟩
  · simp only [Call.run, ha, Options.exists, hr, Bool.and_self, if_true, Py.stateAfter, e, hds]
  · simp only [Call.run, ha, Options.exists, hr, Bool.and_self, if_true, Py.stateAfter, e, hobjs]

/-- C179 fails for distributed methods made without `al_options`: they have one options object, and an
option set in that of the first is an option of the nodes of the second. -/
theorem C179_default_fails (before : List Call) (w : World) (hw : w = runAll World.start before)
    (inner : Dict String Val → Except Err Unit) (hi : ∀ D, inner D = .ok ()) (a a' : DistArgs)
    (ha : a.alOptions = .absent) (ha' : a'.alOptions = .absent) (hr : a.solverOptions = none)
    (hr' : a'.solverOptions = none) (hk : ∀ k ∈ a.options.keys, k ∈ distFields.keys)
    (hk' : ∀ k ∈ a'.options.keys, k ∈ distFields.keys) (k : String) (hf : AlOption k)
    (h1 : k ≠ "degree") (h2 : k ≠ "finite_elements") (h3 : k ≠ "max_iter") (h4 : k ≠ "verbose") (v : Val)
    (n j : Nat) (hj : j < n) :
    ∃ d, (runAll w [.dist a, .dist a']).dists[w.dists.length]? = some d ∧
      optionOf (runAll w [.dist a, .dist a', .setObject d.alOptions k v,
        .prepare inner (w.dists.length + 1) n])
        ((runAll w [.dist a, .dist a']).methods.length + j) k = some v := by
  have hsound : Sound w := hw ▸ sound_all before sound_start
  obtain ⟨d, e1, hd, o1⟩ := newDist_default w a ha (by rw [hr]; rfl) hk
  obtain ⟨d', e2, hd', o2⟩ := newDist_default (Call.run w (.dist a)) a' ha' (by rw [hr']; rfl) hk'
  have hs₂ := sound_run (sound_run hsound (.dist a)) (.dist a')
  have hrun : runAll w [.dist a, .dist a'] = Call.run (Call.run w (.dist a)) (.dist a') := rfl
  have hdists : (Call.run (Call.run w (.dist a)) (.dist a')).dists = w.dists ++ [d, d'] := by
    rw [e2, e1]; simp
  refine ⟨d, by rw [hrun, hdists]; simp, ?_⟩
  have hrun' : runAll w [.dist a, .dist a', .setObject d.alOptions k v,
      .prepare inner (w.dists.length + 1) n] =
      Call.run ((Call.run (Call.run w (.dist a)) (.dist a')).setAttr 0 k v)
        (.prepare inner (w.dists.length + 1) n) := by rw [hd.symm]; rfl
  rw [hrun', hrun]
  generalize Call.run (Call.run w (.dist a)) (.dist a') = w₂ at *
  have hs₃ := sound_setAttr hs₂ 0 k v
  obtain ⟨g1, g2, g3, g4, -⟩ := setAttr_objs w₂ 0 k v
  have hget : (w₂.setAttr 0 k v).dists[w.dists.length + 1]? = some d' := by
    rw [g4, hdists]; simp
  have hb := hs₃.dists d' (List.mem_of_getElem? hget)
  obtain ⟨w', ms, h', hms, hn, hnode, -⟩ := newNodes_made inner d' n (w₂.setAttr 0 k v) _ _ hb.1 hb.2
    (fun D _ => hi D) rfl rfl
  have hr3 : Call.run (w₂.setAttr 0 k v) (.prepare inner (w.dists.length + 1) n) = w' := by
    simp only [Call.run, hget, Py.stateAfter, h']
  rw [hr3]
  have hj' : j < ms.length := hn ▸ hj
  have hgm : w'.methods[w₂.methods.length + j]? = some ms[j] := by
    rw [hms, g2, List.getElem?_append_right (Nat.le_add_right _ _)]
    simp [hj']
  rw [optionOf_eq hgm, (hnode ms[j] (List.getElem_mem hj')).rest k hf h1 h2]
  unfold askedOfNode
  rw [if_neg h1, if_neg h2, if_neg h3, if_neg h4, hd']
  have : (w₂.setAttr 0 k v).obj 0 = (w₂.obj 0).set k v := by
    have hk : alFields.has k = true := (Dict.has_iff _ _).mpr hf
    simp only [World.setAttr, hk, if_true]
    exact (obj_set w₂ 0 0 _ hs₂.pos).trans (if_pos rfl)
  rw [this, Dict.get?_set]
  simp

/-- C179 fails for two methods made with one options object: setting an option of one sets it for the
other. -/
theorem C179_object_fails (before : List Call) (w : World) (hw : w = runAll World.start before)
    (i j : Nat) (m m' : Method) (hm : w.methods[i]? = some m) (hm' : w.methods[j]? = some m')
    (ho : m'.options = m.options) (k : String) (hk : AlOption k) (v : Val) :
    optionOf (Call.run w (.setMethod i k v)) j k = some v := by
  have hsound : Sound w := hw ▸ sound_all before sound_start
  have hlt := hsound.methods m (List.mem_of_getElem? hm)
  have hk' : alFields.has k = true := (Dict.has_iff _ _).mpr hk
  have hrun : Call.run w (.setMethod i k v) = World.mk (w.objs.set m.options ((w.obj m.options).set k v))
      w.dicts w.methods w.dists := by
    simp [Call.run, hm, World.setAttr, hk']
  rw [hrun]
  have hm₂ : (World.mk (w.objs.set m.options ((w.obj m.options).set k v)) w.dicts w.methods
      w.dists).methods[j]? = some m' := hm'
  rw [optionOf_eq hm₂, ho, obj_set _ _ _ _ hlt, if_pos rfl, Dict.get?_set]
  simp

/-- C179: an unknown option is rejected with `TypeError`; no method is made, and all options objects are
as before. -/
theorem C179_unknown_rejected (inner : Dict String Val → Except Err Unit) (w : World) (a : Args)
    (d : Dict String Val) (ho : a.options = .dict d) (hr : dictExists w a.solverOptions = true)
    (k : String) (hk : k ∈ d.keys) (hf : ¬ AlOption k) :
    Py.raises (newMethod inner a) w .typeError ∧
    (Py.stateAfter (newMethod inner a) w).methods = w.methods ∧
    (Py.stateAfter (newMethod inner a) w).objs = w.objs := by
  obtain ⟨so, w₁, h₁, -, hobjs, hm, -⟩ := takeDict_ok w _ hr
  have hx : dataclass alFields d = .error .typeError := by
    unfold dataclass
    rw [if_neg]
    rw [List.all_eq_true]
    intro h
    obtain ⟨kv, hkv, rfl⟩ := List.mem_map.mp hk
    exact hf ((Dict.has_iff _ _).mp (h kv hkv))
  have e : newMethod inner a w = (.error .typeError, w₁) := by
    unfold newMethod
    rw [Py.bind_ok h₁, ho]
    simp only [takeOptions, hx]
    rfl
  exact ⟨by rw [Py.raises, e], by rw [Py.stateAfter, e]; exact hm, by rw [Py.stateAfter, e]; exact hobjs⟩

/-- C179 fails for options given as keywords: unless they contradict the solver options they are
ignored. -/
theorem C179_keywords_fails (inner : Dict String Val → Except Err Unit) (w : World) (a : Args)
    (hr : a.solverOptions = none) :
    newMethod inner a w = newMethod inner { a with kwargs := [] } w := by
  generalize hb : ({ a with kwargs := [] } : Args) = b
  have hbo : b.options = a.options := by rw [← hb]
  have hbs : b.solverOptions = none := by rw [← hb]; exact hr
  have hbn : b.nuGiven = a.nuGiven := by rw [← hb]
  unfold newMethod
  rw [hr, hbs, hbo, hbn]
  have h₁ : takeDict none w = (.ok w.dicts.length, { w with dicts := w.dicts ++ [[]] }) := rfl
  rw [Py.bind_ok h₁, Py.bind_ok h₁]
  generalize hw₁ : ({ w with dicts := w.dicts ++ [[]] } : World) = w₁
  have hd₁ : w₁.dict w.dicts.length = [] := by rw [← hw₁]; simp [World.dict]
  have hl₁ : w.dicts.length < w₁.dicts.length := by rw [← hw₁]; simp
  have hdict := takeOptions_dicts a.options w₁
  cases h₂ : takeOptions a.options w₁ with
  | mk r w₂ =>
    rw [h₂] at hdict
    cases r with
    | error e => rw [Py.bind_error h₂, Py.bind_error h₂]
    | ok o =>
      have hd₂ : w₂.dict w.dicts.length = [] := by
        have : w₂.dicts = w₁.dicts := hdict
        rw [World.dict, this]; exact hd₁
      have hl₂ : w.dicts.length < w₂.dicts.length := by
        have : w₂.dicts = w₁.dicts := hdict
        rw [this]; exact hl₁
      have s₁ : ∀ kw, sync o w.dicts.length kw "degree" w₂ =
          (.ok (), w₂.setItem w.dicts.length "degree" (w₂.attr o "degree")) :=
        fun kw => sync_absent _ _ _ _ _ (by rw [hd₂]; rfl)
      have s₂ : ∀ kw, sync o w.dicts.length kw "finite_elements"
          (w₂.setItem w.dicts.length "degree" (w₂.attr o "degree")) = _ :=
        fun kw => sync_absent _ _ _ _ _ (by
          have : (w₂.setItem w.dicts.length "degree" (w₂.attr o "degree")).dict w.dicts.length =
              (w₂.dict w.dicts.length).set "degree" (w₂.attr o "degree") :=
            (dict_set w₂ _ _ _ hl₂).trans (if_pos rfl)
          rw [this, hd₂]; rfl)
      rw [Py.bind_ok h₂, Py.bind_ok h₂, Py.get_bind, Py.get_bind, Py.bind_ok (s₁ _),
        Py.bind_ok (s₁ _), Py.bind_ok (s₂ _), Py.bind_ok (s₂ _)]

/-- C179: solver options and keywords that contradict each other are rejected with `ValueError`, and no
method is made. -/
theorem C179_conflict_rejected (inner : Dict String Val → Except Err Unit) (w : World) (a : Args)
    (ha : ∀ d, a.options = .dict d → ∀ k ∈ d.keys, AlOption k) (r : Loc)
    (hr : a.solverOptions = some r) (s v : Val) (hs : (w.dict r).get? "degree" = some s)
    (hv : a.kwargs.get? "degree" = some v) (hne : s ≠ v) :
    Py.raises (newMethod inner a) w .valueError ∧
    (Py.stateAfter (newMethod inner a) w).methods = w.methods := by
  have h₁ : takeDict (some r) w = (.ok r, w) := rfl
  have h₂ : ∃ o w₂, takeOptions a.options w = (.ok o, w₂) ∧ w₂.dicts = w.dicts ∧
      w₂.methods = w.methods := by
    cases ho : a.options with
    | absent => exact ⟨_, _, rfl, rfl, rfl⟩
    | object o => exact ⟨_, _, rfl, rfl, rfl⟩
    | dict d =>
      have hx : dataclass alFields d = .ok (alFields.update d) := by
        unfold dataclass
        rw [if_pos]
        rw [List.all_eq_true]
        intro kv hkv
        rw [Dict.has_iff]
        exact ha d ho _ (List.mem_map_of_mem hkv)
      simp only [takeOptions, hx]
      exact ⟨_, _, rfl, rfl, rfl⟩
  obtain ⟨o, w₂, h₂, hd, hm⟩ := h₂
  have h₃ : sync o r a.kwargs "degree" w₂ = (.error .valueError, w₂) := by
    have : w₂.dict r = w.dict r := by simp only [World.dict, hd]
    simp [sync, this, hs, hv, hne]
  have e : newMethod inner a w = (.error .valueError, w₂) := by
    unfold newMethod
    rw [hr, Py.bind_ok h₁, Py.bind_ok h₂, Py.get_bind, Py.bind_error h₃]
  exact ⟨by rw [Py.raises, e], by rw [Py.stateAfter, e]; exact hm⟩

/-! ## The hypotheses are met -/

/-- An inner method that accepts all keywords. -/
def Example.acceptAll : Dict String Val → Except Err Unit := fun _ => .ok ()

/-- A dictionary of solver options, and two distributed methods with it and different degrees. -/
def Example.twoDists : List Call := [.dictionary [("print", .bool true)],
  .dist { options := [("degree", .num 2)], solverOptions := some 0 },
  .dist { options := [("degree", .num 5)], solverOptions := some 0 }]

/-- The nodes of the second distributed method: multipliers of degree 5, polynomials of degree 2. -/
example : ((runAll World.start (Example.twoDists ++ [.prepare Example.acceptAll 0 1,
      .prepare Example.acceptAll 1 2])).methods.map fun m => (m.multDegree, m.inner.get? "degree")) =
    [(some (.num 2), some (.num 2)), (some (.num 5), some (.num 2)), (some (.num 5), some (.num 2))] := by
  decide +kernel

example : ((runAll World.start Example.twoDists).dists.map (·.solverOptions)) = [0, 0] ∧
    ((runAll World.start Example.twoDists).dict 0).get? "degree" = none ∧
    ((runAll World.start Example.twoDists).dict 0).get? "finite_elements" = none ∧
    (runAll World.start Example.twoDists).attr 0 "debug_skip_initialize" = .bool false ∧
    (runAll World.start Example.twoDists).attr 0 "debug_skip_parametrize" = .bool false := by
  decide +kernel

/-- A method with own options, and a program that goes on. -/
example : optionOf (runAll World.start (Example.twoDists ++
    .method Example.acceptAll { options := .dict [("beta", .num 7)] } ::
      [.setObject 0 "beta" (.num 9), .prepare Example.acceptAll 0 2, .setMethod 1 "beta" (.num 8)])) 0
      "beta" = some (.num 7) := by decide +kernel

example : ∀ c ∈ [Call.setObject 0 "beta" (.num 9), .prepare Example.acceptAll 0 2,
    .setMethod 1 "beta" (.num 8)], ¬ Concerns (runAll World.start Example.twoDists).methods.length
      (runAll World.start Example.twoDists).objs.length c := by
  have h : (runAll World.start Example.twoDists).methods.length = 0 ∧
    (runAll World.start Example.twoDists).objs.length = 1 := by decide +kernel
  rw [h.1, h.2]
  simp [Concerns]

example : Accepts Example.acceptAll [("print", .bool true)] := fun _ _ => rfl

example : AlOption "beta" ∧ ¬ AlOption "betta" := by unfold AlOption; decide +kernel

/-- Two methods with one options object. -/
example : ((runAll World.start [.object [], .method Example.acceptAll { options := .object 1 },
    .method Example.acceptAll { options := .object 1 }]).methods.map (·.options)) = [1, 1] := by
  decide +kernel

/-- Contradicting solver options and keywords. -/
example : (newMethod Example.acceptAll
    { options := .object 0, solverOptions := some 0, kwargs := [("degree", .num 4)] }
    { objs := [alFields], dicts := [[("degree", .num 3)]] }).2.methods.length = 0 := by decide +kernel

end Verif
