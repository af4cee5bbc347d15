import Verif.Lemmas.Replace
import Verif.Spec.Merge
/-! Lemmas on merging models. -/
namespace Verif
open SysModel

/-- Two single replacements, one after the other, as done for `t` and `tau`. -/
theorem subst_twice (a b c d : Sym) (hb : b ≠ c) (e : Expr) :
    ((e.subst [a] [.sym c]).subst [b] [.sym d]) = e.subst [a, b] [.sym c, .sym d] := by
  simp only [Expr.subst]
  induction e with
  | sym s =>
    simp only [Expr.mapSyms, Expr.replacementOf]
    by_cases h : s = a
    · simp [h, Expr.mapSyms, Ne.symm hb]
    · simp [h, Expr.mapSyms]
  | _ => simp_all [Expr.mapSyms]

theorem substSlot_eq (v w) : substSlot v w = Option.map (Expr.subst v w) := by
  funext o; cases o <;> rfl

theorem replaceVariable_one (a b : Sym) (m : SysModel) :
    replaceVariable [a] [.sym b] m = (.ok (), { m with
      uExpr := m.uExpr.map (Expr.subst [a] [.sym b])
      alg := m.alg.map (Expr.subst [a] [.sym b])
      ode := m.ode.map fun kv => (kv.1, kv.2.map (Expr.subst [a] [.sym b])) }) := by
  simp [replaceVariable, substSlot_eq]

theorem mem_odeVec (m : SysModel) (e : Expr) : e ∈ m.odeVec ↔ ∃ s, (s, some e) ∈ m.ode := by
  simp [odeVec, Dict.values]

/-- A map that fixes every expression of the table leaves it as it is. -/
theorem map_slots_id (d : Dict Sym (Option Expr)) (f : Expr → Expr)
    (h : ∀ s e, (s, some e) ∈ d → f e = e) : (d.map fun kv => (kv.1, kv.2.map f)) = d := by
  conv_rhs => rw [← List.map_id d]
  refine List.map_congr_left fun kv hkv => ?_
  obtain ⟨k, e⟩ := kv
  cases e with
  | none => rfl
  | some e => simp [h k e hkv]

theorem update_fresh_slots (d : Dict Sym (Option Expr)) (xs : List Sym) (es : List (Option Expr))
    (hn : xs.Nodup) (hd : ∀ s ∈ xs, s ∉ d.keys) (hl : xs.length = es.length) :
    Dict.update (d ++ xs.map fun v => (v, none)) (xs.zip es) = d ++ xs.zip es := by
  have key : ∀ (pre : Dict Sym (Option Expr)) (xs : List Sym) (es : List (Option Expr)),
      xs.Nodup → (∀ s ∈ xs, s ∉ pre.keys) → xs.length = es.length →
      Dict.update (pre ++ xs.map fun v => (v, none)) (xs.zip es) = pre ++ xs.zip es := by
    intro pre xs
    induction xs generalizing pre with
    | nil => intro es _ _ hl; simp [Dict.update]
    | cons a xs ih =>
      intro es hn hd hl
      cases es with
      | nil => simp at hl
      | cons e es =>
        simp only [List.map_cons, List.zip_cons_cons]
        have hset : Dict.set (pre ++ (a, none) :: xs.map fun v => (v, none)) a e =
            (pre ++ [(a, e)]) ++ xs.map fun v => (v, none) := by
          have ha : a ∉ pre.keys := hd a (by simp)
          clear ih hn hd hl
          induction pre with
          | nil => simp [Dict.set]
          | cons kv pre ih =>
            obtain ⟨k, v⟩ := kv
            simp only [Dict.keys, List.map_cons, List.mem_cons, not_or] at ha
            simp only [List.cons_append, Dict.set, if_neg ha.1]
            rw [ih ha.2]
        have : Dict.update (pre ++ (a, none) :: xs.map fun v => (v, none))
            ((a, e) :: xs.zip es) =
            Dict.update ((pre ++ [(a, e)]) ++ xs.map fun v => (v, none)) (xs.zip es) := by
          rw [← hset]; rfl
        rw [this, ih]
        · simp
        · exact (List.nodup_cons.mp hn).2
        · intro s hs
          simp only [Dict.keys, List.map_append, List.map_cons, List.map_nil,
            List.mem_append, List.mem_cons, List.not_mem_nil, or_false, not_or]
          refine ⟨hd s (by simp [hs]), fun h => (List.nodup_cons.mp hn).1 (h ▸ hs)⟩
        · simpa using hl
  exact key d xs es hn hd hl

theorem complete_zip (k : SysModel) (h : Spec.Complete k) :
    k.x.zip (k.odeVec.map some) = k.ode := by
  obtain ⟨hk, _, hs⟩ := h
  have hval : k.odeVec.map some = k.ode.map Prod.snd := by
    unfold odeVec Dict.values
    revert hs
    generalize k.ode = d
    intro hs
    induction d with
    | nil => rfl
    | cons kv d ih =>
      obtain ⟨s, e⟩ := kv
      cases e with
      | none => simpa using hs (s, none) (by simp)
      | some e => simpa using ih fun kv hkv => hs kv (by simp [hkv])
  rw [hval, ← hk]
  unfold Dict.keys
  rw [List.zip_map', List.map_id'' (by simp)]

theorem complete_length (k : SysModel) (h : Spec.Complete k) : k.odeVec.length = k.x.length := by
  have := congrArg List.length (complete_zip k h)
  have hk := congrArg List.length h.1
  simp only [List.length_zip, List.length_map, Dict.keys] at this hk
  have hle : k.odeVec.length ≤ k.ode.length := by
    unfold odeVec Dict.values
    exact (List.length_filterMap_le _ _).trans (by simp)
  omega

theorem includeAlgebraic_none (v : List Sym) (m : SysModel) :
    includeAlgebraic v none m = (.ok (), { m with y := m.y ++ v }) := by
  simp [includeAlgebraic]

/-- Merging one model. -/
theorem includeModel_run (m k : SysModel) (hc : Spec.Complete k)
    (hs : ∀ s ∈ k.x, s ∉ m.ode.keys) (ht : k.tau ≠ m.t)
    (hb : ¬ Spec.Brings m k.t ∧ ¬ Spec.Brings m k.tau) (ho : k.t ∉ k.u ∧ k.tau ∉ k.u) :
    includeModel k m = (.ok (), Spec.merged m [k]) := by
  unfold includeModel
  simp only [Py.bind_eq]
  rw [Py.bind_ok ((includeState_ok_iff k.x none (some k.x0) 0 m _).mpr
    ⟨by simp, hc.2.1, hs, by simp, rfl⟩)]
  simp only [includeControl, includeParameter, includeTheta, tableWith, newX0]
  have hkw : ∀ mm : SysModel, mm.ode = m.ode ++ k.x.map (fun v => (v, none)) →
      includeEquations [] (some k.odeVec) (some k.x) k.alg mm =
        (.ok (), { mm with alg := mm.alg ++ k.alg, ode := m.ode ++ k.ode }) := by
    intro mm hmm
    rw [includeEquations_ode_x]
    refine (includeFromKwargs_ok_iff ..).mpr ⟨complete_length k hc, ?_, ?_⟩
    · intro v hv
      simp only [hmm, keys_append, keys_new, List.mem_append]
      exact .inr hv
    · simp only [hmm]
      rw [update_fresh_slots m.ode k.x _ hc.2.1 hs (by simp [complete_length k hc]),
        complete_zip k hc]
  rw [Py.bind_ok (includeAlgebraic_none ..), Py.modify_bind, Py.modify_bind, Py.modify_bind,
    Py.bind_ok (hkw _ rfl), Py.get_bind, Py.bind_ok (replaceVariable_one ..),
    replaceVariable_one]
  have hfix : ∀ e : Expr, (∀ s, s ∈ e.syms → Spec.Brings m s) →
      (e.subst [k.t] [.sym m.t]).subst [k.tau] [.sym m.tau] = e := by
    intro e he
    rw [Expr.subst_eq_self [k.t], Expr.subst_eq_self]
    · intro s hs hse
      simp only [List.mem_cons, List.not_mem_nil, or_false] at hs
      exact hb.2 (hs ▸ he s hse)
    · intro s hs hse
      simp only [List.mem_cons, List.not_mem_nil, or_false] at hs
      exact hb.1 (hs ▸ he s hse)
  have hre : ∀ e : Expr, (e.subst [k.t] [.sym m.t]).subst [k.tau] [.sym m.tau] = Spec.retime m k e :=
    fun e => subst_twice _ _ _ _ ht e
  have halg : m.alg.map (Spec.retime m k) = m.alg := by
    conv_rhs => rw [← List.map_id m.alg]
    refine List.map_congr_left fun e he => ?_
    rw [← hre, hfix e fun s hs => .inl ⟨e, by simp [Spec.equations, he], hs⟩]; rfl
  have hu : m.uExpr.map (Spec.retime m k) = m.uExpr := by
    conv_rhs => rw [← List.map_id m.uExpr]
    refine List.map_congr_left fun e he => ?_
    rw [← hre, hfix e fun s hs => .inl ⟨e, by simp [Spec.equations, he], hs⟩]; rfl
  have hode : (m.ode.map fun kv => (kv.1, kv.2.map (Spec.retime m k))) = m.ode := by
    refine map_slots_id _ _ fun s e he => ?_
    rw [← hre, hfix e fun r hr =>
      .inl ⟨e, by simp only [Spec.equations, List.mem_append, mem_odeVec]; exact .inl (.inl ⟨s, he⟩),
        hr⟩]
  have huk : k.u.map (fun s => Spec.retime m k (.sym s)) = k.u.map .sym := by
    refine List.map_congr_left fun s hs => ?_
    unfold Spec.retime
    apply Expr.subst_eq_self
    intro r hr hrs
    simp only [Expr.syms, List.mem_cons, List.not_mem_nil, or_false] at hr hrs
    subst hrs
    rcases hr with rfl | rfl
    · exact ho.1 hs
    · exact ho.2 hs
  simp only [Spec.merged, Spec.retimedOde, List.flatMap_cons, List.flatMap_nil, List.append_nil,
    List.map_append, List.map_map, Function.comp_def, Option.map_map, hre, halg, hu, hode, huk]

theorem brings_merged (m k : SysModel) (s : Sym) (h : Spec.Brings (Spec.merged m [k]) s) :
    Spec.Brings m s ∨ Spec.Brings k s ∨ s = m.t ∨ s = m.tau := by
  have hret : ∀ e : Expr, s ∈ (Spec.retime m k e).syms → s ∈ e.syms ∨ s = m.t ∨ s = m.tau := by
    intro e he
    rcases Expr.mem_syms_subst _ _ (by simp) e s he with ⟨h, _⟩ | ⟨r, hr, h⟩
    · exact .inl h
    · simp only [List.mem_cons, List.not_mem_nil, or_false] at hr
      rcases hr with rfl | rfl
      · simp only [Expr.syms, List.mem_cons, List.not_mem_nil, or_false] at h
        exact .inr (.inl h)
      · simp only [Expr.syms, List.mem_cons, List.not_mem_nil, or_false] at h
        exact .inr (.inr h)
  rcases h with ⟨e, he, hs⟩ | hu
  · simp only [Spec.equations, List.mem_append, mem_odeVec] at he
    rcases he with (⟨r, he⟩ | he) | he
    · simp only [Spec.merged, List.flatMap_cons, List.flatMap_nil, List.append_nil,
        List.mem_append, Spec.retimedOde, List.mem_map, Prod.mk.injEq, Prod.exists] at he
      rcases he with he | ⟨a, b, hab, rfl, hb⟩
      · exact .inl (.inl ⟨e, by
          simp only [Spec.equations, List.mem_append, mem_odeVec]; exact .inl (.inl ⟨r, he⟩), hs⟩)
      · cases b with
        | none => simp at hb
        | some b =>
          simp only [Option.map_some, Option.some.injEq] at hb
          subst hb
          rcases hret b hs with h | h
          · exact .inr (.inl (.inl ⟨b, by
              simp only [Spec.equations, List.mem_append, mem_odeVec]
              exact .inl (.inl ⟨a, hab⟩), h⟩))
          · exact .inr (.inr h)
    · simp only [Spec.merged, List.flatMap_cons, List.flatMap_nil, List.append_nil,
        List.mem_append, List.mem_map] at he
      rcases he with he | ⟨b, hb, rfl⟩
      · exact .inl (.inl ⟨e, by simp [Spec.equations, he], hs⟩)
      · rcases hret b hs with h | h
        · exact .inr (.inl (.inl ⟨b, by simp [Spec.equations, hb], h⟩))
        · exact .inr (.inr h)
    · simp only [Spec.merged, List.flatMap_cons, List.flatMap_nil, List.append_nil,
        List.mem_append, List.mem_map] at he
      rcases he with he | ⟨b, hb, rfl⟩
      · exact .inl (.inl ⟨e, by simp [Spec.equations, he], hs⟩)
      · simp only [Expr.syms, List.mem_cons, List.not_mem_nil, or_false] at hs
        exact .inr (.inl (.inr (hs ▸ hb)))
  · simp only [Spec.merged, List.flatMap_cons, List.flatMap_nil, List.append_nil,
      List.mem_append] at hu
    rcases hu with h | h
    · exact .inl (.inr h)
    · exact .inr (.inl (.inr h))

/-- Symbols of a retimed model: the time symbols are gone. -/
theorem retimed_syms (m k : SysModel) (hc : k.t ∉ k.u ∧ k.tau ∉ k.u) (s : Sym)
    (h : (∃ e ∈ k.odeVec ++ k.alg, s ∈ (Spec.retime m k e).syms) ∨ s ∈ k.u) :
    s = m.t ∨ s = m.tau ∨ (Spec.Brings k s ∧ s ≠ k.t ∧ s ≠ k.tau) := by
  rcases h with ⟨e, he, hs⟩ | hu
  · rcases Expr.mem_syms_subst _ _ (by simp) e s hs with ⟨h, hn⟩ | ⟨r, hr, h⟩
    · simp only [List.mem_cons, List.not_mem_nil, or_false, not_or] at hn
      refine .inr (.inr ⟨.inl ⟨e, ?_, h⟩, hn⟩)
      simp only [Spec.equations, List.mem_append] at he ⊢
      exact .inl he
    · simp only [List.mem_cons, List.not_mem_nil, or_false] at hr
      rcases hr with rfl | rfl
      · simp only [Expr.syms, List.mem_cons, List.not_mem_nil, or_false] at h
        exact .inl h
      · simp only [Expr.syms, List.mem_cons, List.not_mem_nil, or_false] at h
        exact .inr (.inl h)
  · exact .inr (.inr ⟨.inr hu, fun h => hc.1 (h ▸ hu), fun h => hc.2 (h ▸ hu)⟩)

/-- Symbols of a merged model. -/
theorem brings_merged_own (m : SysModel) (ks : List SysModel)
    (ho : ∀ k ∈ ks, k.t ∉ k.u ∧ k.tau ∉ k.u) (s : Sym) (h : Spec.Brings (Spec.merged m ks) s) :
    Spec.Brings m s ∨ s = m.t ∨ s = m.tau ∨
      ∃ k ∈ ks, Spec.Brings k s ∧ s ≠ k.t ∧ s ≠ k.tau := by
  have fin : ∀ k ∈ ks, ((∃ e ∈ k.odeVec ++ k.alg, s ∈ (Spec.retime m k e).syms) ∨ s ∈ k.u) →
      Spec.Brings m s ∨ s = m.t ∨ s = m.tau ∨
        ∃ k ∈ ks, Spec.Brings k s ∧ s ≠ k.t ∧ s ≠ k.tau := by
    intro k hk hh
    rcases retimed_syms m k (ho k hk) s hh with h | h | h
    · exact .inr (.inl h)
    · exact .inr (.inr (.inl h))
    · exact .inr (.inr (.inr ⟨k, hk, h⟩))
  rcases h with ⟨e, he, hs⟩ | hu
  · simp only [Spec.equations, List.mem_append, mem_odeVec] at he
    rcases he with (⟨r, he⟩ | he) | he
    · simp only [Spec.merged, List.mem_append, List.mem_flatMap, Spec.retimedOde, List.mem_map,
        Prod.mk.injEq, Prod.exists] at he
      rcases he with he | ⟨k, hk, a, b, hab, rfl, hb⟩
      · exact .inl (.inl ⟨e, by
          simp only [Spec.equations, List.mem_append, mem_odeVec]; exact .inl (.inl ⟨r, he⟩), hs⟩)
      · cases b with
        | none => simp at hb
        | some b =>
          simp only [Option.map_some, Option.some.injEq] at hb
          subst hb
          refine fin k hk (.inl ⟨b, ?_, hs⟩)
          simp only [List.mem_append, mem_odeVec]
          exact .inl ⟨a, hab⟩
    · simp only [Spec.merged, List.mem_append, List.mem_flatMap, List.mem_map] at he
      rcases he with he | ⟨k, hk, b, hb, rfl⟩
      · exact .inl (.inl ⟨e, by simp [Spec.equations, he], hs⟩)
      · exact fin k hk (.inl ⟨b, by simp [hb], hs⟩)
    · simp only [Spec.merged, List.mem_append, List.mem_flatMap, List.mem_map] at he
      rcases he with he | ⟨k, hk, b, hb, rfl⟩
      · exact .inl (.inl ⟨e, by simp [Spec.equations, he], hs⟩)
      · simp only [Expr.syms, List.mem_cons, List.not_mem_nil, or_false] at hs
        exact fin k hk (.inr (hs ▸ hb))
  · simp only [Spec.merged, List.mem_append, List.mem_flatMap] at hu
    rcases hu with h | ⟨k, hk, h⟩
    · exact .inl (.inr h)
    · exact fin k hk (.inr h)

theorem merged_cons (m k : SysModel) (ks : List SysModel) :
    Spec.merged (Spec.merged m [k]) ks = Spec.merged m (k :: ks) := by
  simp only [Spec.merged, Spec.retimedOde, List.flatMap_cons, List.flatMap_nil,
    List.append_nil, List.append_assoc]
  rfl

theorem merged_nil (m : SysModel) : Spec.merged m [] = m := by
  simp [Spec.merged]

theorem keys_retimed (m k : SysModel) : Dict.keys (Spec.retimedOde m k) = k.ode.keys := by
  simp [Spec.retimedOde, Dict.keys, Function.comp_def]

theorem mergeable_tail (m k : SysModel) (ks : List SysModel) (h : Spec.Mergeable m (k :: ks)) :
    Spec.Mergeable (Spec.merged m [k]) ks := by
  have hp := List.pairwise_cons.mp h.others
  refine ⟨fun j hj => h.complete j (by simp [hj]), ?_, fun j hj => h.times j (by simp [hj]), ?_,
    fun j hj => h.own j (by simp [hj]), hp.2⟩
  · have := h.states
    simp only [Spec.merged, List.flatMap_cons, List.flatMap_nil, List.append_nil, keys_append,
      keys_retimed, (h.complete k (by simp)).1, List.append_assoc] at this ⊢
    exact this
  · intro j hj
    have hb := h.base j (by simp [hj])
    have ht := h.times j (by simp [hj])
    have ho := (hp.1 j hj).1
    refine ⟨fun hc => ?_, fun hc => ?_⟩
    · rcases brings_merged m k _ hc with h' | h' | h' | h'
      exacts [hb.1 h', ho.1 h', ht.1 h', ht.2.1 h']
    · rcases brings_merged m k _ hc with h' | h' | h' | h'
      exacts [hb.2 h', ho.2 h', ht.2.2.1 h', ht.2.2.2 h']

theorem includeModels_run (m : SysModel) (ks : List SysModel) (h : Spec.Mergeable m ks) :
    includeModels ks m = (.ok (), Spec.merged m ks) := by
  unfold includeModels
  induction ks generalizing m with
  | nil => simp [Py.forEach, merged_nil, Py.pure]
  | cons k ks ih =>
    have hstates : ∀ s ∈ k.x, s ∉ m.ode.keys := by
      have := h.states
      rw [List.flatMap_cons] at this
      intro s hs hk
      exact (List.disjoint_of_nodup_append this) hk (by simp [hs])
    rw [Py.forEach, Py.bind_ok (includeModel_run m k (h.complete k (by simp)) hstates
      (h.times k (by simp)).2.2.1 (h.base k (by simp)) (h.own k (by simp))),
      ih _ (mergeable_tail m k ks h), merged_cons]

end Verif
