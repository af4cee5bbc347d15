import Verif.Spec.IntegOptions
import Verif.Lemmas.SolverOptions
import Verif.Lemmas.Ocp
/-!
# Lemmas on the options of the integrator
-/
namespace Verif
namespace IntegOptions
open SolverOptions (DictRef withDefaults get?_withDefaults)

theorem get?_update_nodup {V : Type} (d : Dict String V) (kvs : List (String × V))
    (hn : (Dict.keys kvs).Nodup) (k : String) :
    (Dict.update d kvs).get? k = (Dict.get? kvs k).or (d.get? k) := by
  induction kvs generalizing d with
  | nil => rfl
  | cons kv kvs ih =>
    obtain ⟨k', v⟩ := kv
    simp only [Dict.keys, List.map_cons, List.nodup_cons] at hn
    have h := ih (d.set k' v) hn.2
    simp only [Dict.update, List.foldl_cons] at h ⊢
    rw [h, Dict.get?_set, Dict.get?]
    by_cases hk : k = k'
    · subst hk
      have : Dict.get? kvs k = none := (Dict.get?_eq_none_iff _ _).2 hn.1
      simp [this]
    · simp [hk]

/-- The options after `popName` and `loadDefaults`. -/
def finalOpts (m config : Dict String OptVal) : Dict String OptVal :=
  withDefaults (if (m.get? "name").isSome then m.del "name" else m) config

/-- What `create` does with a dictionary at the end of the heap. -/
theorem create_eq (d : Dae) (ty : String) (w : World) (m : Dict String OptVal) (hc : w.heap ≠ []) :
    create d w.heap.length ty { w with heap := w.heap ++ [m] } =
      (match choosePlugin d ty with
      | .ok pl =>
        let c : Created := ⟨(m.get? "name").getD (.other "integrator"), pl, finalOpts m (w.dict configDict)⟩
        (.ok c, ⟨w.heap ++ [finalOpts m (w.dict configDict)], w.made ++ [c]⟩)
      | .error e => (.error e, ⟨w.heap ++ [finalOpts m (w.dict configDict)], w.made⟩)) := by
  obtain ⟨heap, made⟩ := w
  obtain ⟨c0, rest, rfl⟩ : ∃ a l, heap = a :: l := by
    cases heap with
    | nil => exact absurd rfl hc
    | cons a l => exact ⟨a, l, rfl⟩
  cases hn : m.get? "name" <;> cases hp : choosePlugin d ty <;>
    simp [create, popName, loadDefaults, Py.bind_eq, Py.bind, Py.lift, Py.get, Py.modify, World.dict,
      World.write, configDict, finalOpts, hn, hp, pure, Py.pure, List.set_append]

theorem get?_finalOpts (m config : Dict String OptVal) (k : String) (hk : k ≠ "name") :
    (finalOpts m config).get? k = (m.get? k).or (config.get? k) := by
  rw [finalOpts, get?_withDefaults]
  split
  · rw [Dict.get?_del _ _ _ hk]
  · rfl

theorem get?_merged (t0 tf : Rat) (given : Dict String OptVal) (hn : given.keys.Nodup) (k : String) :
    (merged t0 tf given).get? k = (given.get? k).or (Spec.requested t0 tf k) := by
  rw [merged, get?_update_nodup _ _ hn]
  rfl

/-- The state after `simulate`: one dictionary more, and one integrator more when it returns. -/
theorem simulate_cases (d : Dae) (given : Option DictRef) (ty : String) (t0 tf : Rat) (w : World)
    (hc : w.heap ≠ []) :
    (∃ e h, simulate d given ty t0 tf w = (.error e, ⟨w.heap ++ h, w.made⟩)) ∨
    (tf ≠ t0 ∧ tauUsed d = false ∧ ∃ pl, choosePlugin d ty = .ok pl ∧
      ∃ c : Created, c.plugin = pl ∧
        (c.name = ((merged t0 tf ((given.map w.dict).getD [])).get? "name").getD (.other "integrator")) ∧
        c.opts = finalOpts (merged t0 tf ((given.map w.dict).getD [])) (w.dict configDict) ∧
        simulate d given ty t0 tf w = (.ok c, ⟨w.heap ++ [c.opts], w.made ++ [c]⟩)) := by
  by_cases h1 : tf = t0
  · left
    refine ⟨.valueError, [], ?_⟩
    simp [simulate, Py.raiseIf, h1, Py.bind_eq, Py.bind, Py.throw]
  by_cases h2 : tauUsed d = true
  · left
    refine ⟨.attributeError, [], ?_⟩
    simp [simulate, Py.raiseIf, h1, h2, Py.bind_eq, Py.bind, Py.throw, Py.pure]
  have h := create_eq d ty w (merged t0 tf ((given.map w.dict).getD [])) hc
  have hs : simulate d given ty t0 tf w = create d w.heap.length ty
      { w with heap := w.heap ++ [merged t0 tf ((given.map w.dict).getD [])] } := by
    simp [simulate, Py.raiseIf, h1, h2, Py.bind_eq, Py.bind, Py.pure, Py.get, newDict]
  rw [hs, h]
  cases hp : choosePlugin d ty with
  | error e => exact .inl ⟨e, _, rfl⟩
  | ok pl => exact .inr ⟨h1, by simpa using h2, pl, rfl, _, rfl, rfl, rfl, rfl⟩

theorem untouched_append (w : World) (h : List (Dict String OptVal)) (m : List Created) :
    Spec.Untouched w ⟨w.heap ++ h, m⟩ := by
  intro r hr
  simp [List.getElem?_append_left hr]

theorem simulate_untouched (d : Dae) (given : Option DictRef) (ty : String) (t0 tf : Rat) (w : World)
    (hc : w.heap ≠ []) : ∃ h m, (simulate d given ty t0 tf w).2 = ⟨w.heap ++ h, m⟩ := by
  rcases simulate_cases d given ty t0 tf w hc with ⟨e, h, he⟩ | ⟨_, _, _, _, c, _, _, _, he⟩
  · exact ⟨h, _, by rw [he]⟩
  · exact ⟨_, _, by rw [he]⟩

theorem simulateAll_untouched (d : Dae) (given : Option DictRef) (ty : String) (ts : List Rat) :
    ∀ (tk : Rat) (w : World), w.heap ≠ [] →
      ∃ h m, (simulateAll d given ty tk ts w).2 = ⟨w.heap ++ h, m⟩ := by
  induction ts with
  | nil => exact fun tk w _ => ⟨[], w.made, by simp [simulateAll, pure, Py.pure]⟩
  | cons t ts ih =>
    intro tk w hc
    rcases simulate_cases d given ty tk t w hc with ⟨e, h, he⟩ | ⟨_, _, _, _, c, _, _, _, he⟩
    · exact ⟨h, _, by simp [simulateAll, Py.bind_eq, Py.bind, he]; rfl⟩
    · obtain ⟨h', m', h'e⟩ := ih t ⟨w.heap ++ [c.opts], w.made ++ [c]⟩ (by simp)
      exact ⟨[c.opts] ++ h', m', by simp [simulateAll, Py.bind_eq, Py.bind, he, h'e]⟩

/-- The integrators made for a list of times. -/
theorem simulateAll_made (d : Dae) (given : Option DictRef) (ty : String) (P : Rat → Rat → Created → Prop)
    (ts : List Rat) :
    ∀ (tk : Rat) (w w' : World), w.heap ≠ [] → (∀ r, given = some r → r < w.heap.length) →
      (∀ (a b : Rat) (c : Created),
        c.opts = finalOpts (merged a b ((given.map w.dict).getD [])) (w.dict configDict) → P a b c) →
      simulateAll d given ty tk ts w = (.ok (), w') →
      ∃ cs : List Created, w'.made = w.made ++ cs ∧ cs.length = ts.length ∧
        ∀ (k : Nat) (c : Created) (a b : Rat), cs[k]? = some c → (tk :: ts)[k]? = some a → ts[k]? = some b →
          P a b c := by
  induction ts with
  | nil =>
    intro tk w w' _ _ _ h
    obtain rfl : w = w' := by simpa [simulateAll, pure, Py.pure] using h
    exact ⟨[], by simp, rfl, by simp⟩
  | cons t ts ih =>
    intro tk w w' hc hr hP h
    rcases simulate_cases d given ty tk t w hc with ⟨e, h', he⟩ | ⟨_, _, _, _, c, _, _, ho, he⟩
    · simp [simulateAll, Py.bind_eq, Py.bind, he] at h
    · simp only [simulateAll, Py.bind_eq, Py.bind, he] at h
      have hd : ∀ r, r < w.heap.length →
          (World.dict ⟨w.heap ++ [c.opts], w.made ++ [c]⟩ r) = w.dict r := by
        intro r hr
        simp [World.dict, List.getElem?_append_left hr]
      have hg : given.map (World.dict ⟨w.heap ++ [c.opts], w.made ++ [c]⟩) = given.map w.dict := by
        cases given with
        | none => rfl
        | some r => simp only [Option.map_some, hd r (hr r rfl)]
      have h0 : 0 < w.heap.length := List.length_pos_iff.2 hc
      obtain ⟨cs, hm, hl, hcs⟩ := ih t ⟨w.heap ++ [c.opts], w.made ++ [c]⟩ w' (by simp)
        (fun r hg => by simpa using Nat.lt_succ_of_lt (hr r hg))
        (by rw [hg, hd configDict h0]; exact hP) h
      refine ⟨c :: cs, by simp [hm], by simp [hl], ?_⟩
      intro k c' a b hc' ha hb
      cases k with
      | zero =>
        simp only [List.getElem?_cons_zero, Option.some.injEq] at hc' ha hb
        subst hc' ha hb
        exact hP _ _ _ ho
      | succ k => exact hcs k c' a b (by simpa using hc') (by simpa using ha) (by simpa using hb)

end IntegOptions
end Verif
