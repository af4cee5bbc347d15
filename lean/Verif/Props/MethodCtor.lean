import Verif.Lemmas.MethodCtor
import Verif.Props.Indirect
/-!
# C150: the options of a solution method
-/
namespace Verif
open MethodCtor Spec

/-- C150, proved part. Every documented option of a new method has the value given or else its
default, except for the options the method decides on. -/
theorem C150_options_partial (c : Class) (given : Dict String Val) (hn : given.keys.Nodup)
    (o o' : Ocp) (A : Attrs) (h : construct c given o = (.ok A, o')) (k : String) (v : Val)
    (hk : (k, v) ∈ methodOptions c) (hd : ¬ Decided c o k) :
    getAttr c A k = .ok (given? given k v) := by
  have hi := construct_ok h
  have hl : o.lastU = none ∨ k ≠ "last_control_as_parameter" := by
    by_contra hl
    push Not at hl
    exact hd (.inr hl)
  have hg : c = .indirect → k ≠ "initial_guess_heuristic" := fun e e' => hd (.inl ⟨e, e'⟩)
  have hdc : ¬(c = .indirect ∧ k = "degree_control") := by
    rintro ⟨rfl, rfl⟩
    simp [methodOptions] at hk
  rw [getAttr, if_neg hdc]
  have hf := final_get? c o given A hi k
  cases c with
  | direct =>
    simp only [methodOptions, List.mem_cons, Prod.mk.injEq, List.not_mem_nil, or_false] at hk
    rcases hk with ⟨rfl, rfl⟩ | ⟨rfl, rfl⟩ | ⟨rfl, rfl⟩ | ⟨rfl, rfl⟩ | ⟨rfl, rfl⟩ | ⟨rfl, rfl⟩ |
      ⟨rfl, rfl⟩ | ⟨rfl, rfl⟩ | ⟨rfl, rfl⟩ <;>
    replace hf := hf (by decide +kernel) (by decide +kernel) (by decide +kernel) hg hl
    case inl | inr.inl | inr.inr.inl =>
      rw [other_option .direct given hn _ (by decide +kernel) (by decide +kernel) (.inl rfl)] at hf
      refine plainAttr_class hf rfl ?_
      simp [startAttrs, Dict.get?, given?]
    all_goals try exact plainAttr_some (hf.trans (named_option .direct given hn _ _ rfl (by decide +kernel)))
    rw [other_option .direct given hn _ (by decide +kernel) (by decide +kernel) (.inl rfl)] at hf
    apply plainAttr_some
    rw [hf]
    cases hgc : given.get? "cost_as_a_sum" <;> simp [startAttrs, Dict.get?, given?, hgc]
  | indirect =>
    simp only [methodOptions, List.mem_cons, Prod.mk.injEq, List.not_mem_nil, or_false] at hk
    rcases hk with ⟨rfl, rfl⟩ | ⟨rfl, rfl⟩ | ⟨rfl, rfl⟩ | ⟨rfl, rfl⟩ | ⟨rfl, rfl⟩ | ⟨rfl, rfl⟩ |
      ⟨rfl, rfl⟩ | ⟨rfl, rfl⟩ <;>
    replace hf := hf (by decide +kernel) (by decide +kernel) (by decide +kernel) hg hl
    case inl | inr.inl =>
      rw [other_option .indirect given hn _ (by decide +kernel) (by decide +kernel)
        (.inr (by decide +kernel))] at hf
      refine plainAttr_class hf rfl ?_
      simp [startAttrs, Dict.get?, given?]
    all_goals try exact plainAttr_some (hf.trans (named_option .indirect given hn _ _ rfl (by decide +kernel)))
    exact plainAttr_some (hf.trans (keyword_createCost given hn))

/-- C150. A method is made exactly if no keyword is forbidden, the scheme is known, and the degree of
the controls is a number, at most one if there are limits on the rates of the controls. -/
theorem C150_accepts (c : Class) (given : Dict String Val) (hn : given.keys.Nodup) (o : Ocp)
    (hs : Sized o) :
    (∃ A, (construct c given o).1 = .ok A) ↔
      (∀ k ∈ given.keys, ¬ Forbidden c k) ∧
      IsScheme (given? given "discretization_scheme" (.str "collocation")) ∧
      DegreeOk o (controlDegree c given) := by
  have h1 : (∃ A, (construct c given o).1 = .ok A) ↔ ∃ A, init c o given = .ok A := by
    constructor
    · rintro ⟨A, hA⟩
      exact ⟨A, construct_ok (o' := (construct c given o).2) (Prod.ext hA rfl)⟩
    · rintro ⟨A, hA⟩
      have hfin : ∃ o', finish c o = (.ok (), o') := by
        cases c
        · exact ⟨o, rfl⟩
        · exact ⟨_, checkBounds_run o hs⟩
      obtain ⟨o', hfin⟩ := hfin
      refine ⟨A, ?_⟩
      have : construct c given o = (.ok A, o') := by
        simp only [construct, Py.bind_eq, Py.get_bind]
        exact Py.lift_bind_ok.mpr ⟨A, hA, Py.bind_eq_ok.mpr ⟨(), o', hfin, rfl⟩⟩
      rw [this]
  rw [h1]
  have hmem : ∀ k, k ≠ "create_cost_state" → (k ∈ (baseKeywords c given).keys ↔ k ∈ given.keys) := by
    intro k hk
    cases c
    · exact Iff.rfl
    · show k ∈ (given.del _).keys ↔ _
      rw [Dict.keys_del]
      simp [hk]
  have hforb : (("problem" ∉ (baseKeywords c given).keys ∧ "self" ∉ (baseKeywords c given).keys) ∧
      ∀ k ∈ (kwargs (baseKeywords c given)).keys,
        ¬(c = .indirect ∧ k = "degree_control") ∧ k ∉ readOnly) ↔
      ∀ k ∈ given.keys, ¬ Forbidden c k := by
    rw [hmem _ (by decide +kernel), hmem _ (by decide +kernel)]
    constructor
    · rintro ⟨⟨hp, hse⟩, hk⟩ k hkg hf
      rcases hf with rfl | rfl | hf
      · exact hse hkg
      · exact hp hkg
      · have hne : k ≠ "create_cost_state" := by
          rintro rfl
          revert hf
          simp
        have hnm : k ∉ named.map (·.1) := by
          intro hm
          simp only [named, List.map_cons, List.map_nil, List.mem_cons, List.not_mem_nil,
            or_false] at hm
          rcases hf with rfl | rfl | rfl | ⟨-, rfl⟩ <;> simp at hm
        obtain ⟨ha, hb⟩ := hk k ((keys_kwargs _ k).mpr ⟨(hmem k hne).mpr hkg, hnm⟩)
        rcases hf with rfl | rfl | rfl | hf
        · exact hb (by decide +kernel)
        · exact hb (by decide +kernel)
        · exact hb (by decide +kernel)
        · exact ha hf
    · intro hf
      refine ⟨⟨fun hp => hf _ hp (.inr (.inl rfl)), fun hp => hf _ hp (.inl rfl)⟩, fun k hk => ?_⟩
      obtain ⟨hk, -⟩ := (keys_kwargs _ k).mp hk
      have hkg : k ∈ given.keys := by
        cases c
        · exact hk
        · change k ∈ (given.del _).keys at hk
          rw [Dict.keys_del] at hk
          exact (List.mem_filter.mp hk).1
      refine ⟨fun h => hf k hkg (.inr (.inr (.inr (.inr (.inr h))))), fun h => ?_⟩
      simp only [readOnly, List.mem_cons, List.not_mem_nil, or_false] at h
      rcases h with rfl | rfl | rfl
      · exact hf _ hkg (.inr (.inr (.inl rfl)))
      · exact hf _ hkg (.inr (.inr (.inr (.inl rfl))))
      · exact hf _ hkg (.inr (.inr (.inr (.inr (.inl rfl)))))
  constructor
  · rintro ⟨A, hA⟩
    obtain ⟨b, hb, rfl⟩ := (init_ok_iff ..).mp hA
    obtain ⟨hp, hk, s, hs', hsch, ⟨v, hv, hd⟩, rfl⟩ := (baseInit_ok_iff ..).mp hb
    have hf := hforb.mp ⟨hp, hk⟩
    obtain ⟨e1, e2⟩ := read_early c o given hn hf
    rw [e1] at hs'
    rw [e2] at hv
    cases hs'
    cases hv
    exact ⟨hf, hsch, hd⟩
  · rintro ⟨hf, hsch, hd⟩
    obtain ⟨hp, hk⟩ := hforb.mpr hf
    obtain ⟨e1, e2⟩ := read_early c o given hn hf
    exact ⟨_, (init_ok_iff ..).mpr ⟨_, (baseInit_ok_iff ..).mpr
      ⟨hp, hk, _, e1, hsch, ⟨_, e2, hd⟩, rfl⟩, rfl⟩⟩

/-- C150. A rejected call, and any call of the direct method, leaves the problem as it is. -/
theorem C150_problem (c : Class) (given : Dict String Val) (o : Ocp)
    (h : c = .direct ∨ ∃ e, init c o given = .error e) : (construct c given o).2 = o := by
  simp only [construct, Py.bind_eq, Py.get_bind]
  cases hi : init c o given with
  | error e => rfl
  | ok A =>
    rcases h with rfl | ⟨e, he⟩
    · rfl
    · rw [hi] at he; cases he

/-- C150 fails for the options the method decides on: whatever is given, the indirect method takes its
initial guess from the problem, and a problem with a last control makes it a parameter. -/
theorem C150_decided_fails (c : Class) (given : Dict String Val) (o o' : Ocp) (A : Attrs)
    (h : construct c given o = (.ok A, o')) :
    (c = .indirect → getAttr c A "initial_guess_heuristic" = .ok (.str "problem_info")) ∧
    (o.lastU ≠ none → getAttr c A "last_control_as_parameter" = .ok (.bool true)) := by
  obtain ⟨b, hb, rfl⟩ := (init_ok_iff ..).mp (construct_ok h)
  obtain ⟨-, -, s, -, -, -, rfl⟩ := (baseInit_ok_iff ..).mp hb
  constructor
  · rintro rfl
    rw [getAttr, if_neg (by simp)]
    apply plainAttr_some
    simp [lastAttrs, Dict.get?_set]
  · intro hl
    have hl' : o.lastU.isSome = true := by
      cases hu : o.lastU with
      | none => exact absurd hu hl
      | some u => rfl
    rw [getAttr, if_neg (by simp)]
    apply plainAttr_some
    cases c <;> simp [lastAttrs, Dict.get?_set, withLastControl, hl']

/-- C150 fails for misspelt options: a keyword that is not an option is accepted, and all options are
what they are without it. -/
theorem C150_unknown_fails (c : Class) (given : Dict String Val) (o o' : Ocp) (hs : Sized o)
    (A : Attrs) (k : String) (v : Val) (hn : (given.keys ++ [k]).Nodup)
    (h : construct c given o = (.ok A, o')) (hk : k ∉ (methodOptions c).map (·.1))
    (hf : ¬ Forbidden c k) :
    ∃ A', construct c (given ++ [(k, v)]) o = (.ok A', o') ∧
      ∀ n ∈ (methodOptions c).map (·.1), getAttr c A' n = getAttr c A n := by
  have hkeys : Dict.keys (given ++ [(k, v)]) = given.keys ++ [k] := by simp [Dict.keys]
  have hn' : given.keys.Nodup := (List.nodup_append.mp hn).1
  have hget : ∀ n, n ≠ k → Dict.get? (given ++ [(k, v)]) n = given.get? n := by
    intro n hne
    rw [Dict.get?_append]
    cases given.get? n <;> simp [Dict.get?, hne]
  have hg : ∀ n w, n ∈ (methodOptions c).map (·.1) →
      given? (given ++ [(k, v)]) n w = given? given n w := by
    intro n w hm
    rw [given?, given?, hget n (fun e => hk (e ▸ hm))]
  have hacc := (C150_accepts c given hn' o hs).mp ⟨A, by rw [h]⟩
  have hacc' : ∃ A', (construct c (given ++ [(k, v)]) o).1 = .ok A' := by
    refine (C150_accepts c _ (hkeys ▸ hn) o hs).mpr ⟨?_, ?_, ?_⟩
    · intro n hm
      rw [hkeys, List.mem_append, List.mem_singleton] at hm
      rcases hm with hm | rfl
      · exact hacc.1 n hm
      · exact hf
    · rw [hg _ _ (by cases c <;> simp [methodOptions])]
      exact hacc.2.1
    · have : controlDegree c (given ++ [(k, v)]) = controlDegree c given := by
        cases c
        · exact hg _ _ (by simp [methodOptions])
        · exact hg _ _ (by simp [methodOptions])
      rw [this]
      exact hacc.2.2
  obtain ⟨A', hA'⟩ := hacc'
  have ho : (construct c (given ++ [(k, v)]) o).2 = o' := by
    have hst : ∀ g B, init c o g = .ok B → (construct c g o).2 = (finish c o).2 := by
      intro g B hB
      simp only [construct, Py.bind_eq, Py.get_bind, hB, Py.lift_ok_bind]
      unfold Py.bind
      rcases hfin : finish c o with ⟨e | u, o₁⟩ <;> rfl
    rw [hst _ A' (construct_ok (o' := (construct c (given ++ [(k, v)]) o).2) (Prod.ext hA' rfl)),
      ← hst given A (construct_ok h), h]
  have hc' : construct c (given ++ [(k, v)]) o = (.ok A', o') := Prod.ext hA' ho
  refine ⟨A', hc', ?_⟩
  intro n hm
  obtain ⟨⟨n', w⟩, hw, rfl⟩ := List.mem_map.mp hm
  by_cases hd : Decided c o n'
  · rcases hd with ⟨hc, rfl⟩ | ⟨hl, rfl⟩
    · rw [(C150_decided_fails c _ o o' A' hc').1 hc, (C150_decided_fails c _ o o' A h).1 hc]
    · rw [(C150_decided_fails c _ o o' A' hc').2 hl, (C150_decided_fails c _ o o' A h).2 hl]
  · rw [C150_options_partial c _ (hkeys ▸ hn) o o' A' hc' n' w hw hd,
      C150_options_partial c given hn' o o' A h n' w hw hd, hg n' w hm]

/-! ## The hypotheses are met -/

/-- A problem with one state and one control with a rate limit. -/
def Example.ratedProblem (lim : XRat) : Ocp :=
  { Ocp.new { SysModel.new 0 1 with
      x := [2]
      x0 := [3]
      ode := [(2, some (.sym 4))]
      u := [4]
      uExpr := [.sym 4]
      uPar := [4] } (some [1]) 0 1 with
    duMax := [lim] }

example : Sized (Example.ratedProblem ⊤) := ⟨rfl, rfl, rfl, rfl, rfl, rfl, rfl, rfl, rfl, rfl, rfl, rfl, rfl⟩

example : ((construct .direct [("degree", .int 5), ("degre_control", .int 2)]
    (Example.ratedProblem ⊤)).1.toOption.map fun a =>
      [getAttr .direct a "degree", getAttr .direct a "degree_control",
        getAttr .direct a "initial_guess_heuristic"].map Except.toOption) =
    some [some (.int 5), some (.int 1), some (.str "simulation")] := by decide +kernel

example : (construct .direct [("degree_control", .int 2)] (Example.ratedProblem (XRat.fin 1))).1.toOption =
    none := by decide +kernel

example : (construct .indirect [("finite_elements", .int 4)] (Example.ratedProblem (XRat.fin 1))).1.toOption =
    none := by decide +kernel

example : ((construct .indirect [("initial_guess_heuristic", .str "simulation")]
    (Example.ratedProblem ⊤)).1.toOption.map fun a =>
      (getAttr .indirect a "initial_guess_heuristic").toOption) =
    some (some (.str "problem_info")) := by decide +kernel

end Verif
