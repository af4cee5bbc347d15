import Verif.Lemmas.NetInitial
import Mathlib.Data.List.Dedup
/-!
# C148: the initial condition of a network
-/
namespace Verif
open Net

theorem Net.addConditions (m : SysModel) (f : Condition) (s : Network) (g : Ref → Condition)
    (rs : List Ref) (d : Dict (Option String) Condition)
    (h : ∀ r ∈ rs, ∃ k, (s.heap r).model = some k ∧ nodeCondition m f k = .ok (g r)) :
    rs.foldlM (addCondition m f s) d =
      .ok (d.update (rs.map fun r => ((s.heap r).name, g r))) := by
  induction rs generalizing d with
  | nil => rfl
  | cons r rs ih =>
    obtain ⟨k, hk, hc⟩ := h r (by simp)
    have h1 : addCondition m f s d r = .ok (d.set (s.heap r).name (g r)) := by
      simp only [addCondition, nodeModel, hk, hc, bind, Except.bind, pure, Except.pure]
    rw [List.foldlM_cons, h1]
    exact ih _ fun r' hr' => h r' (by simp [hr'])

theorem Net.addConditions_ok {m : SysModel} {f : Condition} {s : Network}
    (rs : List Ref) {d c : Dict (Option String) Condition}
    (h : rs.foldlM (addCondition m f s) d = .ok c) :
    (∀ r ∈ rs, ∃ k, (s.heap r).model = some k ∧
      ∀ v ∈ k.x ++ k.y ++ k.u, v ∈ m.x ∨ v ∈ m.y ∨ v ∈ m.u) ∧
    (d.keys.Nodup → c.keys.Nodup) ∧
    ∀ n ∈ c.keys, n ∈ d.keys ∨ n ∈ rs.map fun r => (s.heap r).name := by
  induction rs generalizing d with
  | nil => cases h; exact ⟨by simp, id, fun n hn => .inl hn⟩
  | cons r rs ih =>
    rw [List.foldlM_cons] at h
    cases h1 : addCondition m f s d r with
    | error e => rw [h1] at h; cases h
    | ok d' =>
    rw [h1] at h
    obtain ⟨i1, i2, i3⟩ := ih h
    simp only [addCondition, bind, Except.bind] at h1
    cases h2 : nodeModel (s.heap r) with
    | error e => rw [h2] at h1; cases h1
    | ok k =>
    rw [h2] at h1
    simp only at h1
    cases h3 : nodeCondition m f k with
    | error e => rw [h3] at h1; cases h1
    | ok c' =>
    rw [h3] at h1
    cases h1
    have hk : (s.heap r).model = some k := by
      unfold nodeModel at h2
      split at h2
      · cases h2
      · next hm => rw [hm]; cases h2; rfl
    have hf : ∀ (l : List Sym) (a : Vec), l.mapM (finalValue m f) = .ok a →
        ∀ v ∈ l, v ∈ m.x ∨ v ∈ m.y ∨ v ∈ m.u := by
      intro l
      induction l with
      | nil => simp
      | cons w l il =>
        intro a ha v hv
        simp only [List.mapM_cons, bind, Except.bind] at ha
        cases hw : finalValue m f w with
        | error e => rw [hw] at ha; cases ha
        | ok b =>
        rw [hw] at ha
        simp only at ha
        cases hl : l.mapM (finalValue m f) with
        | error e => rw [hl] at ha; cases ha
        | ok bs =>
        rcases List.mem_cons.mp hv with rfl | hv
        · exact finalValue_found hw
        · exact il bs hl v hv
    simp only [nodeCondition, bind, Except.bind] at h3
    cases hx : k.x.mapM (finalValue m f) with
    | error e => rw [hx] at h3; cases h3
    | ok a =>
    rw [hx] at h3
    simp only at h3
    cases hy : k.y.mapM (finalValue m f) with
    | error e => rw [hy] at h3; cases h3
    | ok b =>
    rw [hy] at h3
    simp only at h3
    cases hu : k.u.mapM (finalValue m f) with
    | error e => rw [hu] at h3; cases h3
    | ok b' =>
    refine ⟨?_, fun hd => i2 ?_, fun n hn => ?_⟩
    · intro r' hr'
      rcases List.mem_cons.mp hr' with rfl | hr'
      · refine ⟨k, hk, fun v hv => ?_⟩
        simp only [List.mem_append, or_assoc] at hv
        rcases hv with hv | hv | hv
        · exact hf _ _ hx v hv
        · exact hf _ _ hy v hv
        · exact hf _ _ hu v hv
      · exact i1 r' hr'
    · rw [Dict.keys_set]
      split
      · exact hd
      · next hm => exact List.nodup_append.mpr ⟨hd, by simp, by
          intro a ha b hb hab
          simp only [List.mem_singleton] at hb
          exact hm (by rw [← hb, ← hab]; exact ha)⟩
    · rcases i3 n hn with hn | hn
      · rw [Dict.keys_set] at hn
        split at hn
        · exact .inl hn
        · rcases List.mem_append.mp hn with hn | hn
          · exact .inl hn
          · exact .inr (by simp only [List.mem_singleton] at hn; simp [hn])
      · exact .inr (List.mem_cons_of_mem _ hn)

/-- C148, proved part. In a network whose nodes have different names, every node gets the values its
states, algebraic variables and controls have at the last point of the simulation of the whole
network, each in the order of the node's model, also for connected inputs. If the last point
satisfies the algebraic equations of the network, then connected inputs get the values of the outputs
they are connected to. -/
theorem C148_values_partial (s : Network) (h' : Spec.Reached s) (t tau : Sym) (rs : List Ref)
    (ho : Spec.InOrder s rs) (ks : List Ocp)
    (hk : rs.map (fun r => (s.heap r).problem) = ks.map some) (hp : Spec.Posed s)
    (hn : (s.graph.nodes.map fun r => (s.heap r).name).Nodup)
    (hx : (ks.flatMap (·.model.x)).Nodup)
    (hy : (ks.flatMap (·.model.y) ++ s.graph.edges.flatMap (fun e => e.2.2.u)).Nodup)
    (hu : (ks.flatMap (·.model.u)).Nodup)
    (integ : Plugin → Integrator) (fu : ControlFn) (tf : TfArg) (o : Ocp)
    (hr : getProblem s t tau = .ok o) (r : SimOut)
    (hs : o.simulate integ none fu none tf none none none [] none none = .ok r)
    (ρ : Sym → Rat) (hρ : Spec.EndsAt o r ρ) :
    ∃ c, getInitialCondition s t tau integ fu tf = .ok c ∧
      c.keys.Perm (s.graph.nodes.map fun r => (s.heap r).name) ∧
      (∀ n ∈ s.graph.nodes, ∀ k, (s.heap n).model = some k →
        c.get? (s.heap n).name = some (Spec.valuesOf k ρ)) ∧
      ∀ ops : Expr.Ops Rat, (∀ g ∈ o.model.alg, g.eval ops ρ = 0) →
        ∀ a b e, s.graph.edge? a b = some e → e.u.map ρ = e.y.map ρ := by
  obtain ⟨ex, ey, eu, ee⟩ := getProblem_vars s h' t tau rs ho ks hk o hr
  have hmem : ∀ n ∈ s.graph.nodes, ∃ k, (s.heap n).model = some k ∧
      nodeCondition o.model (Spec.valuesOf o.model ρ) k =
        .ok (Spec.valuesOf (((s.heap n).model).getD (SysModel.new t tau)) ρ) := by
    intro n hn'
    obtain ⟨k, q, hm, hq, kx, ky, ku⟩ := hp n hn'
    have hqk : q ∈ ks := by
      have : some q ∈ ks.map some := by
        rw [← hk, ← hq]
        exact List.mem_map.mpr ⟨n, ho.perm.mem_iff.mpr hn', rfl⟩
      simpa using this
    refine ⟨k, hm, ?_⟩
    rw [hm]
    refine nodeCondition_ok (ex ▸ hx) (ey ▸ hy) (eu ▸ hu.filter _) ρ fun v hv => ?_
    simp only [List.mem_append, or_assoc] at hv
    rcases hv with hv | hv | hv
    · exact .inl (ex ▸ List.mem_flatMap.mpr ⟨q, hqk, kx v hv⟩)
    · exact .inr (.inl (ey ▸ List.mem_append_left _ (List.mem_flatMap.mpr ⟨q, hqk, ky v hv⟩)))
    · by_cases hc : v ∈ s.graph.edges.flatMap (fun e => e.2.2.u)
      · exact .inr (.inl (ey ▸ List.mem_append_right _ hc))
      · refine .inr (.inr (eu ▸ List.mem_filter.mpr ⟨List.mem_flatMap.mpr ⟨q, hqk, ku v hv⟩, ?_⟩))
        simpa using hc
  have hf : finalCondition r = .ok (Spec.valuesOf o.model ρ) := by
    simp only [finalCondition, lastColumn, hρ.x, hρ.y, hρ.u, bind, Except.bind]; rfl
  have hrun := addConditions o.model (Spec.valuesOf o.model ρ) s
    (fun n => Spec.valuesOf (((s.heap n).model).getD (SysModel.new t tau)) ρ) s.graph.nodes [] hmem
  have hget : getInitialCondition s t tau integ fu tf = .ok (Dict.update []
      (s.graph.nodes.map fun n =>
        ((s.heap n).name, Spec.valuesOf (((s.heap n).model).getD (SysModel.new t tau)) ρ))) := by
    simp only [getInitialCondition, hr, hs, hf, bind, Except.bind]
    exact hrun
  obtain ⟨-, hnd, hsub⟩ := addConditions_ok _ hrun
  have hval : ∀ n ∈ s.graph.nodes, ∀ k, (s.heap n).model = some k →
      (Dict.update [] (s.graph.nodes.map fun n =>
        ((s.heap n).name, Spec.valuesOf (((s.heap n).model).getD (SysModel.new t tau)) ρ))).get?
          (s.heap n).name = some (Spec.valuesOf k ρ) := by
    intro n hn' k hm
    rw [Dict.get?_update, List.filter_map]
    have : (s.graph.nodes.filter ((fun kv : Option String × Condition =>
        decide (kv.1 = (s.heap n).name)) ∘ fun n =>
          ((s.heap n).name, Spec.valuesOf (((s.heap n).model).getD (SysModel.new t tau)) ρ))) = [n] := by
      have hinj := List.inj_on_of_nodup_map hn
      have hnn := List.Nodup.of_map _ hn
      rw [List.filter_congr (q := fun a => decide (a = n))]
      · rw [List.filter_eq, List.count_eq_one_of_mem hnn hn']; rfl
      · intro a ha
        simp only [Function.comp_apply, decide_eq_decide]
        exact ⟨fun e => hinj ha hn' e, fun e => by rw [e]⟩
    rw [this]
    simp [hm]
  refine ⟨_, hget, ?_, hval, ?_⟩
  · refine (List.perm_ext_iff_of_nodup (hnd (by simp [Dict.keys])) hn).mpr fun a => ⟨fun ha => ?_, ?_⟩
    · rcases hsub a ha with h | h
      · simp [Dict.keys] at h
      · exact h
    · intro ha
      obtain ⟨n, hn', rfl⟩ := List.mem_map.mp ha
      obtain ⟨k, hm, -⟩ := hmem n hn'
      by_contra hc
      have := hval n hn' k hm
      rw [(Dict.get?_eq_none_iff _ _).mpr hc] at this
      cases this
  · intro ops hz a b e he
    obtain ⟨hl, hg⟩ := ee a b e he
    apply List.ext_getElem (by simpa using hl)
    intro i h₁ h₂
    have hi : i < e.u.length := by simpa using h₁
    have hj : i < e.y.length := by simpa using h₂
    have := hz _ (hg (Expr.sub (.sym e.u[i]) (.sym e.y[i])) (by
      rw [List.mem_iff_getElem]
      exact ⟨i, by simp; omega, by simp⟩))
    simp only [Expr.eval, sub_eq_zero] at this
    simpa using this

/-- C148 fails for nodes with the same name, as nodes created without a name are: when the call
returns there are fewer entries than nodes. -/
theorem C148_names_fails (s : Network) (t tau : Sym) (integ : Plugin → Integrator) (fu : ControlFn)
    (tf : TfArg) (hn : ¬ (s.graph.nodes.map fun r => (s.heap r).name).Nodup)
    (c : Dict (Option String) Condition) (h : getInitialCondition s t tau integ fu tf = .ok c) :
    c.length < s.graph.nodes.length := by
  simp only [getInitialCondition, bind, Except.bind] at h
  split at h
  · cases h
  split at h
  · cases h
  split at h
  · cases h
  obtain ⟨-, hd, hsub⟩ := addConditions_ok _ h
  have hnd := hd (by simp [Dict.keys])
  have h1 : c.keys ⊆ (s.graph.nodes.map fun r => (s.heap r).name).dedup := fun a ha => by
    rcases hsub a ha with h | h
    · simp [Dict.keys] at h
    · exact List.mem_dedup.mpr h
  have h2 := (List.subperm_of_subset hnd h1).length_le
  have h3 : (s.graph.nodes.map fun r => (s.heap r).name).dedup.length <
      (s.graph.nodes.map fun r => (s.heap r).name).length := by
    refine lt_of_le_of_ne (List.Sublist.length_le (List.dedup_sublist _)) fun he => hn ?_
    rw [← List.Sublist.eq_of_length (List.dedup_sublist _) he]
    exact List.nodup_dedup _
  simp only [List.length_map] at h3
  simp only [Dict.keys, List.length_map] at h2
  omega

/-- C148, rejection. The call returns only if every node has a model and all variables of the model
of every node are variables of the problem of the network. -/
theorem C148_missing (s : Network) (t tau : Sym) (integ : Plugin → Integrator) (fu : ControlFn)
    (tf : TfArg) (c : Dict (Option String) Condition)
    (h : getInitialCondition s t tau integ fu tf = .ok c) :
    ∃ o, getProblem s t tau = .ok o ∧ ∀ n ∈ s.graph.nodes, ∃ k, (s.heap n).model = some k ∧
      ∀ v ∈ k.x ++ k.y ++ k.u, v ∈ o.model.x ∨ v ∈ o.model.y ∨ v ∈ o.model.u := by
  simp only [getInitialCondition, bind, Except.bind] at h
  split at h
  · cases h
  next o ho =>
  split at h
  · cases h
  split at h
  · cases h
  exact ⟨o, ho, (addConditions_ok _ h).1⟩

/-- A step that either succeeds or raises `ValueError`. -/
theorem Net.finalValue_cases {m : SysModel} (hx : m.x.Nodup) (hy : m.y.Nodup) (hu : m.u.Nodup)
    (ρ : Sym → Rat) (v : Sym) :
    (v ∈ m.x ∨ v ∈ m.y ∨ v ∈ m.u) ∧ finalValue m (Spec.valuesOf m ρ) v = .ok (ρ v) ∨
    (v ∉ m.x ∧ v ∉ m.y ∧ v ∉ m.u) ∧ finalValue m (Spec.valuesOf m ρ) v = .error .valueError := by
  by_cases h : v ∈ m.x ∨ v ∈ m.y ∨ v ∈ m.u
  · exact .inl ⟨h, finalValue_ok hx hy hu ρ h⟩
  · push Not at h
    refine .inr ⟨h, ?_⟩
    unfold finalValue findTypeAndIndex
    simp only [findIndices_single_ne]
    rw [if_neg h.1, if_neg h.2.1, if_neg h.2.2]
    rfl

theorem Net.mapM_unknown {m : SysModel} (hx : m.x.Nodup) (hy : m.y.Nodup) (hu : m.u.Nodup)
    (ρ : Sym → Rat) (l : List Sym) :
    (∀ v ∈ l, v ∈ m.x ∨ v ∈ m.y ∨ v ∈ m.u) ∧
      l.mapM (finalValue m (Spec.valuesOf m ρ)) = .ok (l.map ρ) ∨
    l.mapM (finalValue m (Spec.valuesOf m ρ)) = .error .valueError := by
  induction l with
  | nil => exact .inl ⟨by simp, rfl⟩
  | cons v l ih =>
    rw [List.mapM_cons]
    rcases finalValue_cases hx hy hu ρ v with ⟨h₁, h₂⟩ | ⟨h₁, h₂⟩
    · rw [h₂]
      rcases ih with ⟨i₁, i₂⟩ | i₂
      · refine .inl ⟨by simpa using ⟨h₁, i₁⟩, ?_⟩
        simp only [bind, Except.bind, i₂, pure, Except.pure, List.map_cons]
      · exact .inr (by simp only [bind, Except.bind, i₂])
    · rw [h₂]
      exact .inr rfl

theorem Net.nodeCondition_unknown {m : SysModel} (hx : m.x.Nodup) (hy : m.y.Nodup) (hu : m.u.Nodup)
    (ρ : Sym → Rat) (k : SysModel) :
    (∀ v ∈ k.x ++ k.y ++ k.u, v ∈ m.x ∨ v ∈ m.y ∨ v ∈ m.u) ∧
      (∃ c, nodeCondition m (Spec.valuesOf m ρ) k = .ok c) ∨
    nodeCondition m (Spec.valuesOf m ρ) k = .error .valueError := by
  unfold nodeCondition
  rcases mapM_unknown hx hy hu ρ k.x with ⟨h₁, e₁⟩ | e₁
  · rcases mapM_unknown hx hy hu ρ k.y with ⟨h₂, e₂⟩ | e₂
    · rcases mapM_unknown hx hy hu ρ k.u with ⟨h₃, e₃⟩ | e₃
      · refine .inl ⟨fun v hv => ?_, _, by simp only [e₁, e₂, e₃, bind, Except.bind]; rfl⟩
        simp only [List.mem_append, or_assoc] at hv
        rcases hv with hv | hv | hv
        · exact h₁ v hv
        · exact h₂ v hv
        · exact h₃ v hv
      · exact .inr (by simp only [e₁, e₂, e₃, bind, Except.bind])
    · exact .inr (by simp only [e₁, e₂, bind, Except.bind])
  · exact .inr (by simp only [e₁, bind, Except.bind])

/-- C148, rejection. A node with a variable that the problem of the network does not have makes the call
raise `ValueError`. -/
theorem C148_unknown (s : Network) (t tau : Sym) (integ : Plugin → Integrator) (fu : ControlFn)
    (tf : TfArg) (o : Ocp) (hr : getProblem s t tau = .ok o) (r : SimOut)
    (hs : o.simulate integ none fu none tf none none none [] none none = .ok r)
    (ρ : Sym → Rat) (hρ : Spec.EndsAt o r ρ) (hx : o.model.x.Nodup) (hy : o.model.y.Nodup)
    (hu : o.model.u.Nodup) (hm : ∀ n ∈ s.graph.nodes, (s.heap n).model.isSome)
    (n : Ref) (hn : n ∈ s.graph.nodes) (k : SysModel) (hk : (s.heap n).model = some k) (v : Sym)
    (hv : v ∈ k.x ++ k.y ++ k.u) (hno : v ∉ o.model.x ∧ v ∉ o.model.y ∧ v ∉ o.model.u) :
    getInitialCondition s t tau integ fu tf = .error .valueError := by
  have hf : finalCondition r = .ok (Spec.valuesOf o.model ρ) := by
    simp only [finalCondition, lastColumn, hρ.x, hρ.y, hρ.u, bind, Except.bind]; rfl
  have key : ∀ (rs : List Ref) (d : Dict (Option String) Condition),
      (∀ n ∈ rs, (s.heap n).model.isSome) → n ∈ rs →
      rs.foldlM (addCondition o.model (Spec.valuesOf o.model ρ) s) d = .error .valueError := by
    intro rs
    induction rs with
    | nil => intro d _ h; cases h
    | cons n' rs ih =>
      intro d hm h
      rw [List.foldlM_cons]
      obtain ⟨k', hk'⟩ := Option.isSome_iff_exists.1 (hm n' (by simp))
      have e : nodeModel (s.heap n') = .ok k' := by unfold nodeModel; rw [hk']
      rcases nodeCondition_unknown hx hy hu ρ k' with ⟨h₁, c, hc⟩ | hc
      · have : addCondition o.model (Spec.valuesOf o.model ρ) s d n' =
            .ok (d.set (s.heap n').name c) := by
          simp only [addCondition, e, hc, bind, Except.bind, pure, Except.pure]
        rw [this]
        refine ih _ (fun a ha => hm a (by simp [ha])) ?_
        rcases List.mem_cons.1 h with rfl | h
        · rw [hk] at hk'
          cases hk'
          have := h₁ v hv
          tauto
        · exact h
      · simp only [addCondition, e, hc, bind, Except.bind]
  simp only [getInitialCondition, hr, hs, hf, bind, Except.bind]
  exact key _ _ hm hn

/-- C148, rejection. A node without a model makes the call raise `AttributeError` when it is
reached. -/
theorem C148_without_model (s : Network) (t tau : Sym) (integ : Plugin → Integrator) (fu : ControlFn)
    (tf : TfArg) (o : Ocp) (hr : getProblem s t tau = .ok o) (r : SimOut)
    (hs : o.simulate integ none fu none tf none none none [] none none = .ok r)
    (ρ : Sym → Rat) (hρ : Spec.EndsAt o r ρ) (n : Ref) (rs : List Ref)
    (hn : s.graph.nodes = n :: rs) (hk : (s.heap n).model = none) :
    getInitialCondition s t tau integ fu tf = .error .attributeError := by
  have hf : finalCondition r = .ok (Spec.valuesOf o.model ρ) := by
    simp only [finalCondition, lastColumn, hρ.x, hρ.y, hρ.u, bind, Except.bind]; rfl
  simp only [getInitialCondition, hr, hs, hf, bind, Except.bind, hn, List.foldlM_cons, addCondition,
    nodeModel, hk]

/-! ## Non-vacuity: two nodes, the state of the first is the input of the second -/

namespace Example

/-- The nodes with names. -/
def initialCalls (a b : Option String) : List Spec.NetCall :=
  [.createNode { node 10 with name := a }, .createNode { node 20 with name := b },
    .connect [12] [24] 0 1 100]

/-- The network. -/
def initialNetwork (a b : Option String) : Network :=
  Spec.netAfter (initialCalls a b) (Spec.emptyNetwork (some "net") false)

/-- An integrator that adds the step to the states, and gives the connected input. -/
def stepping : Plugin → Integrator := fun _ t0 t1 x _ _ => (x.map (· + (t1 - t0)), [x.headD 0])

example : (getInitialCondition (initialNetwork (some "a") (some "b")) 0 1 stepping
    (fun _ _ _ _ _ _ => [7]) (.list [1, 3])).toOption =
      some [(some "a", ⟨[4], [], [7]⟩), (some "b", ⟨[4], [], [2]⟩)] := by
  decide +kernel

example : (getInitialCondition (initialNetwork (some "a") (some "a")) 0 1 stepping
    (fun _ _ _ _ _ _ => [7]) (.list [1, 3])).toOption = some [(some "a", ⟨[4], [], [2]⟩)] := by
  decide +kernel

/-- The network for which the hypotheses are shown. -/
def twoNodes : Network := initialNetwork (some "a") (some "b")

theorem twoNodes_nodes : twoNodes.graph.nodes = [0, 1] := by decide +kernel

/-- The hypotheses of C148. -/
example : Spec.Reached twoNodes ∧ Spec.InOrder twoNodes [0, 1] ∧ Spec.Posed twoNodes ∧
    (twoNodes.graph.nodes.map fun r => (twoNodes.heap r).name).Nodup ∧
    twoNodes.graph.edges.flatMap (fun e => e.2.2.u) = [24] := by
  refine ⟨⟨_, _, initialCalls (some "a") (some "b"),
    ⟨rfl, rfl, ⟨by decide +kernel, by decide +kernel⟩, trivial⟩, rfl⟩, ⟨by rw [twoNodes_nodes], ?_⟩,
    ?_, by decide +kernel, by decide +kernel⟩
  · simp only [List.pairwise_cons, List.mem_cons, List.not_mem_nil, or_false,
      forall_eq, IsEmpty.forall_iff, implies_true, List.Pairwise.nil, and_true]
    exact ⟨0, 1, by decide +kernel, by decide +kernel, by decide⟩
  · intro r hr
    rw [twoNodes_nodes] at hr
    simp only [List.mem_cons, List.not_mem_nil, or_false] at hr
    rcases hr with rfl | rfl
    · exact ⟨nodeModel 10, Ocp.new (nodeModel 10) (some [1]) 0 5, rfl, rfl, by decide +kernel,
        by decide +kernel, by decide +kernel⟩
    · exact ⟨nodeModel 20, Ocp.new (nodeModel 20) (some [1]) 0 5, rfl, rfl, by decide +kernel,
        by decide +kernel, by decide +kernel⟩

example : ∃ o r, getProblem twoNodes 0 1 = .ok o ∧
    o.simulate stepping none (fun _ _ _ _ _ _ => [7]) none (.list [1, 3]) none none none [] none
      none = .ok r ∧
    Spec.EndsAt o r fun v => if v = 12 ∨ v = 22 then 4 else if v = 24 then 2 else 7 := by
  have h : ((getProblem twoNodes 0 1).toOption.map fun o => (o.model.x, o.model.y, o.model.u)) =
      some ([12, 22], [24], [14]) := by decide +kernel
  have hs : ((getProblem twoNodes 0 1).toOption.bind fun o => (o.simulate stepping none
      (fun _ _ _ _ _ _ => [7]) none (.list [1, 3]) none none none [] none none).toOption.map
        fun r => (r.x.getLast?, r.y.getLast?, r.u.getLast?)) =
      some (some [4, 4], some [2], some [7]) := by decide +kernel
  cases ho : getProblem twoNodes 0 1 with
  | error e => rw [ho] at h; cases h
  | ok o =>
    rw [ho] at h hs
    simp only [Except.toOption, Option.bind_some, Option.map_some, Option.some.injEq,
      Prod.mk.injEq] at h hs
    cases hr : o.simulate stepping none (fun _ _ _ _ _ _ => [7]) none (.list [1, 3]) none none none
        [] none none with
    | error e => rw [hr] at hs; cases hs
    | ok r =>
      rw [hr] at hs
      simp only [Option.map_some, Option.some.injEq, Prod.mk.injEq] at hs
      refine ⟨o, r, rfl, hr, ⟨?_, ?_, ?_⟩⟩
      · rw [hs.1, h.1]; decide +kernel
      · rw [hs.2.1, h.2.1]; decide +kernel
      · rw [hs.2.2, h.2.2]; decide +kernel

/-- A node whose model has a state `16` that its problem does not have. -/
def strangeNode : Network :=
  Spec.netAfter [.createNode { node 10 with
      name := some "a", model := some { nodeModel 10 with x := [12, 16] } }]
    (Spec.emptyNetwork (some "net") false)

/-- An integrator for a problem without algebraic variables. -/
def steppingOde : Plugin → Integrator := fun _ t0 t1 x _ _ => (x.map (· + (t1 - t0)), [])

/-- The hypotheses of `C148_unknown`, and its conclusion. -/
example : ∃ o r, getProblem strangeNode 0 1 = .ok o ∧
    o.simulate steppingOde none (fun _ _ _ _ _ _ => [7]) none (.list [1, 3]) none none none [] none
      none = .ok r ∧ Spec.EndsAt o r (fun v => if v = 12 then 4 else 7) ∧
    getInitialCondition strangeNode 0 1 steppingOde (fun _ _ _ _ _ _ => [7]) (.list [1, 3]) =
      .error .valueError := by
  have h : ((getProblem strangeNode 0 1).toOption.map fun o => (o.model.x, o.model.y, o.model.u)) =
      some ([12], [], [14]) := by decide +kernel
  have hs : ((getProblem strangeNode 0 1).toOption.bind fun o => (o.simulate steppingOde none
      (fun _ _ _ _ _ _ => [7]) none (.list [1, 3]) none none none [] none none).toOption.map
        fun r => (r.x.getLast?, r.y.getLast?, r.u.getLast?)) =
      some (some [4], some [], some [7]) := by decide +kernel
  have hn : strangeNode.graph.nodes = [0] := by decide +kernel
  cases ho : getProblem strangeNode 0 1 with
  | error e => rw [ho] at h; cases h
  | ok o =>
    rw [ho] at h hs
    simp only [Except.toOption, Option.bind_some, Option.map_some, Option.some.injEq,
      Prod.mk.injEq] at h hs
    cases hr : o.simulate steppingOde none (fun _ _ _ _ _ _ => [7]) none (.list [1, 3]) none none
        none [] none none with
    | error e => rw [hr] at hs; cases hs
    | ok r =>
      rw [hr] at hs
      simp only [Option.map_some, Option.some.injEq, Prod.mk.injEq] at hs
      have hend : Spec.EndsAt o r (fun v => if v = 12 then 4 else 7) := by
        refine ⟨?_, ?_, ?_⟩
        · rw [hs.1, h.1]; decide +kernel
        · rw [hs.2.1, h.2.1]; decide +kernel
        · rw [hs.2.2, h.2.2]; decide +kernel
      refine ⟨o, r, rfl, hr, hend, C148_unknown _ _ _ _ _ _ o ho r hr _ hend (by rw [h.1]; decide)
        (by rw [h.2.1]; decide) (by rw [h.2.2]; decide) ?_ 0 (by rw [hn]; decide) _ rfl 16
        (by decide) (by rw [h.1, h.2.1, h.2.2]; decide)⟩
      rw [hn]
      decide +kernel

end Example
end Verif
