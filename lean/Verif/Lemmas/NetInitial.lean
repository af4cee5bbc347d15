import Verif.Spec.NetInitial
import Verif.Props.NetworkModel
import Verif.Lemmas.Collocation
/-!
# Lemmas about the initial condition of a network
-/
namespace Verif
open Net

theorem SysModel.removeControl_alg (v : List Sym) (m : SysModel) :
    (SysModel.removeControl v m).2.alg = m.alg := by
  have h : Py.Always (fun m' : SysModel => m'.alg = m.alg) (SysModel.removeControl v) := by
    unfold SysModel.removeControl
    py_always []
  exact h m rfl

theorem SysModel.connect_alg (u : List Sym) (y : List Expr) (m m' : SysModel)
    (h : SysModel.connect u y false m = (.ok (), m')) :
    m'.alg = m.alg ++ u.zipWith (fun a b => Expr.sub (.sym a) b) y ∧ u.length = y.length := by
  unfold SysModel.connect at h
  simp only [Py.bind_eq, Py.raiseIf_bind_ok, decide_eq_false_iff_not, not_not, ne_eq,
    Bool.false_eq_true, if_false] at h
  obtain ⟨hl, k⟩ := h
  rw [Py.bind_ok (includeEquations_alg _ _), Py.bind_ok (includeAlgebraic_none _ _)] at k
  refine ⟨?_, hl⟩
  have := SysModel.removeControl_alg u { m with
    alg := m.alg ++ u.zipWith (fun a b => Expr.sub (.sym a) b) y
    y := m.y ++ u }
  rw [k] at this
  exact this

theorem Ocp.connectBounds_model (ind : List Nat) (m : SysModel) :
    Py.Always (fun o : Ocp => o.model = m) (Ocp.connectBounds ind) := by
  unfold Ocp.connectBounds
  py_always []

theorem Ocp.connect_model {u : List Sym} {y : List Expr} {o o' : Ocp}
    (h : o.connect u y false = (.ok (), o')) :
    SysModel.connect u y false o.model = (.ok (), o'.model) := by
  unfold Ocp.connect at h
  simp only [Py.bind_eq, Py.raiseIf_bind_ok, Py.get_bind, Ocp.onModel_bind_ok] at h
  obtain ⟨-, ⟨⟩, m', h₁, h₂⟩ := h
  rw [h₁]
  generalize hc : Py.bind (Ocp.when _ _) _ = c at h₂
  have ha : Py.Always (fun o : Ocp => o.model = m') c := by
    rw [← hc]
    unfold Ocp.when
    py_always [Ocp.connectBounds_model]
  have := ha { o with model := m' } rfl
  rw [h₂] at this
  rw [← this]

theorem Ocp.connects_model (es : List Edge) {o o' : Ocp}
    (h : Py.forEach es (fun e => Ocp.connect e.u (e.y.map .sym) false) o = (.ok (), o')) :
    o'.model.x = o.model.x ∧ o'.model.y = o.model.y ++ Spec.inputsOf es ∧
      o'.model.u = o.model.u.filter (fun v => decide (v ∉ Spec.inputsOf es)) ∧
      o'.model.alg = o.model.alg ++ Spec.equationsOf es ∧
      ∀ e ∈ es, e.u.length = e.y.length := by
  induction es generalizing o with
  | nil => cases h; simp [Spec.inputsOf, Spec.equationsOf]
  | cons e es ih =>
    obtain ⟨_, o₁, h₁, h₂⟩ := Py.bind_eq_ok.mp h
    have hm := Ocp.connect_model h₁
    obtain ⟨hx, hy, hu⟩ := SysModel.connect_vars _ _ _ _ _ hm
    obtain ⟨ha, hl⟩ := SysModel.connect_alg _ _ _ _ hm
    obtain ⟨ix, iy, iu, ia, il⟩ := ih h₂
    refine ⟨ix.trans hx, ?_, ?_, ?_, ?_⟩
    · rw [iy, hy]; simp [Spec.inputsOf]
    · rw [iu, hu, List.filter_filter]
      congr 1
      funext v
      simp [Spec.inputsOf, Bool.and_comm]
    · rw [ia, ha]; simp [Spec.equationsOf, List.zipWith_map_right]
    · intro e' he'
      rcases List.mem_cons.mp he' with rfl | he'
      · simpa using hl
      · exact il e' he'

theorem Ocp.merge_model (ks : List Ocp) {o o' : Ocp} (h : o.merge ks = (.ok (), o')) :
    o'.model.x = o.model.x ++ ks.flatMap (·.model.x) ∧
    o'.model.y = o.model.y ++ ks.flatMap (·.model.y) ∧
    o'.model.u = o.model.u ++ ks.flatMap (·.model.u) := by
  induction ks generalizing o with
  | nil => cases h; simp
  | cons k ks ih =>
    obtain ⟨_, o₁, h₁, h₂⟩ := Py.bind_eq_ok.mp
      (show Py.bind (Ocp.mergeOne k) (fun _ => Ocp.merge ks) o = _ from h)
    obtain ⟨-, -, m', hm, rfl⟩ := Ocp.mergeOne_ok_iff.mp h₁
    obtain ⟨hx, hy, hu⟩ := SysModel.merge_vars _ _ _ hm
    obtain ⟨a, b, c⟩ := ih h₂
    refine ⟨?_, ?_, ?_⟩
    · rw [a]; simp [hx]
    · rw [b]; simp [hy]
    · rw [c]; simp [hu]

/-- The variables of the problem of a network, and the equations of its connections. -/
theorem Net.getProblem_vars (s : Network) (h' : Spec.Reached s) (t tau : Sym) (rs : List Ref)
    (ho : Spec.InOrder s rs) (ks : List Ocp)
    (hk : rs.map (fun r => (s.heap r).problem) = ks.map some) (o : Ocp)
    (hr : getProblem s t tau = .ok o) :
    o.model.x = ks.flatMap (·.model.x) ∧
    o.model.y = ks.flatMap (·.model.y) ++ s.graph.edges.flatMap (fun e => e.2.2.u) ∧
    o.model.u = (ks.flatMap (·.model.u)).filter
      (fun v => decide (v ∉ s.graph.edges.flatMap (fun e => e.2.2.u))) ∧
    ∀ a b e, s.graph.edge? a b = some e → e.u.length = e.y.length ∧
      ∀ g ∈ e.u.zipWith (fun a b => Expr.sub (.sym a) (.sym b)) e.y, g ∈ o.model.alg := by
  have h := ids_reached h'
  simp only [getProblem] at hr
  split at hr
  · cases hr
  rw [sortedNodes_run h ho] at hr
  simp only [bind, Except.bind] at hr
  cases hf : firstHorizon s rs with
  | error e => rw [hf] at hr; cases hr
  | ok hz' =>
  rw [hf] at hr
  simp only at hr
  split at hr
  · cases hr
  next hok =>
  generalize hg : Py.bind _ _ _ = r at hok hr
  obtain ⟨r1, r2⟩ := r
  simp only at hok
  subst hok
  cases hr
  obtain ⟨_, o1, h1, h2⟩ := Py.bind_eq_ok.mp hg
  rw [mergeNodeProblems s rs ks hk] at h1
  obtain ⟨mx, my, mu⟩ := Ocp.merge_model ks h1
  obtain ⟨jx, jy, ju, ja, jl⟩ := Ocp.connects_model (s.graph.edges.map (·.2.2)) (o := o1) (o' := r2)
    (by rw [Py.forEach_map]; exact h2)
  have hins : Spec.inputsOf (s.graph.edges.map (·.2.2)) =
      s.graph.edges.flatMap (fun e => e.2.2.u) := by
    simp [Spec.inputsOf, List.flatMap_map]
  rw [hins] at jy ju
  refine ⟨?_, ?_, ?_, fun a b e he => ?_⟩
  · rw [jx, mx]; simp [Ocp.new, SysModel.new]
  · rw [jy, my]; simp [Ocp.new, SysModel.new]
  · rw [ju, mu]; simp [Ocp.new, SysModel.new]
  · have hm : e ∈ s.graph.edges.map (·.2.2) :=
      List.mem_map.mpr ⟨(a, b, e), (mem_edges h.graph a b e).mpr he, rfl⟩
    refine ⟨jl e hm, fun g hg => ?_⟩
    rw [ja]
    exact List.mem_append_right _ (List.mem_flatMap.mpr ⟨e, hm, hg⟩)

theorem Net.findIndices_single_ne {v : Sym} {l : List Sym} : findIndices [v] l ≠ [] ↔ v ∈ l := by
  rw [List.ne_nil_iff_length_pos]
  constructor
  · intro h
    obtain ⟨i, hi⟩ := List.exists_mem_of_length_pos h
    obtain ⟨w, hw, e⟩ := mem_findIndices.1 hi
    simp only [List.mem_singleton] at hw
    subst hw
    exact List.mem_of_getElem? e
  · intro h
    obtain ⟨i, hi⟩ := List.mem_iff_getElem?.mp h
    exact List.length_pos_of_mem (mem_findIndices.2 ⟨v, by simp, hi⟩)

theorem Net.gather_value {l : List Sym} (hn : l.Nodup) (ρ : Sym → Rat) {v : Sym} (hv : v ∈ l) :
    gather (l.map ρ) (findIndices [v] l) = .ok [ρ v] := by
  rw [gather_find _ _ _ (by simp), findIndices_nodup _ _ hn (by simpa using hv)]
  have : l.idxOf v < l.length := List.idxOf_lt_length_iff.mpr hv
  simp [List.getElem?_eq_getElem this]

theorem Net.finalValue_ok {m : SysModel} (hx : m.x.Nodup) (hy : m.y.Nodup) (hu : m.u.Nodup)
    (ρ : Sym → Rat) {v : Sym} (hv : v ∈ m.x ∨ v ∈ m.y ∨ v ∈ m.u) :
    finalValue m (Spec.valuesOf m ρ) v = .ok (ρ v) := by
  unfold finalValue findTypeAndIndex
  simp only [findIndices_single_ne, Spec.valuesOf]
  by_cases h1 : v ∈ m.x
  · simp only [if_pos h1, bind, Except.bind, gather_value hx ρ h1]; rfl
  · by_cases h2 : v ∈ m.y
    · simp only [if_neg h1, if_pos h2, bind, Except.bind, gather_value hy ρ h2]; rfl
    · have h3 : v ∈ m.u := by tauto
      simp only [if_neg h1, if_neg h2, if_pos h3, bind, Except.bind, gather_value hu ρ h3]; rfl

theorem Net.finalValue_found {m : SysModel} {f : Condition} {v : Sym} {a : Rat}
    (h : finalValue m f v = .ok a) : v ∈ m.x ∨ v ∈ m.y ∨ v ∈ m.u := by
  unfold finalValue findTypeAndIndex at h
  simp only [findIndices_single_ne] at h
  by_contra hc
  push Not at hc
  rw [if_neg hc.1, if_neg hc.2.1, if_neg hc.2.2] at h
  cases h

theorem Net.nodeCondition_ok {m : SysModel} (hx : m.x.Nodup) (hy : m.y.Nodup) (hu : m.u.Nodup)
    (ρ : Sym → Rat) {k : SysModel}
    (hk : ∀ v ∈ k.x ++ k.y ++ k.u, v ∈ m.x ∨ v ∈ m.y ∨ v ∈ m.u) :
    nodeCondition m (Spec.valuesOf m ρ) k = .ok (Spec.valuesOf k ρ) := by
  unfold nodeCondition
  rw [mapM_ok _ ρ _ fun v hv => finalValue_ok hx hy hu ρ (hk v (by simp [hv])),
    mapM_ok _ ρ _ fun v hv => finalValue_ok hx hy hu ρ (hk v (by simp [hv])),
    mapM_ok _ ρ _ fun v hv => finalValue_ok hx hy hu ρ (hk v (by simp [hv]))]
  rfl

end Verif
