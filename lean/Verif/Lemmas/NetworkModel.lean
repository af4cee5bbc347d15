import Verif.Lemmas.NetworkIter
import Verif.Lemmas.Merge
import Verif.Lemmas.Controls
import Verif.Lemmas.Ocp
/-!
# Connecting the models of a network
-/
namespace Verif
open Net SysModel

/-- The result of connecting by an equation. -/
theorem SysModel.connect_run (m : SysModel) (u : List Sym) (y : List Expr)
    (hl : u.length = y.length) (hm : m.u.length = m.uExpr.length)
    (hu : ∃ s ∈ u, s ∈ m.u) (hp : ∃ s ∈ u, s ∈ m.uPar) :
    SysModel.connect u y false m = (.ok (), { m with
      alg := m.alg ++ u.zipWith (fun a b => Expr.sub (.sym a) b) y
      y := m.y ++ u
      uExpr := ((m.u.zip m.uExpr).filter fun p => decide (p.1 ∉ u)).map Prod.snd
      u := m.u.filter fun a => decide (a ∉ u)
      uPar := m.uPar.filter fun a => decide (a ∉ u) }) := by
  simp only [SysModel.connect, Py.bind_eq, Py.raiseIf, hl, ne_eq, not_true_eq_false, decide_false,
    Bool.false_eq_true, if_false, Py.pure_bind]
  rw [Py.bind_ok (includeEquations_alg ..), Py.bind_ok (includeAlgebraic_none ..),
    removeControl_run _ _ (by exact hm), if_pos (by exact hu)]
  simp only
  rw [if_pos hp, ← removeControl_pairs u m hm]

theorem Net.joined_nil (m : SysModel) (hm : m.u.length = m.uExpr.length) : Spec.joined m [] = m := by
  have h1 : (m.u.filter fun a => decide (a ∉ Spec.inputsOf [])) = m.u := by
    simp [Spec.inputsOf]
  have h2 : (m.uPar.filter fun a => decide (a ∉ Spec.inputsOf [])) = m.uPar := by
    simp [Spec.inputsOf]
  have h3 : ((m.u.zip m.uExpr).filter fun p => decide (p.1 ∉ Spec.inputsOf [])).map Prod.snd = m.uExpr := by
    simp only [Spec.inputsOf, List.flatMap_nil, List.not_mem_nil, not_false_eq_true, decide_true,
      List.filter_true]
    exact List.map_snd_zip (by omega)
  unfold Spec.joined
  rw [h1, h2, h3]
  simp [Spec.inputsOf, Spec.equationsOf]

theorem Net.joined_cons (m : SysModel) (hm : m.u.length = m.uExpr.length) (e : Edge) (es : List Edge) :
    Spec.joined (Spec.joined m [e]) es = Spec.joined m (e :: es) := by
  have hf : ∀ l : List Sym, (l.filter fun a => decide (a ∉ Spec.inputsOf [e])).filter
      (fun a => decide (a ∉ Spec.inputsOf es)) = l.filter fun a => decide (a ∉ Spec.inputsOf (e :: es)) := by
    intro l
    rw [List.filter_filter]
    congr 1
    funext a
    simp only [Spec.inputsOf, List.flatMap_cons, List.flatMap_nil, List.append_nil, List.mem_append,
      not_or, Bool.decide_and]
    exact Bool.and_comm ..
  have hz : (m.u.filter fun a => decide (a ∉ Spec.inputsOf [e])).zip
      (((m.u.zip m.uExpr).filter fun p => decide (p.1 ∉ Spec.inputsOf [e])).map Prod.snd) =
      (m.u.zip m.uExpr).filter fun p => decide (p.1 ∉ Spec.inputsOf [e]) := by
    have : (m.u.filter fun a => decide (a ∉ Spec.inputsOf [e])) =
        ((m.u.zip m.uExpr).filter fun p => decide (p.1 ∉ Spec.inputsOf [e])).map Prod.fst := by
      conv_lhs => rw [← List.map_fst_zip (l₁ := m.u) (l₂ := m.uExpr) (by omega)]
      rw [List.filter_map]; rfl
    rw [this, List.zip_map', List.map_id'' (by simp)]
  have hp : ((m.u.zip m.uExpr).filter fun p => decide (p.1 ∉ Spec.inputsOf [e])).filter
      (fun p => decide (p.1 ∉ Spec.inputsOf es)) =
      (m.u.zip m.uExpr).filter fun p => decide (p.1 ∉ Spec.inputsOf (e :: es)) := by
    rw [List.filter_filter]
    congr 1
    funext a
    simp only [Spec.inputsOf, List.flatMap_cons, List.flatMap_nil, List.append_nil, List.mem_append,
      not_or, Bool.decide_and]
    exact Bool.and_comm ..
  simp only [Spec.joined]
  rw [hf, hf, hz, hp]
  simp [Spec.equationsOf, Spec.inputsOf, List.append_assoc]

theorem Net.connectAll_run (m : SysModel) (es : List Edge) (hm : m.u.length = m.uExpr.length)
    (h : Spec.Joinable m es) :
    Py.forEach es (fun e => SysModel.connect e.u (e.y.map .sym) false) m =
      (.ok (), Spec.joined m es) := by
  induction es generalizing m with
  | nil => rw [joined_nil m hm]; rfl
  | cons e es ih =>
    obtain ⟨h1, h2⟩ := h.sizes e (by simp)
    obtain ⟨v, hv⟩ := List.exists_mem_of_ne_nil e.u h2
    have hin := h.inputs v (by simp [Spec.inputsOf, hv])
    have hrun : SysModel.connect e.u (e.y.map .sym) false m = (.ok (), Spec.joined m [e]) := by
      rw [SysModel.connect_run m e.u (e.y.map .sym) (by simpa using h1) hm ⟨v, hv, hin.1⟩
        ⟨v, hv, hin.2⟩]
      simp [Spec.joined, Spec.inputsOf, Spec.equationsOf, List.zipWith_map_right]
    have hlen : (Spec.joined m [e]).u.length = (Spec.joined m [e]).uExpr.length := by
      simp only [Spec.joined, List.length_map]
      have : (m.u.filter fun a => decide (a ∉ Spec.inputsOf [e])) =
          ((m.u.zip m.uExpr).filter fun p => decide (p.1 ∉ Spec.inputsOf [e])).map Prod.fst := by
        conv_lhs => rw [← List.map_fst_zip (l₁ := m.u) (l₂ := m.uExpr) (by omega)]
        rw [List.filter_map]; rfl
      rw [this, List.length_map]
    simp only [Py.forEach]
    rw [Py.bind_ok hrun, ih (Spec.joined m [e]) hlen, joined_cons m hm]
    have hnd := h.once
    simp only [Spec.inputsOf, List.flatMap_cons, List.nodup_append] at hnd
    refine ⟨fun e' he' => h.sizes e' (by simp [he']), hnd.2.1, fun w hw => ?_⟩
    have hw' := h.inputs w (by simp only [Spec.inputsOf, List.flatMap_cons, List.mem_append]; exact .inr hw)
    have hne : w ∉ Spec.inputsOf [e] := by
      simp only [Spec.inputsOf, List.flatMap_cons, List.flatMap_nil, List.append_nil]
      exact fun hc => hnd.2.2 w hc w hw rfl
    simp [Spec.joined, hw', hne]

theorem Net.sortedNodes_run {s : Network} (h : IdsOk s) {rs : List Ref} (ho : Spec.InOrder s rs) :
    sortedNodes s = .ok rs := by
  have hnone : ¬ (s.graph.nodes.length ≥ 2 ∧ s.graph.nodes.any (fun r => (s.heap r).id.isNone) = true) := by
    rintro ⟨-, hc⟩
    obtain ⟨r, hr, hn⟩ := List.any_eq_true.mp hc
    have := h.nodes r hr
    rw [Option.isNone_iff_eq_none] at hn
    rw [hn] at this
    cases this
  unfold sortedNodes
  rw [if_neg hnone]
  congr 1
  have hs := List.pairwise_insertionSort
    (fun a b => decide ((s.heap a).id.getD 0 ≤ (s.heap b).id.getD 0) = true) s.graph.nodes
  have hp := List.perm_insertionSort
    (fun a b => decide ((s.heap a).id.getD 0 ≤ (s.heap b).id.getD 0) = true) s.graph.nodes
  refine List.Perm.eq_of_pairwise (le := fun a b => (s.heap a).id.getD 0 ≤ (s.heap b).id.getD 0)
    ?_ ?_ ?_ (hp.trans ho.perm.symm)
  · intro a b ha hb hab hba
    have ha' := hp.mem_iff.mp ha
    have hb' := ho.perm.mem_iff.mp hb
    obtain ⟨i, hi⟩ := Option.isSome_iff_exists.mp (h.nodes a ha')
    obtain ⟨j, hj⟩ := Option.isSome_iff_exists.mp (h.nodes b hb')
    rw [hi, hj, Option.getD_some, Option.getD_some] at hab hba
    exact h.inj a b i hi (by rw [hj]; congr 1; omega)
  · exact hs.imp fun hab => by simpa using hab
  · refine ho.sorted.imp fun ⟨i, j, hi, hj, hij⟩ => ?_
    rw [hi, hj]
    exact hij

theorem Net.includeNodeModels (s : Network) (rs : List Ref) (ks : List SysModel)
    (hk : rs.map (fun r => (s.heap r).model) = ks.map some) (m : SysModel) :
    Py.forEach rs (fun r => includeNodeModel (s.heap r).model) m = includeModels ks m := by
  unfold includeModels
  induction rs generalizing ks m with
  | nil =>
    cases ks with
    | nil => rfl
    | cons => simp at hk
  | cons r rs ih =>
    cases ks with
    | nil => simp at hk
    | cons k ks =>
      simp only [List.map_cons, List.cons.injEq] at hk
      have h1 : includeNodeModel (s.heap r).model = includeModel k := by rw [hk.1]; rfl
      simp only [Py.forEach, h1]
      have : (Py.forEach rs fun r => includeNodeModel (s.heap r).model) = Py.forEach ks includeModel :=
        funext fun m => ih ks hk.2 m
      rw [this]

theorem Py.forEach_map {σ α β : Type} (f : α → β) (g : β → Py σ Unit) (l : List α) (s : σ) :
    Py.forEach (l.map f) g s = Py.forEach l (fun a => g (f a)) s := by
  induction l generalizing s with
  | nil => rfl
  | cons a l ih =>
    simp only [List.map_cons, Py.forEach]
    rw [show Py.forEach (l.map f) g = Py.forEach l (fun a => g (f a)) from funext ih]

/-- A loop that returns has executed its body for every element. -/
theorem Py.forEach_ok_mem {σ α : Type} {f : α → Py σ Unit} {l : List α} {s s' : σ}
    (h : Py.forEach l f s = (.ok (), s')) {a : α} (ha : a ∈ l) :
    ∃ t t', f a t = (.ok (), t') := by
  induction l generalizing s with
  | nil => cases ha
  | cons b l ih =>
    obtain ⟨_, s1, h1, h2⟩ := Py.bind_eq_ok.mp h
    rcases List.mem_cons.mp ha with rfl | ha
    · exact ⟨s, s1, h1⟩
    · exact ih h2 ha

theorem Net.equations_zero {K : Type u} [Field K] (ops : Expr.Ops K) (ρ : Sym → K) (u y : List Sym)
    (h : u.length = y.length) :
    (∀ g ∈ u.zipWith (fun a b => Expr.sub (.sym a) (.sym b)) y, g.eval ops ρ = 0) ↔
      u.map ρ = y.map ρ := by
  induction u generalizing y with
  | nil => cases y <;> simp_all
  | cons a u ih =>
    cases y with
    | nil => simp at h
    | cons b y =>
      simp only [List.length_cons, Nat.add_right_cancel_iff] at h
      simp only [List.zipWith_cons_cons, List.mem_cons, forall_eq_or_imp, List.map_cons,
        List.cons.injEq, ih y h, Expr.eval, sub_eq_zero]

theorem SysModel.removeControl_found {v : List Sym} {m m' : SysModel}
    (h : removeControl v m = (.ok (), m')) : ∃ s ∈ v, s ∈ m.u := by
  unfold removeControl at h
  simp only [Py.bind_eq, Py.get_bind] at h
  obtain ⟨ue, m1, h1, k1⟩ := Py.bind_eq_ok.mp h
  have e1 : m = m1 := (Prod.mk.inj h1).2
  subst e1
  rw [Py.modify_bind] at k1
  obtain ⟨u', m2, h2, -⟩ := Py.bind_eq_ok.mp k1
  rw [removeVars_eq] at h2
  by_contra hc
  rw [if_neg hc] at h2
  cases h2

theorem SysModel.connect_found {u : List Sym} {y : List Expr} {m m' : SysModel}
    (h : SysModel.connect u y false m = (.ok (), m')) :
    u.length = y.length ∧ ∃ s ∈ u, s ∈ m.u := by
  by_cases hl : u.length = y.length
  · refine ⟨hl, ?_⟩
    simp only [SysModel.connect, Py.bind_eq, Py.raiseIf, hl, ne_eq, not_true_eq_false, decide_false,
      Bool.false_eq_true, if_false, Py.pure_bind] at h
    rw [Py.bind_ok (includeEquations_alg ..), Py.bind_ok (includeAlgebraic_none ..)] at h
    obtain ⟨v, hv, hm⟩ := removeControl_found h
    exact ⟨v, hv, hm⟩
  · simp [SysModel.connect, Py.raiseIf, hl] at h

/-- Once an input is no control any more, no connection of it can be made. -/
theorem Net.connectAll_gone {es : List Edge} {m m' : SysModel} {e : Edge}
    (h : Py.forEach es (fun e => SysModel.connect e.u (e.y.map .sym) false) m = (.ok (), m'))
    (he : e ∈ es) (hg : ∀ v ∈ e.u, v ∉ m.u) : False := by
  induction es generalizing m with
  | nil => cases he
  | cons e' es ih =>
    obtain ⟨_, m1, h1, h2⟩ := Py.bind_eq_ok.mp h
    rcases List.mem_cons.mp he with rfl | he
    · obtain ⟨v, hv, hm⟩ := (SysModel.connect_found h1).2
      exact hg v hv hm
    · refine ih h2 he fun v hv => ?_
      rw [(SysModel.connect_vars _ _ _ _ _ h1).2.2]
      exact fun hc => hg v hv (List.mem_of_mem_filter hc)

theorem Net.connectAll_twice {es : List Edge} {m m' : SysModel} {i j : Nat} {e e' : Edge}
    (h : Py.forEach es (fun e => SysModel.connect e.u (e.y.map .sym) false) m = (.ok (), m'))
    (hij : i < j) (hi : es[i]? = some e) (hj : es[j]? = some e') (hs : ∀ v ∈ e'.u, v ∈ e.u) :
    False := by
  induction es generalizing m i j with
  | nil => simp at hi
  | cons e0 es ih =>
    obtain ⟨_, m1, h1, h2⟩ := Py.bind_eq_ok.mp h
    cases j with
    | zero => omega
    | succ j =>
      simp only [List.getElem?_cons_succ] at hj
      cases i with
      | zero =>
        simp only [List.getElem?_cons_zero, Option.some.injEq] at hi
        subst hi
        refine connectAll_gone h2 (List.mem_of_getElem? hj) fun v hv => ?_
        rw [(SysModel.connect_vars _ _ _ _ _ h1).2.2, List.mem_filter]
        simp [hs v hv]
      | succ i => exact ih (i := i) (j := j) h2 (by omega) (by simpa using hi) hj

theorem Net.getModel_ok {s : Network} {t tau : Sym} {m : SysModel} (h : getModel s t tau = .ok m) :
    ∃ rs m1, sortedNodes s = .ok rs ∧
      Py.forEach rs (fun r => includeNodeModel (s.heap r).model) (SysModel.new t tau) = (.ok (), m1) ∧
      Py.forEach (s.graph.edges.map (·.2.2)) (fun e => SysModel.connect e.u (e.y.map .sym) false) m1 =
        (.ok (), m) := by
  simp only [getModel] at h
  cases hs : sortedNodes s with
  | error e => rw [hs] at h; cases h
  | ok rs =>
    rw [hs] at h
    simp only [bind, Except.bind] at h
    split at h
    · cases h
    · next hr =>
      generalize hg : Py.bind _ _ _ = r at hr h
      obtain ⟨r1, r2⟩ := r
      simp only at hr
      subst hr
      obtain ⟨_, m1, h1, h2⟩ := Py.bind_eq_ok.mp hg
      refine ⟨rs, m1, rfl, h1, ?_⟩
      rw [Py.forEach_map, h2]
      cases h
      rfl

theorem Net.zip_sym_filter (l : List Sym) (p : Sym → Bool) :
    ((l.zip (l.map Expr.sym)).filter fun q => p q.1).map Prod.snd = (l.filter p).map Expr.sym := by
  induction l with
  | nil => rfl
  | cons a l ih =>
    simp only [List.map_cons, List.zip_cons_cons, List.filter_cons]
    split <;> simp [ih]

end Verif
