import Verif.Lemmas.Merge
import Verif.Lemmas.Controls
/-!
# C18, C19: merging models, connecting inputs to outputs
-/
namespace Verif
open SysModel

/-- C18. Including a list of models gives the concatenation of everything in argument order, each
equation written in the time of the receiving model. -/
theorem C18_merge_concatenates (m : SysModel) (ks : List SysModel) (h : Spec.Mergeable m ks) :
    includeModels ks m = (.ok (), Spec.merged m ks) := includeModels_run m ks h

/-- C18. `merge` with connecting equations appends them as algebraic equations. -/
theorem C18_merge_connecting (m : SysModel) (ks : List SysModel) (c : List Expr)
    (h : Spec.Mergeable m ks) :
    merge ks (some c) m = (.ok (), { Spec.merged m ks with alg := (Spec.merged m ks).alg ++ c }) ∧
    merge ks none m = (.ok (), Spec.merged m ks) := by
  refine ⟨?_, ?_⟩
  · simp only [merge, Py.bind_eq]
    rw [Py.bind_ok (includeModels_run m ks h), includeEquations_alg]
  · simp only [merge, Py.bind_eq]
    rw [Py.bind_ok (includeModels_run m ks h)]
    rfl

/-- C18. Dynamics are preserved: the equation of each merged state, at any point, has the value of
the state's own equation at the same point with the merged-in model's time set to the time of the
receiving model. -/
theorem C18_dynamics {K : Type u} [Field K] (ops : Expr.Ops K) (m : SysModel)
    (ks : List SysModel) (h : Spec.Mergeable m ks) (k : SysModel) (hk : k ∈ ks) (s : Sym)
    (hs : s ∈ k.x) (ρ ρ' : Sym → K) (htt : k.t ≠ k.tau)
    (hρ : Spec.MovedTo ops [k.t, k.tau] [.sym m.t, .sym m.tau] ρ ρ') :
    ∃ e e', k.ode.get? s = some (some e) ∧ (Spec.merged m ks).ode.get? s = some (some e') ∧
      e'.eval ops ρ = e.eval ops ρ' := by
  have hc := h.complete k hk
  have hsk : s ∈ k.ode.keys := hc.1 ▸ hs
  obtain ⟨⟨s', o⟩, hmem, hs'⟩ := List.mem_map.mp hsk
  simp only at hs'
  subst hs'
  obtain ⟨e, rfl⟩ := Option.isSome_iff_exists.mp (hc.2.2 _ hmem)
  have hget : ∀ (d : Dict Sym (Option Expr)) (o : Option Expr), d.keys.Nodup → (s', o) ∈ d →
      d.get? s' = some o := by
    intro d o hd ho
    obtain ⟨i, hi, hio⟩ := List.getElem_of_mem ho
    exact Dict.get?_of_getElem d hd i s' o (by rw [List.getElem?_eq_getElem hi, hio])
  have hkeys : (Spec.merged m ks).ode.keys = m.ode.keys ++ ks.flatMap (·.x) := by
    simp only [Spec.merged, keys_append]
    congr 1
    have : ∀ l : List SysModel, (∀ j ∈ l, j ∈ ks) →
        Dict.keys (l.flatMap (Spec.retimedOde m)) = l.flatMap (·.x) := by
      intro l
      induction l with
      | nil => intro _; rfl
      | cons j l ih =>
        intro hl
        rw [List.flatMap_cons, List.flatMap_cons, keys_append, keys_retimed,
          (h.complete j (hl j (by simp))).1, ih fun i hi => hl i (by simp [hi])]
    exact this ks fun _ hj => hj
  refine ⟨e, Spec.retime m k e, hget _ _ (hc.1 ▸ hc.2.1) hmem, hget _ _ (hkeys ▸ h.states) ?_,
    Expr.eval_subst ops ρ ρ' _ _ (by simp [htt]) (by simp) hρ.1 hρ.2 e⟩
  simp only [Spec.merged, List.mem_append, List.mem_flatMap]
  exact .inr ⟨k, hk, List.mem_map.mpr ⟨_, hmem, rfl⟩⟩

/-- C18. No equation of the merged model refers to the time symbols of a merged-in model. -/
theorem C18_no_foreign_time (m : SysModel) (ks : List SysModel) (h : Spec.Mergeable m ks)
    (k : SysModel) (hk : k ∈ ks) :
    ∀ e ∈ Spec.equations (Spec.merged m ks), k.t ∉ e.syms ∧ k.tau ∉ e.syms := by
  have hkey : ∀ s, (s = k.t ∨ s = k.tau) → ¬ ∃ e ∈ Spec.equations (Spec.merged m ks), s ∈ e.syms := by
    rintro s hs ⟨e, he, hse⟩
    rcases brings_merged_own m ks (fun j hj => h.own j hj) s (.inl ⟨e, he, hse⟩) with
      hb | hb | hb | ⟨j, hj, hb, hne⟩
    · rcases hs with rfl | rfl
      exacts [(h.base k hk).1 hb, (h.base k hk).2 hb]
    · rcases hs with rfl | rfl
      exacts [(h.times k hk).1 hb, (h.times k hk).2.2.1 hb]
    · rcases hs with rfl | rfl
      exacts [(h.times k hk).2.1 hb, (h.times k hk).2.2.2 hb]
    · by_cases hjk : j = k
      · subst hjk
        rcases hs with rfl | rfl
        exacts [hne.1 rfl, hne.2 rfl]
      · have hsym : Std.Symm fun j k : SysModel =>
            (¬ Spec.Brings j k.t ∧ ¬ Spec.Brings j k.tau) ∧
            ¬ Spec.Brings k j.t ∧ ¬ Spec.Brings k j.tau := ⟨fun _ _ h => ⟨h.2, h.1⟩⟩
        have := (h.others.forall hj hk hjk).1
        rcases hs with rfl | rfl
        exacts [this.1 hb, this.2 hb]
  exact fun e he => ⟨fun hs => hkey _ (.inl rfl) ⟨e, he, hs⟩, fun hs => hkey _ (.inr rfl) ⟨e, he, hs⟩⟩

/-- C18. A model that lacks an equation for some state is refused with `AssertionError` (its
variables stay in the receiving model), a model with a state the receiver has already with
`ValueError`. -/
theorem C18_refused (m k : SysModel) :
    (k.x.Nodup → (∀ s ∈ k.x, s ∉ m.ode.keys) → k.odeVec.length ≠ k.x.length →
      (includeModel k m).1 = .error .assertionError ∧ (includeModel k m).2.x = m.x ++ k.x) ∧
    ((∃ s ∈ k.x, s ∈ m.ode.keys) → (includeModel k m).1 = .error .valueError) := by
  refine ⟨fun hn hs hl => ?_, fun ⟨s, hs, hm⟩ => ?_⟩
  · unfold includeModel
    simp only [Py.bind_eq]
    rw [Py.bind_ok ((includeState_ok_iff k.x none (some k.x0) 0 m _).mpr
      ⟨by simp, hn, hs, by simp, rfl⟩)]
    simp only [includeControl, includeParameter, includeTheta]
    rw [Py.bind_ok (includeAlgebraic_none ..), Py.modify_bind, Py.modify_bind, Py.modify_bind]
    have : ∀ mm, includeEquations [] (some k.odeVec) (some k.x) k.alg mm =
        (.error .assertionError, { mm with alg := mm.alg ++ k.alg }) := by
      intro mm
      rw [includeEquations_ode_x, includeFromKwargs, if_pos hl]
    rw [Py.bind_error (this _)]
    exact ⟨rfl, rfl⟩
  · have hslot : (Py.forEach k.x addSlot { m with x := m.x ++ k.x, x0 := m.x0 ++ k.x0 }).1 =
        .error .valueError := by
      match hr : Py.forEach k.x addSlot { m with x := m.x ++ k.x, x0 := m.x0 ++ k.x0 } with
      | (.ok (), m') =>
        exact absurd hm (((addSlots_ok_iff ..).mp hr).2.1 s hs)
      | (.error er, m') =>
        have := addSlots_error k.x _ er (by rw [hr])
        rw [this]
    generalize hr : Py.forEach k.x addSlot _ = r at hslot
    obtain ⟨a, b⟩ := r
    simp only at hslot
    subst hslot
    have hstate : includeState k.x none (some k.x0) 0 m = (.error .valueError, b) := by
      unfold includeState
      simp only [Py.bind_eq, Py.modify_bind, Py.pure_bind]
      rw [Py.bind_error hr]
    unfold includeModel
    simp only [Py.bind_eq]
    rw [Py.bind_error hstate]

/-- Non-vacuity of `Mergeable`: two models with time-varying equations. -/
def exampleMergeBase : SysModel :=
  { t := 0, tau := 1, x := [2], ode := [(2, some (.mul (.sym 0) (.sym 2)))], u := [3],
    uExpr := [.sym 3], uPar := [3] }

/-- The models merged in. -/
def exampleMergeParts : List SysModel :=
  [{ t := 10, tau := 11, x := [12], ode := [(12, some (.mul (.sym 10) (.sym 13)))], u := [13],
     uExpr := [.sym 13], uPar := [13], alg := [.sym 11], y := [14] },
   { t := 20, tau := 21, x := [22], ode := [(22, some (.sym 20))] }]

example : Spec.Mergeable exampleMergeBase exampleMergeParts := by
  refine ⟨?_, ?_, ?_, ?_, ?_, ?_⟩ <;>
    simp [exampleMergeBase, exampleMergeParts, Spec.Complete, Spec.Brings, Spec.equations,
      odeVec, Dict.values, Dict.keys, Expr.syms]

example : (merge exampleMergeParts (some [.sub (.sym 3) (.sym 14)]) exampleMergeBase).2.odeVec =
    [.mul (.sym 0) (.sym 2), .mul (.sym 0) (.sym 13), .sym 0] := by decide +kernel

/-! ### C19 -/

/-- C19. Connecting inputs to outputs without replacement: as many algebraic equations as algebraic
variables are added, exactly the connected inputs leave the control vector, and the added
equations vanish at a point iff each input equals its output there. -/
theorem C19_connect_square {K : Type u} [Field K] (ops : Expr.Ops K) (m : SysModel) (u : List Sym)
    (y : List Expr) (hl : u.length = y.length) (hm : m.u.length = m.uExpr.length)
    (hu : ∃ s ∈ u, s ∈ m.u) (hp : ∃ s ∈ u, s ∈ m.uPar) :
    ∃ m' r, connect u y false m = (.ok (), m') ∧
      m'.y = m.y ++ u ∧ m'.alg = m.alg ++ r ∧ r.length = u.length ∧
      m'.y.length + m.alg.length = m.y.length + m'.alg.length ∧
      m'.u = m.u.filter (fun s => decide (s ∉ u)) ∧
      m'.u.zip m'.uExpr = (m.u.zip m.uExpr).filter (fun p => decide (p.1 ∉ u)) ∧
      m'.uPar = m.uPar.filter (fun s => decide (s ∉ u)) ∧
      m'.x = m.x ∧ m'.ode = m.ode ∧
      ∀ ρ : Sym → K, (∀ e ∈ r, e.eval ops ρ = 0) ↔
        u.map ρ = y.map (Expr.eval ops ρ) := by
  have hrun : connect u y false m = (.ok (), { m with
      alg := m.alg ++ u.zipWith (fun a b => Expr.sub (.sym a) b) y
      y := m.y ++ u
      uExpr := ((m.u.zip m.uExpr).filter fun p => decide (p.1 ∉ u)).map Prod.snd
      u := m.u.filter fun a => decide (a ∉ u)
      uPar := m.uPar.filter fun a => decide (a ∉ u) }) := by
    simp only [connect, Py.bind_eq, Py.raiseIf, hl, ne_eq, not_true_eq_false, decide_false,
      Bool.false_eq_true, if_false, Py.pure_bind]
    rw [Py.bind_ok (includeEquations_alg ..), Py.bind_ok (includeAlgebraic_none ..),
      removeControl_run _ _ (by exact hm), if_pos (by exact hu)]
    simp only
    rw [if_pos hp, ← removeControl_pairs u m hm]
  refine ⟨_, _, hrun, rfl, rfl, by simp [hl], ?_, rfl, ?_, rfl, rfl, rfl, fun ρ => ?_⟩
  · simp only [List.length_append, List.length_zipWith]
    omega
  · simp only
    have : (m.u.filter fun a => decide (a ∉ u)) =
        ((m.u.zip m.uExpr).filter fun p => decide (p.1 ∉ u)).map Prod.fst := by
      conv_lhs => rw [← List.map_fst_zip (l₁ := m.u) (l₂ := m.uExpr) (by omega)]
      rw [List.filter_map]; rfl
    rw [this, List.zip_map', List.map_id'' (by simp)]
  · clear hrun hu hp
    induction u generalizing y with
    | nil =>
      cases y with
      | nil => simp
      | cons b y => simp at hl
    | cons a u ih =>
      cases y with
      | nil => simp at hl
      | cons b y =>
        have := ih y (by simpa using hl)
        simp only [List.zipWith_cons_cons, List.mem_cons, forall_eq_or_imp, List.map_cons,
          List.cons.injEq, this, Expr.eval, sub_eq_zero]

/-- C19. With `replace=True` the equations are the old ones evaluated with `u` set to `y`, no
algebraic variable or equation is added, and the connected inputs leave the control vector. -/
theorem C19_connect_replace {K : Type u} [Field K] (ops : Expr.Ops K) (m : SysModel) (u : List Sym)
    (y : List Expr) (hn : u.Nodup) (hl : u.length = y.length) (hm : m.u.length = m.uExpr.length)
    (hu : ∃ s ∈ u, s ∈ m.u) (hp : ∃ s ∈ u, s ∈ m.uPar) :
    ∃ m', connect u y true m = (.ok (), m') ∧
      m'.y = m.y ∧ m'.x = m.x ∧
      m'.u = m.u.filter (fun s => decide (s ∉ u)) ∧
      m'.uPar = m.uPar.filter (fun s => decide (s ∉ u)) ∧
      ∀ ρ ρ' : Sym → K, Spec.MovedTo ops u y ρ ρ' →
        Spec.odeAt ops ρ m' = Spec.odeAt ops ρ' m ∧
        m'.alg.map (Expr.eval ops ρ) = m.alg.map (Expr.eval ops ρ') ∧
        m'.uExpr.map (Expr.eval ops ρ) =
          ((m.u.zip m.uExpr).filter fun p => decide (p.1 ∉ u)).map
            fun p => p.2.eval ops ρ' := by
  have hrep : (replaceVariable u y m).1 = .ok () := by
    rw [replaceVariable, if_neg (not_not.mpr hl)]
  have hf : (replaceVariable u y m).2.u = m.u ∧ (replaceVariable u y m).2.uPar = m.uPar ∧
      (replaceVariable u y m).2.y = m.y ∧ (replaceVariable u y m).2.x = m.x ∧
      (replaceVariable u y m).2.uExpr = m.uExpr.map (Expr.subst u y) ∧
      (replaceVariable u y m).2.alg = m.alg.map (Expr.subst u y) := by
    rw [replaceVariable, if_neg (not_not.mpr hl)]
    exact ⟨rfl, rfl, rfl, rfl, rfl, rfl⟩
  have hode := fun (ρ ρ' : Sym → K) (hρ : Spec.MovedTo ops u y ρ ρ') =>
    odeAt_replace ops m u y hn hl ρ ρ' hρ
  generalize hr : replaceVariable u y m = r at hrep hf hode
  obtain ⟨o, m₁⟩ := r
  simp only at hrep hf hode
  subst hrep
  obtain ⟨h₁, h₂, h₃, h₄, h₅, h₆⟩ := hf
  have hlen : m₁.u.length = m₁.uExpr.length := by rw [h₁, h₅, List.length_map, hm]
  have hrun : connect u y true m = (.ok (), { m₁ with
      uExpr := ((m₁.u.zip m₁.uExpr).filter fun p => decide (p.1 ∉ u)).map Prod.snd
      u := m₁.u.filter fun a => decide (a ∉ u)
      uPar := m₁.uPar.filter fun a => decide (a ∉ u) }) := by
    simp only [connect, Py.bind_eq, Py.raiseIf, hl, ne_eq, not_true_eq_false, decide_false,
      Bool.false_eq_true, if_false, if_true, Py.pure_bind]
    rw [Py.bind_ok hr, removeControl_run _ _ hlen, if_pos (h₁ ▸ hu)]
    simp only
    rw [if_pos (h₂ ▸ hp), ← removeControl_pairs u m₁ hlen]
  refine ⟨_, hrun, h₃, h₄, by rw [h₁], by rw [h₂], fun ρ ρ' hρ => ?_⟩
  have he := Expr.eval_subst ops ρ ρ' u y hn hl hρ.1 hρ.2
  refine ⟨hode ρ ρ' hρ, ?_, ?_⟩
  · simp [h₆, he, Function.comp_def]
  · simp only [h₁, h₅, List.map_map, List.zip_map_right, List.filter_map]
    simp [Function.comp_def, he]

/-- C19. Different sizes raise `AssertionError` and change nothing. -/
theorem C19_size_mismatch (m : SysModel) (u : List Sym) (y : List Expr) (r : Bool)
    (h : u.length ≠ y.length) : connect u y r m = (.error .assertionError, m) := by
  simp [connect, Py.raiseIf, h]

/-- C19. Connecting symbols of which none is a control raises `ValueError`; without replacement the
equations and algebraic variables added before stay in the model. -/
theorem C19_unknown_input (m : SysModel) (u : List Sym) (y : List Expr)
    (hl : u.length = y.length) (hm : m.u.length = m.uExpr.length) (hu : ∀ s ∈ u, s ∉ m.u) :
    connect u y false m = (.error .valueError, { m with
      alg := m.alg ++ u.zipWith (fun a b => Expr.sub (.sym a) b) y
      y := m.y ++ u }) := by
  simp only [connect, Py.bind_eq, Py.raiseIf, hl, ne_eq, not_true_eq_false, decide_false,
    Bool.false_eq_true, if_false, Py.pure_bind]
  rw [Py.bind_ok (includeEquations_alg ..), Py.bind_ok (includeAlgebraic_none ..),
    removeControl_run _ _ (by exact hm), if_neg]
  rintro ⟨s, hs, hs'⟩
  exact hu s hs hs'

/-- Connecting input 3 of the merged example to output 14, both ways. -/
example : (connect [3] [.sym 14] false
    (includeModels exampleMergeParts exampleMergeBase).2).2.alg =
      [.sym 1, .sub (.sym 3) (.sym 14)] ∧
    (connect [3] [.sym 14] false (includeModels exampleMergeParts exampleMergeBase).2).2.u = [13] ∧
    (connect [13] [.sym 2] true (includeModels exampleMergeParts exampleMergeBase).2).2.odeVec =
      [.mul (.sym 0) (.sym 2), .mul (.sym 0) (.sym 2), .sym 0] := by decide +kernel

end Verif
