import Verif.Spec.NetJoint
import Verif.Lemmas.NetProblem
import Verif.Props.NetworkModel
/-!
# Lemmas on the problem of a network as one problem
-/
namespace Verif.NetJoint
open Verif Spec Net

section
variable {K : Type} [Field K] [LinearOrder K] {n : Nat}

/-- The value respects a lower bound. -/
def AboveAll (l : List (Sym × XRat)) (val : Sym → K) : Prop :=
  ∀ p ∈ l, p.2 ≠ ⊤ ∧ ∀ q : Rat, p.2 = XRat.fin q → (q : K) ≤ val p.1

/-- The value respects an upper bound. -/
def BelowAll (l : List (Sym × XRat)) (val : Sym → K) : Prop :=
  ∀ p ∈ l, p.2 ≠ ⊥ ∧ ∀ q : Rat, p.2 = XRat.fin q → val p.1 ≤ (q : K)

theorem allWithin_iff {lo hi : List XRat} {vars : List Sym} (h₁ : lo.length = vars.length)
    (h₂ : hi.length = vars.length) (val : Sym → K) :
    AllWithin lo hi vars val ↔ AboveAll (bounds vars lo) val ∧ BelowAll (bounds vars hi) val := by
  unfold AllWithin AboveAll BelowAll bounds
  induction vars generalizing lo hi with
  | nil => simp
  | cons v vars ih =>
    cases lo with
    | nil => simp at h₁
    | cons a lo =>
      cases hi with
      | nil => simp at h₂
      | cons b hi =>
        have := ih (lo := lo) (hi := hi) (by simpa using h₁) (by simpa using h₂)
        simp only [List.zip_cons_cons, List.mem_cons, forall_eq_or_imp, this, Within]
        tauto

theorem all_without {P : Sym × XRat → Prop} {l new : List (Sym × XRat)} {ins : List Sym}
    (hn : (l.map Prod.fst).Nodup) (hf : new.map Prod.fst = ins)
    (hl : ∀ p ∈ new, l.lookup p.1 = some p.2) :
    ((∀ p ∈ new, P p) ∧ ∀ p ∈ boundsWithout ins l, P p) ↔ ∀ p ∈ l, P p := by
  unfold boundsWithout
  constructor
  · rintro ⟨h₁, h₂⟩ p hp
    by_cases hi : p.1 ∈ ins
    · rw [← hf] at hi
      obtain ⟨q, hq, e⟩ := List.mem_map.1 hi
      have := hl q hq
      rw [e, lookup_of_mem hn hp] at this
      have : p = q := Prod.ext e.symm (Option.some.inj this)
      exact this ▸ h₁ q hq
    · exact h₂ p (List.mem_filter.2 ⟨hp, by simpa using hi⟩)
  · refine fun h => ⟨fun p hp => h p ?_, fun p hp => h p (List.mem_filter.1 hp).1⟩
    have := hl p hp
    obtain ⟨l₁, l₂, e, -⟩ := List.lookup_eq_some_iff.1 this
    rw [e]
    simp

theorem all_flatMap {α β : Type} {P : β → Prop} {l : List α} {f : α → List β} :
    (∀ p ∈ l.flatMap f, P p) ↔ ∀ a ∈ l, ∀ p ∈ f a, P p := by
  simp only [List.mem_flatMap]
  exact ⟨fun h a ha p hp => h p ⟨a, ha, hp⟩, fun h p ⟨a, ha, hp⟩ => h a ha p hp⟩

omit [LinearOrder K] in
theorem eval_retime (ops : Expr.Ops K) (ρ : Sym → K) (m k : SysModel) (h₁ : ρ k.t = ρ m.t)
    (h₂ : ρ k.tau = ρ m.tau) (e : Expr) : (retime m k e).eval ops ρ = e.eval ops ρ := by
  unfold retime Expr.subst
  rw [Expr.eval_mapSyms]
  congr 1
  funext s
  simp only [Expr.replacementOf]
  split
  · next h => subst h; exact h₁.symm
  · split
    · next h => subst h; exact h₂.symm
    · rfl

omit [LinearOrder K] in
theorem matrixScheme_modular [LinearOrder K] (ops : Expr.Ops K) (weight : Fin n → K) (holds : String → Fin n → Prop)
    (d : Fin n → Fin n → K) (rows : Fin n → Prop) (first final : Fin n) :
    (matrixScheme ops weight holds d rows first final).Modular ops where
  dynamicsNil tr := by intro p hp; cases hp
  dynamicsAppend x x' f f' tr _ _ := by
    simp only [matrixScheme, List.mem_append, or_imp, forall_and]
  dynamicsValues x f g tr h := by
    simp only [matrixScheme, List.mem_map, forall_exists_index, and_imp, forall_apply_eq_imp_iff₂,
      Option.map_eq_some_iff, h]
  boundaryNil tr := by simp [matrixScheme]
  boundaryAppend h h' hi hi' hf hf' x x' tr := by
    simp only [matrixScheme, List.mem_append, or_imp, forall_and]
    tauto
  inequalitiesNil tr := by simp [matrixScheme]
  inequalitiesAppend g g' t t' tr hl := by
    simp only [matrixScheme, List.zip_append hl, List.mem_append, or_imp, forall_and]

omit [LinearOrder K] in
theorem dynamics_all {sch : Scheme K n} {ops : Expr.Ops K} (hm : sch.Modular ops) (tr : GridValues K n)
    (m : SysModel) (ms : List SysModel) (hc : ∀ k ∈ ms, k.ode.keys = k.x)
    (ht : ∀ k ∈ ms, ∀ i, tr i k.t = tr i m.t ∧ tr i k.tau = tr i m.tau) :
    sch.dynamics (ms.flatMap (·.x)) (ms.flatMap (retimedOde m)) tr ↔
      ∀ k ∈ ms, sch.dynamics k.x k.ode tr := by
  induction ms with
  | nil => simpa using hm.dynamicsNil tr
  | cons k ms ih =>
    have hk : (retimedOde m k).keys = k.x := by
      rw [← hc k (by simp)]
      simp [retimedOde, Dict.keys]
    have hks : Dict.keys (ms.flatMap (retimedOde m)) = ms.flatMap (·.x) := by
      have : ∀ j ∈ ms, (retimedOde m j).map Prod.fst = j.x := fun j hj => by
        rw [← hc j (by simp [hj])]
        simp [retimedOde, Dict.keys]
      simp only [Dict.keys, List.map_flatMap]
      exact List.flatMap_congr this
    rw [List.flatMap_cons, List.flatMap_cons, hm.dynamicsAppend _ _ _ _ _ hk hks,
      ih (fun j hj => hc j (by simp [hj])) (fun j hj => ht j (by simp [hj])), List.forall_mem_cons]
    refine and_congr_left fun _ => ?_
    exact hm.dynamicsValues _ _ _ _ fun e i =>
      eval_retime ops (tr i) m k (ht k (by simp) i).1 (ht k (by simp) i).2 e

omit [LinearOrder K] in
theorem boundary_all {sch : Scheme K n} {ops : Expr.Ops K} (hm : sch.Modular ops) (tr : GridValues K n)
    (ks : List Ocp) :
    sch.boundary (ks.flatMap (·.h)) (ks.flatMap (·.hInitial)) (ks.flatMap (·.hFinal))
        (ks.flatMap fun k => k.model.x.zip k.x0) tr ↔
      ∀ k ∈ ks, sch.boundary k.h k.hInitial k.hFinal (k.model.x.zip k.x0) tr := by
  induction ks with
  | nil => simpa using hm.boundaryNil tr
  | cons k ks ih =>
    simp only [List.flatMap_cons, hm.boundaryAppend, ih, List.forall_mem_cons]

omit [LinearOrder K] in
theorem inequalities_all {sch : Scheme K n} {ops : Expr.Ops K} (hm : sch.Modular ops)
    (tr : GridValues K n) (ks : List Ocp) (ht : ∀ k ∈ ks, k.timeGIneq.length = k.gIneq.length) :
    sch.inequalities (ks.flatMap (·.gIneq)) (ks.flatMap (·.timeGIneq)) tr ↔
      ∀ k ∈ ks, sch.inequalities k.gIneq k.timeGIneq tr := by
  induction ks with
  | nil => simpa using hm.inequalitiesNil tr
  | cons k ks ih =>
    simp only [List.flatMap_cons, hm.inequalitiesAppend _ _ _ _ _ (ht k (by simp)).symm,
      ih fun j hj => ht j (by simp [hj]), List.forall_mem_cons]

theorem zip_flatMap {α β γ : Type} (ks : List γ) (f : γ → List α) (g : γ → List β)
    (h : ∀ k ∈ ks, (f k).length = (g k).length) :
    (ks.flatMap f).zip (ks.flatMap g) = ks.flatMap fun k => (f k).zip (g k) := by
  induction ks with
  | nil => rfl
  | cons k ks ih =>
    rw [List.flatMap_cons, List.flatMap_cons, List.flatMap_cons, List.zip_append (h k (by simp)),
      ih fun j hj => h j (by simp [hj])]

omit [LinearOrder K] in
/-- The equations of connections hold when inputs have the values of outputs. -/
theorem equations_zero (ops : Expr.Ops K) (ρ : Sym → K) (es : List Edge) :
    (∀ e ∈ equationsOf es, e.eval ops ρ = 0) ↔ ∀ e ∈ es, ∀ p ∈ e.u.zip e.y, ρ p.1 = ρ p.2 := by
  unfold equationsOf
  rw [all_flatMap]
  refine forall₂_congr fun e _ => ?_
  rw [← List.map_uncurry_zip_eq_zipWith]
  simp only [List.mem_map, forall_exists_index, and_imp, forall_apply_eq_imp_iff₂, Function.uncurry_def,
    Expr.eval, sub_eq_zero]

/-- What `get_problem` returns, with the parts that matter for solutions. -/
structure Parts (o : Ocp) (ks : List Ocp) (m : SysModel) (es : List Edge) : Prop where
  sized : Sized o
  model : o.model = joined (merged m (ks.map (·.model))) es
  costs : ∀ {K : Type} [Field K] (ops : Expr.Ops K) (ρ : Sym → K),
      o.L.eval ops ρ = (ks.map fun k => k.L.eval ops ρ).sum ∧
      o.V.eval ops ρ = (ks.map fun k => k.V.eval ops ρ).sum ∧
      o.S.eval ops ρ = (ks.map fun k => k.S.eval ops ρ).sum
  constraints : o.gEq = ks.flatMap (·.gEq) ∧ o.gIneq = ks.flatMap (·.gIneq) ∧
      o.timeGEq = ks.flatMap (·.timeGEq) ∧ o.timeGIneq = ks.flatMap (·.timeGIneq) ∧
      o.h = ks.flatMap (·.h) ∧ o.hInitial = ks.flatMap (·.hInitial) ∧
      o.hFinal = ks.flatMap (·.hFinal)
  states : bounds o.model.x o.x0 = ks.flatMap (fun k => bounds k.model.x k.x0) ∧
      bounds o.model.x o.xMax = ks.flatMap (fun k => bounds k.model.x k.xMax) ∧
      bounds o.model.x o.xMin = ks.flatMap (fun k => bounds k.model.x k.xMin)
  controls : bounds o.model.u o.uMax = boundsWithout (inputsOf es)
        (ks.flatMap fun k => bounds k.model.u k.uMax) ∧
      bounds o.model.u o.uMin = boundsWithout (inputsOf es)
        (ks.flatMap fun k => bounds k.model.u k.uMin) ∧
      bounds o.model.u o.duMax = boundsWithout (inputsOf es)
        (ks.flatMap fun k => bounds k.model.u k.duMax) ∧
      bounds o.model.u o.duMin = boundsWithout (inputsOf es)
        (ks.flatMap fun k => bounds k.model.u k.duMin)
  upper : ∃ new, bounds o.model.y o.yMax = ks.flatMap (fun k => bounds k.model.y k.yMax) ++ new ∧
      new.map Prod.fst = inputsOf es ∧
      ∀ p ∈ new, (ks.flatMap fun k => bounds k.model.u k.uMax).lookup p.1 = some p.2
  lower : ∃ new, bounds o.model.y o.yMin = ks.flatMap (fun k => bounds k.model.y k.yMin) ++ new ∧
      new.map Prod.fst = inputsOf es ∧
      ∀ p ∈ new, (ks.flatMap fun k => bounds k.model.u k.uMin).lookup p.1 = some p.2

theorem fst_bounds {α : Type} {vars : List Sym} {b : List α} (h : b.length = vars.length) :
    (bounds vars b).map Prod.fst = vars := by
  unfold bounds
  rw [List.map_fst_zip (by omega)]

theorem fst_flatMap {α : Type} (ks : List Ocp) (f : Ocp → List Sym) (b : Ocp → List α)
    (h : ∀ k ∈ ks, (b k).length = (f k).length) :
    (ks.flatMap fun k => bounds (f k) (b k)).map Prod.fst = ks.flatMap f := by
  rw [List.map_flatMap]
  exact List.flatMap_congr fun k hk => fst_bounds (h k hk)

theorem satisfies_iff {o : Ocp} {ks : List Ocp} {t tau : Sym} {es : List Edge}
    (h : Parts o ks (SysModel.new t tau) es) (hs : ∀ k ∈ ks, Sized k)
    (htag : ∀ k ∈ ks, k.timeGEq.length = k.gEq.length ∧ k.timeGIneq.length = k.gIneq.length)
    (hu : (ks.flatMap (·.model.u)).Nodup) (hc : ∀ k ∈ ks, k.model.ode.keys = k.model.x)
    (hr : ∀ v ∈ inputsOf es, ∀ k ∈ ks, v ∈ k.model.u →
      (bounds k.model.u k.duMax).lookup v = some ⊤ ∧ (bounds k.model.u k.duMin).lookup v = some ⊥)
    {sch : Scheme K n} {ops : Expr.Ops K} (hm : sch.Modular ops) (hf : FreeControls sch)
    (tr : GridValues K n)
    (ht : ∀ k ∈ ks, ∀ i, tr i k.model.t = tr i t ∧ tr i k.model.tau = tr i tau) :
    SatisfiesAll ops sch o tr ↔ (∀ k ∈ ks, SatisfiesAll ops sch k tr) ∧
      ∀ i, ∀ e ∈ es, ∀ p ∈ e.u.zip e.y, tr i p.1 = tr i p.2 := by
  obtain ⟨g1, g2, g3, g4, g5, g6, g7⟩ := h.constraints
  have hS := h.sized
  have ex : ∀ i, AllWithin o.xMin o.xMax o.model.x (tr i) ↔
      ∀ k ∈ ks, AllWithin k.xMin k.xMax k.model.x (tr i) := by
    intro i
    rw [allWithin_iff hS.xMin hS.xMax, h.states.2.1, h.states.2.2, AboveAll, BelowAll, all_flatMap,
      all_flatMap, ← forall₂_and]
    exact forall₂_congr fun k hk => (allWithin_iff (hs k hk).xMin (hs k hk).xMax _).symm
  have eyu : ∀ i, (AllWithin o.yMin o.yMax o.model.y (tr i) ∧ AllWithin o.uMin o.uMax o.model.u (tr i)) ↔
      ∀ k ∈ ks, AllWithin k.yMin k.yMax k.model.y (tr i) ∧ AllWithin k.uMin k.uMax k.model.u (tr i) := by
    intro i
    obtain ⟨up, u1, u2, u3⟩ := h.upper
    obtain ⟨lo, l1, l2, l3⟩ := h.lower
    rw [allWithin_iff hS.yMin hS.yMax, allWithin_iff hS.uMin hS.uMax, u1, l1, h.controls.1,
      h.controls.2.1]
    have eU := all_without (P := fun p => p.2 ≠ ⊥ ∧ ∀ q : Rat, p.2 = XRat.fin q → tr i p.1 ≤ (q : K))
      (by rw [fst_flatMap ks (·.model.u) (·.uMax) fun k hk => (hs k hk).uMax]; exact hu) u2 u3
    have eL := all_without (P := fun p => p.2 ≠ ⊤ ∧ ∀ q : Rat, p.2 = XRat.fin q → (q : K) ≤ tr i p.1)
      (by rw [fst_flatMap ks (·.model.u) (·.uMin) fun k hk => (hs k hk).uMin]; exact hu) l2 l3
    have : (∀ k ∈ ks, AllWithin k.yMin k.yMax k.model.y (tr i) ∧ AllWithin k.uMin k.uMax k.model.u (tr i)) ↔
        (∀ k ∈ ks, AboveAll (bounds k.model.y k.yMin) (tr i)) ∧
        (∀ k ∈ ks, BelowAll (bounds k.model.y k.yMax) (tr i)) ∧
        (∀ k ∈ ks, AboveAll (bounds k.model.u k.uMin) (tr i)) ∧
        (∀ k ∈ ks, BelowAll (bounds k.model.u k.uMax) (tr i)) := by
      simp only [← forall₂_and]
      refine forall₂_congr fun k hk => ?_
      rw [allWithin_iff (hs k hk).yMin (hs k hk).yMax, allWithin_iff (hs k hk).uMin (hs k hk).uMax,
        and_assoc]
    rw [this]
    simp only [AboveAll, BelowAll, List.forall_mem_append]
    simp only [← all_flatMap]
    rw [← eU, ← eL]
    tauto
  have edu : ∀ val : Sym → K, AllWithin o.duMin o.duMax o.model.u val ↔
      ∀ k ∈ ks, AllWithin k.duMin k.duMax k.model.u val := by
    intro val
    rw [allWithin_iff hS.duMin hS.duMax, h.controls.2.2.1, h.controls.2.2.2]
    have : (∀ k ∈ ks, AllWithin k.duMin k.duMax k.model.u val) ↔
        (∀ k ∈ ks, AboveAll (bounds k.model.u k.duMin) val) ∧
        ∀ k ∈ ks, BelowAll (bounds k.model.u k.duMax) val := by
      simp only [← forall₂_and]
      exact forall₂_congr fun k hk => allWithin_iff (hs k hk).duMin (hs k hk).duMax _
    rw [this]
    have free : ∀ (P : Sym × XRat → Prop) (b : Ocp → List XRat) (c : XRat),
        (∀ k ∈ ks, (b k).length = k.model.u.length) →
        (∀ v ∈ inputsOf es, ∀ k ∈ ks, v ∈ k.model.u → (bounds k.model.u (b k)).lookup v = some c) →
        (∀ v, P (v, c)) →
        ((∀ p ∈ boundsWithout (inputsOf es) (ks.flatMap fun k => bounds k.model.u (b k)), P p) ↔
          ∀ k ∈ ks, ∀ p ∈ bounds k.model.u (b k), P p) := by
      intro P b c hb hl hP
      rw [← all_flatMap]
      unfold boundsWithout
      refine ⟨fun H p hp => ?_, fun H p hp => H p (List.mem_filter.1 hp).1⟩
      by_cases hi : p.1 ∈ inputsOf es
      · obtain ⟨k, hk, hpk⟩ := List.mem_flatMap.1 hp
        have hv : p.1 ∈ k.model.u := (List.of_mem_zip hpk).1
        have e := hl p.1 hi k hk hv
        rw [lookup_of_mem (by
          rw [fst_bounds (hb k hk)]
          exact (List.nodup_flatMap.1 hu).1 k hk) hpk] at e
        have : p = (p.1, c) := Prod.ext rfl (Option.some.inj e)
        rw [this]
        exact hP _
      · exact H p (List.mem_filter.2 ⟨hp, by simpa using hi⟩)
    unfold AboveAll BelowAll
    rw [free _ (·.duMin) ⊥ (fun k hk => (hs k hk).duMin) (fun v hv k hk hvk => (hr v hv k hk hvk).2)
        (fun v => ⟨by simp, by intro q hq; cases hq⟩),
      free _ (·.duMax) ⊤ (fun k hk => (hs k hk).duMax) (fun v hv k hk hvk => (hr v hv k hk hvk).1)
        (fun v => ⟨by simp, by intro q hq; cases hq⟩)]
  have ealg : ∀ i, (∀ e ∈ o.model.alg, e.eval ops (tr i) = 0) ↔
      (∀ k ∈ ks, ∀ e ∈ k.model.alg, e.eval ops (tr i) = 0) ∧
        ∀ e ∈ es, ∀ p ∈ e.u.zip e.y, tr i p.1 = tr i p.2 := by
    intro i
    rw [h.model]
    simp only [joined, merged, List.forall_mem_append, equations_zero, SysModel.new, List.not_mem_nil,
      false_imp_iff, implies_true, true_and, List.flatMap_map, all_flatMap]
    refine and_congr_left fun _ => forall₂_congr fun k hk => ?_
    simp only [List.mem_map, forall_exists_index, and_imp, forall_apply_eq_imp_iff₂]
    exact forall₂_congr fun e _ => by
      rw [eval_retime ops (tr i) _ _ (ht k hk i).1 (ht k hk i).2]
  have eeq : (∀ p ∈ o.gEq.zip o.timeGEq, ∀ i, sch.holds p.2 i → p.1.eval ops (tr i) = 0) ↔
      ∀ k ∈ ks, ∀ p ∈ k.gEq.zip k.timeGEq, ∀ i, sch.holds p.2 i → p.1.eval ops (tr i) = 0 := by
    rw [g1, g3, zip_flatMap _ _ _ fun k hk => (htag k hk).1.symm, all_flatMap]
  have eineq : sch.inequalities o.gIneq o.timeGIneq tr ↔
      ∀ k ∈ ks, sch.inequalities k.gIneq k.timeGIneq tr := by
    rw [g2, g4, inequalities_all hm _ _ fun k hk => (htag k hk).2]
  have edyn : sch.dynamics o.model.x o.model.ode tr ↔ ∀ k ∈ ks, sch.dynamics k.model.x k.model.ode tr := by
    rw [h.model]
    simp only [joined, merged]
    have := dynamics_all hm tr (SysModel.new t tau) (ks.map (·.model)) (by simpa using hc)
      (by simpa [SysModel.new] using ht)
    simpa [SysModel.new] using this
  have ebd : sch.boundary o.h o.hInitial o.hFinal (o.model.x.zip o.x0) tr ↔
      ∀ k ∈ ks, sch.boundary k.h k.hInitial k.hFinal (k.model.x.zip k.x0) tr := by
    have := h.states.1
    unfold bounds at this
    rw [g5, g6, g7, this, boundary_all hm]
  constructor
  · intro f
    refine ⟨fun k hk => ⟨fun i => (ex i).1 (f.x i) k hk, fun i => ((eyu i).1 ⟨f.y i, f.u i⟩ k hk).1,
      fun i => ((eyu i).1 ⟨f.y i, f.u i⟩ k hk).2, fun _ _ => hf _, fun s hs => (edu _).1 (f.du s hs) k hk,
      fun i => ((ealg i).1 (f.alg i)).1 k hk, eeq.1 f.eq k hk, eineq.1 f.ineq k hk,
      edyn.1 f.dynamics k hk, ebd.1 f.boundary k hk⟩, fun i => ((ealg i).1 (f.alg i)).2⟩
  · rintro ⟨f, a⟩
    exact ⟨fun i => (ex i).2 fun k hk => (f k hk).x i,
      fun i => ((eyu i).2 fun k hk => ⟨(f k hk).y i, (f k hk).u i⟩).1,
      fun i => ((eyu i).2 fun k hk => ⟨(f k hk).y i, (f k hk).u i⟩).2, fun _ _ => hf _,
      fun s hs => (edu _).2 fun k hk => (f k hk).du s hs,
      fun i => (ealg i).2 ⟨fun k hk => (f k hk).alg i, a i⟩, eeq.2 fun k hk => (f k hk).eq,
      eineq.2 fun k hk => (f k hk).ineq, edyn.2 fun k hk => (f k hk).dynamics,
      ebd.2 fun k hk => (f k hk).boundary⟩

omit [LinearOrder K] in
theorem cost_sum {o : Ocp} {ks : List Ocp} {m : SysModel} {es : List Edge} (h : Parts o ks m es)
    (ops : Expr.Ops K) (sch : Scheme K n) (tr : GridValues K n) :
    costOf ops sch o tr = (ks.map fun k => costOf ops sch k tr).sum := by
  have e : ∀ ρ : Sym → K, _ := fun ρ => h.costs ops ρ
  unfold costOf
  simp only [(e _).1, (e _).2.1, (e _).2.2]
  clear e h
  induction ks with
  | nil => simp
  | cons k ks ih =>
    simp only [List.map_cons, List.sum_cons]
    rw [← ih]
    simp only [mul_add, Finset.sum_add_distrib, List.sum_map_add]
    ring

end
end Verif.NetJoint
