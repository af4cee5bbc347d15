import Verif.Lemmas.DirectCommon
import Verif.Props.Collocation
/-! Lemmas on the discretised problem of a direct method with collocation in terms of the problem of
the user. -/
namespace Verif
open Spec

namespace Direct

/-- Everything the theorem is about. -/
structure Setting {K : Type} [Field K] [LinearOrder K] (M : Mesh) (o q : Ocp) (xc fresh base : Sym)
    (S : Expr → Expr) (b : Blocks K) (x0 p : List K) (theta : List (List K))
    (ρ : Nat → K → Sym → K) : Prop extends Common M o q xc fresh base S b x0 p theta where
  mesh : GoodMesh M
  blocks : CollocationData (directDims o M) b
  reads : ∀ el < M.elements, ∀ tau, Reads o M b x0 p theta el tau (ρ el tau)

namespace Setting

variable {K : Type} [Field K] [LinearOrder K] {M : Mesh} {o q : Ocp} {xc fresh base : Sym}
  {S : Expr → Expr} {b : Blocks K} {x0 p : List K} {theta : List (List K)} {ρ : Nat → K → Sym → K}
  (C : Setting M o q xc fresh base S b x0 p theta ρ)
include C

variable (ops : Expr.Ops K)

/-- The transcription of the prepared problem. -/
abbrev built (ops : Expr.Ops K) (M : Mesh) (q : Ocp) : Transcription K :=
  q.transcriptionOf ops M.roots M.elements M.roots.length M.controlRoots.length

theorem fullP_eq : (built ops M q).fullP b p = fullP o b p := by
  show Ocp.putValues (findIndices q.pOpt q.model.p) b.pOpt p = _
  rw [C.prepared.others.2.1, C.prepared.symbols.2.2.2.2.2.1]
  rfl

theorem fullTheta_eq (el : Nat) (hel : el < M.elements) :
    ((built ops M q).fullTheta b theta).getD el [] = fullTheta o b theta el := by
  have hd : (built ops M q).dims.elements = M.elements := rfl
  unfold Transcription.fullTheta
  rw [hd, List.getD_eq_getElem?_getD, List.getElem?_map, List.getElem?_range hel]
  show Ocp.putValues (findIndices q.thetaOpt q.model.theta) _ _ = _
  rw [C.prepared.others.2.2, C.prepared.symbols.2.2.2.2.2.2.1]
  rfl

/-- The point at which the functions are evaluated. -/
noncomputable abbrev at_ (ops : Expr.Ops K) (M : Mesh) (q : Ocp) (b : Blocks K) (p : List K)
    (theta : List (List K)) (el : Nat) (tau : K) : Point K :=
  pointAt (built ops M q) b ((built ops M q).fullP b p) ((built ops M q).fullTheta b theta) el tau

theorem length_eq : elementLength (built ops M q) = stepLength o M := by
  show (((q.tf : Rat) : K) - ((q.t0 : Rat) : K)) / ((M.elements : Nat) : K) = _
  rw [C.prepared.times.1, C.prepared.times.2]
  rfl

theorem point_eq (el : Nat) (hel : el < M.elements) (tau : K) : at_ ops M q b p theta el tau =
    Common.userPoint o M b p theta el tau (ρ el tau) ((statePoly M b el o.model.x.length).eval tau) := by
  have hnx : (built ops M q).dims.nX = o.model.x.length + 1 := congrArg Dims.nX C.dims_eq
  have hny : (built ops M q).dims.nY = o.model.y.length := congrArg Dims.nY C.dims_eq
  have r := C.reads el hel tau
  have key : ∀ (l : List Sym) (f : Nat → K), (∀ (i : Nat) (s : Sym), l[i]? = some s → ρ el tau s = f i) →
      (List.range l.length).map f = l.map (ρ el tau) := by
    intro l f h
    refine List.ext_getElem (by simp) fun i h₁ h₂ => ?_
    simp only [List.length_map] at h₂
    simp only [List.getElem_map, List.getElem_range]
    exact (h i _ (List.getElem?_eq_getElem h₂)).symm
  unfold at_ pointAt Common.userPoint
  rw [C.length_eq ops, C.fullP_eq ops, C.fullTheta_eq ops el hel, hnx, hny, List.range_succ, List.map_append]
  have h₁ := key o.model.x (fun i => (statePoly M b el i).eval tau) r.states
  have h₂ := key o.model.y (fun i => (algebraicPoly M b el i).eval tau) r.algebraics
  rw [← h₁, ← h₂]
  rfl

section Ordered
variable [IsStrictOrderedRing K]

theorem ode_values (el : Nat) (hel : el < M.elements) (tau : K) :
    (built ops M q).ode el (at_ ops M q b p theta el tau) =
      (o.model.odeVec ++ [o.L]).map (Expr.eval ops (ρ el tau)) := by
  rw [C.point_eq ops el hel tau, ← C.path_values ops hel (C.reads el hel tau).toReadsData
    ((statePoly M b el o.model.x.length).eval tau) (o.model.odeVec ++ [o.L]) (by
    intro e he
    simp only [alongPath, List.mem_append, List.mem_cons, List.not_mem_nil, or_false] at he ⊢
    tauto)]
  show (Ocp.funAt _ el).callAt ops _ = _
  simp only [Ocp.functionsOf, List.map_map]
  rw [funAt_range _ _ _ hel, C.prepared.ode]
  simp only [Function.comp_apply, List.map_map]

theorem alg_values (el : Nat) (hel : el < M.elements) (tau : K) :
    (built ops M q).alg el (at_ ops M q b p theta el tau) =
      o.model.alg.map (Expr.eval ops (ρ el tau)) := by
  rw [C.point_eq ops el hel tau, ← C.path_values ops hel (C.reads el hel tau).toReadsData
    ((statePoly M b el o.model.x.length).eval tau) o.model.alg (by
    intro e he
    simp only [alongPath, List.mem_append, List.mem_cons, List.not_mem_nil, or_false]
    tauto)]
  show (Ocp.funAt _ el).callAt ops _ = _
  simp only [Ocp.functionsOf, List.map_map]
  rw [funAt_range _ _ _ hel, C.algOf_eq]
  simp only [Function.comp_apply, List.map_map]

theorem s_value (el : Nat) (hel : el < M.elements) (tau : K) :
    (built ops M q).sCost el (at_ ops M q b p theta el tau) = o.S.eval ops (ρ el tau) := by
  rw [C.point_eq ops el hel tau]
  exact C.toCommon.s_value ops hel (C.reads el hel tau).toReadsData _

/-- A path constraint of the transcription and the expression it comes from. -/
theorem path_iff (R : K → Prop) (es : List Expr) (tags : List String) (hl : tags.length = es.length)
    (hs : ∀ e ∈ es, e ∈ alongPath o) (roots : List K) (el : Nat) (hel : el < M.elements) :
    (∀ g ∈ Ocp.pathCons ops ((es.map S).map fun e => (List.range M.elements).map fun el =>
        Fun.mk q.model.allSym [q.inTime M.elements el e]) tags, ∀ taus,
        pathPositions roots g.time = some taus → ∀ tau ∈ taus,
        ∀ v ∈ g.value el (at_ ops M q b p theta el tau), R v) ↔
    ∀ (i : Nat) (e : Expr) (tag : String), es[i]? = some e → tags[i]? = some tag → ∀ taus,
      pathPositions roots tag = some taus → ∀ tau ∈ taus, R (e.eval ops (ρ el tau)) := by
  have hv : ∀ e ∈ es, ∀ tau, (Ocp.funAt ((List.range M.elements).map fun el =>
      Fun.mk q.model.allSym [q.inTime M.elements el (S e)]) el).callAt ops
      (at_ ops M q b p theta el tau) = [e.eval ops (ρ el tau)] := by
    intro e he tau
    rw [C.point_eq ops el hel tau]
    exact C.path_value ops hel (C.reads el hel tau).toReadsData _ e (hs e he)
  constructor
  · intro h i e tag he ht taus htaus tau hm
    have hget : (Ocp.pathCons ops ((es.map S).map fun e => (List.range M.elements).map fun el =>
        Fun.mk q.model.allSym [q.inTime M.elements el e]) tags)[i]? =
        some ⟨fun el pt => (Ocp.funAt ((List.range M.elements).map fun el =>
          Fun.mk q.model.allSym [q.inTime M.elements el (S e)]) el).callAt ops pt, tag⟩ := by
      simp [Ocp.pathCons, List.getElem?_zipWith, he, ht]
    refine h _ (List.mem_of_getElem? hget) taus htaus tau hm _ ?_
    simp only [hv e (List.mem_of_getElem? he) tau, List.mem_singleton]
  · intro h g hg taus htaus tau hm v hvm
    obtain ⟨i, hi⟩ := List.getElem?_of_mem hg
    have hlt := (List.getElem?_eq_some_iff.mp hi).1
    simp only [Ocp.pathCons, List.length_zipWith, List.length_map, hl, min_self] at hlt
    simp only [Ocp.pathCons, List.getElem?_zipWith, List.getElem?_map,
      List.getElem?_eq_getElem hlt, List.getElem?_eq_getElem (hl ▸ hlt : i < tags.length), Option.map_some,
      Option.some.injEq] at hi
    subst hi
    simp only [hv es[i] (List.getElem_mem _) tau, List.mem_singleton] at hvm
    subst hvm
    exact h i es[i] tags[i] (List.getElem?_eq_getElem _) (List.getElem?_eq_getElem _) taus htaus tau hm

omit [IsStrictOrderedRing K] in
theorem final_values :
    (built ops M q).hFinal (at_ ops M q b p theta (M.elements - 1) 1).x b.eta
      ((built ops M q).fullP b p) = o.hFinal.map (Expr.eval ops (ρ (M.elements - 1) 1)) := by
  have hel : M.elements - 1 < M.elements := Nat.sub_lt C.mesh.elements Nat.one_pos
  rw [C.point_eq ops _ hel 1, C.fullP_eq ops]
  exact C.toCommon.final_values ops (C.reads _ hel 1).toReadsData _

omit [IsStrictOrderedRing K] in
theorem timeless_values :
    (built ops M q).h ((built ops M q).fullP b p) =
      o.h.map (Expr.eval ops (ρ (M.elements - 1) 1)) := by
  have hel : M.elements - 1 < M.elements := Nat.sub_lt C.mesh.elements Nat.one_pos
  rw [C.fullP_eq ops]
  exact C.toCommon.timeless_values ops (C.reads _ hel 1).toReadsData

omit [IsStrictOrderedRing K] in
theorem v_value :
    (built ops M q).vCost (at_ ops M q b p theta (M.elements - 1) 1).x ((built ops M q).fullP b p) =
      o.V.eval ops (ρ (M.elements - 1) 1) +
        (statePoly M b (M.elements - 1) o.model.x.length).eval 1 := by
  have hel : M.elements - 1 < M.elements := Nat.sub_lt C.mesh.elements Nat.one_pos
  rw [C.point_eq ops _ hel 1, C.fullP_eq ops]
  exact C.toCommon.v_value ops (C.reads _ hel 1).toReadsData _

theorem grid : CollocationGrid (built ops M q) where
  horizon := by
    show ((q.t0 : Rat) : K) < ((q.tf : Rat) : K)
    rw [C.prepared.times.1, C.prepared.times.2]
    exact_mod_cast C.problem.horizon
  elements := C.mesh.elements
  degree := C.mesh.points
  points := by show (M.roots.map _).length = M.roots.length; simp
  increasing := by
    have := C.mesh.increasing
    show (0 :: M.roots.map (Rat.cast : Rat → K)).Pairwise (· < ·)
    have h0 : (0 : K) :: M.roots.map (Rat.cast : Rat → K) = (0 :: M.roots).map (Rat.cast : Rat → K) := by
      simp
    rw [h0, List.pairwise_map]
    exact this.imp fun h => by exact_mod_cast h
  last := by
    show (M.roots.map (Rat.cast : Rat → K)).getLast? = some 1
    rw [List.getLast?_map, C.mesh.last]
    simp
  states := by
    have : (built ops M q).dims.nX = o.model.x.length + 1 := congrArg Dims.nX C.dims_eq
    rw [this]; exact Nat.succ_pos _
  ode := by
    intro el hel pt
    have hel : el < M.elements := hel
    have hnx : (built ops M q).dims.nX = o.model.x.length + 1 := congrArg Dims.nX C.dims_eq
    rw [hnx]
    show ((Ocp.funAt _ el).callAt ops _).length = _
    simp only [Ocp.functionsOf, List.map_map]
    rw [funAt_range _ _ _ hel, C.prepared.ode]
    simp [Fun.callAt, Fun.call, complete_length _ C.problem.complete]

theorem collocatable : Collocatable (built ops M q) where
  toCollocationGrid := C.grid ops
  tags := by
    have key : ∀ (fs : List (List Fun)) (tags : List String), (∀ tag ∈ tags, tag = "start" ∨ tag = "end" ∨ tag = "default") →
        ∀ g ∈ Ocp.pathCons ops fs tags, (pathPositions (built ops M q).roots g.time).isSome = true := by
      intro fs tags ht g hg
      obtain ⟨i, hi⟩ := List.getElem?_of_mem hg
      simp only [Ocp.pathCons, List.getElem?_zipWith] at hi
      cases hf : fs[i]? with
      | none => simp [hf] at hi
      | some f =>
        cases ht' : tags[i]? with
        | none => simp [hf, ht'] at hi
        | some tag =>
          simp only [hf, ht', Option.some.injEq] at hi
          subst hi
          rcases ht tag (List.mem_of_getElem? ht') with rfl | rfl | rfl <;> simp [pathPositions]
    intro g hg
    rcases List.mem_append.mp hg with hg | hg
    · refine key _ _ ?_ g hg
      rw [C.prepared.tags.1]
      exact fun tag h => C.problem.tags tag (List.mem_append_left _ h)
    · refine key _ _ ?_ g hg
      rw [C.prepared.tags.2]
      exact fun tag h => C.problem.tags tag (List.mem_append_right _ h)

omit [IsStrictOrderedRing K] in
theorem data_fits : CollocationData (built ops M q).dims b := by
  have : (built ops M q).dims = directDims o M := C.dims_eq
  rw [this]
  exact C.blocks

theorem rates_fit {lastU : Option (List K)} (hl : LimitsFit o lastU)
    (h : (built ops M q).hasDeltaU = true) : RatesFit (built ops M q) lastU :=
  C.toCommon.limits_fit (m := built ops M q) C.dims_eq rfl rfl hl h

theorem initial_values :
    (∀ v ∈ (built ops M q).hInitial ((b.x.getD 0 []).getD 0 []) (x0 ++ [0]), v = 0) ↔
      (∀ e ∈ o.hInitial, e.eval ops (ρ 0 0) = 0) ∧ (statePoly M b 0 o.model.x.length).eval 0 = 0 := by
  have hcol := C92_states (built ops M q) b ((built ops M q).fullP b p)
    ((built ops M q).fullTheta b theta) (C.collocatable ops) (C.data_fits ops) 0 C.mesh.elements 0
    (by simp)
  simp only [List.getElem_cons_zero] at hcol
  have hv : (built ops M q).hInitial (at_ ops M q b p theta 0 0).x (x0 ++ [0]) =
      o.hInitial.map (Expr.eval ops (ρ 0 0)) ++ [0 - (statePoly M b 0 o.model.x.length).eval 0] := by
    rw [C.point_eq ops 0 C.mesh.elements 0]
    exact C.toCommon.initial_values ops (C.reads 0 C.mesh.elements 0).toReadsData _
  rw [← hcol, hv]
  simp only [List.mem_append, List.mem_singleton, zero_sub]
  constructor
  · intro h
    refine ⟨fun e hm => h _ (.inl (List.mem_map_of_mem hm)), ?_⟩
    exact neg_eq_zero.mp (h _ (.inr rfl))
  · rintro ⟨h, hc⟩ v (hv | rfl)
    · obtain ⟨e, hm, rfl⟩ := List.mem_map.mp hv
      exact h e hm
    · rw [hc, neg_zero]

omit [IsStrictOrderedRing K] in
theorem rates_iff (lastU : Option (List K)) : RatesHold (built ops M q) b lastU ↔
    ∀ el < M.elements, ∀ before now, controlBefore b lastU el = some before →
    (b.u.getD el []).head? = some now → ∀ (i : Nat) (a c : K) (lo hi : XRat), now[i]? = some a →
    before[i]? = some c → o.duMin[i]? = some lo → o.duMax[i]? = some hi →
    (Ocp.boundValue lo : WithBot (WithTop K)) ≤ ((a - c : K) : WithTop K) ∧
      (((a - c : K) : WithTop K) : WithBot (WithTop K)) ≤ Ocp.boundValue hi :=
  C.toCommon.limits_iff (m := built ops M q) rfl rfl rfl lastU

theorem dynamics_iff (el : Nat) (hel : el < M.elements) (tau : K) :
    (∀ s < (built ops M q).dims.nX,
      (through (0 :: (built ops M q).roots) (b.x.getD el []) s).derivative.eval tau =
        elementLength (built ops M q) *
          ((built ops M q).ode el (at_ ops M q b p theta el tau)).getD s 0) ↔
    (∀ (i : Nat) (s : Sym) (e : Expr), o.model.x[i]? = some s → o.model.ode.get? s = some (some e) →
      (statePoly M b el i).derivative.eval tau = stepLength o M * e.eval ops (ρ el tau)) ∧
    (statePoly M b el o.model.x.length).derivative.eval tau =
      stepLength o M * o.L.eval ops (ρ el tau) := by
  have hnx : (built ops M q).dims.nX = o.model.x.length + 1 := congrArg Dims.nX C.dims_eq
  have hlen : o.model.odeVec.length = o.model.x.length := complete_length _ C.problem.complete
  rw [C.ode_values ops el hel tau, hnx, C.length_eq ops]
  show (∀ s < _, (statePoly M b el s).derivative.eval tau = _) ↔ _
  constructor
  · intro h
    constructor
    · intro i s e hx he
      have hi : i < o.model.x.length := (List.getElem?_eq_some_iff.mp hx).1
      have := h i (by omega)
      rw [this]
      congr 1
      rw [List.getD_eq_getElem?_getD, List.getElem?_map, List.getElem?_append_left (by omega),
        (complete_get C.problem.complete i s e hx).mp he]
      rfl
    · rw [h _ (Nat.lt_succ_self _)]
      congr 1
      rw [List.getD_eq_getElem?_getD, List.getElem?_map,
        List.getElem?_append_right (by omega), hlen]
      simp
  · rintro ⟨h, hL⟩ s hs
    rcases Nat.lt_succ_iff_lt_or_eq.mp hs with hs | rfl
    · obtain ⟨e, he⟩ : ∃ e, o.model.ode.get? o.model.x[s] = some (some e) := by
        refine ⟨o.model.odeVec[s]'(by omega), (complete_get C.problem.complete s _ _
          (List.getElem?_eq_getElem hs)).mpr (List.getElem?_eq_getElem _)⟩
      rw [h s _ e (List.getElem?_eq_getElem hs) he]
      congr 1
      rw [List.getD_eq_getElem?_getD, List.getElem?_map, List.getElem?_append_left (by omega),
        (complete_get C.problem.complete s _ e (List.getElem?_eq_getElem hs)).mp he]
      rfl
    · rw [hL]
      congr 1
      rw [List.getD_eq_getElem?_getD, List.getElem?_map,
        List.getElem?_append_right (by omega), hlen]
      simp

theorem collocates_iff (lastU : Option (List K)) :
    Collocates (built ops M q) b (x0 ++ [0]) ((built ops M q).fullP b p)
      ((built ops M q).fullTheta b theta) lastU ↔ DirectSolution ops o M b lastU ρ := by
  have hlast : M.elements - 1 < M.elements := Nat.sub_lt C.mesh.elements Nat.one_pos
  have hineq : ∀ el < M.elements, _ := fun el hel => C.path_iff ops (fun v => v ≤ 0) o.gIneq
    o.timeGIneq C.problem.tagged.1 (fun e he => by simp [alongPath, he]) (inField M.roots) el hel
  have heq : ∀ el < M.elements, _ := fun el hel => C.path_iff ops (fun v => v = 0) o.gEq
    o.timeGEq C.problem.tagged.2 (fun e he => by simp [alongPath, he]) (inField M.roots) el hel
  have gI : (built ops M q).gIneq = Ocp.pathCons ops ((o.gIneq.map S).map fun e =>
      (List.range M.elements).map fun el => Fun.mk q.model.allSym [q.inTime M.elements el e])
      o.timeGIneq := by
    show Ocp.pathCons ops (q.functionsOf M.elements).gIneq q.timeGIneq = _
    rw [C.prepared.tags.1]
    simp only [Ocp.functionsOf, C.prepared.path.1]
  have gE : (built ops M q).gEq = Ocp.pathCons ops ((o.gEq.map S).map fun e =>
      (List.range M.elements).map fun el => Fun.mk q.model.allSym [q.inTime M.elements el e])
      o.timeGEq := by
    show Ocp.pathCons ops (q.functionsOf M.elements).gEq q.timeGEq = _
    rw [C.prepared.tags.2]
    simp only [Ocp.functionsOf, C.prepared.path.2]
  constructor
  · intro h
    obtain ⟨hi₁, hi₂⟩ := (C.initial_values ops).mp h.initial
    have hd := fun el (hel : el < M.elements) tau (ht : tau ∈ inField M.roots) =>
      (C.dynamics_iff ops el hel tau).mp (h.dynamics el hel tau ht)
    refine ⟨hi₁, hi₂, h.continuous, fun el hel tau ht => (hd el hel tau ht).1,
      fun el hel tau ht => (hd el hel tau ht).2, ?_, ?_, ?_, (C.rates_iff ops lastU).mp h.rates, ?_, ?_⟩
    · intro el hel tau ht e he
      refine h.algebraic el hel tau ht _ ?_
      rw [C.alg_values ops el hel tau]
      exact List.mem_map_of_mem he
    · intro el hel
      refine (hineq el hel).mp ?_
      have := h.inequalities el hel
      rw [gI] at this
      exact this
    · intro el hel
      refine (heq el hel).mp ?_
      have := h.equalities el hel
      rw [gE] at this
      exact this
    · intro e he
      refine h.final _ ?_
      have := C.final_values ops
      rw [show (built ops M q).dims.elements = M.elements from rfl, this]
      exact List.mem_map_of_mem he
    · intro e he
      refine h.independent _ ?_
      rw [C.timeless_values ops]
      exact List.mem_map_of_mem he
  · intro h
    refine ⟨(C.initial_values ops).mpr ⟨h.initial, h.costStart⟩, h.continuous,
      fun el hel tau ht => (C.dynamics_iff ops el hel tau).mpr
        ⟨h.dynamics el hel tau ht, h.running el hel tau ht⟩, ?_, (C.rates_iff ops lastU).mpr h.rates,
      ?_, ?_, ?_, ?_⟩
    · intro el hel tau ht v hv
      rw [C.alg_values ops el hel tau] at hv
      obtain ⟨e, he, rfl⟩ := List.mem_map.mp hv
      exact h.algebraic el hel tau ht e he
    · intro el hel
      rw [gI]
      exact (hineq el hel).mpr (h.inequalities el hel)
    · intro el hel
      rw [gE]
      exact (heq el hel).mpr (h.equalities el hel)
    · intro v hv
      rw [show (built ops M q).dims.elements = M.elements from rfl, C.final_values ops] at hv
      obtain ⟨e, he, rfl⟩ := List.mem_map.mp hv
      exact h.final e he
    · intro v hv
      rw [C.timeless_values ops] at hv
      obtain ⟨e, he, rfl⟩ := List.mem_map.mp hv
      exact h.timeless e he

theorem cost_eq : collocationCost (built ops M q) b ((built ops M q).fullP b p)
    ((built ops M q).fullTheta b theta) = directCost ops o M b ρ := by
  unfold collocationCost directCost
  rw [show (built ops M q).dims.elements = M.elements from rfl, C.v_value ops]
  congr 1
  refine congrArg List.sum (List.map_congr_left fun el hel => ?_)
  exact C.s_value ops el (List.mem_range.mp hel) 1

end Ordered

end Setting
end Direct
end Verif
