import Verif.Lemmas.DirectCommon
import Verif.Props.Collocation
/-! Lemmas on the discretised problem in terms of the expressions of the problem that is discretised,
for a problem without control parameters. -/
namespace Verif
open Spec

namespace Own

/-- The problem, the values and the assignments of the symbols. -/
structure Setting {K : Type} [Field K] [LinearOrder K] (M : Mesh) (q : Ocp) (b : Blocks K)
    (x0 p : List K) (theta : List (List K)) (ρ : Nat → K → Sym → K) : Prop where
  mesh : GoodMesh M
  horizon : q.t0 < q.tf
  equations : q.model.odeVec.length = q.model.x.length
  states : q.model.x ≠ []
  points : q.model.uPar = []
  scope : FunctionScope q
  tags : ∀ tag ∈ q.timeGIneq ++ q.timeGEq, tag = "start" ∨ tag = "end" ∨ tag = "default"
  tagged : q.timeGIneq.length = q.gIneq.length ∧ q.timeGEq.length = q.gEq.length
  blocks : CollocationData (q.dims M.elements M.roots.length M.roots.length) b
  unlimited : q.duMin = List.replicate q.model.u.length ⊥ ∧
    q.duMax = List.replicate q.model.u.length ⊤
  time : ∀ el < M.elements, ∀ tau, ρ el tau q.model.t = stepLength q M * ((el : K) + tau)
  position : ∀ el < M.elements, ∀ tau, ρ el tau q.model.tau = tau
  x : ∀ el < M.elements, ∀ tau, ∀ (i : Nat) (s : Sym), q.model.x[i]? = some s →
    ρ el tau s = (statePoly M b el i).eval tau
  y : ∀ el < M.elements, ∀ tau, ∀ (i : Nat) (s : Sym), q.model.y[i]? = some s →
    ρ el tau s = (algebraicPoly M b el i).eval tau
  pSize : p.length = q.model.p.length
  p : ∀ el < M.elements, ∀ tau, Agrees q.model.p (Direct.fullP q b p) (ρ el tau)
  thetaSize : ∀ el < M.elements, (theta.getD el []).length = q.model.theta.length
  theta : ∀ el < M.elements, ∀ tau, Agrees q.model.theta (Direct.fullTheta q b theta el) (ρ el tau)
  x0 : Agrees q.model.x0 x0 (ρ 0 0)
  eta : Agrees q.eta b.eta (ρ (M.elements - 1) 1)

/-- The conditions, with the expressions of the problem itself. -/
structure Solution {K : Type} [Field K] [LinearOrder K] (ops : Expr.Ops K) (q : Ocp) (M : Mesh)
    (b : Blocks K) (ρ : Nat → K → Sym → K) : Prop where
  initial : ∀ e ∈ q.hInitial, e.eval ops (ρ 0 0) = 0
  continuous : ∀ el, el + 1 < M.elements → (b.x.getD el []).getLast? = (b.x.getD (el + 1) []).head?
  dynamics : ∀ el < M.elements, ∀ tau ∈ inField M.roots, ∀ (i : Nat) (e : Expr),
    q.model.odeVec[i]? = some e →
    (statePoly M b el i).derivative.eval tau = stepLength q M * e.eval ops (ρ el tau)
  algebraic : ∀ el < M.elements, ∀ tau ∈ inField M.roots, ∀ e ∈ q.algOf, e.eval ops (ρ el tau) = 0
  inequalities : ∀ el < M.elements, ∀ (i : Nat) (e : Expr) (tag : String), q.gIneq[i]? = some e →
    q.timeGIneq[i]? = some tag → ∀ taus, pathPositions (inField M.roots) tag = some taus →
    ∀ tau ∈ taus, e.eval ops (ρ el tau) ≤ 0
  equalities : ∀ el < M.elements, ∀ (i : Nat) (e : Expr) (tag : String), q.gEq[i]? = some e →
    q.timeGEq[i]? = some tag → ∀ taus, pathPositions (inField M.roots) tag = some taus →
    ∀ tau ∈ taus, e.eval ops (ρ el tau) = 0
  final : ∀ e ∈ q.hFinal, e.eval ops (ρ (M.elements - 1) 1) = 0
  timeless : ∀ e ∈ q.h, e.eval ops (ρ (M.elements - 1) 1) = 0

namespace Setting

variable {K : Type} [Field K] [LinearOrder K] {M : Mesh} {q : Ocp} {b : Blocks K} {x0 p : List K}
  {theta : List (List K)} {ρ : Nat → K → Sym → K} (C : Setting M q b x0 p theta ρ)
include C

variable (ops : Expr.Ops K)

/-- The transcription with the objective zero. -/
abbrev built (ops : Expr.Ops K) (M : Mesh) (q : Ocp) : Transcription K :=
  { q.transcriptionOf ops M.roots M.elements M.roots.length M.roots.length with
    sCost := fun _ _ => 0
    vCost := fun _ _ => 0 }

/-- The point at which the functions are evaluated. -/
noncomputable abbrev at_ (ops : Expr.Ops K) (M : Mesh) (q : Ocp) (b : Blocks K) (p : List K)
    (theta : List (List K)) (el : Nat) (tau : K) : Point K :=
  pointAt (built ops M q) b ((built ops M q).fullP b p) ((built ops M q).fullTheta b theta) el tau

theorem last_lt : M.elements - 1 < M.elements := Nat.sub_lt C.mesh.elements Nat.one_pos

omit C in
theorem fullTheta_eq (el : Nat) (hel : el < M.elements) :
    ((built ops M q).fullTheta b theta).getD el [] = Direct.fullTheta q b theta el := by
  have hd : (built ops M q).dims.elements = M.elements := rfl
  unfold Transcription.fullTheta
  rw [hd, List.getD_eq_getElem?_getD, List.getElem?_map, List.getElem?_range hel]
  rfl

theorem controls_empty (el : Nat) : b.u.getD el [] = [] := by
  have hg := C.blocks.u
  have hc : controlPoints (q.dims M.elements M.roots.length M.roots.length) = 0 := by
    simp [controlPoints, Ocp.dims, C.points]
  rw [hc] at hg
  rw [List.getD_eq_getElem?_getD]
  cases h : b.u[el]? with
  | none => rfl
  | some l =>
    have := (hg.2 l (List.mem_of_getElem? h)).1
    simpa using this

omit C in
theorem agrees_range {l : List Sym} {f : Nat → K} {ρ : Sym → K}
    (h : ∀ (i : Nat) (s : Sym), l[i]? = some s → ρ s = f i) :
    Agrees l ((List.range l.length).map f) ρ := by
  refine agrees_of_index (by simp) fun i s hs => ?_
  have hi := (List.getElem?_eq_some_iff.mp hs).1
  rw [h i s hs, List.getD_eq_getElem?_getD, List.getElem?_map, List.getElem?_range hi]
  rfl

theorem fullP_length : q.model.p.length = (Direct.fullP q b p).length := by
  rw [Direct.fullP, Ocp.putValues_length]
  exact C.pSize.symm

omit C in
theorem states_length (el : Nat) (tau : K) :
    q.model.x.length = (at_ ops M q b p theta el tau).x.length := by
  show _ = ((List.range q.model.x.length).map _).length
  simp

omit C in
theorem algebraics_length (el : Nat) (tau : K) :
    q.model.y.length = (at_ ops M q b p theta el tau).y.length := by
  show _ = ((List.range q.model.y.length).map _).length
  simp

theorem agrees (el : Nat) (hel : el < M.elements) (tau : K) :
    AgreesAt q (at_ ops M q b p theta el tau) (ρ el tau) := by
  show Agrees ([q.model.t] ++ (q.model.x ++ (q.model.y ++ (q.model.p ++ (q.model.theta ++
    (q.model.uPar ++ [])))))) ([_] ++ (_ ++ (_ ++ (_ ++ (((built ops M q).fullTheta b theta).getD el []
      ++ ((b.u.getD el []).flatten ++ [])))))) _
  rw [fullTheta_eq ops el hel, C.controls_empty el, C.points]
  refine Agrees.append ?_ (Agrees.append (agrees_range (C.x el hel tau)) (Agrees.append
    (agrees_range (C.y el hel tau)) (Agrees.append (C.p el hel tau) (Agrees.append
    (C.theta el hel tau) (fun s hs => by simp at hs) ?_) C.fullP_length) ?_) ?_) rfl
  · refine agrees_of_index rfl fun i s hs => ?_
    match i, hs with
    | 0, hs =>
      simp only [List.getElem?_cons_zero, Option.some.injEq] at hs
      subst hs
      exact C.time el hel tau
  · rw [Direct.fullTheta, Ocp.putValues_length]
    exact (C.thetaSize el hel).symm
  · exact algebraics_length ops el tau
  · exact states_length ops el tau

section Ordered
variable [IsStrictOrderedRing K]

theorem values (el : Nat) (hel : el < M.elements) (tau : K) (es : List Expr)
    (hs : ∀ e ∈ es, ∀ s ∈ e.syms, InScope q.model s) :
    (Fun.mk q.model.allSym (es.map (q.inTime M.elements el))).callAt ops
      (at_ ops M q b p theta el tau) = es.map (Expr.eval ops (ρ el tau)) :=
  call_inTime ops q M.elements C.mesh.elements C.horizon el es hs _ _ (C.agrees ops el hel tau) tau
    (C.time el hel tau) (C.position el hel tau)

theorem ode_values (el : Nat) (hel : el < M.elements) (tau : K) :
    (built ops M q).ode el (at_ ops M q b p theta el tau) =
      q.model.odeVec.map (Expr.eval ops (ρ el tau)) := by
  rw [← C.values ops el hel tau q.model.odeVec fun e he => C.scope.path e (by simp [he])]
  show (Ocp.funAt _ el).callAt ops _ = _
  simp only [Ocp.functionsOf, List.map_map]
  rw [funAt_range _ _ _ hel]
  simp only [Function.comp_apply]

theorem alg_values (el : Nat) (hel : el < M.elements) (tau : K) :
    (built ops M q).alg el (at_ ops M q b p theta el tau) =
      q.algOf.map (Expr.eval ops (ρ el tau)) := by
  rw [← C.values ops el hel tau q.algOf fun e he => C.scope.path e (by
    have : (if q.model.y = [] then [] else q.model.alg) = q.algOf := rfl
    rw [this]
    simp [he])]
  show (Ocp.funAt _ el).callAt ops _ = _
  simp only [Ocp.functionsOf, List.map_map]
  rw [funAt_range _ _ _ hel]
  simp only [Function.comp_apply]

/-- A path constraint of the transcription and the expression it comes from. -/
theorem path_iff (R : K → Prop) (es : List Expr) (tags : List String) (hl : tags.length = es.length)
    (hs : ∀ e ∈ es, ∀ s ∈ e.syms, InScope q.model s) (roots : List K) (el : Nat)
    (hel : el < M.elements) :
    (∀ g ∈ Ocp.pathCons ops (es.map fun e => (List.range M.elements).map fun el =>
        Fun.mk q.model.allSym [q.inTime M.elements el e]) tags, ∀ taus,
        pathPositions roots g.time = some taus → ∀ tau ∈ taus,
        ∀ v ∈ g.value el (at_ ops M q b p theta el tau), R v) ↔
    ∀ (i : Nat) (e : Expr) (tag : String), es[i]? = some e → tags[i]? = some tag → ∀ taus,
      pathPositions roots tag = some taus → ∀ tau ∈ taus, R (e.eval ops (ρ el tau)) := by
  have hv : ∀ e ∈ es, ∀ tau, (Ocp.funAt ((List.range M.elements).map fun el =>
      Fun.mk q.model.allSym [q.inTime M.elements el e]) el).callAt ops
      (at_ ops M q b p theta el tau) = [e.eval ops (ρ el tau)] := by
    intro e he tau
    rw [funAt_range _ _ _ hel]
    exact C.values ops el hel tau [e] (by simpa using hs e he)
  constructor
  · intro h i e tag he ht taus htaus tau hm
    have hget : (Ocp.pathCons ops (es.map fun e => (List.range M.elements).map fun el =>
        Fun.mk q.model.allSym [q.inTime M.elements el e]) tags)[i]? =
        some ⟨fun el pt => (Ocp.funAt ((List.range M.elements).map fun el =>
          Fun.mk q.model.allSym [q.inTime M.elements el e]) el).callAt ops pt, tag⟩ := by
      simp [Ocp.pathCons, List.getElem?_zipWith, he, ht]
    refine h _ (List.mem_of_getElem? hget) taus htaus tau hm _ ?_
    simp only [hv e (List.mem_of_getElem? he) tau, List.mem_singleton]
  · intro h g hg taus htaus tau hm v hvm
    obtain ⟨i, hi⟩ := List.getElem?_of_mem hg
    have hlt := (List.getElem?_eq_some_iff.mp hi).1
    simp only [Ocp.pathCons, List.length_zipWith, List.length_map, hl, min_self] at hlt
    simp only [Ocp.pathCons, List.getElem?_zipWith, List.getElem?_map,
      List.getElem?_eq_getElem hlt, List.getElem?_eq_getElem (hl ▸ hlt : i < tags.length), Option.map_some,
      Option.some.injEq] at hi
    subst hi
    simp only [hv es[i] (List.getElem_mem _) tau, List.mem_singleton] at hvm
    subst hvm
    exact h i es[i] tags[i] (List.getElem?_eq_getElem _) (List.getElem?_eq_getElem _) taus htaus tau hm

omit [IsStrictOrderedRing K] in
theorem states_agree (el : Nat) (hel : el < M.elements) (tau : K) :
    Agrees q.model.x (at_ ops M q b p theta el tau).x (ρ el tau) :=
  agrees_range (C.x el hel tau)

omit [IsStrictOrderedRing K] in
theorem final_values :
    (built ops M q).hFinal (at_ ops M q b p theta (M.elements - 1) 1).x b.eta
      ((built ops M q).fullP b p) = q.hFinal.map (Expr.eval ops (ρ (M.elements - 1) 1)) := by
  refine call_eq ops ⟨[q.model.x, q.eta, q.model.p], q.hFinal⟩
    [(at_ ops M q b p theta (M.elements - 1) 1).x, b.eta, Direct.fullP q b p] (ρ (M.elements - 1) 1) ?_ ?_
  · have := C.scope.final
    simpa [or_assoc] using this
  · show Agrees (q.model.x ++ (q.eta ++ (q.model.p ++ []))) (_ ++ (b.eta ++ (_ ++ []))) _
    refine Agrees.append (C.states_agree ops _ C.last_lt 1) (Agrees.append C.eta (Agrees.append
      (C.p _ C.last_lt 1) (fun s hs => by simp at hs) C.fullP_length) C.blocks.eta.symm)
      (states_length ops _ 1)

omit [IsStrictOrderedRing K] in
theorem timeless_values :
    (built ops M q).h ((built ops M q).fullP b p) =
      q.h.map (Expr.eval ops (ρ (M.elements - 1) 1)) := by
  refine call_eq ops ⟨[q.model.p], q.h⟩ [Direct.fullP q b p] (ρ (M.elements - 1) 1) ?_ ?_
  · simpa using C.scope.timeless
  · show Agrees (q.model.p ++ []) (_ ++ []) _
    rw [List.append_nil, List.append_nil]
    exact C.p _ C.last_lt 1

theorem grid : CollocationGrid (built ops M q) where
  horizon := by
    show ((q.t0 : Rat) : K) < ((q.tf : Rat) : K)
    exact_mod_cast C.horizon
  elements := C.mesh.elements
  degree := C.mesh.points
  points := by show (M.roots.map _).length = M.roots.length; simp
  increasing := by
    have := C.mesh.increasing
    show (0 :: M.roots.map (Rat.cast : Rat → K)).Pairwise (· < ·)
    have h0 : (0 : K) :: M.roots.map (Rat.cast : Rat → K) = (0 :: M.roots).map (Rat.cast : Rat → K) := by
      simp
    rw [h0, List.pairwise_map]
    exact this.imp fun h => by exact_mod_cast h
  last := by
    show (M.roots.map (Rat.cast : Rat → K)).getLast? = some 1
    rw [List.getLast?_map, C.mesh.last]
    simp
  states := List.length_pos_iff.mpr C.states
  ode := by
    intro el hel pt
    have hel : el < M.elements := hel
    show ((Ocp.funAt _ el).callAt ops _).length = q.model.x.length
    simp only [Ocp.functionsOf, List.map_map]
    rw [funAt_range _ _ _ hel]
    simp [Fun.callAt, Fun.call, C.equations]

theorem collocatable : Collocatable (built ops M q) where
  toCollocationGrid := C.grid ops
  tags := by
    have key : ∀ (fs : List (List Fun)) (tags : List String), (∀ tag ∈ tags, tag = "start" ∨ tag = "end" ∨ tag = "default") →
        ∀ g ∈ Ocp.pathCons ops fs tags, (pathPositions (built ops M q).roots g.time).isSome = true := by
      intro fs tags ht g hg
      obtain ⟨i, hi⟩ := List.getElem?_of_mem hg
      simp only [Ocp.pathCons, List.getElem?_zipWith] at hi
      cases hf : fs[i]? with
      | none => simp [hf] at hi
      | some f =>
        cases ht' : tags[i]? with
        | none => simp [hf, ht'] at hi
        | some tag =>
          simp only [hf, ht', Option.some.injEq] at hi
          subst hi
          rcases ht tag (List.mem_of_getElem? ht') with rfl | rfl | rfl <;> simp [pathPositions]
    intro g hg
    rcases List.mem_append.mp hg with hg | hg
    · exact key _ _ (fun tag h => C.tags tag (List.mem_append_left _ h)) g hg
    · exact key _ _ (fun tag h => C.tags tag (List.mem_append_right _ h)) g hg

omit [IsStrictOrderedRing K] in
theorem no_limits : (built ops M q).hasDeltaU = false := by
  unfold Transcription.hasDeltaU
  rw [List.any_eq_false]
  intro i hi
  have hi : i < q.model.u.length := List.mem_range.mp hi
  have h₁ : (built ops M q).duMax[i]? = some ⊤ := by
    show (q.duMax.map Ocp.boundValue)[i]? = _
    rw [C.unlimited.2, List.map_replicate, List.getElem?_replicate, if_pos hi]
    rfl
  have h₂ : (built ops M q).duMin[i]? = some ⊥ := by
    show (q.duMin.map Ocp.boundValue)[i]? = _
    rw [C.unlimited.1, List.map_replicate, List.getElem?_replicate, if_pos hi]
    rfl
  simp [h₁, h₂]

theorem initial_values :
    (built ops M q).hInitial ((b.x.getD 0 []).getD 0 []) x0 = q.hInitial.map (Expr.eval ops (ρ 0 0)) := by
  have hcol := C92_states (built ops M q) b ((built ops M q).fullP b p)
    ((built ops M q).fullTheta b theta) (C.collocatable ops) C.blocks 0 C.mesh.elements 0 (by simp)
  simp only [List.getElem_cons_zero] at hcol
  rw [← hcol]
  refine call_eq ops ⟨[q.model.x, q.model.x0], q.hInitial⟩ [(at_ ops M q b p theta 0 0).x, x0] (ρ 0 0) ?_ ?_
  · have := C.scope.initial
    simpa using this
  · show Agrees (q.model.x ++ (q.model.x0 ++ [])) (_ ++ (x0 ++ [])) _
    rw [List.append_nil, List.append_nil]
    exact Agrees.append (C.states_agree ops 0 C.mesh.elements 0) C.x0 (states_length ops 0 0)

theorem collocates_iff (lastU : Option (List K)) :
    Collocates (built ops M q) b x0 ((built ops M q).fullP b p)
      ((built ops M q).fullTheta b theta) lastU ↔ Solution ops q M b ρ := by
  have hineq : ∀ el < M.elements, _ := fun el hel => C.path_iff ops (fun v => v ≤ 0) q.gIneq
    q.timeGIneq C.tagged.1 (fun e he => C.scope.path e (by simp [he])) (inField M.roots) el hel
  have heq : ∀ el < M.elements, _ := fun el hel => C.path_iff ops (fun v => v = 0) q.gEq
    q.timeGEq C.tagged.2 (fun e he => C.scope.path e (by simp [he])) (inField M.roots) el hel
  constructor
  · intro h
    refine ⟨?_, h.continuous, ?_, ?_, fun el hel => (hineq el hel).mp (h.inequalities el hel),
      fun el hel => (heq el hel).mp (h.equalities el hel), ?_, ?_⟩
    · intro e he
      refine h.initial _ ?_
      rw [C.initial_values ops]
      exact List.mem_map_of_mem he
    · intro el hel tau ht i e he
      have hi : i < q.model.x.length := C.equations ▸ (List.getElem?_eq_some_iff.mp he).1
      have := h.dynamics el hel tau ht i hi
      rw [C.ode_values ops el hel tau, List.getD_eq_getElem?_getD (l := List.map _ _), List.getElem?_map, he] at this
      exact this
    · intro el hel tau ht e he
      refine h.algebraic el hel tau ht _ ?_
      rw [C.alg_values ops el hel tau]
      exact List.mem_map_of_mem he
    · intro e he
      refine h.final _ ?_
      rw [show (built ops M q).dims.elements = M.elements from rfl, C.final_values ops]
      exact List.mem_map_of_mem he
    · intro e he
      refine h.independent _ ?_
      rw [C.timeless_values ops]
      exact List.mem_map_of_mem he
  · intro h
    refine ⟨?_, h.continuous, ?_, ?_, ?_, fun el hel => (hineq el hel).mpr (h.inequalities el hel),
      fun el hel => (heq el hel).mpr (h.equalities el hel), ?_, ?_⟩
    · intro v hv
      rw [C.initial_values ops] at hv
      obtain ⟨e, he, rfl⟩ := List.mem_map.mp hv
      exact h.initial e he
    · intro el hel tau ht i hi
      have hi : i < q.model.odeVec.length := C.equations ▸ hi
      rw [C.ode_values ops el hel tau, List.getD_eq_getElem?_getD (l := List.map _ _), List.getElem?_map,
        List.getElem?_eq_getElem hi]
      exact h.dynamics el hel tau ht i _ (List.getElem?_eq_getElem hi)
    · intro el hel tau ht v hv
      rw [C.alg_values ops el hel tau] at hv
      obtain ⟨e, he, rfl⟩ := List.mem_map.mp hv
      exact h.algebraic el hel tau ht e he
    · intro el _ before now _ hn
      rw [C.controls_empty el] at hn
      simp at hn
    · intro v hv
      rw [show (built ops M q).dims.elements = M.elements from rfl, C.final_values ops] at hv
      obtain ⟨e, he, rfl⟩ := List.mem_map.mp hv
      exact h.final e he
    · intro v hv
      rw [C.timeless_values ops] at hv
      obtain ⟨e, he, rfl⟩ := List.mem_map.mp hv
      exact h.timeless e he

/-- The program: its constraints are the conditions, its objective is zero. -/
theorem program (lastU : Option (List K)) :
    ∃ cons, (built ops M q).discretize b x0 p theta lastU = .ok (cons, 0) ∧
      ((∀ c ∈ cons, c.Holds) ↔ Solution ops q M b ρ) := by
  obtain ⟨cons, h, hi⟩ := C92_feasible_iff (built ops M q) b x0 p theta lastU (C.collocatable ops)
    C.blocks (fun hd => by rw [C.no_limits ops] at hd; cases hd)
  refine ⟨cons, ?_, hi.trans (C.collocates_iff ops lastU)⟩
  rw [h]
  simp [collocationCost, built]

end Ordered
end Setting
end Own
end Verif
