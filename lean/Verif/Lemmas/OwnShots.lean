import Verif.Lemmas.ShotSolution
/-! Lemmas on multiple shooting in terms of the expressions of the problem that is discretised, for a
problem without control parameters. -/
namespace Verif
open Spec Set

theorem agrees_map {K : Type} [Field K] (l : List Sym) (ρ : Sym → K) : Agrees l (l.map ρ) ρ := by
  refine agrees_of_index (by simp) fun i s hs => ?_
  rw [List.getD_eq_getElem?_getD, List.getElem?_map, hs]
  rfl

namespace Own

/-- The trajectory of an element. -/
structure ShotPath (ops : Expr.Ops ℝ) (M : Mesh) (q : Ocp) (b : Blocks ℝ) (p : List ℝ)
    (theta : List (List ℝ)) (el : Nat) (X : ℝ → Sym → ℝ) : Prop where
  time : ∀ t ∈ Icc (nodeTime q M el) (nodeTime q M (el + 1)), X t q.model.t = t
  position : ∀ t ∈ Icc (nodeTime q M el) (nodeTime q M (el + 1)),
    X t q.model.tau = t / stepLength q M - (el : ℝ)
  p : ∀ t ∈ Icc (nodeTime q M el) (nodeTime q M (el + 1)), q.model.p.map (X t) = Direct.fullP q b p
  theta : ∀ t ∈ Icc (nodeTime q M el) (nodeTime q M (el + 1)),
    q.model.theta.map (X t) = Direct.fullTheta q b theta el
  start : (b.x.getD el []).getD 0 [] = q.model.x.map (X (nodeTime q M el))
  ode : ∀ t ∈ Icc (nodeTime q M el) (nodeTime q M (el + 1)), ∀ (i : Nat) (s : Sym) (e : Expr),
    q.model.x[i]? = some s → q.model.odeVec[i]? = some e →
    HasDerivWithinAt (fun r => X r s) (e.eval ops (X t))
      (Icc (nodeTime q M el) (nodeTime q M (el + 1))) t
  alg : ∀ t ∈ Icc (nodeTime q M el) (nodeTime q M (el + 1)), ∀ e ∈ q.algOf, e.eval ops (X t) = 0

/-- The problem, the values and the trajectories. -/
structure Shots (ops : Expr.Ops ℝ) (M : Mesh) (q : Ocp) (b : Blocks ℝ)
    (x0 p : List ℝ) (theta : List (List ℝ)) (X : Nat → ℝ → Sym → ℝ) : Prop where
  elements : 0 < M.elements
  horizon : q.t0 < q.tf
  states : q.model.x ≠ []
  points : q.model.uPar = []
  scope : ShotScope q false
  ends : ∀ tag ∈ q.timeGIneq ++ q.timeGEq, tag = "end" ∨ tag = "default"
  tagged : q.timeGIneq.length = q.gIneq.length ∧ q.timeGEq.length = q.gEq.length
  blocks : ShootingShape (q.dims M.elements M.roots.length M.roots.length) b
  unlimited : q.duMin = List.replicate q.model.u.length ⊥ ∧
    q.duMax = List.replicate q.model.u.length ⊤
  x0 : Agrees q.model.x0 x0 (X 0 0)
  eta : Agrees q.eta b.eta (X (M.elements - 1) (nodeTime q M M.elements))
  paths : ∀ el < M.elements, ShotPath ops M q b p theta el (X el)

/-- The conditions, with the expressions of the problem itself. -/
structure ShotsFit (ops : Expr.Ops ℝ) (q : Ocp) (M : Mesh) (b : Blocks ℝ) (X : Nat → ℝ → Sym → ℝ) :
    Prop where
  initial : ∀ e ∈ q.hInitial, e.eval ops (X 0 0) = 0
  states : ∀ el < M.elements,
    (b.x.getD (el + 1) []).getD 0 [] = q.model.x.map (X el (nodeTime q M (el + 1)))
  algebraics : ∀ el < M.elements,
    (b.y.getD el []).getD 0 [] = q.model.y.map (X el (nodeTime q M (el + 1)))
  inequalities : ∀ el < M.elements, ∀ e ∈ q.gIneq, e.eval ops (X el (nodeTime q M (el + 1))) ≤ 0
  equalities : ∀ el < M.elements, ∀ e ∈ q.gEq, e.eval ops (X el (nodeTime q M (el + 1))) = 0
  final : ∀ e ∈ q.hFinal, e.eval ops (X (M.elements - 1) (nodeTime q M M.elements)) = 0
  timeless : ∀ e ∈ q.h, e.eval ops (X (M.elements - 1) (nodeTime q M M.elements)) = 0

namespace Shots

variable {ops : Expr.Ops ℝ} {integ : DaeIntegrator ℝ} {M : Mesh} {q : Ocp} {b : Blocks ℝ}
  {x0 p : List ℝ} {theta : List (List ℝ)} {X : Nat → ℝ → Sym → ℝ}
  (C : Shots ops M q b x0 p theta X)
include C

/-- What is discretised, with the objective zero. -/
noncomputable abbrev built (ops : Expr.Ops ℝ) (integ : DaeIntegrator ℝ) (M : Mesh) (q : Ocp) :
    ShootingMethod ℝ :=
  { q.shootingOf ops integ M.elements M.roots.length M.roots.length false with
    simulate := fun el t t' x p theta _ =>
      integ (Ocp.daeAt ((List.range M.elements).map (q.daeOf M.elements)) el) t t' x (p ++ theta ++ [])
    sCost := fun _ _ => 0
    vCost := fun _ _ => 0 }

theorem step_pos : 0 < stepLength (K := ℝ) q M := by
  unfold stepLength
  have h₁ : (q.t0 : ℝ) < (q.tf : ℝ) := by exact_mod_cast C.horizon
  have h₂ : (0 : ℝ) < (M.elements : ℝ) := by exact_mod_cast C.elements
  exact div_pos (sub_pos.mpr h₁) h₂

theorem node_lt (el : Nat) : nodeTime q M el < nodeTime q M (el + 1) := by
  unfold nodeTime
  refine mul_lt_mul_of_pos_left ?_ C.step_pos
  push_cast
  linarith

theorem start_mem (el : Nat) : nodeTime q M el ∈ Icc (nodeTime q M el) (nodeTime q M (el + 1)) :=
  ⟨le_rfl, (C.node_lt el).le⟩

theorem end_mem (el : Nat) : nodeTime q M (el + 1) ∈ Icc (nodeTime q M el) (nodeTime q M (el + 1)) :=
  ⟨(C.node_lt el).le, le_rfl⟩

theorem time_eq (el : Nat) (t : ℝ) :
    stepLength q M * ((el : ℝ) + (t / stepLength q M - (el : ℝ))) = t := by
  have := C.step_pos.ne'
  field_simp
  ring

theorem in_time (el : Nat) (hel : el < M.elements) (t : ℝ)
    (ht : t ∈ Icc (nodeTime q M el) (nodeTime q M (el + 1))) (e : Expr) :
    (q.inTime M.elements el e).eval ops (X el t) = e.eval ops (X el t) := by
  refine eval_inTime ops q M.elements el C.elements C.horizon _ (t / stepLength q M - (el : ℝ)) ?_
    ((C.paths el hel).position t ht) e
  rw [(C.paths el hel).time t ht]
  exact (C.time_eq el t).symm

theorem dae_ok (el : Nat) : q.elementDae M.elements el = .ok (q.daeOf M.elements el) :=
  (Ocp.elementDae_ok el _).mpr ⟨C.scope.dynamics, rfl⟩

theorem trajectory (el : Nat) (hel : el < M.elements) (c d : ℝ) (hc : nodeTime q M el ≤ c)
    (hd : d ≤ nodeTime q M (el + 1)) :
    DaeTrajectory ops (q.daeOf M.elements el) (Direct.fullP q b p ++ Direct.fullTheta q b theta el)
      c d (X el) where
  time t ht := (C.paths el hel).time t ⟨hc.trans ht.1, ht.2.trans hd⟩
  parameters t ht := by
    show (q.model.p ++ q.model.theta ++ q.model.uPar).map _ = _
    rw [C.points, List.append_nil, List.map_append,
      (C.paths el hel).p t ⟨hc.trans ht.1, ht.2.trans hd⟩,
      (C.paths el hel).theta t ⟨hc.trans ht.1, ht.2.trans hd⟩]
  ode := by
    intro t ht i s e hs he
    have hs : q.model.x[i]? = some s := hs
    have he : (q.model.odeVec.map (q.inTime M.elements el))[i]? = some e := he
    rw [List.getElem?_map, Option.map_eq_some_iff] at he
    obtain ⟨e', he', rfl⟩ := he
    rw [C.in_time el hel t ⟨hc.trans ht.1, ht.2.trans hd⟩]
    exact ((C.paths el hel).ode t ⟨hc.trans ht.1, ht.2.trans hd⟩ i s e' hs he').mono
      (Icc_subset_Icc hc hd)
  alg := by
    intro t ht e he
    have he : e ∈ q.algOf.map (q.inTime M.elements el) := he
    obtain ⟨e', he', rfl⟩ := List.mem_map.mp he
    rw [C.in_time el hel t ⟨hc.trans ht.1, ht.2.trans hd⟩]
    exact (C.paths el hel).alg t ⟨hc.trans ht.1, ht.2.trans hd⟩ e' he'

/-- The point of a trajectory at a time. -/
noncomputable abbrev at_ (q : Ocp) (b : Blocks ℝ) (p : List ℝ) (theta : List (List ℝ))
    (X : Nat → ℝ → Sym → ℝ) (el : Nat) (t : ℝ) : Point ℝ :=
  ⟨t, q.model.x.map (X el t), q.model.y.map (X el t), Direct.fullP q b p,
    Direct.fullTheta q b theta el, []⟩

theorem agrees (el : Nat) (hel : el < M.elements) (t : ℝ)
    (ht : t ∈ Icc (nodeTime q M el) (nodeTime q M (el + 1))) :
    AgreesAt q (at_ q b p theta X el t) (X el t) := by
  have h₁ := (C.paths el hel).p t ht
  have h₂ := (C.paths el hel).theta t ht
  have h₃ := (C.paths el hel).time t ht
  unfold AgreesAt at_
  simp only [← h₁, ← h₂]
  have : ([[t], q.model.x.map (X el t), q.model.y.map (X el t), q.model.p.map (X el t),
      q.model.theta.map (X el t), []] : List (List ℝ)).flatten =
      q.model.allSym.flatten.map (X el t) := by
    simp [SysModel.allSym, C.points, h₃]
  rw [this]
  exact agrees_map _ _

theorem values (el : Nat) (hel : el < M.elements) (t : ℝ)
    (ht : t ∈ Icc (nodeTime q M el) (nodeTime q M (el + 1))) (es : List Expr)
    (hs : ∀ e ∈ es, ∀ s ∈ e.syms, InScope q.model s) :
    (Fun.mk q.model.allSym (es.map (q.inTime M.elements el))).callAt ops
      (at_ q b p theta X el t) = es.map (Expr.eval ops (X el t)) := by
  refine call_inTime ops q M.elements C.elements C.horizon el es hs _ _ (C.agrees el hel t ht)
    (t / stepLength q M - (el : ℝ)) ?_ ((C.paths el hel).position t ht)
  rw [(C.paths el hel).time t ht]
  exact (C.time_eq el t).symm

theorem controls_empty (el : Nat) : b.u.getD el [] = [] := by
  have hg := C.blocks.u
  have hc : controlPoints (q.dims M.elements M.roots.length M.roots.length) = 0 := by
    simp [controlPoints, Ocp.dims, C.points]
  rw [hc] at hg
  rw [List.getD_eq_getElem?_getD]
  cases h : b.u[el]? with
  | none => rfl
  | some l =>
    have := (hg.2 l (List.mem_of_getElem? h)).1
    simpa using this

omit C in
theorem no_limits_of (hu : q.duMin = List.replicate q.model.u.length ⊥ ∧
    q.duMax = List.replicate q.model.u.length ⊤) : (built ops integ M q).hasDeltaU = false := by
  unfold Transcription.hasDeltaU
  rw [List.any_eq_false]
  intro i hi
  have hi : i < q.model.u.length := List.mem_range.mp hi
  have h₁ : (built ops integ M q).duMax[i]? = some ⊤ := by
    show (q.duMax.map Ocp.boundValue)[i]? = _
    rw [hu.2, List.map_replicate, List.getElem?_replicate, if_pos hi]
    rfl
  have h₂ : (built ops integ M q).duMin[i]? = some ⊥ := by
    show (q.duMin.map Ocp.boundValue)[i]? = _
    rw [hu.1, List.map_replicate, List.getElem?_replicate, if_pos hi]
    rfl
  simp [h₁, h₂]

theorem no_limits : (built ops integ M q).hasDeltaU = false := no_limits_of C.unlimited

variable (hi : ∀ el < M.elements, ∀ d, q.elementDae M.elements el = .ok d →
  ExactShots ops integ d (nodeTime q M el) (nodeTime q M (el + 1)))
include hi

omit C in
theorem shootable_of (hN : 0 < M.elements) (hh : q.t0 < q.tf) (hx : q.model.x ≠ [])
    (hf : ShotScope q false) (he : ∀ tag ∈ q.timeGIneq ++ q.timeGEq, tag = "end" ∨ tag = "default") :
    Shootable (built ops integ M q) where
  horizon := by
    show ((q.t0 : Rat) : ℝ) < ((q.tf : Rat) : ℝ)
    exact_mod_cast hh
  elements := hN
  states := List.length_pos_iff.mpr hx
  simulated := by
    intro el hel t t' x p theta u
    have hel : el < M.elements := hel
    have := (hi el hel _ ((Ocp.elementDae_ok el _).mpr ⟨hf.dynamics, rfl⟩)).sized t t' x (p ++ theta ++ [])
    show (integ (Ocp.daeAt _ el) t t' x _).1.length = _ ∧ (integ (Ocp.daeAt _ el) t t' x _).2.length = _
    rw [Direct.ShotBase.dae_at el hel]
    exact this
  tags := by
    have key : ∀ (fs : List (List Fun)) (tags : List String), (∀ tag ∈ tags, tag = "end" ∨ tag = "default") →
        ∀ g ∈ Ocp.pathCons ops fs tags, g.time = "end" ∨ g.time = "default" := by
      intro fs tags ht g hg
      obtain ⟨i, hi⟩ := List.getElem?_of_mem hg
      simp only [Ocp.pathCons, List.getElem?_zipWith] at hi
      cases hf : fs[i]? with
      | none => simp [hf] at hi
      | some f =>
        cases ht' : tags[i]? with
        | none => simp [hf, ht'] at hi
        | some tag =>
          simp only [hf, ht', Option.some.injEq] at hi
          subst hi
          exact ht tag (List.mem_of_getElem? ht')
    intro g hg
    rcases List.mem_append.mp hg with hg | hg
    · exact key _ _ (fun tag h => he tag (List.mem_append_left _ h)) g hg
    · exact key _ _ (fun tag h => he tag (List.mem_append_right _ h)) g hg

theorem shootable : Shootable (built ops integ M q) :=
  shootable_of hi C.elements C.horizon C.states C.scope C.ends

/-- The end of a shot is the end of the trajectory. -/
theorem shot_eq (el : Nat) (hel : el < M.elements) :
    shotEnd (built ops integ M q) b ((built ops integ M q).fullP b p)
      ((built ops integ M q).fullTheta b theta) el = at_ q b p theta X el (nodeTime q M (el + 1)) := by
  have hth : ((built ops integ M q).fullTheta b theta).getD el [] = Direct.fullTheta q b theta el := by
    have hd : (built ops integ M q).dims.elements = M.elements := rfl
    unfold Transcription.fullTheta
    rw [hd, List.getD_eq_getElem?_getD, List.getElem?_map, List.getElem?_range hel]
    rfl
  have hr : (built ops integ M q).simulate el (stepLength q M * (el : ℝ))
      (stepLength q M * ((el : ℝ) + 1)) ((b.x.getD el []).getD 0 []) (Direct.fullP q b p)
      (Direct.fullTheta q b theta el) (b.u.getD el []).flatten =
      (q.model.x.map (X el (nodeTime q M (el + 1))), q.model.y.map (X el (nodeTime q M (el + 1)))) := by
    have h := (hi el hel _ (C.dae_ok el)).exact _ _
      (C.trajectory el hel (nodeTime q M el) (nodeTime q M (el + 1)) le_rfl le_rfl)
    have e : (q.daeOf M.elements el).x = q.model.x := rfl
    rw [e, ← (C.paths el hel).start] at h
    show integ (Ocp.daeAt _ el) _ _ _ _ = _
    rw [Direct.ShotBase.dae_at el hel, List.append_nil]
    refine Eq.trans ?_ h
    simp [nodeTime]
  unfold shotEnd
  have hl : elementLength (built ops integ M q).toTranscription = stepLength q M := rfl
  have hp : (built ops integ M q).fullP b p = Direct.fullP q b p := rfl
  rw [C.controls_empty el] at hr ⊢
  simp only [hl, hp, hth, List.flatten_nil] at hr ⊢
  rw [hr]
  simp [nodeTime]

/-- A path constraint at the end of an element and the expression it comes from. -/
theorem path_iff (R : ℝ → Prop) (es : List Expr) (tags : List String) (hl : tags.length = es.length)
    (hs : ∀ e ∈ es, ∀ s ∈ e.syms, InScope q.model s) (el : Nat) (hel : el < M.elements) :
    (∀ g ∈ Ocp.pathCons ops (es.map fun e => (List.range M.elements).map fun el =>
        Fun.mk q.model.allSym [q.inTime M.elements el e]) tags,
        ∀ v ∈ g.value el (at_ q b p theta X el (nodeTime q M (el + 1))), R v) ↔
    ∀ e ∈ es, R (e.eval ops (X el (nodeTime q M (el + 1)))) := by
  have hv : ∀ e ∈ es, (Ocp.funAt ((List.range M.elements).map fun el =>
      Fun.mk q.model.allSym [q.inTime M.elements el e]) el).callAt ops
      (at_ q b p theta X el (nodeTime q M (el + 1))) = [e.eval ops (X el (nodeTime q M (el + 1)))] := by
    intro e he
    rw [funAt_range _ _ _ hel]
    exact C.values el hel _ (C.end_mem el) [e] (by simpa using hs e he)
  constructor
  · intro h e he
    obtain ⟨i, hi⟩ := List.getElem?_of_mem he
    have hlt : i < tags.length := hl ▸ (List.getElem?_eq_some_iff.mp hi).1
    have hget : (Ocp.pathCons ops (es.map fun e => (List.range M.elements).map fun el =>
        Fun.mk q.model.allSym [q.inTime M.elements el e]) tags)[i]? =
        some ⟨fun el pt => (Ocp.funAt ((List.range M.elements).map fun el =>
          Fun.mk q.model.allSym [q.inTime M.elements el e]) el).callAt ops pt, tags[i]⟩ := by
      simp [Ocp.pathCons, List.getElem?_zipWith, hi, List.getElem?_eq_getElem hlt]
    refine h _ (List.mem_of_getElem? hget) _ ?_
    simp only [hv e he, List.mem_singleton]
  · intro h g hg v hvm
    obtain ⟨i, hi⟩ := List.getElem?_of_mem hg
    have hlt := (List.getElem?_eq_some_iff.mp hi).1
    simp only [Ocp.pathCons, List.length_zipWith, List.length_map, hl, min_self] at hlt
    simp only [Ocp.pathCons, List.getElem?_zipWith, List.getElem?_map,
      List.getElem?_eq_getElem hlt, List.getElem?_eq_getElem (hl ▸ hlt : i < tags.length), Option.map_some,
      Option.some.injEq] at hi
    subst hi
    simp only [hv es[i] (List.getElem_mem _), List.mem_singleton] at hvm
    subst hvm
    exact h es[i] (List.getElem_mem _)

theorem shoots_iff (lastU : Option (List ℝ)) :
    Shoots (built ops integ M q) b x0 ((built ops integ M q).fullP b p)
      ((built ops integ M q).fullTheta b theta) lastU ↔ ShotsFit ops q M b X := by
  have hN := C.elements
  have hl : M.elements - 1 < M.elements := Nat.sub_lt hN Nat.one_pos
  have hn0 : nodeTime q M 0 = 0 := by simp [nodeTime]
  have hinit : (built ops integ M q).hInitial ((b.x.getD 0 []).getD 0 []) x0 =
      q.hInitial.map (Expr.eval ops (X 0 0)) := by
    have h := (C.paths 0 hN).start
    rw [hn0] at h
    rw [h]
    refine call_eq ops ⟨[q.model.x, q.model.x0], q.hInitial⟩ [q.model.x.map (X 0 0), x0] (X 0 0) ?_ ?_
    · have := C.scope.initial
      simpa using this
    · show Agrees (q.model.x ++ (q.model.x0 ++ [])) (_ ++ (x0 ++ [])) _
      rw [List.append_nil, List.append_nil]
      exact Agrees.append (agrees_map _ _) C.x0 (by simp)
  have hend : nodeTime q M M.elements ∈ Icc (nodeTime q M (M.elements - 1))
      (nodeTime q M (M.elements - 1 + 1)) := by
    have := C.end_mem (M.elements - 1)
    rwa [Nat.sub_add_cancel hN] at this ⊢
  have hpl := (C.paths _ hl).p _ hend
  have hfin : (b.x.getD M.elements []).getD 0 [] =
        q.model.x.map (X (M.elements - 1) (nodeTime q M M.elements)) →
      (built ops integ M q).hFinal
        ((b.x.getD (built ops integ M q).dims.elements []).getD 0 []) b.eta
        ((built ops integ M q).fullP b p) =
      q.hFinal.map (Expr.eval ops (X (M.elements - 1) (nodeTime q M M.elements))) := by
    intro h
    show (built ops integ M q).hFinal ((b.x.getD M.elements []).getD 0 []) _ (Direct.fullP q b p) = _
    rw [h, ← hpl]
    refine call_eq ops ⟨[q.model.x, q.eta, q.model.p], q.hFinal⟩
      [q.model.x.map (X (M.elements - 1) (nodeTime q M M.elements)), b.eta,
        q.model.p.map (X (M.elements - 1) (nodeTime q M M.elements))] _ ?_ ?_
    · have := C.scope.final
      simpa [or_assoc] using this
    · show Agrees (q.model.x ++ (q.eta ++ (q.model.p ++ []))) (_ ++ (b.eta ++ (_ ++ []))) _
      refine Agrees.append (agrees_map _ _) (Agrees.append C.eta (Agrees.append
        (agrees_map _ _) (fun s hs => by simp at hs) (by simp)) ?_) (by simp)
      exact C.blocks.eta.symm
  have hfree : (built ops integ M q).h ((built ops integ M q).fullP b p) =
      q.h.map (Expr.eval ops (X (M.elements - 1) (nodeTime q M M.elements))) := by
    show (built ops integ M q).h (Direct.fullP q b p) = _
    rw [← hpl]
    refine call_eq ops ⟨[q.model.p], q.h⟩ [q.model.p.map (X (M.elements - 1) (nodeTime q M M.elements))] _
      ?_ ?_
    · simpa using C.scope.timeless
    · show Agrees (q.model.p ++ []) (_ ++ []) _
      rw [List.append_nil, List.append_nil]
      exact agrees_map _ _
  have hlast : (∀ el < M.elements,
      (b.x.getD (el + 1) []).getD 0 [] = q.model.x.map (X el (nodeTime q M (el + 1)))) →
      (b.x.getD M.elements []).getD 0 [] =
        q.model.x.map (X (M.elements - 1) (nodeTime q M M.elements)) := by
    intro h
    have := h (M.elements - 1) hl
    rwa [Nat.sub_add_cancel hN] at this
  have hst : ∀ el < M.elements, nextState (built ops integ M q)
      (shotEnd (built ops integ M q) b ((built ops integ M q).fullP b p)
        ((built ops integ M q).fullTheta b theta) el).x =
      q.model.x.map (X el (nodeTime q M (el + 1))) := by
    intro el hel
    rw [C.shot_eq hi el hel]
    rfl
  have hineq := fun el hel => C.path_iff hi (· ≤ 0) q.gIneq q.timeGIneq C.tagged.1
    (fun e he => C.scope.path e (by simp [he])) el hel
  have heq := fun el hel => C.path_iff hi (· = 0) q.gEq q.timeGEq C.tagged.2
    (fun e he => C.scope.path e (by simp [he])) el hel
  constructor
  · intro h
    have hs : ∀ el < M.elements,
        (b.x.getD (el + 1) []).getD 0 [] = q.model.x.map (X el (nodeTime q M (el + 1))) :=
      fun el hel => (h.states el hel).trans (hst el hel)
    refine ⟨?_, hs, ?_, ?_, ?_, ?_, ?_⟩
    · have := h.initial
      rw [hinit] at this
      exact fun e he => this _ (List.mem_map_of_mem he)
    · intro el hel
      have := h.algebraics el hel
      rwa [C.shot_eq hi el hel] at this
    · intro el hel
      refine (hineq el hel).mp ?_
      have := h.inequalities el hel
      rwa [C.shot_eq hi el hel] at this
    · intro el hel
      refine (heq el hel).mp ?_
      have := h.equalities el hel
      rwa [C.shot_eq hi el hel] at this
    · have := h.final
      rw [hfin (hlast hs)] at this
      exact fun e he => this _ (List.mem_map_of_mem he)
    · have := h.independent
      rw [hfree] at this
      exact fun e he => this _ (List.mem_map_of_mem he)
  · intro h
    refine ⟨?_, fun el hel => (h.states el hel).trans (hst el hel).symm, ?_, ?_, ?_, ?_, ?_, ?_⟩
    · rw [hinit]
      intro v hv
      obtain ⟨e, he, rfl⟩ := List.mem_map.mp hv
      exact h.initial e he
    · intro el hel
      rw [C.shot_eq hi el hel]
      exact h.algebraics el hel
    · intro el _ before now _ hn
      rw [C.controls_empty el] at hn
      simp at hn
    · intro el hel
      rw [C.shot_eq hi el hel]
      exact (hineq el hel).mpr (h.inequalities el hel)
    · intro el hel
      rw [C.shot_eq hi el hel]
      exact (heq el hel).mpr (h.equalities el hel)
    · rw [hfin (hlast h.states)]
      intro v hv
      obtain ⟨e, he, rfl⟩ := List.mem_map.mp hv
      exact h.final e he
    · rw [hfree]
      intro v hv
      obtain ⟨e, he, rfl⟩ := List.mem_map.mp hv
      exact h.timeless e he

/-- The program: its constraints are the conditions, its objective is zero. -/
theorem program (lastU : Option (List ℝ)) :
    ∃ cons, (built ops integ M q).discretize b x0 p theta lastU = .ok (cons, 0) ∧
      ((∀ c ∈ cons, c.Holds) ↔ ShotsFit ops q M b X) := by
  obtain ⟨cons, h, hh⟩ := C94_feasible_iff (built ops integ M q) b x0 p theta lastU (C.shootable hi)
    C.blocks (fun hd => by rw [C.no_limits] at hd; cases hd)
  refine ⟨cons, ?_, hh.trans (C.shoots_iff hi lastU)⟩
  rw [h]
  simp [shootingCost, built, Ocp.shootingOf]

end Shots
end Own
end Verif
