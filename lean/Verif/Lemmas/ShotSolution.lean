import Verif.Lemmas.TranscribeShooting
import Mathlib.MeasureTheory.Integral.IntervalIntegral.FundThmCalculus
/-! Lemmas on multiple shooting of a prepared problem in terms of the problem of the user. -/
namespace Verif
open Spec Set

/-- A column and the values of symbols. -/
theorem column_iff {K : Type} [Zero K] (col : List K) (l : List Sym) (ρ : Sym → K) (c : K)
    (hl : col.length = l.length + 1) : col = l.map ρ ++ [c] ↔
      (∀ (i : Nat) (s : Sym), l[i]? = some s → col.getD i 0 = ρ s) ∧ col.getD l.length 0 = c := by
  constructor
  · rintro rfl
    constructor
    · intro i s hs
      have hi := (List.getElem?_eq_some_iff.mp hs).1
      rw [List.getD_eq_getElem?_getD, List.getElem?_append_left (by simpa using hi), List.getElem?_map, hs]
      rfl
    · rw [List.getD_eq_getElem?_getD, List.getElem?_append_right (by simp)]
      simp
  · rintro ⟨h, rfl⟩
    refine List.ext_getElem (by simp [hl]) fun i h₁ h₂ => ?_
    by_cases hi : i < l.length
    · rw [List.getElem_append_left (by simpa using hi), List.getElem_map,
        ← h i _ (List.getElem?_eq_getElem hi), List.getD_eq_getElem?_getD, List.getElem?_eq_getElem h₁]
      rfl
    · have : i = l.length := by omega
      subst this
      rw [List.getElem_append_right (by simp)]
      simp [List.getD_eq_getElem?_getD, h₁]

/-- A column of algebraics. -/
theorem column_iff' {K : Type} [Zero K] (col : List K) (l : List Sym) (ρ : Sym → K)
    (hl : col.length = l.length) : col = l.map ρ ↔
      ∀ (i : Nat) (s : Sym), l[i]? = some s → col.getD i 0 = ρ s := by
  constructor
  · rintro rfl i s hs
    rw [List.getD_eq_getElem?_getD, List.getElem?_map, hs]
    rfl
  · intro h
    refine List.ext_getElem (by simp [hl]) fun i h₁ h₂ => ?_
    have hi : i < l.length := by omega
    rw [List.getElem_map, ← h i _ (List.getElem?_eq_getElem hi), List.getD_eq_getElem?_getD,
      List.getElem?_eq_getElem h₁]
    rfl

/-- Different symbols that agree with values are mapped to them. -/
theorem Agrees.map_eq {K : Type} {l : List Sym} {a : List K} {ρ : Sym → K} (h : Agrees l a ρ)
    (hn : l.Nodup) (hl : l.length = a.length) : l.map ρ = a := by
  refine List.ext_getElem (by simpa using hl) fun i h₁ h₂ => ?_
  have hi : i < l.length := by simpa using h₁
  have := h l[i] (List.getElem_mem _)
  rw [lookup_zip l a hl.symm _ (List.getElem_mem _), hn.idxOf_getElem i hi,
    List.getElem?_eq_getElem h₂, Option.some.injEq] at this
  rw [List.getElem_map, ← this]

namespace Direct

/-- What is given for multiple shooting, apart from trajectories. -/
structure ShotBase (ops : Expr.Ops ℝ) (integ : DaeIntegrator ℝ) (M : Mesh) (o q : Ocp)
    (xc fresh base : Sym) (S : Expr → Expr) (b : Blocks ℝ) (x0 p : List ℝ) (theta : List (List ℝ)) :
    Prop extends Common M o q xc fresh base S b x0 p theta where
  shot : ShotProblem o
  blocks : ShootingShape (directDims o M) b
  exact : ∀ el < M.elements, ∀ d, q.elementDae M.elements el = .ok d →
    ExactShots ops integ d (nodeTime o M el) (nodeTime o M (el + 1))

/-- Everything the theorem on multiple shooting is about. -/
structure ShotSetting (ops : Expr.Ops ℝ) (integ : DaeIntegrator ℝ) (M : Mesh) (o q : Ocp)
    (xc fresh base : Sym) (S : Expr → Expr) (b : Blocks ℝ) (x0 p : List ℝ) (theta : List (List ℝ))
    (X : Nat → ℝ → Sym → ℝ) : Prop extends ShotBase ops integ M o q xc fresh base S b x0 p theta where
  paths : ∀ el < M.elements, ElementPath ops o M b x0 p theta el (X el)

namespace ShotSetting

/-- What is discretised. -/
noncomputable abbrev built (ops : Expr.Ops ℝ) (integ : DaeIntegrator ℝ) (M : Mesh) (q : Ocp) (sum : Bool) :
    ShootingMethod ℝ :=
  q.shootingOf ops integ M.elements M.roots.length M.controlRoots.length sum

end ShotSetting

namespace ShotBase

variable {ops : Expr.Ops ℝ} {integ : DaeIntegrator ℝ} {M : Mesh} {o q : Ocp} {xc fresh base : Sym}
  {S : Expr → Expr} {b : Blocks ℝ} {x0 p : List ℝ} {theta : List (List ℝ)}
  (C : ShotBase ops integ M o q xc fresh base S b x0 p theta)
include C
open ShotSetting (built)

theorem scope_shot (sum : Bool) : ShotScope q sum := by
  have h := C.function_scope
  refine ⟨?_, ?_, h.initial, h.final, h.timeless, fun _ => h.cost⟩
  · exact fun e he => h.path e (by simp only [List.mem_append] at he ⊢; tauto)
  · intro e he s hs
    have hin := h.path e (by simp only [List.mem_append] at he ⊢; tauto) s hs
    have hy : (if q.model.alg = [] then [] else q.model.y) = q.model.y := by
      split
      · next ha =>
        rw [C.prepared.alg, List.map_eq_nil_iff] at ha
        rw [C.prepared.symbols.2.2.2.2.1, C.shot.unknowns ha]
      · rfl
    rw [hy]
    unfold InScope at hin
    simp only [List.mem_append, List.mem_cons, List.not_mem_nil, or_false]
    tauto

theorem step_pos : 0 < stepLength (K := ℝ) o M := by
  unfold stepLength
  have h₁ : (o.t0 : ℝ) < (o.tf : ℝ) := by exact_mod_cast C.problem.horizon
  have h₂ : (0 : ℝ) < (M.elements : ℝ) := by exact_mod_cast C.controlMesh.elements
  exact div_pos (sub_pos.mpr h₁) h₂

theorem node_lt (el : Nat) : nodeTime o M el < nodeTime o M (el + 1) := by
  unfold nodeTime
  refine mul_lt_mul_of_pos_left ?_ C.step_pos
  push_cast
  linarith

theorem start_mem (el : Nat) : nodeTime o M el ∈ Icc (nodeTime o M el) (nodeTime o M (el + 1)) :=
  ⟨le_rfl, (C.node_lt el).le⟩

theorem end_mem (el : Nat) : nodeTime o M (el + 1) ∈ Icc (nodeTime o M el) (nodeTime o M (el + 1)) :=
  ⟨(C.node_lt el).le, le_rfl⟩

variable (sum : Bool)

theorem fullP_eq : (built ops integ M q sum).fullP b p = fullP o b p := by
  show Ocp.putValues (findIndices q.pOpt q.model.p) b.pOpt p = _
  rw [C.prepared.others.2.1, C.prepared.symbols.2.2.2.2.2.1]
  rfl

theorem fullTheta_eq (el : Nat) (hel : el < M.elements) :
    ((built ops integ M q sum).fullTheta b theta).getD el [] = fullTheta o b theta el := by
  have hd : (built ops integ M q sum).dims.elements = M.elements := rfl
  unfold Transcription.fullTheta
  rw [hd, List.getD_eq_getElem?_getD, List.getElem?_map, List.getElem?_range hel]
  show Ocp.putValues (findIndices q.thetaOpt q.model.theta) _ _ = _
  rw [C.prepared.others.2.2, C.prepared.symbols.2.2.2.2.2.2.1]
  rfl

theorem length_eq : elementLength (built ops integ M q sum).toTranscription = stepLength o M := by
  show (((q.tf : Rat) : ℝ) - ((q.t0 : Rat) : ℝ)) / ((M.elements : Nat) : ℝ) = _
  rw [C.prepared.times.1, C.prepared.times.2]
  rfl

theorem exact_at (el : Nat) (hel : el < M.elements) :
    ExactShots ops integ (q.daeOf M.elements el) (nodeTime o M el) (nodeTime o M (el + 1)) := by
  refine C.exact el hel _ ((Ocp.elementDae_ok el _).mpr ⟨?_, rfl⟩)
  exact (C.scope_shot true).dynamics

omit C in
theorem dae_at (el : Nat) (hel : el < M.elements) :
    Ocp.daeAt ((List.range M.elements).map (q.daeOf M.elements)) el = q.daeOf M.elements el := by
  simp [Ocp.daeAt, List.getD_eq_getElem?_getD, hel]

theorem shootable : Shootable (built ops integ M q sum) where
  horizon := by
    show ((q.t0 : Rat) : ℝ) < ((q.tf : Rat) : ℝ)
    rw [C.prepared.times.1, C.prepared.times.2]
    exact_mod_cast C.problem.horizon
  elements := C.controlMesh.elements
  states := by
    have : (built ops integ M q sum).dims.nX = o.model.x.length + 1 := congrArg Dims.nX C.dims_eq
    rw [this]; exact Nat.succ_pos _
  simulated := by
    intro el hel t t' x p theta u
    have hel : el < M.elements := hel
    have := (C.exact_at el hel).sized t t' x (p ++ theta ++ u)
    show (integ (Ocp.daeAt _ el) t t' x _).1.length = _ ∧ (integ (Ocp.daeAt _ el) t t' x _).2.length = _
    rw [dae_at el hel]
    exact this
  tags := by
    have key : ∀ (fs : List (List Fun)) (tags : List String), (∀ tag ∈ tags, tag = "end" ∨ tag = "default") →
        ∀ g ∈ Ocp.pathCons ops fs tags, g.time = "end" ∨ g.time = "default" := by
      intro fs tags ht g hg
      obtain ⟨i, hi⟩ := List.getElem?_of_mem hg
      simp only [Ocp.pathCons, List.getElem?_zipWith] at hi
      cases hf : fs[i]? with
      | none => simp [hf] at hi
      | some f =>
        cases ht' : tags[i]? with
        | none => simp [hf, ht'] at hi
        | some tag =>
          simp only [hf, ht', Option.some.injEq] at hi
          subst hi
          exact ht tag (List.mem_of_getElem? ht')
    intro g hg
    rcases List.mem_append.mp hg with hg | hg
    · refine key _ _ ?_ g hg
      rw [C.prepared.tags.1]
      exact fun tag h => C.shot.ends tag (List.mem_append_left _ h)
    · refine key _ _ ?_ g hg
      rw [C.prepared.tags.2]
      exact fun tag h => C.shot.ends tag (List.mem_append_right _ h)

end ShotBase

namespace ShotSetting

variable {ops : Expr.Ops ℝ} {integ : DaeIntegrator ℝ} {M : Mesh} {o q : Ocp} {xc fresh base : Sym}
  {S : Expr → Expr} {b : Blocks ℝ} {x0 p : List ℝ} {theta : List (List ℝ)} {X : Nat → ℝ → Sym → ℝ}
  (C : ShotSetting ops integ M o q xc fresh base S b x0 p theta X)

/-- The cost state during an element. -/
noncomputable def costAt (ops : Expr.Ops ℝ) (o : Ocp) (M : Mesh) (b : Blocks ℝ) (X : Nat → ℝ → Sym → ℝ)
    (el : Nat) (t : ℝ) : ℝ :=
  shotState b el o.model.x.length + ∫ r in (nodeTime o M el)..t, o.L.eval ops (X el r)

/-- The trajectory of the prepared problem. -/
noncomputable def lifted (ops : Expr.Ops ℝ) (o : Ocp) (M : Mesh) (xc fresh base : Sym) (b : Blocks ℝ)
    (X : Nat → ℝ → Sym → ℝ) (el : Nat) (t : ℝ) : Sym → ℝ :=
  Common.values xc fresh base b el (X el t) (costAt ops o M b X el t)

include C

theorem cost_deriv (el : Nat) (hel : el < M.elements) (t : ℝ)
    (ht : t ∈ Icc (nodeTime o M el) (nodeTime o M (el + 1))) :
    HasDerivWithinAt (costAt ops o M b X el) (o.L.eval ops (X el t))
      (Icc (nodeTime o M el) (nodeTime o M (el + 1))) t := by
  have hc := (C.paths el hel).running
  have : Fact (t ∈ Icc (nodeTime o M el) (nodeTime o M (el + 1))) := ⟨ht⟩
  have hi : IntervalIntegrable (fun r => o.L.eval ops (X el r)) MeasureTheory.volume
      (nodeTime o M el) t := by
    refine ContinuousOn.intervalIntegrable ?_
    rw [uIcc_of_le ht.1]
    exact hc.mono (Icc_subset_Icc le_rfl ht.2)
  have := intervalIntegral.integral_hasDerivWithinAt_right hi
    (hc.stronglyMeasurableAtFilter_nhdsWithin measurableSet_Icc t) (hc t ht)
    (s := Icc (nodeTime o M el) (nodeTime o M (el + 1)))
  exact this.const_add _

theorem reads_at (el : Nat) (hel : el < M.elements) (t : ℝ)
    (ht : t ∈ Icc (nodeTime o M el) (nodeTime o M (el + 1))) :
    ReadsData o M b x0 p theta el (t / stepLength o M - (el : ℝ)) (X el t) :=
  (C.paths el hel).reads t ht

theorem time_eq (el : Nat) (t : ℝ) :
    stepLength o M * ((el : ℝ) + (t / stepLength o M - (el : ℝ))) = t := by
  have := C.step_pos.ne'
  field_simp
  ring

theorem in_time (el : Nat) (hel : el < M.elements) (t : ℝ)
    (ht : t ∈ Icc (nodeTime o M el) (nodeTime o M (el + 1))) (e : Expr) (he : e ∈ alongPath o) :
    (q.inTime M.elements el (S e)).eval ops (lifted ops o M xc fresh base b X el t) =
      e.eval ops (X el t) := by
  have r := C.reads_at el hel t ht
  unfold lifted
  rw [eval_inTime ops q M.elements el C.controlMesh.elements
    (by rw [C.prepared.times.1, C.prepared.times.2]; exact C.problem.horizon) _
    (t / stepLength o M - (el : ℝ))
    (by rw [C.toCommon.time_value r, C.prepared.times.1, C.prepared.times.2]; rfl)
    (C.toCommon.position_value r _)]
  refine C.eval_user ops hel r _ e fun s hs => ?_
  have := C.scope.path e he s hs
  simp only [problemSymbols, List.mem_append] at this ⊢
  tauto

/-- The trajectory of the user, with the cost state, is one of the equations that are integrated. -/
theorem trajectory (el : Nat) (hel : el < M.elements) :
    DaeTrajectory ops (q.daeOf M.elements el)
      (fullP o b p ++ fullTheta o b theta el ++ (b.u.getD el []).flatten)
      (nodeTime o M el) (nodeTime o M (el + 1)) (lifted ops o M xc fresh base b X el) where
  time := by
    intro t ht
    have r := C.reads_at el hel t ht
    exact (C.toCommon.time_value r _).trans (C.time_eq el t)
  parameters := by
    intro t ht
    have r := C.reads_at el hel t ht
    show (q.model.p ++ q.model.theta ++ q.model.uPar).map _ = _
    obtain ⟨h₁, h₂, h₃, h₄, h₅, h₆, h₇, h₈, h₉⟩ := C.prepared.symbols
    rw [List.map_append, List.map_append]
    unfold lifted
    rw [(C.parameters_agree r _).map_eq (by rw [h₆]; exact C.problem.parameters.1) C.fullP_length,
      (C.thetas_agree hel r _).map_eq (by rw [h₇]; exact C.problem.thetas.1) (C.fullTheta_length hel),
      (C.points_agree hel _).map_eq (by rw [h₉]; exact newSyms_nodup _ _) (C.points_length hel)]
  ode := by
    intro t ht i s e hs he
    have hs : q.model.x[i]? = some s := hs
    have he : (q.model.odeVec.map (q.inTime M.elements el))[i]? = some e := he
    rw [C.prepared.symbols.2.2.1] at hs
    rw [C.prepared.ode, List.map_map, List.getElem?_map, Option.map_eq_some_iff] at he
    obtain ⟨e', he', rfl⟩ := he
    have hlen := complete_length _ C.problem.complete
    have hmem : e' ∈ alongPath o := by
      have := List.mem_of_getElem? he'
      simp only [alongPath, List.mem_append, List.mem_cons, List.not_mem_nil, or_false] at this ⊢
      tauto
    simp only [Function.comp_apply]
    rw [C.in_time el hel t ht e' hmem]
    by_cases hi : i < o.model.x.length
    · rw [List.getElem?_append_left hi] at hs
      rw [List.getElem?_append_left (by omega)] at he'
      have hd := (C.paths el hel).ode t ht s e' ((complete_get C.problem.complete i s e' hs).mpr he')
      refine hd.congr_of_mem (fun r _ => ?_) ht
      exact C.values_known _ _ _ s (by simp [problemSymbols, List.mem_of_getElem? hs])
    · rw [List.getElem?_append_right (by omega)] at hs
      rw [List.getElem?_append_right (by omega)] at he'
      have hi' : i = o.model.x.length := by
        have := (List.getElem?_eq_some_iff.mp hs).1
        simp at this
        omega
      subst hi'
      rw [hlen] at he'
      simp only [Nat.sub_self, List.getElem?_cons_zero, Option.some.injEq] at hs he'
      subst hs he'
      refine (C.cost_deriv el hel t ht).congr_of_mem (fun r _ => ?_) ht
      exact Common.values_cost _ _ _
  alg := by
    intro t ht e he
    have he : e ∈ q.algOf.map (q.inTime M.elements el) := he
    rw [C.algOf_eq, List.map_map, List.mem_map] at he
    obtain ⟨e', he', rfl⟩ := he
    simp only [Function.comp_apply]
    rw [C.in_time el hel t ht e' (by simp [alongPath, he'])]
    exact (C.paths el hel).alg t ht e' he'

theorem lifted_x (el : Nat) (t : ℝ) : (q.daeOf M.elements el).x.map (lifted ops o M xc fresh base b X el t) =
    o.model.x.map (X el t) ++ [costAt ops o M b X el t] := by
  show q.model.x.map _ = _
  rw [C.prepared.symbols.2.2.1, List.map_append]
  congr 1
  · exact List.map_congr_left fun s hs => C.values_known _ _ _ s (by simp [problemSymbols, hs])
  · simp only [List.map_cons, List.map_nil, lifted, Common.values_cost]

theorem lifted_y (el : Nat) (t : ℝ) : (q.daeOf M.elements el).y.map (lifted ops o M xc fresh base b X el t) =
    o.model.y.map (X el t) := by
  show q.model.y.map _ = _
  rw [C.prepared.symbols.2.2.2.2.1]
  exact List.map_congr_left fun s hs => C.values_known _ _ _ s (by simp [problemSymbols, hs])

theorem state_length (el : Nat) (hel : el < M.elements + 1) :
    ((b.x.getD el []).getD 0 []).length = o.model.x.length + 1 := by
  have hx := Transcription.grid_columns C.blocks.x hel
  have hx0 : (b.x.getD el [])[0]? = some ((b.x.getD el []).getD 0 []) :=
    Transcription.getElem?_getD [] (by rw [hx.1]; omega)
  exact hx.2 _ (List.mem_of_getElem? hx0)

theorem algebraic_length (el : Nat) (hel : el < M.elements) :
    ((b.y.getD el []).getD 0 []).length = o.model.y.length := by
  have hx := Transcription.grid_columns C.blocks.y hel
  have hx0 : (b.y.getD el [])[0]? = some ((b.y.getD el []).getD 0 []) :=
    Transcription.getElem?_getD [] (by rw [hx.1]; omega)
  exact hx.2 _ (List.mem_of_getElem? hx0)

theorem start_eq (el : Nat) (hel : el < M.elements) : (b.x.getD el []).getD 0 [] =
    o.model.x.map (X el (nodeTime o M el)) ++ [costAt ops o M b X el (nodeTime o M el)] := by
  rw [column_iff _ _ _ _ (C.state_length el (by omega))]
  refine ⟨fun i s hs => ((C.paths el hel).start i s hs).symm, ?_⟩
  simp [costAt, shotState]

variable (sum : Bool)

/-- The end of a shot is the end of the trajectory of the user. -/
theorem shot_eq (el : Nat) (hel : el < M.elements) :
    shotEnd (built ops integ M q sum) b ((built ops integ M q sum).fullP b p)
      ((built ops integ M q sum).fullTheta b theta) el =
    Common.userPoint o M b p theta el 1 (X el (nodeTime o M (el + 1)))
      (costAt ops o M b X el (nodeTime o M (el + 1))) := by
  have hr : (built ops integ M q sum).simulate el (stepLength o M * (el : ℝ))
      (stepLength o M * ((el : ℝ) + 1)) ((b.x.getD el []).getD 0 []) (fullP o b p)
      (fullTheta o b theta el) (b.u.getD el []).flatten =
      (o.model.x.map (X el (nodeTime o M (el + 1))) ++ [costAt ops o M b X el (nodeTime o M (el + 1))],
        o.model.y.map (X el (nodeTime o M (el + 1)))) := by
    have h := (C.exact_at el hel).exact _ _ (C.trajectory el hel)
    rw [C.lifted_x, C.lifted_x, C.lifted_y, ← C.start_eq el hel] at h
    show integ (Ocp.daeAt _ el) _ _ _ _ = _
    rw [ShotBase.dae_at el hel, ← h]
    simp [nodeTime]
  unfold shotEnd
  simp only [C.length_eq sum, C.fullP_eq sum, C.fullTheta_eq sum el hel, hr]
  simp [Common.userPoint]

theorem position_end (el : Nat) : nodeTime o M (el + 1) / stepLength o M - (el : ℝ) = 1 := by
  have := C.step_pos.ne'
  unfold nodeTime
  push_cast
  field_simp
  ring

theorem reads_end (el : Nat) (hel : el < M.elements) :
    ReadsData o M b x0 p theta el 1 (X el (nodeTime o M (el + 1))) := by
  have := C.reads_at el hel _ (C.end_mem el)
  rwa [C.position_end] at this

theorem reads_start : ReadsData o M b x0 p theta 0 0 (X 0 0) := by
  have h := C.reads_at 0 C.controlMesh.elements _ (C.start_mem 0)
  have h0 : nodeTime o M 0 = 0 := by simp [nodeTime]
  rw [h0] at h
  simpa using h

/-- A path constraint at the end of an element and the expression it comes from. -/
theorem path_iff (R : ℝ → Prop) (es : List Expr) (tags : List String) (hl : tags.length = es.length)
    (hs : ∀ e ∈ es, e ∈ alongPath o) (el : Nat) (hel : el < M.elements) :
    (∀ g ∈ Ocp.pathCons ops ((es.map S).map fun e => (List.range M.elements).map fun el =>
        Fun.mk q.model.allSym [q.inTime M.elements el e]) tags,
        ∀ v ∈ g.value el (Common.userPoint o M b p theta el 1 (X el (nodeTime o M (el + 1)))
          (costAt ops o M b X el (nodeTime o M (el + 1)))), R v) ↔
    ∀ e ∈ es, R (e.eval ops (X el (nodeTime o M (el + 1)))) := by
  have hv : ∀ e ∈ es, (Ocp.funAt ((List.range M.elements).map fun el =>
      Fun.mk q.model.allSym [q.inTime M.elements el (S e)]) el).callAt ops
      (Common.userPoint o M b p theta el 1 (X el (nodeTime o M (el + 1)))
        (costAt ops o M b X el (nodeTime o M (el + 1)))) =
      [e.eval ops (X el (nodeTime o M (el + 1)))] := fun e he =>
    C.path_value ops hel (C.reads_end el hel) _ e (hs e he)
  constructor
  · intro h e he
    obtain ⟨i, hi⟩ := List.getElem?_of_mem he
    have hlt : i < tags.length := hl ▸ (List.getElem?_eq_some_iff.mp hi).1
    have hget : (Ocp.pathCons ops ((es.map S).map fun e => (List.range M.elements).map fun el =>
        Fun.mk q.model.allSym [q.inTime M.elements el e]) tags)[i]? =
        some ⟨fun el pt => (Ocp.funAt ((List.range M.elements).map fun el =>
          Fun.mk q.model.allSym [q.inTime M.elements el (S e)]) el).callAt ops pt, tags[i]⟩ := by
      simp [Ocp.pathCons, List.getElem?_zipWith, hi, List.getElem?_eq_getElem hlt]
    refine h _ (List.mem_of_getElem? hget) _ ?_
    simp only [hv e he, List.mem_singleton]
  · intro h g hg v hvm
    obtain ⟨i, hi⟩ := List.getElem?_of_mem hg
    have hlt := (List.getElem?_eq_some_iff.mp hi).1
    simp only [Ocp.pathCons, List.length_zipWith, List.length_map, hl, min_self] at hlt
    simp only [Ocp.pathCons, List.getElem?_zipWith, List.getElem?_map,
      List.getElem?_eq_getElem hlt, List.getElem?_eq_getElem (hl ▸ hlt : i < tags.length), Option.map_some,
      Option.some.injEq] at hi
    subst hi
    simp only [hv es[i] (List.getElem_mem _), List.mem_singleton] at hvm
    subst hvm
    exact h es[i] (List.getElem_mem _)

theorem next_eq (el : Nat) (hel : el < M.elements) :
    nextState (built ops integ M q sum) (shotEnd (built ops integ M q sum) b
      ((built ops integ M q sum).fullP b p) ((built ops integ M q sum).fullTheta b theta) el).x =
    o.model.x.map (X el (nodeTime o M (el + 1))) ++
      [if sum then 0 else shotState b el o.model.x.length + runningCost ops o M el (X el)] := by
  rw [C.shot_eq sum el hel]
  show (if sum = true then _ else _) = _
  cases sum
  · rfl
  · simp [Common.userPoint]

theorem states_iff (el : Nat) (hel : el < M.elements) :
    (b.x.getD (el + 1) []).getD 0 [] = nextState (built ops integ M q sum)
      (shotEnd (built ops integ M q sum) b ((built ops integ M q sum).fullP b p)
        ((built ops integ M q sum).fullTheta b theta) el).x ↔
    (∀ (i : Nat) (s : Sym), o.model.x[i]? = some s →
      shotState b (el + 1) i = X el (nodeTime o M (el + 1)) s) ∧
    shotState b (el + 1) o.model.x.length =
      if sum then 0 else shotState b el o.model.x.length + runningCost ops o M el (X el) := by
  rw [C.next_eq sum el hel, column_iff _ _ _ _ (C.state_length (el + 1) (by omega))]
  rfl

theorem last_eq (h : ∀ (i : Nat) (s : Sym), o.model.x[i]? = some s →
    shotState b M.elements i = X (M.elements - 1) (nodeTime o M M.elements) s) :
    (b.x.getD M.elements []).getD 0 [] = o.model.x.map (X (M.elements - 1) (nodeTime o M M.elements)) ++
      [shotState b M.elements o.model.x.length] := by
  rw [column_iff _ _ _ _ (C.state_length M.elements (by omega))]
  exact ⟨h, rfl⟩

theorem reads_final : ReadsData o M b x0 p theta (M.elements - 1) 1
    (X (M.elements - 1) (nodeTime o M M.elements)) := by
  have hN := C.controlMesh.elements
  have := C.reads_end (M.elements - 1) (by omega)
  rwa [Nat.sub_add_cancel hN] at this

theorem shoots_iff (lastU : Option (List ℝ)) :
    Shoots (built ops integ M q sum) b (x0 ++ [0]) ((built ops integ M q sum).fullP b p)
      ((built ops integ M q sum).fullTheta b theta) lastU ↔ ShotSolution ops o M b lastU sum X := by
  have hN := C.controlMesh.elements
  have hn0 : nodeTime o M 0 = 0 := by simp [nodeTime]
  have hinit : (built ops integ M q sum).hInitial ((b.x.getD 0 []).getD 0 []) (x0 ++ [0]) =
      o.hInitial.map (Expr.eval ops (X 0 0)) ++ [0 - shotState b 0 o.model.x.length] := by
    have h := C.start_eq 0 hN
    rw [hn0] at h
    rw [h]
    refine (C.toCommon.initial_values ops C.reads_start _).trans ?_
    simp [costAt, hn0]
  have hfin : (∀ (i : Nat) (s : Sym), o.model.x[i]? = some s →
      shotState b M.elements i = X (M.elements - 1) (nodeTime o M M.elements) s) →
      (built ops integ M q sum).hFinal
        ((b.x.getD (built ops integ M q sum).dims.elements []).getD 0 []) b.eta
        ((built ops integ M q sum).fullP b p) =
      o.hFinal.map (Expr.eval ops (X (M.elements - 1) (nodeTime o M M.elements))) := by
    intro h
    rw [C.fullP_eq sum]
    show (built ops integ M q sum).hFinal ((b.x.getD M.elements []).getD 0 []) _ _ = _
    rw [C.last_eq h]
    exact C.toCommon.final_values ops C.reads_final _
  have hfree : (built ops integ M q sum).h ((built ops integ M q sum).fullP b p) =
      o.h.map (Expr.eval ops (X (M.elements - 1) (nodeTime o M M.elements))) := by
    rw [C.fullP_eq sum]
    exact C.toCommon.timeless_values ops C.reads_final
  have hlast : (∀ el < M.elements, ∀ (i : Nat) (s : Sym), o.model.x[i]? = some s →
      shotState b (el + 1) i = X el (nodeTime o M (el + 1)) s) →
      ∀ (i : Nat) (s : Sym), o.model.x[i]? = some s →
        shotState b M.elements i = X (M.elements - 1) (nodeTime o M M.elements) s := by
    intro h i s hs
    have := h (M.elements - 1) (by omega) i s hs
    rwa [Nat.sub_add_cancel hN] at this
  have hineq := fun el hel => C.path_iff (· ≤ 0) o.gIneq o.timeGIneq C.problem.tagged.1
    (fun e he => by simp [alongPath, he]) el hel
  have heq := fun el hel => C.path_iff (· = 0) o.gEq o.timeGEq C.problem.tagged.2
    (fun e he => by simp [alongPath, he]) el hel
  have g₁ : (built ops integ M q sum).gIneq = Ocp.pathCons ops ((o.gIneq.map S).map fun e =>
      (List.range M.elements).map fun el => Fun.mk q.model.allSym [q.inTime M.elements el e])
      o.timeGIneq := by
    show Ocp.pathCons ops (q.gIneq.map _) q.timeGIneq = _
    rw [C.prepared.path.1, C.prepared.tags.1]
  have g₂ : (built ops integ M q sum).gEq = Ocp.pathCons ops ((o.gEq.map S).map fun e =>
      (List.range M.elements).map fun el => Fun.mk q.model.allSym [q.inTime M.elements el e])
      o.timeGEq := by
    show Ocp.pathCons ops (q.gEq.map _) q.timeGEq = _
    rw [C.prepared.path.2, C.prepared.tags.2]
  have hrates := C.toCommon.limits_iff (m := (built ops integ M q sum).toTranscription) rfl rfl rfl lastU
  constructor
  · intro h
    have hst := fun el hel => (C.states_iff sum el hel).mp (h.states el hel)
    have hi := h.initial
    rw [hinit] at hi
    refine ⟨?_, ?_, fun el hel => (hst el hel).1, fun el hel => (hst el hel).2, ?_, ?_, ?_,
      hrates.mp h.rates, ?_, ?_⟩
    · exact fun e he => hi _ (List.mem_append_left _ (List.mem_map_of_mem he))
    · have := hi _ (List.mem_append_right _ (List.mem_singleton.mpr rfl))
      linarith
    · intro el hel
      have := h.algebraics el hel
      rw [C.shot_eq sum el hel] at this
      exact (column_iff' _ _ _ (C.algebraic_length el hel)).mp this
    · intro el hel
      refine (hineq el hel).mp ?_
      have := h.inequalities el hel
      rwa [C.shot_eq sum el hel, g₁] at this
    · intro el hel
      refine (heq el hel).mp ?_
      have := h.equalities el hel
      rwa [C.shot_eq sum el hel, g₂] at this
    · have := h.final
      rw [hfin (hlast fun el hel => (hst el hel).1)] at this
      exact fun e he => this _ (List.mem_map_of_mem he)
    · have := h.independent
      rw [hfree] at this
      exact fun e he => this _ (List.mem_map_of_mem he)
  · intro h
    refine ⟨?_, fun el hel => (C.states_iff sum el hel).mpr ⟨h.states el hel, h.running el hel⟩, ?_,
      hrates.mpr h.rates, ?_, ?_, ?_, ?_⟩
    · rw [hinit]
      intro v hv
      rcases List.mem_append.mp hv with hv | hv
      · obtain ⟨e, he, rfl⟩ := List.mem_map.mp hv
        exact h.initial e he
      · rw [List.mem_singleton.mp hv, h.costStart, sub_zero]
    · intro el hel
      rw [C.shot_eq sum el hel]
      exact (column_iff' _ _ _ (C.algebraic_length el hel)).mpr (h.algebraics el hel)
    · intro el hel
      rw [C.shot_eq sum el hel, g₁]
      exact (hineq el hel).mpr (h.inequalities el hel)
    · intro el hel
      rw [C.shot_eq sum el hel, g₂]
      exact (heq el hel).mpr (h.equalities el hel)
    · rw [hfin (hlast h.states)]
      intro v hv
      obtain ⟨e, he, rfl⟩ := List.mem_map.mp hv
      exact h.final e he
    · rw [hfree]
      intro v hv
      obtain ⟨e, he, rfl⟩ := List.mem_map.mp hv
      exact h.timeless e he

/-- The objective at a solution. -/
theorem cost_eq {lastU : Option (List ℝ)} (h : ShotSolution ops o M b lastU sum X) :
    shootingCost (built ops integ M q sum) b ((built ops integ M q sum).fullP b p)
      ((built ops integ M q sum).fullTheta b theta) =
    if sum then pathCost ops o M X else userCost ops o M X := by
  have hN := C.controlMesh.elements
  have hs : ((List.range M.elements).map fun el => (built ops integ M q sum).sCost el
      (shotEnd (built ops integ M q sum) b ((built ops integ M q sum).fullP b p)
        ((built ops integ M q sum).fullTheta b theta) el)) =
      (List.range M.elements).map fun el => o.S.eval ops (X el (nodeTime o M (el + 1))) := by
    refine List.map_congr_left fun el hel => ?_
    have hel := List.mem_range.mp hel
    rw [C.shot_eq sum el hel]
    exact C.toCommon.s_value ops hel (C.reads_end el hel) _
  unfold shootingCost
  show (if sum = true then _ else _) + ((List.range M.elements).map _).sum = _
  rw [hs]
  cases sum
  · have hacc : ∀ el ≤ M.elements, shotState b el o.model.x.length =
        ((List.range el).map fun el => runningCost ops o M el (X el)).sum := by
      intro el
      induction el with
      | zero => intro _; rw [h.costStart]; simp
      | succ el ih =>
        intro hel
        have := h.running el (by omega)
        simp only [Bool.false_eq_true, if_false] at this
        rw [this, ih (by omega), List.range_succ]
        simp
    have hv : (built ops integ M q false).vCost
        ((b.x.getD M.elements []).getD 0 []) ((built ops integ M q false).fullP b p) =
        o.V.eval ops (X (M.elements - 1) (nodeTime o M M.elements)) +
          shotState b M.elements o.model.x.length := by
      have hst : ∀ (i : Nat) (s : Sym), o.model.x[i]? = some s →
          shotState b M.elements i = X (M.elements - 1) (nodeTime o M M.elements) s := by
        intro i s hs
        have := h.states (M.elements - 1) (by omega) i s hs
        rwa [Nat.sub_add_cancel hN] at this
      rw [C.fullP_eq false, C.last_eq hst]
      exact C.toCommon.v_value ops C.reads_final _
    simp only [Bool.false_eq_true, if_false]
    show (built ops integ M q false).vCost ((b.x.getD M.elements []).getD 0 []) _ + _ = _
    rw [hv, hacc M.elements le_rfl]
    unfold userCost pathCost
    ring
  · have hz : ∀ el < M.elements, shotState b el o.model.x.length = 0 := by
      intro el hel
      cases el with
      | zero => exact h.costStart
      | succ el => simpa using h.running el (by omega)
    simp only [if_true]
    unfold pathCost
    congr 2
    refine List.map_congr_left fun el hel => ?_
    have hel : el < M.elements := List.mem_range.mp hel
    rw [C.shot_eq true el hel]
    simp only [Common.userPoint, List.getLastD_concat, costAt, hz el hel, zero_add]
    rfl

end ShotSetting
end Direct
end Verif
