import Verif.Model.ShootIndirect
import Verif.Spec.ShootIndirect
import Verif.Lemmas.OwnShots
import Verif.Lemmas.TranscribeIndirect
/-! Lemmas on multiple shooting of the problem an indirect method prepares. -/
namespace Verif
open Spec Indirect Set

namespace Indirect

section Program
variable {B : Backend} {base : Sym} {o q : Ocp} {H : Expr} {us : List Expr}
  (hp : Prepared B base o q H us) (ho : IndirectProblem o)
include hp ho

omit ho in
theorem hamiltonian_value (ops : Expr.Ops ℝ) (σ : Sym → ℝ) :
    hamiltonianAt ops o (addedTo o q).lamb (addedTo o q).nu σ = H.eval ops σ := by
  rw [eval_hamiltonian ops σ o _ _ H hp.hamiltonian]
  simp [addedTo, hp.x, hp.y]

omit ho in
theorem hamiltonian_deriv (ops : Expr.Ops ℝ) (σ : Sym → ℝ)
    (hk : ∀ e ∈ o.L :: (o.model.odeVec ++ o.model.alg), e.SmoothAt ops B.table σ) (s : Sym) :
    deriv (fun v => hamiltonianAt ops o (addedTo o q).lamb (addedTo o q).nu (Function.update σ s v))
      (σ s) = (Expr.diff B.table s H).eval ops σ := by
  have := Expr.hasDerivAt_diff ops B.table σ s H
    (smoothAt_hamiltonian ops B.table σ o _ _ H hp.hamiltonian (hk _ (by simp))
      (fun e he => hk e (by simp [he])) (fun e he => hk e (by simp [he])))
  simp only [hamiltonian_value hp]
  exact this.deriv

theorem transversality_value (ops : Expr.Ops ℝ) (hops : MinMax ops opFmin opFmax) (σ : Sym → ℝ)
    (hs : SolvableControls ops B o H σ) (hm : MinimisesHamiltonian ops o (addedTo o q) σ)
    (hk : ∀ e ∈ o.V :: o.hFinal, e.SmoothAt ops B.table σ) (s l : Sym) :
    ((Ocp.transversality B.table o.V o.hFinal (newSyms (base + o.model.x.length +
      o.model.y.length) o.hFinal.length) l s).subst o.model.u us).eval ops σ = σ l -
      deriv (fun v => finalAt ops o (addedTo o q).eta σ (Function.update σ s v)) (σ s) := by
  have hd := hasDerivAt_weighted ops B.table σ s o.hFinal (addedTo o q).eta
    fun e he => hk e (by simp [he])
  have hd' : HasDerivAt (fun v => finalAt ops o (addedTo o q).eta σ (Function.update σ s v)) _ (σ s) :=
    (Expr.hasDerivAt_diff ops B.table _ s o.V (hk _ (by simp))).fun_add hd
  rw [subst_value hp ho ops hops σ hs hm, hd'.deriv]
  have : (addedTo o q).eta = newSyms (base + o.model.x.length +
    o.model.y.length) o.hFinal.length := hp.eta
  rw [this]
  simp [Ocp.transversality, Expr.eval, Expr.eval_dot, sub_sub, List.zipWith_map_left,
    List.zipWith_map_right]

theorem alg_own : { q with V := .const 0 }.algOf = q.model.alg := by
  obtain ⟨ha₁, ha₂, -⟩ := Ocp.hamiltonian_ok_iff.mp hp.hamiltonian
  unfold Ocp.algOf
  split
  · next h =>
    have hy : q.model.y = [] := h
    have hy0 : o.model.y = [] := by
      rw [hp.y] at hy
      exact (List.append_eq_nil_iff.mp hy).1
    have : o.model.alg = [] := by
      rw [newSyms_length, hy0] at ha₂
      exact List.length_eq_zero_iff.mp ha₂.symm
    show [] = q.model.alg
    rw [hp.alg, this, hy0]
    rfl
  · rfl

omit ho in
theorem step_own (M : Mesh) : stepLength (K := ℝ) { q with V := .const 0 } M = stepLength o M := by
  simp [stepLength, hp.times.1, hp.times.2]

omit ho in
theorem node_own (M : Mesh) (el : Nat) : nodeTime { q with V := .const 0 } M el = nodeTime o M el := by
  rw [nodeTime, nodeTime, step_own hp]

theorem dims_own (M : Mesh) :
    { q with V := .const 0 }.dims M.elements M.roots.length M.roots.length = indirectDims o M := by
  obtain ⟨kt, ktau, kp, ktheta, ku⟩ := hp.known
  simp [Ocp.dims, indirectDims, hp.x, hp.y, hp.eta, hp.others.1, hp.others.2, ku,
    points_empty hp ho, newSyms_length]

theorem state_column {M : Mesh} {b : Blocks ℝ} (hb : ShootingShape (indirectDims o M) b) (el : Nat)
    (hel : el < M.elements + 1) : ((b.x.getD el []).getD 0 []).length = q.model.x.length := by
  have hx := Transcription.grid_columns hb.x hel
  have hx0 : (b.x.getD el [])[0]? = some ((b.x.getD el []).getD 0 []) :=
    Transcription.getElem?_getD [] (by rw [hx.1]; omega)
  rw [hx.2 _ (List.mem_of_getElem? hx0), hp.x]
  simp [indirectDims, newSyms_length]

theorem algebraic_column {M : Mesh} {b : Blocks ℝ} (hb : ShootingShape (indirectDims o M) b)
    (el : Nat) (hel : el < M.elements) :
    ((b.y.getD el []).getD 0 []).length = q.model.y.length := by
  have hx := Transcription.grid_columns hb.y hel
  have hx0 : (b.y.getD el [])[0]? = some ((b.y.getD el []).getD 0 []) :=
    Transcription.getElem?_getD [] (by rw [hx.1]; omega)
  rw [hx.2 _ (List.mem_of_getElem? hx0), hp.y]
  simp [indirectDims, newSyms_length]

/-- Everything about the trajectories. -/
structure Along (ops : Expr.Ops ℝ) (B : Backend) (o q : Ocp) (H : Expr) (M : Mesh) (b : Blocks ℝ)
    (x0 p : List ℝ) (theta : List (List ℝ)) (X : Nat → ℝ → Sym → ℝ) : Prop where
  elements : 0 < M.elements
  ends : PathAtEnds o
  blocks : ShootingShape (indirectDims o M) b
  data : IndirectData o M x0 p theta
  paths : ∀ el < M.elements, ExtremalPath ops o (addedTo o q) M b x0 p theta el (X el)
  solvable : ∀ el < M.elements, ∀ t ∈ elementTimes o M el, SolvableControls ops B o H (X el t)
  smooth : DerivativesAlong ops B.table o M X

theorem shots (ops : Expr.Ops ℝ) (hops : MinMax ops opFmin opFmax) {M : Mesh} {b : Blocks ℝ}
    {x0 p : List ℝ} {theta : List (List ℝ)} {X : Nat → ℝ → Sym → ℝ}
    (A : Along ops B o q H M b x0 p theta X) (hf : ShotScope { q with V := .const 0 } false) :
    Own.Shots ops M { q with V := .const 0 } b x0 p theta X := by
  obtain ⟨kt, ktau, kp, ktheta, ku⟩ := hp.known
  have hl : M.elements - 1 < M.elements := Nat.sub_lt A.elements Nat.one_pos
  have hpos : 0 < stepLength (K := ℝ) o M := by
    unfold stepLength
    have h₁ : (o.t0 : ℝ) < (o.tf : ℝ) := by exact_mod_cast ho.horizon
    have h₂ : (0 : ℝ) < (M.elements : ℝ) := by exact_mod_cast A.elements
    exact div_pos (sub_pos.mpr h₁) h₂
  have hlt : ∀ el, nodeTime o M el < nodeTime o M (el + 1) := by
    intro el
    unfold nodeTime
    refine mul_lt_mul_of_pos_left ?_ hpos
    push_cast
    linarith
  have hS : ∀ el < M.elements, ∀ t ∈ elementTimes o M el, ∀ e : Expr,
      (e.subst o.model.u us).eval ops (X el t) = e.eval ops (X el t) := fun el hel t ht =>
    subst_value hp ho ops hops (X el t) (A.solvable el hel t ht) ((A.paths el hel).controls t ht)
  have hlen : o.model.odeVec.length = o.model.x.length := complete_length _ ho.complete
  have hlam : (addedTo o q).lamb.length = o.model.x.length := by simp [addedTo, hp.x, newSyms_length]
  refine ⟨A.elements, ?_, ?_, (by simpa using points_empty hp ho), hf, ?_, ?_, ?_, ?_, ?_, ?_, ?_⟩
  · simp only [hp.times.1, hp.times.2]; exact ho.horizon
  · show q.model.x ≠ []
    rw [hp.x]
    simp [hp.states]
  · simp only [hp.tags.1, hp.tags.2]; exact A.ends
  · simp only [hp.tags.1, hp.tags.2, hp.path.1, hp.path.2, List.length_map]; exact ho.tagged
  · rw [dims_own hp ho]; exact A.blocks
  · simp only [hp.limits.1, hp.limits.2, ku]; exact ho.unlimited
  · simp only [added_x0 hp ho]
    have h0 : (0 : ℝ) ∈ elementTimes o M 0 := by
      have := hlt 0
      simp only [elementTimes, mem_Icc]
      simp only [nodeTime, Nat.cast_zero, mul_zero] at this ⊢
      exact ⟨le_rfl, this.le⟩
    refine agrees_of_index ?_ ((A.paths 0 A.elements).known 0 h0).starts
    rw [← added_x0 hp ho, hp.x0, A.data.x0]
    simp [newSyms_length, ho.starts]
  · rw [node_own hp]
    have he : nodeTime o M M.elements ∈ elementTimes o M (M.elements - 1) := by
      have := hlt (M.elements - 1)
      rw [elementTimes]
      rw [Nat.sub_add_cancel A.elements] at this ⊢
      exact ⟨this.le, le_rfl⟩
    refine agrees_of_index ?_ ((A.paths _ hl).known _ he).etas
    show b.eta.length = q.eta.length
    rw [hp.eta, newSyms_length]
    exact A.blocks.eta
  · intro el hel
    have P := A.paths el hel
    have hI : Icc (nodeTime { q with V := .const 0 } M el) (nodeTime { q with V := .const 0 } M (el + 1)) =
        elementTimes o M el := by
      rw [node_own hp, node_own hp]; rfl
    refine ⟨?_, ?_, ?_, ?_, ?_, ?_, ?_⟩
    · intro t ht
      rw [hI] at ht
      simp only [kt]
      exact (P.known t ht).time
    · intro t ht
      rw [hI] at ht
      rw [step_own hp]
      simp only [ktau]
      exact (P.known t ht).position
    · intro t ht
      rw [hI] at ht
      have r := P.known t ht
      obtain ⟨hn, hno, hsub⟩ := ho.parameters
      have ha : Agrees o.model.p (Direct.fullP { q with V := .const 0 } b p) (X el t) := by
        intro s hsp
        simp only [Direct.fullP, kp, hp.others.1]
        rw [Ocp.lookup_put o.pOpt o.model.p b.pOpt p hn hno hsub A.data.p A.blocks.pOpt s hsp]
        split
        · next h => exact agrees_of_index A.blocks.pOpt r.optimised s h
        · next h =>
          have hi := List.idxOf_lt_length_of_mem hsp
          rw [lookup_zip _ _ A.data.p s hsp, List.getElem?_eq_getElem (by rw [A.data.p]; exact hi)]
          rw [r.parameters (o.model.p.idxOf s) s
            (by rw [List.getElem?_eq_getElem hi, List.getElem_idxOf]) h, List.getD_eq_getElem?_getD,
            List.getElem?_eq_getElem (by rw [A.data.p]; exact hi)]
          rfl
      simp only [kp]
      refine ha.map_eq hn ?_
      rw [Direct.fullP, Ocp.putValues_length]
      exact A.data.p.symm
    · intro t ht
      rw [hI] at ht
      have r := P.known t ht
      obtain ⟨hn, hno, hsub⟩ := ho.thetas
      have hpl := A.data.theta el hel
      have ha : Agrees o.model.theta (Direct.fullTheta { q with V := .const 0 } b theta el) (X el t) := by
        intro s hsp
        have hv : (b.thetaOpt.getD el []).length = o.thetaOpt.length := by
          obtain ⟨hl, hc⟩ := A.blocks.thetaOpt
          have hl : b.thetaOpt.length = M.elements := hl
          rw [List.getD_eq_getElem?_getD, List.getElem?_eq_getElem (by omega)]
          exact hc _ (List.getElem_mem _)
        simp only [Direct.fullTheta, ktheta, hp.others.2]
        rw [Ocp.lookup_put o.thetaOpt o.model.theta _ _ hn hno hsub hpl hv s hsp]
        split
        · next h => exact agrees_of_index hv r.optimisedThetas s h
        · next h =>
          have hi := List.idxOf_lt_length_of_mem hsp
          rw [lookup_zip _ _ hpl s hsp, List.getElem?_eq_getElem (by rw [hpl]; exact hi)]
          rw [r.thetas (o.model.theta.idxOf s) s
            (by rw [List.getElem?_eq_getElem hi, List.getElem_idxOf]) h,
            List.getD_eq_getElem?_getD (l := theta.getD el []),
            List.getElem?_eq_getElem (by rw [hpl]; exact hi)]
          rfl
      simp only [ktheta]
      refine ha.map_eq hn ?_
      rw [Direct.fullTheta, Ocp.putValues_length]
      exact hpl.symm
    · show _ = q.model.x.map _
      rw [column_iff' _ _ _ (state_column hp ho A.blocks el (by omega)), node_own hp, added_x hp ho]
      exact fun i s hs => (P.start i s hs).symm
    · intro t ht i s e hs he
      rw [hI] at ht ⊢
      have hs : q.model.x[i]? = some s := hs
      have he : q.model.odeVec[i]? = some e := he
      rw [added_x hp ho] at hs
      rw [hp.ode, List.getElem?_map, List.getElem?_map, Option.map_map, Option.map_eq_some_iff] at he
      obtain ⟨e', he', rfl⟩ := he
      simp only [Function.comp_apply]
      rw [hS el hel t ht, hS el hel t ht]
      by_cases hi : i < o.model.x.length
      · rw [List.getElem?_append_left hi] at hs
        rw [List.getElem?_append_left (by omega)] at he'
        exact P.ode t ht s e' ((complete_get ho.complete i s e' hs).mpr he')
      · rw [List.getElem?_append_right (by omega)] at hs
        rw [List.getElem?_append_right (by omega), hlen] at he'
        have hj : i - o.model.x.length < o.model.x.length := by
          have := (List.getElem?_eq_some_iff.mp hs).1
          omega
        simp only [Expr.gradient, List.getElem?_map, List.getElem?_eq_getElem hj, Option.map_some,
          Option.some.injEq] at he'
        subst he'
        have := P.costate t ht _ _ s (List.getElem?_eq_getElem hj) hs
        rw [hamiltonian_deriv hp ops (X el t) (A.smooth.path el hel t ht)] at this
        exact this
    · intro t ht e he
      rw [hI] at ht
      rw [alg_own hp ho, hp.alg] at he
      obtain ⟨e', he', rfl⟩ := List.mem_map.mp he
      obtain ⟨e'', he'', rfl⟩ := List.mem_map.mp he'
      rw [hS el hel t ht, hS el hel t ht]
      rcases List.mem_append.mp he'' with hh | hh
      · exact P.alg t ht e'' hh
      · obtain ⟨s, hsy, rfl⟩ := List.mem_map.mp hh
        rw [← hamiltonian_deriv hp ops (X el t) (A.smooth.path el hel t ht)]
        exact P.stationary t ht s hsy

/-- The conditions on the prepared problem are those of optimality. -/
theorem fits_iff (ops : Expr.Ops ℝ) (hops : MinMax ops opFmin opFmax) {M : Mesh} {b : Blocks ℝ}
    {x0 p : List ℝ} {theta : List (List ℝ)} {X : Nat → ℝ → Sym → ℝ}
    (A : Along ops B o q H M b x0 p theta X) (hf : ShotScope { q with V := .const 0 } false) :
    Own.ShotsFit ops { q with V := .const 0 } M b X ↔ ShotExtremal ops o (addedTo o q) M b X := by
  have C := shots hp ho ops hops A hf
  have hl : M.elements - 1 < M.elements := Nat.sub_lt A.elements Nat.one_pos
  have hmem : ∀ el, nodeTime o M (el + 1) ∈ elementTimes o M el := by
    intro el
    have := C.end_mem el
    rw [node_own hp, node_own hp] at this
    exact this
  have hend : nodeTime o M M.elements ∈ elementTimes o M (M.elements - 1) := by
    have := hmem (M.elements - 1)
    rwa [Nat.sub_add_cancel A.elements] at this
  have h0 : (0 : ℝ) ∈ elementTimes o M 0 := by
    have := C.start_mem 0
    rw [node_own hp, node_own hp] at this
    have hz : nodeTime o M 0 = 0 := by simp [nodeTime]
    rw [hz] at this
    show (0 : ℝ) ∈ Icc (nodeTime o M 0) _
    rwa [hz]
  have hS : ∀ el < M.elements, ∀ t ∈ elementTimes o M el, ∀ e : Expr,
      (e.subst o.model.u us).eval ops (X el t) = e.eval ops (X el t) := fun el hel t ht =>
    subst_value hp ho ops hops (X el t) (A.solvable el hel t ht) ((A.paths el hel).controls t ht)
  have htr := transversality_value hp ho ops hops (X (M.elements - 1) (nodeTime o M M.elements))
    (A.solvable _ hl _ hend) ((A.paths _ hl).controls _ hend) A.smooth.final
  have hst : ∀ el < M.elements, ((b.x.getD (el + 1) []).getD 0 [] =
      q.model.x.map (X el (nodeTime o M (el + 1))) ↔ ∀ (i : Nat) (s : Sym),
      (o.model.x ++ (addedTo o q).lamb)[i]? = some s →
        shotState b (el + 1) i = X el (nodeTime o M (el + 1)) s) := by
    intro el hel
    rw [column_iff' _ _ _ (state_column hp ho A.blocks (el + 1) (by omega)), added_x hp ho]
    rfl
  have hal : ∀ el < M.elements, ((b.y.getD el []).getD 0 [] =
      q.model.y.map (X el (nodeTime o M (el + 1))) ↔ ∀ (i : Nat) (s : Sym),
      (o.model.y ++ (addedTo o q).nu)[i]? = some s →
        shotAlgebraic b el i = X el (nodeTime o M (el + 1)) s) := by
    intro el hel
    rw [column_iff' _ _ _ (algebraic_column hp ho A.blocks el hel), added_y hp ho]
    rfl
  constructor
  · intro h
    refine ⟨?_, ?_, ?_, ?_, ?_, ?_, ?_, ?_⟩
    · intro e he
      have := h.initial (e.subst o.model.u us) (by
        show _ ∈ q.hInitial
        rw [hp.initial]; exact List.mem_map_of_mem he)
      rwa [hS 0 A.elements 0 h0] at this
    · intro el hel
      refine (hst el hel).mp ?_
      have := h.states el hel
      rwa [node_own hp] at this
    · intro el hel
      refine (hal el hel).mp ?_
      have := h.algebraics el hel
      rwa [node_own hp] at this
    · intro el hel e he
      have := h.inequalities el hel (e.subst o.model.u us) (by
        show _ ∈ q.gIneq
        rw [hp.path.1]; exact List.mem_map_of_mem he)
      rwa [node_own hp, hS el hel _ (hmem el)] at this
    · intro el hel e he
      have := h.equalities el hel (e.subst o.model.u us) (by
        show _ ∈ q.gEq
        rw [hp.path.2]; exact List.mem_map_of_mem he)
      rwa [node_own hp, hS el hel _ (hmem el)] at this
    · intro e he
      have := h.final (e.subst o.model.u us) (by
        show _ ∈ q.hFinal
        rw [hp.final]; exact List.mem_map_of_mem (List.mem_append_left _ he))
      rwa [node_own hp, hS _ hl _ hend] at this
    · intro i s l hx hlam
      have hlam' : (newSyms base o.model.x.length)[i]? = some l := by
        simpa [addedTo, hp.x] using hlam
      have := h.final ((Ocp.transversality B.table o.V o.hFinal (newSyms (base + o.model.x.length +
        o.model.y.length) o.hFinal.length) l s).subst o.model.u us) (by
        show _ ∈ q.hFinal
        rw [hp.final]
        refine List.mem_map_of_mem (List.mem_append_right _ (List.mem_of_getElem? (i := i) ?_))
        rw [List.getElem?_zipWith, hlam', hx])
      rw [node_own hp, htr] at this
      linarith
    · intro e he
      have := h.timeless (e.subst o.model.u us) (by
        show _ ∈ q.h
        rw [hp.timeless]; exact List.mem_map_of_mem he)
      rwa [node_own hp, hS _ hl _ hend] at this
  · intro h
    refine ⟨?_, ?_, ?_, ?_, ?_, ?_, ?_⟩
    · intro e he
      have he : e ∈ q.hInitial := he
      rw [hp.initial] at he
      obtain ⟨e', he', rfl⟩ := List.mem_map.mp he
      rw [hS 0 A.elements 0 h0]
      exact h.initial e' he'
    · intro el hel
      rw [node_own hp]
      exact (hst el hel).mpr (h.states el hel)
    · intro el hel
      rw [node_own hp]
      exact (hal el hel).mpr (h.algebraics el hel)
    · intro el hel e he
      have he : e ∈ q.gIneq := he
      rw [hp.path.1] at he
      obtain ⟨e', he', rfl⟩ := List.mem_map.mp he
      rw [node_own hp, hS el hel _ (hmem el)]
      exact h.inequalities el hel e' he'
    · intro el hel e he
      have he : e ∈ q.gEq := he
      rw [hp.path.2] at he
      obtain ⟨e', he', rfl⟩ := List.mem_map.mp he
      rw [node_own hp, hS el hel _ (hmem el)]
      exact h.equalities el hel e' he'
    · intro e he
      have he : e ∈ q.hFinal := he
      rw [hp.final] at he
      obtain ⟨e', he', rfl⟩ := List.mem_map.mp he
      rw [node_own hp]
      rcases List.mem_append.mp he' with hh | hh
      · rw [hS _ hl _ hend]
        exact h.final e' hh
      · obtain ⟨i, hi⟩ := List.getElem?_of_mem hh
        rw [List.getElem?_zipWith] at hi
        cases h₁ : (newSyms base o.model.x.length)[i]? with
        | none => simp [h₁] at hi
        | some l =>
          cases h₂ : o.model.x[i]? with
          | none => simp [h₁, h₂] at hi
          | some s =>
            simp only [h₁, h₂, Option.some.injEq] at hi
            subst hi
            have hlam : (addedTo o q).lamb[i]? = some l := by simpa [addedTo, hp.x] using h₁
            rw [htr, h.transversality i s l h₂ hlam, sub_self]
    · intro e he
      have he : e ∈ q.h := he
      rw [hp.timeless] at he
      obtain ⟨e', he', rfl⟩ := List.mem_map.mp he
      rw [node_own hp, hS _ hl _ hend]
      exact h.timeless e' he'

omit hp ho in
/-- Multiple shooting is set up only if every function has its symbols, and is then that of the
lemmas. -/
theorem shooting_built {q : Ocp} {M : Mesh} (hN : 0 < M.elements) (ops : Expr.Ops ℝ)
    (integ : DaeIntegrator ℝ) {m : ShootingMethod ℝ}
    (hm : q.indirectShooting ops integ M.elements M.roots.length = .ok m) :
    ShotScope { q with V := .const 0 } false ∧
      m = Own.Shots.built ops integ M { q with V := .const 0 } ∧
      ∃ laws, (List.range M.elements).mapM (q.lawFunction M.elements) = .ok laws := by
  unfold Ocp.indirectShooting at hm
  simp only [bind, Ocp.bind_ok_iff, Except.ok.injEq] at hm
  obtain ⟨m', h₁, laws, h₃, rfl⟩ := hm
  obtain ⟨h₂, rfl⟩ := (Ocp.shooting_ok_iff ops integ _ _ _ _ _ hN _).mp h₁
  exact ⟨h₂, rfl, laws, h₃⟩

end Program

theorem law_ok {q : Ocp} {N : Nat} {laws : List Fun}
    (h : (List.range N).mapM (q.lawFunction N) = .ok laws) (hN : 0 < N) :
    (∀ e ∈ q.model.uExpr, ∀ s ∈ e.syms, InScope q.model s) ∧
      ∀ el < N, q.lawFunction N el = .ok ⟨q.model.allSym, q.model.uExpr.map (q.inTime N el)⟩ := by
  have key := (mapM_ok_iff (f := q.lawFunction N)
    (g := fun el => (⟨q.model.allSym, q.model.uExpr.map (q.inTime N el)⟩ : Fun))
    (c := fun el => ∀ e ∈ q.model.uExpr.map (q.inTime N el), ∀ s ∈ e.syms,
      s ∈ q.model.allSym.flatten)
    (fun a f => by unfold Ocp.lawFunction; exact Fun.make_ok_iff) _ _).mp h
  refine ⟨fun e he => ?_, fun el hel => ?_⟩
  · exact (convert_closed q.model e _ _).mp (key.1 0 (List.mem_range.mpr hN) _ (List.mem_map_of_mem he))
  · unfold Ocp.lawFunction
    exact Fun.make_ok_iff.mpr ⟨key.1 el (List.mem_range.mpr hel), rfl⟩

section Reports
variable {B : Backend} {base : Sym} {o q : Ocp} {H : Expr} {us : List Expr}
  (hp : Prepared B base o q H us) (ho : IndirectProblem o)
include hp ho

/-- The expressions of the controls are the controls. -/
theorem control_values (ops : Expr.Ops ℝ) (hops : MinMax ops opFmin opFmax) (σ : Sym → ℝ)
    (hs : SolvableControls ops B o H σ) (hm : MinimisesHamiltonian ops o (addedTo o q) σ) :
    q.model.uExpr.map (Expr.eval ops σ) = o.model.u.map σ := by
  rw [hp.controls, ho.free.2, List.map_map, List.map_map, List.map_map]
  refine List.map_congr_left fun s _ => ?_
  simp only [Function.comp]
  rw [subst_value hp ho ops hops σ hs hm, subst_value hp ho ops hops σ hs hm]
  rfl

/-- The loop over the times of an element. -/
theorem law_along (ops : Expr.Ops ℝ) (hops : MinMax ops opFmin opFmax) {M : Mesh} {b : Blocks ℝ}
    {x0 p : List ℝ} {theta : List (List ℝ)} {X : Nat → ℝ → Sym → ℝ}
    (A : Along ops B o q H M b x0 p theta X) (hf : ShotScope { q with V := .const 0 } false)
    (hu : ∀ e ∈ q.model.uExpr, ∀ s ∈ e.syms, InScope q.model s) (integ : DaeIntegrator ℝ) (el : Nat)
    (hel : el < M.elements)
    (hi : ∀ c d, nodeTime o M el ≤ c → c < d → d ≤ nodeTime o M (el + 1) →
      ExactShots ops integ ({ q with V := .const 0 }.daeOf M.elements el) c d) :
    ∀ (ts : List ℝ) (c : ℝ), nodeTime o M el ≤ c → (c :: ts).Pairwise (· < ·) →
      (∀ t ∈ ts, t ≤ nodeTime o M (el + 1)) →
      Ocp.lawAlong ops integ ({ q with V := .const 0 }.daeOf M.elements el)
        ⟨q.model.allSym, q.model.uExpr.map (q.inTime M.elements el)⟩
        (Direct.fullP { q with V := .const 0 } b p) (Direct.fullTheta { q with V := .const 0 } b theta el)
        c (q.model.x.map (X el c)) ts = ts.map fun t => o.model.u.map (X el t) := by
  have C := shots hp ho ops hops A hf
  intro ts
  induction ts with
  | nil => intro c _ _ _; rfl
  | cons t ts ih =>
    intro c hc hs he
    obtain ⟨hlt, hs'⟩ := List.pairwise_cons.mp hs
    have hct : c < t := hlt t (by simp)
    have hte := he t (by simp)
    have hmem : t ∈ elementTimes o M el := ⟨hc.trans hct.le, hte⟩
    have hx := (hi c t hc hct hte).exact _ _ (C.trajectory el hel c t
      (by rw [node_own hp]; exact hc) (by rw [node_own hp]; exact hte))
    have hx : integ ({ q with V := .const 0 }.daeOf M.elements el) c t (q.model.x.map (X el c))
        (Direct.fullP { q with V := .const 0 } b p ++
          Direct.fullTheta { q with V := .const 0 } b theta el) =
        (q.model.x.map (X el t), q.model.y.map (X el t)) := hx
    unfold Ocp.lawAlong
    simp only [hx]
    rw [ih t (hc.trans hct.le) hs' fun t' h => he t' (by simp [h])]
    rw [List.map_cons]
    congr 1
    have hv := C.values el hel t (by rw [node_own hp, node_own hp]; exact hmem) q.model.uExpr hu
    refine Eq.trans hv ?_
    exact control_values hp ho ops hops _ (A.solvable el hel t hmem) ((A.paths el hel).controls t hmem)

end Reports

end Indirect
end Verif
