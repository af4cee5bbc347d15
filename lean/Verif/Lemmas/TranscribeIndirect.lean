import Verif.Model.TranscribeIndirect
import Verif.Spec.TranscribeIndirect
import Verif.Lemmas.OwnSolution
import Verif.Props.IndirectOptimal
/-! Lemmas on the problem an indirect method discretises. -/
namespace Verif
open Spec Indirect Matrix

namespace Indirect

/-- The prepared problem in terms of the problem of the user. -/
structure Prepared (B : Backend) (base : Sym) (o q : Ocp) (H : Expr) (us : List Expr) : Prop where
  hamiltonian : o.hamiltonian (newSyms base o.model.x.length)
    (newSyms (base + o.model.x.length) o.model.y.length) = .ok H
  law : calculateOptimalControl B H o = .ok us
  size : o.model.u.length = us.length
  states : o.model.x ≠ []
  times : q.t0 = o.t0 ∧ q.tf = o.tf
  known : q.model.t = o.model.t ∧ q.model.tau = o.model.tau ∧ q.model.p = o.model.p ∧
    q.model.theta = o.model.theta ∧ q.model.u = o.model.u
  x : q.model.x = o.model.x ++ newSyms base o.model.x.length
  y : q.model.y = o.model.y ++ newSyms (base + o.model.x.length) o.model.y.length
  x0 : q.model.x0 = o.model.x0 ++
    newSyms (base + o.model.x.length + o.model.y.length + o.hFinal.length) o.model.x.length
  eta : q.eta = newSyms (base + o.model.x.length + o.model.y.length) o.hFinal.length
  points : q.model.uPar = o.model.uPar.filter fun a => decide (a ∉ o.model.u)
  others : q.pOpt = o.pOpt ∧ q.thetaOpt = o.thetaOpt
  limits : q.duMin = o.duMin ∧ q.duMax = o.duMax
  tags : q.timeGIneq = o.timeGIneq ∧ q.timeGEq = o.timeGEq
  controls : q.model.uExpr = (o.model.uExpr.map (Expr.subst o.model.u us)).map
    (Expr.subst o.model.u us)
  ode : q.model.odeVec = ((o.model.odeVec ++
    (Expr.gradient B.table o.model.x H).map Expr.neg).map (Expr.subst o.model.u us)).map
    (Expr.subst o.model.u us)
  alg : q.model.alg = ((o.model.alg ++
    Expr.gradient B.table o.model.y H).map (Expr.subst o.model.u us)).map
    (Expr.subst o.model.u us)
  path : q.gIneq = o.gIneq.map (Expr.subst o.model.u us) ∧ q.gEq = o.gEq.map (Expr.subst o.model.u us)
  initial : q.hInitial = o.hInitial.map (Expr.subst o.model.u us)
  final : q.hFinal = (o.hFinal ++ List.zipWith (Ocp.transversality B.table o.V o.hFinal
    (newSyms (base + o.model.x.length + o.model.y.length) o.hFinal.length))
    (newSyms base o.model.x.length) o.model.x).map (Expr.subst o.model.u us)
  timeless : q.h = o.h.map (Expr.subst o.model.u us)

theorem prepared_of {B : Backend} {prepared : Bool} {base xc fresh : Sym} {o q : Ocp}
    (h : prepare B false prepared base xc fresh o = (.ok (), q)) :
    ∃ H us, Prepared B base o q H us := by
  simp only [Indirect.prepare, Py.bind_eq, Py.bind_eq_ok] at h
  obtain ⟨⟨⟩, o₁, h₁, H, o₂, h₂, ⟨⟩, o₃, h₃, o₄, o₅, h₄, us, o₆, h₅, h₆⟩ := h
  have e₁ : o₁ = o := by
    unfold Indirect.basePrepare at h₁
    split at h₁ <;> exact (Prod.mk.inj h₁).2.symm
  subst e₁
  have e₃ : o₂ = o₃ := (Prod.mk.inj h₃).2
  subst e₃
  obtain ⟨e₄, e₅⟩ : o₂ = o₄ ∧ o₂ = o₅ := by
    simp only [Py.get, Prod.mk.injEq, Except.ok.injEq] at h₄
    exact ⟨h₄.1, h₄.2⟩
  subst e₄ e₅
  obtain ⟨hus, e₆⟩ : calculateOptimalControl B H o₂ = .ok us ∧ o₂ = o₆ := by
    simp only [Py.lift, Prod.mk.injEq] at h₅
    exact h₅
  subst e₆
  have ht := adjoint_table h₂
  obtain ⟨hH, -, hne, e₂⟩ := createAdjointStates_ok h₂
  obtain ⟨m', h₇, h₈⟩ := Ocp.parametrizeControl_ok_iff.mp h₆
  rw [SysModel.parametrize_run] at h₇
  split at h₇
  · cases h₇
  next hl =>
  split at h₇
  · cases h₇
  split at h₇
  · cases h₇
  rw [not_not] at hl
  have hl' : o₁.model.u.length = us.length := by rw [e₂] at hl; exact hl
  have hm' : m' = (SysModel.replaceVariable o₂.model.u us { o₂.model with
      parametrized := o₂.model.parametrized ++ o₂.model.u
      uPar := (o₂.model.uPar.filter fun a => decide (a ∉ o₂.model.u)) ++ [] }).2 :=
    (congrArg Prod.snd h₇).symm
  rw [Ocp.replaceVariable_run, if_neg (not_not.mpr hl)] at h₈
  have hq := (Prod.mk.inj h₈).2.symm
  have hode : o₂.model.odeVec = o₁.model.odeVec ++ (Expr.gradient B.table o₁.model.x H).map .neg := by
    unfold SysModel.odeVec
    rw [ht]
    simp only [Dict.values, List.map_append, List.filterMap_append]
    rw [List.map_snd_zip (by simp [newSyms_length, Expr.gradient])]
    simp
  have hu : o₂.model.u = o₁.model.u := by rw [e₂]
  have hq' : q = { o₂ with
      L := o₂.L.subst o₂.model.u us
      V := o₂.V.subst o₂.model.u us
      S := o₂.S.subst o₂.model.u us
      hInitial := o₂.hInitial.map (Expr.subst o₂.model.u us)
      hFinal := o₂.hFinal.map (Expr.subst o₂.model.u us)
      gIneq := o₂.gIneq.map (Expr.subst o₂.model.u us)
      gEq := o₂.gEq.map (Expr.subst o₂.model.u us)
      h := o₂.h.map (Expr.subst o₂.model.u us)
      model := (SysModel.replaceVariable o₂.model.u us m').2 } := hq
  have hmodel : q.model.odeVec = (o₂.model.odeVec.map (Expr.subst o₂.model.u us)).map
      (Expr.subst o₂.model.u us) := by
    rw [hq']
    show (SysModel.replaceVariable o₂.model.u us m').2.odeVec = _
    rw [odeVec_replace _ _ _ hl, hm', odeVec_replace _ _ _ hl]
    rfl
  rw [hode, hu] at hmodel
  have hr : ∀ m : SysModel, (SysModel.replaceVariable o₂.model.u us m).2 = { m with
      uExpr := m.uExpr.map (Expr.subst o₂.model.u us)
      alg := m.alg.map (Expr.subst o₂.model.u us)
      ode := if o₂.model.u.length > 0 then m.ode.map fun kv => (kv.1,
        SysModel.substSlot o₂.model.u us kv.2) else m.ode } := by
    intro m
    simp only [SysModel.replaceVariable, ne_eq, hl, not_true_eq_false, if_false]
  rw [hr] at hq' hm'
  clear h₁ h₂ h₃ h₄ h₅ h₆ h₇ h₈ hq ht
  refine ⟨H, us, ⟨hH, ?_, hl', ?_, ?_, ?_, ?_, ?_, ?_, ?_, ?_, ?_, ?_, ?_, ?_, hmodel, ?_, ?_, ?_, ?_,
    ?_⟩⟩
  · rw [← hus, e₂]; rfl
  · intro hx
    exact hne (by rw [hx]; rfl)
  all_goals (subst hq' hm' e₂)
  all_goals first | rfl | exact ⟨rfl, rfl⟩ | skip
  · exact ⟨rfl, rfl, rfl, rfl, rfl⟩
  · simp

/-! ## The control law -/

theorem within_midpoint {lo hi : XRat} {a c : ℝ} (ha : Within lo hi a) (hc : Within lo hi c) :
    Within lo hi ((a + c) / 2) :=
  ⟨ha.1, ha.2.1, fun q hq => by have := ha.2.2.1 q hq; have := hc.2.2.1 q hq; linarith,
    fun q hq => by have := ha.2.2.2 q hq; have := hc.2.2.2 q hq; linarith⟩

/-- The least value of a strictly convex quadratic function over the bounds is taken once. -/
theorem minimiser_unique {o : Ocp} {c : ℝ} {g : Fin o.model.u.length → ℝ}
    {A : Matrix (Fin o.model.u.length) (Fin o.model.u.length) ℝ} (hA : StrictlyConvex A)
    {v w : Fin o.model.u.length → ℝ} (hv : InBounds o v) (hw : InBounds o w)
    (hv' : ∀ z, InBounds o z → quadratic c g A v ≤ quadratic c g A z)
    (hw' : ∀ z, InBounds o z → quadratic c g A w ≤ quadratic c g A z) : v = w := by
  by_contra hne
  let m : Fin o.model.u.length → ℝ := fun i => (v i + w i) / 2
  let d : Fin o.model.u.length → ℝ := fun i => (v i - w i) / 2
  have hm : InBounds o m := fun i lo hi h₁ h₂ => within_midpoint (hv i lo hi h₁ h₂) (hw i lo hi h₁ h₂)
  have ev : v = m + d := by funext i; simp only [m, d, Pi.add_apply]; ring
  have ew : w = m + -d := by funext i; simp only [m, d, Pi.add_apply, Pi.neg_apply]; ring
  have hd : d ≠ 0 := by
    intro h
    refine hne (funext fun i => ?_)
    have := congrFun h i
    simp only [d, Pi.zero_apply] at this
    linarith
  have h₁ := hv' m hm
  have h₂ := hw' m hm
  rw [ev, quadratic_add c g A hA.1] at h₁
  rw [ew, quadratic_add c g A hA.1] at h₂
  have hp := hA.2 d hd
  rw [mulVec_neg, dotProduct_neg, neg_dotProduct, dotProduct_neg, neg_neg] at h₂
  linarith

theorem law_value {B : Backend} {base : Sym} {o q : Ocp} {H : Expr} {us : List Expr}
    (hp : Prepared B base o q H us) (ho : IndirectProblem o) (ops : Expr.Ops ℝ)
    (hops : MinMax ops opFmin opFmax) (ρ : Sym → ℝ) (hs : SolvableControls ops B o H ρ)
    (hm : MinimisesHamiltonian ops o (addedTo o q) ρ) (i : Nat) (h₁ : i < o.model.u.length)
    (h₂ : i < us.length) : ρ o.model.u[i] = us[i].eval ops ρ := by
  obtain ⟨c, g, A, hq, hA, hdiag⟩ := hs.quadratic
  obtain ⟨w, he, hw, hmin⟩ := C127_partial B H o us hp.law ho.sized ho.controls ops hops ρ c g A hq hA
    hdiag hs.size hs.inverse ⟨_, hm.within⟩
  have hH : ∀ σ, hamiltonianAt ops o (addedTo o q).lamb (addedTo o q).nu σ = H.eval ops σ := by
    intro σ
    rw [eval_hamiltonian ops σ o _ _ H hp.hamiltonian]
    simp [addedTo, hp.x, hp.y]
  have key : (fun i : Fin o.model.u.length => ρ o.model.u[i]) = w := by
    refine minimiser_unique (c := c) (g := g) hA hm.within hw (fun z hz => ?_) (fun z hz => ?_)
    · have := hm.least z hz
      rw [hH, hH, hq.value, ← assign_self o.model.u ρ, hq.value] at this
      exact this
    · have := hmin z hz
      rwa [hq.value, hq.value] at this
  obtain ⟨e, hee, hev⟩ := he ⟨i, h₁⟩
  have : us[i] = e := by
    simp only [List.getElem?_eq_getElem h₂, Option.some.injEq] at hee
    exact hee
  rw [this, hev, ← key]
  rfl

theorem subst_value {B : Backend} {base : Sym} {o q : Ocp} {H : Expr} {us : List Expr}
    (hp : Prepared B base o q H us) (ho : IndirectProblem o) (ops : Expr.Ops ℝ)
    (hops : MinMax ops opFmin opFmax) (ρ : Sym → ℝ) (hs : SolvableControls ops B o H ρ)
    (hm : MinimisesHamiltonian ops o (addedTo o q) ρ) (e : Expr) :
    (e.subst o.model.u us).eval ops ρ = e.eval ops ρ :=
  Expr.eval_subst ops ρ ρ _ _ ho.controls hp.size (law_value hp ho ops hops ρ hs hm)
    (fun _ _ => rfl) e

/-! ## The discretised problem -/

section Program
variable {B : Backend} {base : Sym} {o q : Ocp} {H : Expr} {us : List Expr}
  (hp : Prepared B base o q H us) (ho : IndirectProblem o)
include hp ho

theorem points_empty : q.model.uPar = [] := by
  rw [hp.points, ho.free.1, List.filter_eq_nil_iff]
  intro a ha
  simp [ha]

theorem added_x : q.model.x = o.model.x ++ (addedTo o q).lamb := by simp [addedTo, hp.x]

theorem added_y : q.model.y = o.model.y ++ (addedTo o q).nu := by simp [addedTo, hp.y]

theorem added_x0 : q.model.x0 = o.model.x0 ++ (addedTo o q).starts := by simp [addedTo, hp.x0]

theorem setting {M : Mesh} (hM : GoodMesh M) {b : Blocks ℝ}
    (hb : CollocationData (indirectDims o M) b) {x0 p : List ℝ} {theta : List (List ℝ)}
    (hd : IndirectData o M x0 p theta) {ρ : Nat → ℝ → Sym → ℝ}
    (hr : ∀ el < M.elements, ∀ tau, ReadsIndirect o (addedTo o q) M b x0 p theta el tau (ρ el tau))
    (hf : FunctionScope { q with V := .const 0 }) :
    Own.Setting M { q with V := .const 0 } b x0 p theta ρ := by
  obtain ⟨kt, ktau, kp, ktheta, ku⟩ := hp.known
  obtain ⟨ha₁, ha₂, -⟩ := Ocp.hamiltonian_ok_iff.mp hp.hamiltonian
  have hl : M.elements - 1 < M.elements := Nat.sub_lt hM.elements Nat.one_pos
  have hstep : stepLength (K := ℝ) { q with V := .const 0 } M = stepLength o M := by
    simp [stepLength, hp.times.1, hp.times.2]
  refine ⟨hM, ?_, ?_, ?_, (show q.model.uPar = [] from points_empty hp ho), hf, ?_, ?_, ?_, ?_, ?_, ?_, ?_, ?_, ?_, ?_, ?_, ?_, ?_, ?_⟩
  · simp only [hp.times.1, hp.times.2]; exact ho.horizon
  · show q.model.odeVec.length = q.model.x.length
    rw [hp.ode, hp.x]
    simp [newSyms_length, Expr.gradient, complete_length _ ho.complete]
  · show q.model.x ≠ []
    rw [hp.x]
    simp [hp.states]
  · simp only [hp.tags.1, hp.tags.2]; exact ho.tags
  · simp only [hp.tags.1, hp.tags.2, hp.path.1, hp.path.2, List.length_map]; exact ho.tagged
  · have : { q with V := .const 0 }.dims M.elements M.roots.length M.roots.length = indirectDims o M := by
      simp [Ocp.dims, indirectDims, hp.x, hp.y, hp.eta, hp.others.1, hp.others.2, ku,
        points_empty hp ho, newSyms_length]
    rw [this]
    exact hb
  · simp only [hp.limits.1, hp.limits.2, ku]; exact ho.unlimited
  · intro el hel tau
    rw [hstep]
    simp only [kt]
    exact (hr el hel tau).time
  · intro el hel tau
    simp only [ktau]
    exact (hr el hel tau).position
  · intro el hel tau i s hs
    simp only [added_x hp ho] at hs
    exact (hr el hel tau).states i s hs
  · intro el hel tau i s hs
    simp only [added_y hp ho] at hs
    exact (hr el hel tau).algebraics i s hs
  · simp only [kp]; exact hd.p
  · intro el hel tau s hsp
    have r := hr el hel tau
    obtain ⟨hn, hno, hsub⟩ := ho.parameters
    simp only [kp] at hsp
    simp only [Direct.fullP, kp, hp.others.1]
    rw [Ocp.lookup_put o.pOpt o.model.p b.pOpt p hn hno hsub hd.p hb.pOpt s hsp]
    split
    · next h => exact agrees_of_index hb.pOpt r.optimised s h
    · next h =>
      have hi := List.idxOf_lt_length_of_mem hsp
      rw [lookup_zip _ _ hd.p s hsp, List.getElem?_eq_getElem (by rw [hd.p]; exact hi)]
      rw [r.parameters (o.model.p.idxOf s) s
        (by rw [List.getElem?_eq_getElem hi, List.getElem_idxOf]) h, List.getD_eq_getElem?_getD,
        List.getElem?_eq_getElem (by rw [hd.p]; exact hi)]
      rfl
  · intro el hel
    simp only [ktheta]; exact hd.theta el hel
  · intro el hel tau s hsp
    have r := hr el hel tau
    obtain ⟨hn, hno, hsub⟩ := ho.thetas
    simp only [ktheta] at hsp
    have hv : (b.thetaOpt.getD el []).length = o.thetaOpt.length := by
      obtain ⟨hl, hc⟩ := hb.thetaOpt
      have hl : b.thetaOpt.length = M.elements := hl
      rw [List.getD_eq_getElem?_getD, List.getElem?_eq_getElem (by omega)]
      exact hc _ (List.getElem_mem _)
    have hpl := hd.theta el hel
    simp only [Direct.fullTheta, ktheta, hp.others.2]
    rw [Ocp.lookup_put o.thetaOpt o.model.theta _ _ hn hno hsub hpl hv s hsp]
    split
    · next h => exact agrees_of_index hv r.optimisedThetas s h
    · next h =>
      have hi := List.idxOf_lt_length_of_mem hsp
      rw [lookup_zip _ _ hpl s hsp, List.getElem?_eq_getElem (by rw [hpl]; exact hi)]
      rw [r.thetas (o.model.theta.idxOf s) s
        (by rw [List.getElem?_eq_getElem hi, List.getElem_idxOf]) h,
        List.getD_eq_getElem?_getD (l := theta.getD el []),
        List.getElem?_eq_getElem (by rw [hpl]; exact hi)]
      rfl
  · simp only [added_x0 hp ho]
    refine agrees_of_index ?_ (hr 0 hM.elements 0).starts
    rw [← added_x0 hp ho, hp.x0, hd.x0]
    simp [newSyms_length, ho.starts]
  · refine agrees_of_index ?_ (hr _ hl 1).etas
    show b.eta.length = q.eta.length
    rw [hp.eta, newSyms_length]
    exact hb.eta

/-- The conditions on the prepared problem are those of optimality. -/
theorem solution_iff {M : Mesh} (hM : GoodMesh M) {b : Blocks ℝ} (ops : Expr.Ops ℝ)
    (hops : MinMax ops opFmin opFmax) {ρ : Nat → ℝ → Sym → ℝ}
    (hs : ∀ el < M.elements, ∀ tau, SolvableControls ops B o H (ρ el tau))
    (hm : ∀ el < M.elements, ∀ tau, MinimisesHamiltonian ops o (addedTo o q) (ρ el tau))
    (hk : DerivativesKnown ops B.table o M ρ) :
    Own.Solution ops { q with V := .const 0 } M b ρ ↔
      IndirectSolution ops o (addedTo o q) M b ρ := by
  obtain ⟨ha₁, ha₂, -⟩ := Ocp.hamiltonian_ok_iff.mp hp.hamiltonian
  have hl : M.elements - 1 < M.elements := Nat.sub_lt hM.elements Nat.one_pos
  have hstep : stepLength (K := ℝ) { q with V := .const 0 } M = stepLength o M := by
    simp [stepLength, hp.times.1, hp.times.2]
  have hS : ∀ el < M.elements, ∀ tau, ∀ e : Expr, (e.subst o.model.u us).eval ops (ρ el tau) =
      e.eval ops (ρ el tau) := fun el hel tau =>
    subst_value hp ho ops hops (ρ el tau) (hs el hel tau) (hm el hel tau)
  have hH : ∀ σ, hamiltonianAt ops o (addedTo o q).lamb (addedTo o q).nu σ = H.eval ops σ := by
    intro σ
    rw [eval_hamiltonian ops σ o _ _ H hp.hamiltonian]
    simp [addedTo, hp.x, hp.y]
  have hder : ∀ el < M.elements, ∀ tau ∈ inField M.roots, ∀ s,
      deriv (fun v => hamiltonianAt ops o (addedTo o q).lamb (addedTo o q).nu
        (Function.update (ρ el tau) s v)) (ρ el tau s) =
        (Expr.diff B.table s H).eval ops (ρ el tau) := by
    intro el hel tau ht s
    have hk' := hk.path el hel tau ht
    have := Expr.hasDerivAt_diff ops B.table (ρ el tau) s H
      (smoothAt_hamiltonian ops B.table (ρ el tau) o _ _ H hp.hamiltonian (hk' _ (by simp))
        (fun e he => hk' e (by simp [he])) (fun e he => hk' e (by simp [he])))
    simp only [hH]
    exact this.deriv
  have hlen : o.model.odeVec.length = o.model.x.length := complete_length _ ho.complete
  have hode : ∀ (i : Nat) (e : Expr), o.model.odeVec[i]? = some e → q.model.odeVec[i]? =
      some ((e.subst o.model.u us).subst o.model.u us) := by
    intro i e he
    have hi := (List.getElem?_eq_some_iff.mp he).1
    rw [hp.ode, List.getElem?_map, List.getElem?_map, List.getElem?_append_left hi, he]
    rfl
  have hadj : ∀ (i : Nat) (s : Sym), o.model.x[i]? = some s → q.model.odeVec[o.model.x.length + i]? =
      some (((Expr.neg (Expr.diff B.table s H)).subst o.model.u us).subst o.model.u us) := by
    intro i s hx
    rw [hp.ode, List.getElem?_map, List.getElem?_map, List.getElem?_append_right (by omega)]
    simp [hlen, Expr.gradient, hx]
  have halg : { q with V := .const 0 }.algOf = q.model.alg := by
    unfold Ocp.algOf
    split
    · next h =>
      have hy : q.model.y = [] := h
      have hy0 : o.model.y = [] := by
        rw [hp.y] at hy
        exact (List.append_eq_nil_iff.mp hy).1
      have : o.model.alg = [] := by
        rw [newSyms_length, hy0] at ha₂
        exact List.length_eq_zero_iff.mp ha₂.symm
      show [] = q.model.alg
      rw [hp.alg, this, hy0]
      rfl
    · rfl
  have htr : ∀ (i : Nat) (s l : Sym), o.model.x[i]? = some s → (addedTo o q).lamb[i]? = some l →
      ∃ e ∈ q.hFinal, e.eval ops (ρ (M.elements - 1) 1) = ρ (M.elements - 1) 1 l -
        deriv (fun v => finalAt ops o (addedTo o q).eta (ρ (M.elements - 1) 1)
          (Function.update (ρ (M.elements - 1) 1) s v)) (ρ (M.elements - 1) 1 s) := by
    intro i s l hx hlam
    have hd := hasDerivAt_weighted ops B.table (ρ (M.elements - 1) 1) s o.hFinal (addedTo o q).eta
      fun e he => hk.final e (by simp [he])
    have hd' : HasDerivAt (fun v => finalAt ops o (addedTo o q).eta (ρ (M.elements - 1) 1)
        (Function.update (ρ (M.elements - 1) 1) s v)) _ (ρ (M.elements - 1) 1 s) :=
      (Expr.hasDerivAt_diff ops B.table _ s o.V (hk.final _ (by simp))).fun_add hd
    have hlam' : (newSyms base o.model.x.length)[i]? = some l := by
      simpa [addedTo, hp.x] using hlam
    refine ⟨(Ocp.transversality B.table o.V o.hFinal (newSyms (base + o.model.x.length +
      o.model.y.length) o.hFinal.length) l s).subst o.model.u us, ?_, ?_⟩
    · rw [hp.final]
      refine List.mem_map_of_mem (List.mem_append_right _ (List.mem_of_getElem? (i := i) ?_))
      rw [List.getElem?_zipWith, hlam', hx]
    · rw [hS _ hl, hd'.deriv]
      have : (addedTo o q).eta = newSyms (base + o.model.x.length +
        o.model.y.length) o.hFinal.length := hp.eta
      rw [this]
      simp [Ocp.transversality, Expr.eval, Expr.eval_dot, sub_sub, List.zipWith_map_left,
        List.zipWith_map_right]
  constructor
  · intro h
    refine ⟨?_, h.continuous, ?_, ?_, ?_, ?_, ?_, ?_, ?_, ?_, ?_⟩
    · intro e he
      have := h.initial (e.subst o.model.u us) (by
        show _ ∈ q.hInitial
        rw [hp.initial]; exact List.mem_map_of_mem he)
      rwa [hS 0 hM.elements] at this
    · intro el hel tau ht i s e hx he
      have := h.dynamics el hel tau ht i _ (hode i e ((complete_get ho.complete i s e hx).mp he))
      rwa [hS el hel, hS el hel, hstep] at this
    · intro el hel tau ht i s hx
      have := h.dynamics el hel tau ht _ _ (hadj i s hx)
      rw [hS el hel, hS el hel, hstep] at this
      rw [hder el hel tau ht, this]
      simp [Expr.eval]
    · intro el hel tau ht e he
      have := h.algebraic el hel tau ht ((e.subst o.model.u us).subst o.model.u us) (by
        rw [halg, hp.alg]
        exact List.mem_map_of_mem (List.mem_map_of_mem (List.mem_append_left _ he)))
      rwa [hS el hel, hS el hel] at this
    · intro el hel tau ht s hsy
      have := h.algebraic el hel tau ht
        (((Expr.diff B.table s H).subst o.model.u us).subst o.model.u us) (by
        rw [halg, hp.alg]
        exact List.mem_map_of_mem (List.mem_map_of_mem (List.mem_append_right _
          (List.mem_map_of_mem hsy))))
      rw [hS el hel, hS el hel] at this
      rw [hder el hel tau ht, this]
    · intro el hel i e tag he htag taus htaus tau ht
      have := h.inequalities el hel i (e.subst o.model.u us) tag (by
        show q.gIneq[i]? = _
        rw [hp.path.1, List.getElem?_map, he]; rfl) (by
        show q.timeGIneq[i]? = _
        rw [hp.tags.1]; exact htag) taus htaus tau ht
      rwa [hS el hel] at this
    · intro el hel i e tag he htag taus htaus tau ht
      have := h.equalities el hel i (e.subst o.model.u us) tag (by
        show q.gEq[i]? = _
        rw [hp.path.2, List.getElem?_map, he]; rfl) (by
        show q.timeGEq[i]? = _
        rw [hp.tags.2]; exact htag) taus htaus tau ht
      rwa [hS el hel] at this
    · intro e he
      have := h.final (e.subst o.model.u us) (by
        show _ ∈ q.hFinal
        rw [hp.final]; exact List.mem_map_of_mem (List.mem_append_left _ he))
      rwa [hS _ hl] at this
    · intro i s l hx hlam
      obtain ⟨e, he, hv⟩ := htr i s l hx hlam
      have := h.final e he
      rw [hv] at this
      linarith
    · intro e he
      have := h.timeless (e.subst o.model.u us) (by
        show _ ∈ q.h
        rw [hp.timeless]; exact List.mem_map_of_mem he)
      rwa [hS _ hl] at this
  · intro h
    refine ⟨?_, h.continuous, ?_, ?_, ?_, ?_, ?_, ?_⟩
    · intro e he
      have he : e ∈ q.hInitial := he
      rw [hp.initial] at he
      obtain ⟨e', he', rfl⟩ := List.mem_map.mp he
      rw [hS 0 hM.elements]
      exact h.initial e' he'
    · intro el hel tau ht i e he
      have he : q.model.odeVec[i]? = some e := he
      rw [hstep]
      have hi : i < o.model.x.length + o.model.x.length := by
        have := (List.getElem?_eq_some_iff.mp he).1
        rw [hp.ode] at this
        simpa [hlen, Expr.gradient] using this
      by_cases hi' : i < o.model.x.length
      · have h₁ := hode i (o.model.odeVec[i]'(by omega)) (List.getElem?_eq_getElem _)
        rw [he, Option.some.injEq] at h₁
        subst h₁
        rw [hS el hel, hS el hel]
        exact h.dynamics el hel tau ht i _ _ (List.getElem?_eq_getElem hi')
          ((complete_get ho.complete i _ _ (List.getElem?_eq_getElem hi')).mpr
            (List.getElem?_eq_getElem _))
      · obtain ⟨j, rfl⟩ := Nat.exists_eq_add_of_le (Nat.not_lt.mp hi')
        have hj : j < o.model.x.length := by omega
        have h₁ := hadj j _ (List.getElem?_eq_getElem hj)
        rw [he, Option.some.injEq] at h₁
        subst h₁
        rw [hS el hel, hS el hel, h.costate el hel tau ht j _ (List.getElem?_eq_getElem hj),
          hder el hel tau ht]
        simp [Expr.eval]
    · intro el hel tau ht e he
      rw [halg, hp.alg] at he
      obtain ⟨e', he', rfl⟩ := List.mem_map.mp he
      obtain ⟨e'', he'', rfl⟩ := List.mem_map.mp he'
      rw [hS el hel, hS el hel]
      rcases List.mem_append.mp he'' with hh | hh
      · exact h.algebraic el hel tau ht e'' hh
      · obtain ⟨s, hsy, rfl⟩ := List.mem_map.mp hh
        rw [← hder el hel tau ht]
        exact h.stationary el hel tau ht s hsy
    · intro el hel i e tag he htag taus htaus tau ht
      have he : q.gIneq[i]? = some e := he
      have htag : q.timeGIneq[i]? = some tag := htag
      rw [hp.path.1, List.getElem?_map, Option.map_eq_some_iff] at he
      obtain ⟨e', he', rfl⟩ := he
      rw [hp.tags.1] at htag
      rw [hS el hel]
      exact h.inequalities el hel i e' tag he' htag taus htaus tau ht
    · intro el hel i e tag he htag taus htaus tau ht
      have he : q.gEq[i]? = some e := he
      have htag : q.timeGEq[i]? = some tag := htag
      rw [hp.path.2, List.getElem?_map, Option.map_eq_some_iff] at he
      obtain ⟨e', he', rfl⟩ := he
      rw [hp.tags.2] at htag
      rw [hS el hel]
      exact h.equalities el hel i e' tag he' htag taus htaus tau ht
    · intro e he
      have he : e ∈ q.hFinal := he
      rw [hp.final] at he
      obtain ⟨e', he', rfl⟩ := List.mem_map.mp he
      rcases List.mem_append.mp he' with hh | hh
      · rw [hS _ hl]
        exact h.final e' hh
      · obtain ⟨i, hi⟩ := List.getElem?_of_mem hh
        rw [List.getElem?_zipWith] at hi
        cases h₁ : (newSyms base o.model.x.length)[i]? with
        | none => simp [h₁] at hi
        | some l =>
          cases h₂ : o.model.x[i]? with
          | none => simp [h₁, h₂] at hi
          | some s =>
            simp only [h₁, h₂, Option.some.injEq] at hi
            subst hi
            have hlam : (addedTo o q).lamb[i]? = some l := by simpa [addedTo, hp.x] using h₁
            have hd := hasDerivAt_weighted ops B.table (ρ (M.elements - 1) 1) s o.hFinal (addedTo o q).eta
              fun e he => hk.final e (by simp [he])
            have hd' : HasDerivAt (fun v => finalAt ops o (addedTo o q).eta (ρ (M.elements - 1) 1)
                (Function.update (ρ (M.elements - 1) 1) s v)) _ (ρ (M.elements - 1) 1 s) :=
              (Expr.hasDerivAt_diff ops B.table _ s o.V (hk.final _ (by simp))).fun_add hd
            have ht := h.transversality i s l h₂ hlam
            rw [hd'.deriv] at ht
            have he : (addedTo o q).eta = newSyms (base + o.model.x.length +
              o.model.y.length) o.hFinal.length := hp.eta
            rw [he] at ht
            rw [hS _ hl]
            simp [Ocp.transversality, Expr.eval, Expr.eval_dot, sub_sub, List.zipWith_map_left,
              List.zipWith_map_right, ht]
    · intro e he
      have he : e ∈ q.h := he
      rw [hp.timeless] at he
      obtain ⟨e', he', rfl⟩ := List.mem_map.mp he
      rw [hS _ hl]
      exact h.timeless e' he'

omit hp ho in
/-- The transcription succeeds only if every function has its symbols, and is then the one of the
lemmas. -/
theorem transcribed {q : Ocp} {M : Mesh} (hM : GoodMesh M) (ops : Expr.Ops ℝ) {m : Transcription ℝ}
    (hm : q.indirectTranscription ops M.roots M.elements = .ok m) :
    FunctionScope { q with V := .const 0 } ∧
      m = Own.Setting.built ops M { q with V := .const 0 } := by
  unfold Ocp.indirectTranscription at hm
  simp only [bind, Ocp.bind_ok_iff, Except.ok.injEq] at hm
  obtain ⟨m', h₁, _, -, rfl⟩ := hm
  obtain ⟨h₂, rfl⟩ := (Ocp.transcription_ok_iff ops _ _ _ _ _ hM.elements _).mp h₁
  exact ⟨h₂, rfl⟩

end Program

theorem built_congr (ops : Expr.Ops ℝ) (M : Mesh) (a b : Ocp) (h₁ : a.t0 = b.t0) (h₂ : a.tf = b.tf)
    (h₃ : a.model.t = b.model.t) (h₄ : a.model.tau = b.model.tau) (h₅ : a.model.p = b.model.p)
    (h₆ : a.model.theta = b.model.theta) (h₇ : a.model.u = b.model.u) (h₈ : a.model.x = b.model.x)
    (h₉ : a.model.y = b.model.y) (g₁ : a.model.x0 = b.model.x0) (g₂ : a.eta = b.eta)
    (g₃ : a.model.uPar = b.model.uPar) (g₄ : a.pOpt = b.pOpt) (g₅ : a.thetaOpt = b.thetaOpt)
    (g₆ : a.duMin = b.duMin) (g₇ : a.duMax = b.duMax) (g₈ : a.timeGIneq = b.timeGIneq)
    (g₉ : a.timeGEq = b.timeGEq) (f₁ : a.model.odeVec = b.model.odeVec)
    (f₂ : a.model.alg = b.model.alg) (f₃ : a.gIneq = b.gIneq) (f₄ : a.gEq = b.gEq)
    (f₅ : a.hInitial = b.hInitial) (f₆ : a.hFinal = b.hFinal) (f₇ : a.h = b.h) (f₈ : a.V = b.V) :
    Own.Setting.built ops M a = Own.Setting.built ops M b := by
  have hi : a.inTime = b.inTime := by
    funext N el e
    simp only [Ocp.inTime, Ocp.timeBreakpoint, h₁, h₂, h₃, h₄]
  simp only [Own.Setting.built, Ocp.transcriptionOf, Ocp.functionsOf, Ocp.dims, Ocp.algOf, Ocp.pOptIndices,
    Ocp.thetaOptIndices, SysModel.allSym, hi, h₁, h₂, h₃, h₅, h₆, h₇, h₈, h₉, g₁, g₂, g₃, g₄, g₅, g₆, g₇,
    g₈, g₉, f₁, f₂, f₃, f₄, f₅, f₆, f₇, f₈]

end Indirect
end Verif
