import Verif.Props.OcpIndices
import Verif.Lemmas.Ocp
/-!
# C194: optimised parameters are parameters of the model
-/
namespace Verif
open Spec

/-- Every optimised parameter is a parameter of the model. -/
def Spec.ParametersKnown (o : Ocp) : Prop :=
  (∀ s ∈ o.pOpt, s ∈ o.model.p) ∧ ∀ s ∈ o.thetaOpt, s ∈ o.model.theta

/-- The caller only declares parameters of the model as optimised, and problems that are merged
have known parameters and can be merged. -/
def Spec.GivesKnown (c : Ocp.Call) (o : Ocp) : Prop :=
  match c with
  | .setParameterOpt v _ _ => ∀ s ∈ v, s ∈ o.model.p
  | .setThetaOpt v _ _ => ∀ s ∈ v, s ∈ o.model.theta
  | .merge ks => (∀ k ∈ ks, ParametersKnown k) ∧ (c.run o).1 = .ok ()
  | _ => True

namespace SysModel

/-- The parameters of a model. -/
def HasPars (P T : List Sym) (m : SysModel) : Prop := m.p = P ∧ m.theta = T

section
variable {P T : List Sym}

theorem q_includeFromKwargs {x e} : Py.Always (HasPars P T) (includeFromKwargs x e) := by
  intro m h
  unfold includeFromKwargs
  split
  · exact h
  · split
    · exact h
    · exact h

theorem q_includeEquations {a o x g} : Py.Always (HasPars P T) (includeEquations a o x g) := by
  unfold includeEquations includeArgs includeFromDiff includeAlgEquations
  py_always [q_includeFromKwargs]

theorem q_addSlot {a} : Py.Always (HasPars P T) (addSlot a) := by
  intro m h; unfold addSlot; split <;> exact h

theorem q_replaceVariable {v w} : Py.Always (HasPars P T) (replaceVariable v w) := by
  intro m h; unfold replaceVariable; split <;> exact h

theorem q_registerParametrized {a} : Py.Always (HasPars P T) (registerParametrized a) := by
  intro m h; unfold registerParametrized; split <;> exact h

theorem q_parametrizeControl {u e up} : Py.Always (HasPars P T) (parametrizeControl u e up) := by
  unfold parametrizeControl
  py_always [q_registerParametrized, q_replaceVariable]

theorem q_includeState {v o x f} : Py.Always (HasPars P T) (includeState v o x f) := by
  unfold includeState
  py_always [q_addSlot, q_includeEquations]

theorem q_includeAlgebraic {v a} : Py.Always (HasPars P T) (includeAlgebraic v a) := by
  unfold includeAlgebraic
  py_always [q_includeEquations]

theorem q_removeAlgebraic {v a} : Py.Always (HasPars P T) (removeAlgebraic v a) := by
  unfold removeAlgebraic
  py_always [q_includeEquations]

theorem q_includeControl {v} : Py.Always (HasPars P T) (includeControl v) := by
  unfold includeControl
  py_always [q_includeEquations]

theorem q_removeControl {v} : Py.Always (HasPars P T) (removeControl v) := by
  unfold removeControl
  py_always [q_includeEquations]

theorem q_connect {u y r} : Py.Always (HasPars P T) (connect u y r) := by
  unfold connect
  py_always [q_includeEquations, q_includeAlgebraic, q_replaceVariable, q_removeControl]

end

theorem merge_parameters (k m m' : SysModel) (h : merge [k] none m = (.ok (), m')) :
    m'.p = m.p ++ k.p ∧ m'.theta = m.theta ++ k.theta := by
  unfold merge includeModels at h
  simp only [Py.bind_eq, Py.forEach] at h
  obtain ⟨_, m₁, h₁, h₂⟩ := Py.bind_eq_ok.mp h
  obtain ⟨_, m₂, h₃, h₄⟩ := Py.bind_eq_ok.mp h₁
  simp only [Py.pure_apply, Prod.mk.injEq, true_and] at h₂ h₄
  subst h₂ h₄
  unfold includeModel at h₃
  simp only [Py.bind_eq] at h₃
  obtain ⟨_, m₃, a₁, h₃⟩ := Py.bind_eq_ok.mp h₃
  have e₁ : HasPars m.p m.theta m₃ := by
    have := q_includeState (P := m.p) (T := m.theta) (v := k.x) (o := none) (x := some k.x0) (f := 0)
      m ⟨rfl, rfl⟩
    rwa [a₁] at this
  obtain ⟨_, m₄, a₂, h₃⟩ := Py.bind_eq_ok.mp h₃
  have e₂ : HasPars m.p m.theta m₄ := by
    have := q_includeAlgebraic (P := m.p) (T := m.theta) (v := k.y) (a := none) m₃ e₁
    rwa [a₂] at this
  unfold includeControl includeParameter includeTheta at h₃
  simp only [Py.modify_bind] at h₃
  have e₃ : Py.Always (HasPars (m.p ++ k.p) (m.theta ++ k.theta)) (Py.bind
      (includeEquations [] (some k.odeVec) (some k.x) k.alg) (fun _ => Py.bind Py.get fun m₀ =>
        Py.bind (replaceVariable [k.t] [.sym m₀.t]) fun _ =>
          replaceVariable [k.tau] [.sym m₀.tau])) := by
    py_always [q_includeEquations, q_replaceVariable]
  have e₄ := e₃ _ (show HasPars (m.p ++ k.p) (m.theta ++ k.theta) { m₄ with
      u := m₄.u ++ k.u
      uExpr := m₄.uExpr ++ k.u.map .sym
      uPar := m₄.uPar ++ k.u
      p := m₄.p ++ k.p
      theta := m₄.theta ++ k.theta } from ⟨by rw [← e₂.1], by rw [← e₂.2]⟩)
  rw [h₃] at e₄
  exact e₄

end SysModel

namespace Ocp

/-- The parameters of a problem, and which of them are optimised. -/
def HasPars (P T A B : List Sym) (o : Ocp) : Prop :=
  o.model.p = P ∧ o.model.theta = T ∧ o.pOpt = A ∧ o.thetaOpt = B

section
variable {P T A B : List Sym}

theorem q_onModel {α : Type} {c : Py SysModel α} (h : Py.Always (SysModel.HasPars P T) c) :
    Py.Always (HasPars P T A B) (onModel c) := fun o ho =>
  have := h o.model ⟨ho.1, ho.2.1⟩
  ⟨this.1, this.2, ho.2.2⟩

theorem q_includeState {v ode x0 lo hi hI xs s f} :
    Py.Always (HasPars P T A B) (includeState v ode x0 lo hi hI xs s f) := by
  unfold includeState
  py_always [q_onModel SysModel.q_includeState]

theorem q_replaceVariable {v w} : Py.Always (HasPars P T A B) (replaceVariable v w) := by
  unfold replaceVariable
  py_always [q_onModel SysModel.q_replaceVariable]

theorem q_connectBounds {i} : Py.Always (HasPars P T A B) (connectBounds i) := by
  unfold connectBounds
  py_always [q_onModel SysModel.q_replaceVariable]

/-- Is this a call that includes parameters, declares them as optimised, or merges? -/
def Call.onParameters : Call → Bool
  | .includeParameter _ | .includeTheta _ | .setParameterOpt .. | .setThetaOpt .. => true
  | .includeParameterOpt .. | .includeThetaOpt .. | .merge _ => true
  | _ => false

theorem q_call (c : Call) (hc : c.onParameters = false) :
    Py.Always (HasPars P T A B) c.run := by
  cases c with
  | includeState => exact q_includeState
  | includeAlgebraic =>
    simp only [Call.run]
    unfold includeAlgebraic
    py_always [q_onModel SysModel.q_includeAlgebraic]
  | includeControl =>
    simp only [Call.run]
    unfold includeControl
    py_always [q_onModel SysModel.q_includeControl]
  | includeInitialEquality => exact fun o h => h
  | includeFinalEquality => exact fun o h => h
  | includeTimeInequality => exact fun o h => h
  | includeTimeEquality => exact fun o h => h
  | includeEquality => exact fun o h => h
  | includeSystemEquations => exact q_onModel SysModel.q_includeEquations
  | removeAlgebraic =>
    simp only [Call.run]
    unfold removeAlgebraic
    py_always [q_onModel SysModel.q_removeAlgebraic]
  | removeControl =>
    simp only [Call.run]
    unfold removeControl removeControlBounds
    py_always [q_onModel SysModel.q_removeControl]
  | replaceVariable => exact q_replaceVariable
  | parametrizeControl =>
    simp only [Call.run]
    unfold parametrizeControl
    py_always [q_onModel SysModel.q_parametrizeControl, q_replaceVariable]
  | createCostState =>
    simp only [Call.run]
    unfold createCostState createState
    py_always [q_includeState]
  | connect =>
    simp only [Call.run]
    unfold connect when
    py_always [q_onModel SysModel.q_connect, q_connectBounds]
  | _ => cases hc

end

theorem setParameterOpt_known {v lo hi} {o : Ocp} (h : ParametersKnown o)
    (hv : ∀ s ∈ v, s ∈ o.model.p) : ParametersKnown (setParameterOpt v lo hi o).2 := by
  have : Py.Always (fun o => ParametersKnown o ∧ ∀ s ∈ v, s ∈ o.model.p)
      (setParameterOpt v lo hi) := by
    unfold setParameterOpt
    refine Py.Always.bind (Py.Always.raiseIf _ _) fun _ =>
      Py.Always.bind (Py.Always.raiseIf _ _) fun _ => Py.Always.modify _ fun o ho => ⟨⟨fun s hs => ?_, ho.1.2⟩, ho.2⟩
    rcases List.mem_append.mp hs with hs | hs
    · exact ho.1.1 s hs
    · exact ho.2 s hs
  exact (this o ⟨h, hv⟩).1

theorem setThetaOpt_known {v lo hi} {o : Ocp} (h : ParametersKnown o)
    (hv : ∀ s ∈ v, s ∈ o.model.theta) : ParametersKnown (setThetaOpt v lo hi o).2 := by
  have : Py.Always (fun o => ParametersKnown o ∧ ∀ s ∈ v, s ∈ o.model.theta)
      (setThetaOpt v lo hi) := by
    unfold setThetaOpt
    refine Py.Always.bind (Py.Always.raiseIf _ _) fun _ =>
      Py.Always.bind (Py.Always.raiseIf _ _) fun _ => Py.Always.modify _ fun o ho => ⟨⟨ho.1.1, fun s hs => ?_⟩, ho.2⟩
    rcases List.mem_append.mp hs with hs | hs
    · exact ho.1.2 s hs
    · exact ho.2 s hs
  exact (this o ⟨h, hv⟩).1

theorem mergeOne_known {k o o' : Ocp} (h : ParametersKnown o) (hk : ParametersKnown k)
    (hr : mergeOne k o = (.ok (), o')) : ParametersKnown o' := by
  obtain ⟨-, -, m', hm, rfl⟩ := mergeOne_ok_iff.mp hr
  obtain ⟨hp, ht⟩ := SysModel.merge_parameters _ _ _ hm
  refine ⟨fun s hs => ?_, fun s hs => ?_⟩
  · refine hp ▸ List.mem_append.mpr ?_
    exact (List.mem_append.mp hs).imp (h.1 s) (hk.1 s)
  · refine ht ▸ List.mem_append.mpr ?_
    exact (List.mem_append.mp hs).imp (h.2 s) (hk.2 s)

theorem call_known (c : Call) (o : Ocp) (h : ParametersKnown o) (hc : GivesKnown c o) :
    ParametersKnown (c.run o).2 := by
  by_cases hp : c.onParameters = false
  · obtain ⟨e₁, e₂, e₃, e₄⟩ := q_call c hp o ⟨rfl, rfl, rfl, rfl⟩
    unfold ParametersKnown
    rw [e₁, e₂, e₃, e₄]
    exact h
  · cases c with
    | includeParameter v => exact ⟨fun s hs => List.mem_append_left _ (h.1 s hs), h.2⟩
    | includeTheta v => exact ⟨h.1, fun s hs => List.mem_append_left _ (h.2 s hs)⟩
    | setParameterOpt v lo hi => exact setParameterOpt_known h hc
    | setThetaOpt v lo hi => exact setThetaOpt_known h hc
    | includeParameterOpt v lo hi =>
      refine setParameterOpt_known (v := v) (lo := lo) (hi := hi)
        (o := (onModel (SysModel.includeParameter v) o).2)
        ⟨fun s hs => List.mem_append_left _ (h.1 s hs), h.2⟩ fun s hs => ?_
      exact List.mem_append_right _ hs
    | includeThetaOpt v lo hi =>
      refine setThetaOpt_known (v := v) (lo := lo) (hi := hi)
        (o := (onModel (SysModel.includeTheta v) o).2)
        ⟨h.1, fun s hs => List.mem_append_left _ (h.2 s hs)⟩ fun s hs => ?_
      exact List.mem_append_right _ hs
    | merge ks =>
      obtain ⟨hk, hr⟩ := hc
      have : Py.Triple ParametersKnown (Py.forEach ks mergeOne) ParametersKnown :=
        Py.Triple.forEach ks mergeOne fun k hkm o a o' ho ho' =>
          mergeOne_known ho (hk k hkm) ho'
      exact this o () _ h (Prod.ext hr rfl)
    | _ => exact absurd rfl hp

end Ocp

/-- C194, proved part. In every history of calls (the caller may catch exceptions and go on) every
optimised parameter is a parameter of the model, as long as the caller declares only parameters of
the model as optimised and does not go on after a failing merge. -/
theorem C194_partial (calls : List Ocp.Call) (o : Ocp) (h : ParametersKnown o)
    (hc : Follows Ocp.Call.run GivesKnown calls o) :
    ParametersKnown (runHistory (fun c => Py.stateAfter (Ocp.Call.run c)) calls o) := by
  induction calls generalizing o with
  | nil => exact h
  | cons c cs ih => exact ih _ (Ocp.call_known c o h hc.1) hc.2

/-- A new problem has no optimised parameters. -/
theorem C194_new (m : SysModel) (x0 : Option (List Rat)) (t0 tf : Rat) :
    ParametersKnown (Ocp.new m x0 t0 tf) := ⟨fun _ h => (nomatch h), fun _ h => (nomatch h)⟩

/-- C194 is false: a symbol `a` that is no parameter of the model is accepted as optimised
parameter. When a parameter `w` of the model is declared as optimised after it, `w` gets the value
of the decision variable of `a` (with the bounds of `a`), not its own. -/
theorem C194_fails {α : Type} (o : Ocp) (a w : Sym) (la ha lw hw : XRat) (ho : o.pOpt = [])
    (hn : o.model.p.Nodup) (hna : a ∉ o.model.p) (hw' : w ∈ o.model.p) (va vw : α) (p : List α)
    (hp : p.length = o.model.p.length) :
    ∃ o', Ocp.runCalls [.setParameterOpt [a] (some [la]) (some [ha]),
        .setParameterOpt [w] (some [lw]) (some [hw])] o = (.ok (), o') ∧
      a ∈ o'.pOpt ∧ a ∉ o'.model.p ∧
      (bounds o'.pOpt [va, vw]).lookup w = some vw ∧
      (bounds o'.model.p (Ocp.putValues o'.pOptIndices [va, vw] p)).lookup w = some va := by
  have haw : a ≠ w := fun e => hna (e ▸ hw')
  let o' : Ocp := { o with
    pOpt := o.pOpt ++ [a] ++ [w]
    pOptMin := o.pOptMin ++ [la] ++ [lw]
    pOptMax := o.pOptMax ++ [ha] ++ [hw] }
  have hi : o'.pOptIndices = { o with pOpt := [w] }.pOptIndices := by
    show findIndices (o.pOpt ++ [a] ++ [w]) o.model.p = findIndices [w] o.model.p
    have : ∀ l : List Sym, a ∉ l → findIndices [a, w] l = findIndices [w] l := by
      intro l hl
      have hz : (l.zipIdx.filterMap fun p => if p.1 == a then some p.2 else none) = [] := by
        rw [List.filterMap_eq_nil_iff]
        intro p hp
        have : p.1 ∈ l := List.fst_mem_of_mem_zipIdx hp
        have : p.1 ≠ a := fun e => hl (e ▸ this)
        simp [this]
      unfold findIndices
      rw [List.flatMap_cons, hz, List.nil_append]
    rw [ho]
    exact this _ hna
  refine ⟨o', rfl, by simp [o'], hna, ?_, ?_⟩
  · have hb : (w == a) = false := by simpa using haw.symm
    simp [o', ho, bounds, List.lookup, hb]
  · rw [hi]
    have hput : Ocp.putValues { o with pOpt := [w] }.pOptIndices [va, vw] p =
        Ocp.putValues { o with pOpt := [w] }.pOptIndices [va] p := by
      have : findIndices [w] o.model.p = _ :=
        findIndices_nodup [w] o.model.p hn (by simpa using hw')
      unfold Ocp.pOptIndices Ocp.putValues
      simp only [this, List.map_cons, List.map_nil, List.zip_cons_cons, List.zip_nil_left]
    rw [hput]
    have := C39_written { o with pOpt := [w] } [va] p hn (by simp) (by simpa using hw') hp rfl w hw'
    simpa [bounds, List.lookup] using this

/-- The hypotheses are met: a problem with parameter 7, told to optimise the symbol 9 and then 7. -/
example : ∃ o', Ocp.runCalls [.setParameterOpt [9] (some [XRat.fin 0]) (some [XRat.fin 1]),
      .setParameterOpt [7] (some [XRat.fin 5]) (some [XRat.fin 6])]
      (Ocp.new { SysModel.new 0 1 with p := [7] } none 0 1) = (.ok (), o') ∧
    9 ∈ o'.pOpt ∧ 9 ∉ o'.model.p ∧ (bounds o'.pOpt [(1 : Rat), 5]).lookup 7 = some 5 ∧
    (bounds o'.model.p (Ocp.putValues o'.pOptIndices [(1 : Rat), 5] [0])).lookup 7 = some 1 :=
  C194_fails _ 9 7 _ _ _ _ rfl (by decide) (by decide) (by decide) 1 5 [0] rfl

/-- A history with a rejected declaration, a merge and a new optimised parameter. -/
example :
    let k : Ocp := { Ocp.new { SysModel.new 5 6 with p := [8] } none 0 1 with
      pOpt := [8]
      pOptMin := [⊥]
      pOptMax := [⊤] }
    let o : Ocp := Ocp.new { SysModel.new 0 1 with p := [7] } none 0 1
    let calls : List Ocp.Call := [.setParameterOpt [7] (some []) none, .merge [k],
      .includeParameterOpt [3, 4] none none, .setParameterOpt [7] none none]
    Follows Ocp.Call.run GivesKnown calls o ∧
      (runHistory (fun c => Py.stateAfter (Ocp.Call.run c)) calls o).pOpt = [8, 3, 4, 7] := by
  refine ⟨⟨?_, ⟨?_, by decide +kernel⟩, trivial, ?_, trivial⟩, by decide +kernel⟩
  · intro s hs
    cases List.mem_singleton.mp hs
    decide +kernel
  · intro k hk
    cases List.mem_singleton.mp hk
    exact ⟨by decide, fun _ h => nomatch h⟩
  · intro s hs
    cases List.mem_singleton.mp hs
    decide +kernel

end Verif
