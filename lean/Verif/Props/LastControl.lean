import Verif.Props.OcpGuesses
import Verif.Lemmas.ProblemScope
/-!
# C165: the last applied control has one value per control
-/
namespace Verif
open Spec

/-- If a last applied control is stored, it has one value per control. -/
def Spec.LastControlSized (o : Ocp) : Prop := ∀ g, o.lastU = some g → g.length = o.model.u.length

/-- The calls that change which controls a problem has, other than merging. -/
def Spec.changesControls : Ocp.Call → Bool
  | .includeControl .. | .removeControl _ | .connect .. => true
  | _ => false

namespace Ocp

theorem includeState_last {var ode x0 lo hi hI xs s f} {o o' : Ocp}
    (hr : includeState var ode x0 lo hi hI xs s f o = (.ok (), o')) : o'.lastU = o.lastU := by
  obtain ⟨-, lo, hi, m', hh, -, -, -, -, -, -, -, rfl⟩ := includeState_ok_iff.mp hr
  rfl

theorem replaceVariable_last {v w} {o o' : Ocp} (hr : replaceVariable v w o = (.ok (), o')) :
    o'.lastU = o.lastU := by
  rw [replaceVariable_run] at hr
  split at hr
  · cases hr
  · cases hr
    rfl

/-- No call except merging changes the stored control. -/
theorem call_last (c : Call) (hc : ∀ ks, c ≠ .merge ks) (o o' : Ocp)
    (hr : c.run o = (.ok (), o')) : o'.lastU = o.lastU := by
  cases c with
  | includeState => exact includeState_last hr
  | includeAlgebraic =>
    obtain ⟨-, -, rfl⟩ := includeAlgebraic_ok_iff.mp hr; rfl
  | includeControl =>
    obtain ⟨-, -, -, -, -, -, rfl⟩ := includeControl_ok_iff.mp hr; rfl
  | includeParameter v => cases hr; rfl
  | includeTheta v => cases hr; rfl
  | setParameterOpt => obtain ⟨-, -, rfl⟩ := setParameterOpt_ok_iff.mp hr; rfl
  | setThetaOpt => obtain ⟨-, -, rfl⟩ := setThetaOpt_ok_iff.mp hr; rfl
  | includeParameterOpt v lo hi =>
    obtain ⟨_, m', -, hr⟩ := onModel_bind_ok.mp
      (show Py.bind (onModel (SysModel.includeParameter v)) (fun _ => setParameterOpt v lo hi) o = _
        from hr)
    obtain ⟨-, -, rfl⟩ := setParameterOpt_ok_iff.mp hr
    rfl
  | includeThetaOpt v lo hi =>
    obtain ⟨_, m', -, hr⟩ := onModel_bind_ok.mp
      (show Py.bind (onModel (SysModel.includeTheta v)) (fun _ => setThetaOpt v lo hi) o = _
        from hr)
    obtain ⟨-, -, rfl⟩ := setThetaOpt_ok_iff.mp hr
    rfl
  | includeInitialEquality => cases hr; rfl
  | includeFinalEquality => cases hr; rfl
  | includeTimeInequality => cases hr; rfl
  | includeTimeEquality => cases hr; rfl
  | includeEquality => cases hr; rfl
  | includeSystemEquations ode alg =>
    obtain ⟨m', -, rfl⟩ := onModel_ok.mp
      (show onModel (SysModel.includeEquations [] ode none alg) o = _ from hr)
    rfl
  | removeAlgebraic v e =>
    have hr : removeAlgebraic v e o = (.ok (), o') := hr
    unfold removeAlgebraic at hr
    simp only [Py.bind_eq, Py.get_bind, Py.lift_bind_ok, Py.modify_bind] at hr
    obtain ⟨_, -, _, -, _, -, hr⟩ := hr
    obtain ⟨m', -, rfl⟩ := onModel_ok.mp hr
    rfl
  | removeControl v =>
    have hr : removeControl v o = (.ok (), o') := hr
    unfold removeControl removeControlBounds at hr
    simp only [Py.bind_eq, Py.get_bind] at hr
    obtain ⟨_, o₁, h₁, h₂⟩ := Py.bind_eq_ok.mp hr
    simp only [Py.bind_eq, Py.get_bind, Py.lift_bind_ok, Py.modify_bind, Py.modify_ok] at h₁ h₂
    obtain ⟨_, -, _, -, _, -, _, -, rfl⟩ := h₁
    obtain ⟨_, -, h₂⟩ := h₂
    obtain ⟨m', hm, rfl⟩ := onModel_ok.mp h₂
    rfl
  | replaceVariable => exact replaceVariable_last hr
  | parametrizeControl u e up =>
    obtain ⟨m', -, hr⟩ := parametrizeControl_ok_iff.mp hr
    have := replaceVariable_last hr
    exact this
  | createCostState xc f =>
    obtain ⟨o₁, h₁, rfl⟩ := createCostState_ok_iff.mp hr
    have := includeState_last h₁
    exact this
  | merge ks => exact absurd rfl (hc ks)
  | connect u y r =>
    have hr : connect u y r o = (.ok (), o') := hr
    unfold connect at hr
    simp only [Py.bind_eq, Py.raiseIf_bind_ok, Py.get_bind, onModel_bind_ok] at hr
    obtain ⟨-, _, m', -, hr⟩ := hr
    obtain ⟨_, o₁, h₁, h₂⟩ := Py.bind_eq_ok.mp hr
    simp only [Py.lift_bind_ok, Py.modify_bind, Py.modify_ok] at h₂
    obtain ⟨_, -, _, -, _, -, _, -, _, -, rfl⟩ := h₂
    cases r with
    | true => cases h₁; rfl
    | false =>
      simp only [when, Bool.not_false, if_true, connectBounds, Py.bind_eq, Py.get_bind,
        Py.lift_bind_ok, Py.modify_bind, Py.modify_ok] at h₁
      obtain ⟨_, -, _, -, _, -, rfl⟩ := h₁
      rfl

theorem mergeOne_last {k o o' : Ocp} (h : LastControlSized o) (hk : LastControlSized k)
    (hr : mergeOne k o = (.ok (), o')) : LastControlSized o' := by
  obtain ⟨-, -, m', hm, rfl⟩ := mergeOne_ok_iff.mp hr
  obtain ⟨-, -, hu⟩ := SysModel.merge_vars _ _ _ hm
  intro g hg
  simp only [mergeAttributes] at hg
  rw [hu, List.length_append]
  exact mergeGuess_length h hk hg

end Ocp

/-- C165, proved part. The stored control has one value per control after every history of
successful calls that neither include, remove nor connect controls, when the merged problems have
one too. -/
theorem C165_kept_partial (calls : List Ocp.Call) (o o' : Ocp) (h : LastControlSized o)
    (hc : ∀ c ∈ calls, changesControls c = false)
    (hk : ∀ c ∈ calls, ∀ ks, c = .merge ks → ∀ k ∈ ks, LastControlSized k)
    (hr : Ocp.runCalls calls o = (.ok (), o')) : LastControlSized o' := by
  induction calls generalizing o with
  | nil => cases hr; exact h
  | cons c cs ih =>
    obtain ⟨_, o₁, h₁, h₂⟩ := Py.bind_eq_ok.mp hr
    refine ih o₁ ?_ (fun c hm => hc c (by simp [hm])) (fun c hm => hk c (by simp [hm])) h₂
    have hcc := hc c (by simp)
    have hkc := hk c (by simp)
    by_cases hm : ∃ ks, c = .merge ks
    · obtain ⟨ks, rfl⟩ := hm
      have : Py.Triple LastControlSized (Py.forEach ks Ocp.mergeOne) LastControlSized :=
        Py.Triple.forEach ks Ocp.mergeOne fun k hkm o a o' ho ho' =>
          Ocp.mergeOne_last ho (hkc ks rfl k hkm) ho'
      exact this o () o₁ h h₁
    · have hl := Ocp.call_last c (fun ks e => hm ⟨ks, e⟩) o o₁ h₁
      have hu : o₁.model.u = o.model.u := by
        by_cases ho : c.other = true
        · exact (Ocp.call_same c ho o o₁ h₁).2.2.1
        · cases c with
          | includeAlgebraic => obtain ⟨-, -, rfl⟩ := Ocp.includeAlgebraic_ok_iff.mp h₁; rfl
          | removeAlgebraic v e =>
            have hr : Ocp.removeAlgebraic v e o = (.ok (), o₁) := h₁
            unfold Ocp.removeAlgebraic at hr
            simp only [Py.bind_eq, Py.get_bind, Py.lift_bind_ok, Py.modify_bind] at hr
            obtain ⟨_, -, _, -, _, -, hr⟩ := hr
            obtain ⟨m', hm', rfl⟩ := Ocp.onModel_ok.mp hr
            exact (SysModel.removeAlgebraic_ok _ _ _ _ hm').2.2.1
          | includeControl => cases hcc
          | removeControl => cases hcc
          | connect => cases hcc
          | merge ks => exact absurd ⟨ks, rfl⟩ hm
          | _ => exact absurd rfl ho
      intro g hg
      rw [hl] at hg
      rw [hu]
      exact h g hg

/-- C165 fails for every control included after the last applied control has been stored: the new
control has no value in it. -/
theorem C165_include_fails (o o' : Ocp) (g : List Rat) (var : List Sym)
    (lo hi dlo dhi : Option (List XRat)) (gu : Option (List Rat)) (hg : o.lastU = some g)
    (h : LastControlSized o) (hv : var ≠ [])
    (hr : o.includeControl var lo hi dlo dhi gu = (.ok (), o')) : ¬ LastControlSized o' := by
  obtain ⟨-, -, -, -, -, -, rfl⟩ := Ocp.includeControl_ok_iff.mp hr
  intro hc
  have h1 := hc g hg
  have h2 := h g hg
  simp only [List.length_append] at h1
  have : var.length ≠ 0 := by simpa using hv
  omega

/-- C165 fails for removed controls: the stored control keeps their values. -/
theorem C165_remove_fails (o o' : Ocp) (g : List Rat) (v : List Sym) (hg : o.lastU = some g)
    (h : LastControlSized o) (hv : ∃ s ∈ v, s ∈ o.model.u)
    (hr : o.removeControl v = (.ok (), o')) : ¬ LastControlSized o' := by
  have hl := Ocp.call_last (.removeControl v) (by intro ks h; cases h) o o' hr
  obtain ⟨-, -, hm⟩ := Ocp.removeControl_terms hr
  obtain ⟨-, -, hu⟩ := SysModel.removeControl_vars _ _ _ hm
  intro hc
  have h1 := hc g (hl.trans hg)
  have h2 := h g hg
  obtain ⟨s, hs, hsu⟩ := hv
  have : (o.model.u.filter fun a => decide (a ∉ v)).length < o.model.u.length :=
    List.length_filter_lt_length_iff_exists.mpr ⟨s, hsu, by simp [hs]⟩
  rw [hu] at h1
  omega

/-- C165 fails for connected inputs, by an equation or by replacement: the stored control keeps
their values. -/
theorem C165_connect_fails (o o' : Ocp) (g : List Rat) (u : List Sym) (y : List Expr) (r : Bool)
    (hg : o.lastU = some g) (h : LastControlSized o) (hv : ∃ s ∈ u, s ∈ o.model.u)
    (hr : o.connect u y r = (.ok (), o')) : ¬ LastControlSized o' := by
  have hl := Ocp.call_last (.connect u y r) (by intro ks h; cases h) o o' hr
  have hm : SysModel.connect u y r o.model = (.ok (), o'.model) := by
    cases r with
    | true => exact (Ocp.connect_replace_terms hr).2.2
    | false => exact (Ocp.connect_terms hr).2.2
  obtain ⟨-, -, hu⟩ := SysModel.connect_vars _ _ _ _ _ hm
  intro hc
  have h1 := hc g (hl.trans hg)
  have h2 := h g hg
  obtain ⟨s, hs, hsu⟩ := hv
  have : (o.model.u.filter fun a => decide (a ∉ u)).length < o.model.u.length :=
    List.length_filter_lt_length_iff_exists.mpr ⟨s, hsu, by simp [hs]⟩
  rw [hu] at h1
  omega

/-! ## Non-vacuity -/

/-- One state and two controls, with a last applied control. -/
def Example.applied : Ocp :=
  { Ocp.new { SysModel.new 0 1 with
      x := [2], x0 := [3], ode := [(2, some (.add (.sym 4) (.sym 5)))]
      u := [4, 5], uExpr := [.sym 4, .sym 5], uPar := [4, 5] } (some [1]) 0 5 with
    lastU := some [7, 8] }

example : LastControlSized Example.applied ∧
    (Example.applied.includeControl [6] none none none none none).1.isOk = true ∧
    (Example.applied.removeControl [4]).1.isOk = true ∧
    (Example.applied.connect [4] [.sym 2] false).1.isOk = true ∧
    (Example.applied.connect [4] [.sym 2] true).1.isOk = true :=
  ⟨by intro g hg; cases hg; rfl, by decide +kernel, by decide +kernel, by decide +kernel,
    by decide +kernel⟩

/-- Removing the first of two controls: the value `7` of the removed control is now that of the
remaining one. -/
example : ((Example.applied.removeControl [4]).2.model.u,
    (Example.applied.removeControl [4]).2.lastU) = ([5], some [7, 8]) := by decide +kernel

example : Ocp.runCalls [.includeParameter [9], .includeEquality [.sym 9]] Example.applied =
    (.ok (), { Example.applied with
      model := { Example.applied.model with p := [9] }, h := [.sym 9] }) := by decide +kernel

end Verif
