import Verif.Lemmas.Ocp
/-!
# C30: bounds have the size of what they bound
-/
namespace Verif
open Spec

namespace Ocp

theorem kept_length {α : Type} (v l : List Sym) (b : List α) (h : b.length = l.length) :
    (kept v l b).length = (l.filter fun a => decide (a ∉ v)).length := filter_zip_length v l b h

/-- Bounds depend on the variables only. -/
theorem sized_of_vars {o : Ocp} (h : Sized o) (m' : SysModel)
    (hv : m'.x = o.model.x ∧ m'.y = o.model.y ∧ m'.u = o.model.u) :
    Sized { o with model := m' } := by
  obtain ⟨hx, hy, hu⟩ := hv
  exact ⟨by rw [hx]; exact h.x0, by rw [hx]; exact h.xMax, by rw [hx]; exact h.xMin,
    by rw [hy]; exact h.yMax, by rw [hy]; exact h.yMin, by rw [hu]; exact h.uMax,
    by rw [hu]; exact h.uMin, by rw [hu]; exact h.duMax, by rw [hu]; exact h.duMin,
    h.pOptMax, h.pOptMin, h.thetaOptMax, h.thetaOptMin⟩

theorem onModel_sized {α : Type} {c : Py SysModel α}
    (hc : ∀ X Y U, Py.Always (SysModel.HasVars X Y U) c) {o : Ocp} (h : Sized o) :
    Sized (onModel c o).2 := sized_of_vars h _ (SysModel.vars_of_always hc o.model)

theorem onModel_sized_ok {α : Type} {c : Py SysModel α} {a : α} {o o' : Ocp}
    (hc : ∀ X Y U, Py.Always (SysModel.HasVars X Y U) c) (hr : onModel c o = (.ok a, o'))
    (h : Sized o) : Sized o' := by
  have := onModel_sized hc h
  rwa [hr] at this

theorem includeState_sized {var ode x0 lo hi hI xs s f} {o o' : Ocp} (h : Sized o)
    (hr : includeState var ode x0 lo hi hI xs s f o = (.ok (), o')) : Sized o' := by
  obtain ⟨-, lo, hi, m', hh, -, -, h₃, h₄, h₅, h₆, -, rfl⟩ := includeState_ok_iff.mp hr
  obtain ⟨-, -, -, -, rfl⟩ := (SysModel.includeState_ok_iff ..).mp h₆
  have hx : (x0.getD (List.replicate var.length 0)).length = var.length := by
    cases x0 with
    | none => simp
    | some v =>
      simp only [Option.any_some, decide_eq_false_iff_not, ne_eq, not_not] at h₅
      exact h₅.symm
  exact { h with
    x0 := by simp [h.x0, hx]
    xMax := by simp [h.xMax, h₃]
    xMin := by simp [h.xMin, h₄] }

theorem setParameterOpt_sized {v lo hi} {o o' : Ocp} (h : Sized o)
    (hr : setParameterOpt v lo hi o = (.ok (), o')) : Sized o' := by
  obtain ⟨h₁, h₂, rfl⟩ := setParameterOpt_ok_iff.mp hr
  exact { h with
    pOptMax := by simp only [List.length_append, h.pOptMax, ← h₁]
    pOptMin := by simp only [List.length_append, h.pOptMin, ← h₂] }

theorem setThetaOpt_sized {v lo hi} {o o' : Ocp} (h : Sized o)
    (hr : setThetaOpt v lo hi o = (.ok (), o')) : Sized o' := by
  obtain ⟨h₁, h₂, rfl⟩ := setThetaOpt_ok_iff.mp hr
  exact { h with
    thetaOptMax := by simp only [List.length_append, h.thetaOptMax, ← h₁]
    thetaOptMin := by simp only [List.length_append, h.thetaOptMin, ← h₂] }

theorem replaceVariable_sized {v w} {o o' : Ocp} (h : Sized o)
    (hr : replaceVariable v w o = (.ok (), o')) : Sized o' := by
  rw [replaceVariable_run] at hr
  split at hr
  · simp at hr
  · simp only [Prod.mk.injEq, true_and] at hr
    subst hr
    have := sized_of_vars h _ (SysModel.vars_of_always
      (c := SysModel.replaceVariable v w) (fun X Y U => SysModel.v_replaceVariable) o.model)
    exact { this with }

theorem mergeOne_sized {k o o' : Ocp} (h : Sized o) (hk : Sized k)
    (hr : mergeOne k o = (.ok (), o')) : Sized o' := by
  obtain ⟨-, -, m', hm, rfl⟩ := mergeOne_ok_iff.mp hr
  obtain ⟨hx, hy, hu⟩ := SysModel.merge_vars _ _ _ hm
  constructor <;> simp [mergeAttributes, hx, hy, hu, h.x0, h.xMax, h.xMin, h.yMax, h.yMin, h.uMax,
    h.uMin, h.duMax, h.duMin, h.pOptMax, h.pOptMin, h.thetaOptMax, h.thetaOptMin, hk.x0, hk.xMax,
    hk.xMin, hk.yMax, hk.yMin, hk.uMax, hk.uMin, hk.duMax, hk.duMin, hk.pOptMax, hk.pOptMin,
    hk.thetaOptMax, hk.thetaOptMin]

theorem gathered_length {α : Type} (u l : List Sym) (b : List α) (h : b.length = l.length)
    (hn : l.Nodup) (hu : ∀ v ∈ u, v ∈ l) :
    ((findIndices u l).filterMap fun i => b[i]?).length = u.length := by
  have := congrArg List.length (gathered u l b h hn hu)
  simpa using this

theorem connect_sized {u y r} {o o' : Ocp} (h : Sized o) (hn : o.model.u.Nodup)
    (hu : ∀ v ∈ u, v ∈ o.model.u) (hr : connect u y r o = (.ok (), o')) : Sized o' := by
  obtain ⟨-, m', gy, gu, hm, -, -, rfl⟩ :=
    (connect_ok_iff h.uMax h.uMin h.duMax h.duMin).mp hr
  obtain ⟨hx, hy, hv⟩ := SysModel.connect_vars _ _ _ _ _ hm
  have e₁ := gathered_length u _ _ h.uMax hn hu
  have e₂ := gathered_length u _ _ h.uMin hn hu
  exact { h with
    x0 := by simp only [hx, h.x0]
    xMax := by simp only [hx, h.xMax]
    xMin := by simp only [hx, h.xMin]
    yMax := by cases r <;> simp [hy, h.yMax, e₁]
    yMin := by cases r <;> simp [hy, h.yMin, e₂]
    uMax := by rw [hv]; exact kept_length _ _ _ h.uMax
    uMin := by rw [hv]; exact kept_length _ _ _ h.uMin
    duMax := by rw [hv]; exact kept_length _ _ _ h.duMax
    duMin := by rw [hv]; exact kept_length _ _ _ h.duMin }

theorem call_sized (c : Call) (o o' : Ocp) (h : Sized o) (ha : Admissible c o)
    (hr : c.run o = (.ok (), o')) : Sized o' := by
  cases c with
  | includeState => exact includeState_sized h hr
  | includeAlgebraic =>
    obtain ⟨h₁, h₂, rfl⟩ := includeAlgebraic_ok_iff.mp hr
    exact { h with
      yMax := by simp only [List.length_append, h.yMax, ← h₂]
      yMin := by simp only [List.length_append, h.yMin, ← h₁] }
  | includeControl =>
    obtain ⟨-, h₁, h₂, h₃, h₄, -, rfl⟩ := includeControl_ok_iff.mp hr
    exact { h with
      uMax := by simp only [List.length_append, h.uMax, ← h₂]
      uMin := by simp only [List.length_append, h.uMin, ← h₁]
      duMax := by simp only [List.length_append, h.duMax, ← h₄]
      duMin := by simp only [List.length_append, h.duMin, ← h₃] }
  | includeParameter v => exact onModel_sized_ok (fun _ _ _ => SysModel.v_includeParameter) hr h
  | includeTheta v => exact onModel_sized_ok (fun _ _ _ => SysModel.v_includeTheta) hr h
  | setParameterOpt => exact setParameterOpt_sized h hr
  | setThetaOpt => exact setThetaOpt_sized h hr
  | includeParameterOpt v lo hi =>
    obtain ⟨_, o₁, h₁, h₂⟩ := Py.bind_eq_ok.mp
      (show Py.bind (onModel (SysModel.includeParameter v)) (fun _ => setParameterOpt v lo hi) o = _ from hr)
    exact setParameterOpt_sized (onModel_sized_ok (fun _ _ _ => SysModel.v_includeParameter) h₁ h) h₂
  | includeThetaOpt v lo hi =>
    obtain ⟨_, o₁, h₁, h₂⟩ := Py.bind_eq_ok.mp
      (show Py.bind (onModel (SysModel.includeTheta v)) (fun _ => setThetaOpt v lo hi) o = _ from hr)
    exact setThetaOpt_sized (onModel_sized_ok (fun _ _ _ => SysModel.v_includeTheta) h₁ h) h₂
  | includeInitialEquality => cases hr; exact { h with }
  | includeFinalEquality => cases hr; exact { h with }
  | includeTimeInequality => cases hr; exact { h with }
  | includeTimeEquality => cases hr; exact { h with }
  | includeEquality => cases hr; exact { h with }
  | includeSystemEquations ode alg =>
    exact onModel_sized_ok (fun _ _ _ => SysModel.v_includeEquations) hr h
  | removeAlgebraic v eq =>
    obtain ⟨g, m', -, hm, rfl⟩ := (removeAlgebraic_ok_iff h.yMax h.yMin).mp hr
    obtain ⟨hx, hy, hu, -⟩ := SysModel.removeAlgebraic_ok _ _ _ _ hm
    exact { h with
      x0 := by simp only [hx, h.x0]
      xMax := by simp only [hx, h.xMax]
      xMin := by simp only [hx, h.xMin]
      yMax := by rw [hy]; exact kept_length _ _ _ h.yMax
      yMin := by rw [hy]; exact kept_length _ _ _ h.yMin
      uMax := by simp only [hu, h.uMax]
      uMin := by simp only [hu, h.uMin]
      duMax := by simp only [hu, h.duMax]
      duMin := by simp only [hu, h.duMin] }
  | removeControl v =>
    obtain ⟨g, m', -, hm, rfl⟩ := (removeControl_ok_iff h.uMax h.uMin h.duMax h.duMin).mp hr
    obtain ⟨hx, hy, hu⟩ := SysModel.removeControl_vars _ _ _ hm
    exact { h with
      x0 := by simp only [hx, h.x0]
      xMax := by simp only [hx, h.xMax]
      xMin := by simp only [hx, h.xMin]
      yMax := by simp only [hy, h.yMax]
      yMin := by simp only [hy, h.yMin]
      uMax := by rw [hu]; exact kept_length _ _ _ h.uMax
      uMin := by rw [hu]; exact kept_length _ _ _ h.uMin
      duMax := by rw [hu]; exact kept_length _ _ _ h.duMax
      duMin := by rw [hu]; exact kept_length _ _ _ h.duMin }
  | replaceVariable => exact replaceVariable_sized h hr
  | parametrizeControl u e up =>
    obtain ⟨m', hm, hs⟩ := parametrizeControl_ok_iff.mp hr
    exact replaceVariable_sized (onModel_sized_ok (fun _ _ _ => SysModel.v_parametrizeControl)
      (onModel_ok.mpr ⟨m', hm, rfl⟩) h) hs
  | createCostState xc f =>
    obtain ⟨o₁, h₁, rfl⟩ := createCostState_ok_iff.mp hr
    exact { includeState_sized h h₁ with }
  | merge ks =>
    have : Py.Triple Sized (Py.forEach ks mergeOne) Sized :=
      Py.Triple.forEach ks mergeOne fun k hk o a o' ho ho' => mergeOne_sized ho (ha k hk) ho'
    exact this o () o' h hr
  | connect u y r => exact connect_sized h ha.1 ha.2 hr

end Ocp

/-- C30. A problem built from a model, with one initial value per state, has bounds of the right
size. -/
theorem C30_new (m : SysModel) (x0 : List Rat) (t0 tf : Rat) (h : x0.length = m.x.length) :
    Sized (Ocp.new m (some x0) t0 tf) := by
  constructor <;> simp [Ocp.new, h]

/-- C30. Every history of successful calls keeps one bound per variable. -/
theorem C30_sized (calls : List Ocp.Call) (o o' : Ocp) (h : Sized o)
    (ha : Follows Ocp.Call.run Admissible calls o)
    (hr : Ocp.runCalls calls o = (.ok (), o')) : Sized o' := by
  induction calls generalizing o with
  | nil => cases hr; exact h
  | cons c cs ih =>
    obtain ⟨_, o₁, h₁, h₂⟩ := Py.bind_eq_ok.mp hr
    have e := congrArg Prod.snd h₁
    simp only at e
    exact ih o₁ (Ocp.call_sized c o o₁ h ha.1 h₁) (e ▸ ha.2) h₂

/-- C30. The check made before solving accepts exactly the problems with the right sizes. -/
theorem C30_check (o : Ocp) : o.preSolveCheck = .ok () ↔ Sized o := by
  unfold Ocp.preSolveCheck
  constructor
  · intro h
    split at h
    · simp at h
    · next hc =>
      simp [Ocp.sizeChecks] at hc
      constructor <;> simp [hc]
  · intro h
    rw [if_neg]
    simp [Ocp.sizeChecks, h.x0, h.xMax, h.xMin, h.yMax, h.yMin, h.uMax, h.uMin, h.duMax, h.duMin,
      h.pOptMax, h.pOptMin, h.thetaOptMax, h.thetaOptMin]

/-- C30. So such a history ends in a problem that is accepted. -/
theorem C30_accepted (calls : List Ocp.Call) (m : SysModel) (x0 : List Rat) (t0 tf : Rat) (o' : Ocp)
    (hx : x0.length = m.x.length)
    (ha : Follows Ocp.Call.run Admissible calls (Ocp.new m (some x0) t0 tf))
    (hr : Ocp.runCalls calls (Ocp.new m (some x0) t0 tf) = (.ok (), o')) :
    o'.preSolveCheck = .ok () :=
  (C30_check o').mpr (C30_sized calls _ o' (C30_new m x0 t0 tf hx) ha hr)

/-- A model with two inputs. -/
def Example.twoInputs : SysModel := { SysModel.new 0 1 with
  u := [20, 21]
  uExpr := [.sym 20, .sym 21]
  uPar := [20, 21] }

/-- The hypotheses are met by a history with all kinds of changes of size. -/
example :
    let calls : List Ocp.Call :=
      [.includeState [2, 3] (some [.sym 20, .sym 21]) (some [1, 2]) none
          (some (.dm [XRat.fin 4, ⊤])) none none false 100,
       .includeAlgebraic [30] (some [.sub (.sym 30) (.sym 2)]) none none none,
       .includeControl [22] (some [XRat.fin 0]) none none (some [XRat.fin 1]) none,
       .connect [21] [.sym 30] false, .removeControl [20], .removeAlgebraic [30] none]
    let o := Ocp.new Example.twoInputs (some []) 0 1
    Follows Ocp.Call.run Admissible calls o ∧
      (Ocp.runCalls calls o).1 = .ok () ∧ (Ocp.runCalls calls o).2.model.u = [22] ∧
      (Ocp.runCalls calls o).2.model.y = [21] := by
  refine ⟨?_, by decide +kernel, by decide +kernel, by decide +kernel⟩
  simp only [Follows, Admissible, true_and, and_true]
  decide +kernel

end Verif
