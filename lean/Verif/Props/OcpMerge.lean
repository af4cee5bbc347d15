import Verif.Props.OcpSizes
import Verif.Props.Merge
/-!
# C35, C36: merging problems
-/
namespace Verif
open Spec

/-- The problems have the horizon of `o`. -/
def Spec.SameHorizon (o : Ocp) (ks : List Ocp) : Prop := ∀ k ∈ ks, k.t0 = o.t0 ∧ k.tf = o.tf

/-- `o'` has everything of `o` followed by everything of the problems `ks`, in order, with the costs
added. -/
structure Spec.MergedProblem (o : Ocp) (ks : List Ocp) (o' : Ocp) : Prop where
  horizon : o'.t0 = o.t0 ∧ o'.tf = o.tf
  x0 : bounds o'.model.x o'.x0 = bounds o.model.x o.x0 ++ ks.flatMap fun k => bounds k.model.x k.x0
  xMax : bounds o'.model.x o'.xMax =
    bounds o.model.x o.xMax ++ ks.flatMap fun k => bounds k.model.x k.xMax
  xMin : bounds o'.model.x o'.xMin =
    bounds o.model.x o.xMin ++ ks.flatMap fun k => bounds k.model.x k.xMin
  yMax : bounds o'.model.y o'.yMax =
    bounds o.model.y o.yMax ++ ks.flatMap fun k => bounds k.model.y k.yMax
  yMin : bounds o'.model.y o'.yMin =
    bounds o.model.y o.yMin ++ ks.flatMap fun k => bounds k.model.y k.yMin
  uMax : bounds o'.model.u o'.uMax =
    bounds o.model.u o.uMax ++ ks.flatMap fun k => bounds k.model.u k.uMax
  uMin : bounds o'.model.u o'.uMin =
    bounds o.model.u o.uMin ++ ks.flatMap fun k => bounds k.model.u k.uMin
  duMax : bounds o'.model.u o'.duMax =
    bounds o.model.u o.duMax ++ ks.flatMap fun k => bounds k.model.u k.duMax
  duMin : bounds o'.model.u o'.duMin =
    bounds o.model.u o.duMin ++ ks.flatMap fun k => bounds k.model.u k.duMin
  pOptMax : bounds o'.pOpt o'.pOptMax =
    bounds o.pOpt o.pOptMax ++ ks.flatMap fun k => bounds k.pOpt k.pOptMax
  pOptMin : bounds o'.pOpt o'.pOptMin =
    bounds o.pOpt o.pOptMin ++ ks.flatMap fun k => bounds k.pOpt k.pOptMin
  thetaOptMax : bounds o'.thetaOpt o'.thetaOptMax =
    bounds o.thetaOpt o.thetaOptMax ++ ks.flatMap fun k => bounds k.thetaOpt k.thetaOptMax
  thetaOptMin : bounds o'.thetaOpt o'.thetaOptMin =
    bounds o.thetaOpt o.thetaOptMin ++ ks.flatMap fun k => bounds k.thetaOpt k.thetaOptMin
  eta : o'.eta = o.eta ++ ks.flatMap (·.eta)
  h : o'.h = o.h ++ ks.flatMap (·.h)
  hInitial : o'.hInitial = o.hInitial ++ ks.flatMap (·.hInitial)
  hFinal : o'.hFinal = o.hFinal ++ ks.flatMap (·.hFinal)
  gEq : o'.gEq = o.gEq ++ ks.flatMap (·.gEq)
  gIneq : o'.gIneq = o.gIneq ++ ks.flatMap (·.gIneq)
  timeGEq : o'.timeGEq = o.timeGEq ++ ks.flatMap (·.timeGEq)
  timeGIneq : o'.timeGIneq = o.timeGIneq ++ ks.flatMap (·.timeGIneq)
  costs : ∀ {K : Type} [Field K] (ops : Expr.Ops K) (ρ : Sym → K),
    o'.L.eval ops ρ = o.L.eval ops ρ + (ks.map fun k => k.L.eval ops ρ).sum ∧
    o'.V.eval ops ρ = o.V.eval ops ρ + (ks.map fun k => k.V.eval ops ρ).sum ∧
    o'.S.eval ops ρ = o.S.eval ops ρ + (ks.map fun k => k.S.eval ops ρ).sum
  positive : o'.positiveObjective = true ↔
    o.positiveObjective = true ∧ ∀ k ∈ ks, k.positiveObjective = true

/-- C35. A merge that returns gives the concatenation of the problems and the sum of their costs,
and the problems had the same horizon. -/
theorem C35_merged (o o' : Ocp) (ks : List Ocp) (hs : Sized o) (hk : ∀ k ∈ ks, Sized k)
    (hr : o.merge ks = (.ok (), o')) : MergedProblem o ks o' ∧ SameHorizon o ks := by
  induction ks generalizing o with
  | nil =>
    cases hr
    refine ⟨?_, by simp [SameHorizon]⟩
    constructor <;> simp
  | cons k ks ih =>
    obtain ⟨_, o₁, h₁, h₂⟩ := Py.bind_eq_ok.mp
      (show Py.bind (Ocp.mergeOne k) (fun _ => Ocp.merge ks) o = _ from hr)
    have hs₁ := Ocp.mergeOne_sized hs (hk k (by simp)) h₁
    obtain ⟨ht₀, htf, m', hm, rfl⟩ := Ocp.mergeOne_ok_iff.mp h₁
    obtain ⟨hx, hy, hu⟩ := SysModel.merge_vars _ _ _ hm
    obtain ⟨M, H⟩ := ih _ hs₁ (fun j hj => hk j (by simp [hj])) h₂
    refine ⟨?_, ?_⟩
    · have hk := hk k (by simp)
      constructor
      · exact M.horizon
      · rw [M.x0]; simp only [hx, Ocp.mergeAttributes, bounds, List.zip_append hs.x0.symm]; simp
      · rw [M.xMax]; simp only [hx, Ocp.mergeAttributes, bounds, List.zip_append hs.xMax.symm]; simp
      · rw [M.xMin]; simp only [hx, Ocp.mergeAttributes, bounds, List.zip_append hs.xMin.symm]; simp
      · rw [M.yMax]; simp only [hy, Ocp.mergeAttributes, bounds, List.zip_append hs.yMax.symm]; simp
      · rw [M.yMin]; simp only [hy, Ocp.mergeAttributes, bounds, List.zip_append hs.yMin.symm]; simp
      · rw [M.uMax]; simp only [hu, Ocp.mergeAttributes, bounds, List.zip_append hs.uMax.symm]; simp
      · rw [M.uMin]; simp only [hu, Ocp.mergeAttributes, bounds, List.zip_append hs.uMin.symm]; simp
      · rw [M.duMax]
        simp only [hu, Ocp.mergeAttributes, bounds, List.zip_append hs.duMax.symm]; simp
      · rw [M.duMin]
        simp only [hu, Ocp.mergeAttributes, bounds, List.zip_append hs.duMin.symm]; simp
      · rw [M.pOptMax]
        simp only [Ocp.mergeAttributes, bounds, List.zip_append hs.pOptMax.symm]; simp
      · rw [M.pOptMin]
        simp only [Ocp.mergeAttributes, bounds, List.zip_append hs.pOptMin.symm]; simp
      · rw [M.thetaOptMax]
        simp only [Ocp.mergeAttributes, bounds, List.zip_append hs.thetaOptMax.symm]; simp
      · rw [M.thetaOptMin]
        simp only [Ocp.mergeAttributes, bounds, List.zip_append hs.thetaOptMin.symm]; simp
      · rw [M.eta]; simp [Ocp.mergeAttributes]
      · rw [M.h]; simp [Ocp.mergeAttributes]
      · rw [M.hInitial]; simp [Ocp.mergeAttributes]
      · rw [M.hFinal]; simp [Ocp.mergeAttributes]
      · rw [M.gEq]; simp [Ocp.mergeAttributes]
      · rw [M.gIneq]; simp [Ocp.mergeAttributes]
      · rw [M.timeGEq]; simp [Ocp.mergeAttributes]
      · rw [M.timeGIneq]; simp [Ocp.mergeAttributes]
      · intro K _ ops ρ
        obtain ⟨a, b, c⟩ := M.costs ops ρ
        rw [a, b, c]
        simp [Ocp.mergeAttributes, Expr.eval, add_assoc]
      · rw [M.positive]
        simp [Ocp.mergeAttributes, and_assoc]
    · intro j hj
      rcases List.mem_cons.mp hj with rfl | hj
      · exact ⟨ht₀.symm, htf.symm⟩
      · exact H j hj

/-- C35. Problems with the same horizon whose models can be merged are merged, and the model is the
merged model. -/
theorem C35_returns (o : Ocp) (ks : List Ocp) (hh : SameHorizon o ks)
    (hm : Mergeable o.model (ks.map (·.model))) :
    ∃ o', o.merge ks = (.ok (), o') ∧ o'.model = merged o.model (ks.map (·.model)) := by
  induction ks generalizing o with
  | nil => exact ⟨o, rfl, by simp [merged_nil]⟩
  | cons k ks ih =>
    have hmk : Mergeable o.model [k.model] :=
      ⟨fun j hj => hm.complete j (by simp_all), by
        have := hm.states
        simp only [List.map_cons, List.flatMap_cons, ← List.append_assoc] at this
        simpa using (List.nodup_append.mp this).1,
        fun j hj => hm.times j (by simp_all), fun j hj => hm.base j (by simp_all),
        fun j hj => hm.own j (by simp_all), by simp⟩
    have h₁ : Ocp.mergeOne k o = (.ok (), { Ocp.mergeAttributes o k with
        model := merged o.model [k.model] }) :=
      Ocp.mergeOne_ok_iff.mpr ⟨(hh k (by simp)).1.symm, (hh k (by simp)).2.symm, _,
        (C18_merge_connecting o.model [k.model] [] hmk).2, rfl⟩
    obtain ⟨o', h₂, h₃⟩ := ih { Ocp.mergeAttributes o k with model := merged o.model [k.model] }
      (fun j hj => hh j (by simp [hj])) (mergeable_tail _ _ _ hm)
    refine ⟨o', ?_, ?_⟩
    · show Py.bind (Ocp.mergeOne k) (fun _ => Ocp.merge ks) o = _
      rw [Py.bind_ok h₁]
      exact h₂
    · rw [h₃, merged_cons]
      rfl

theorem Ocp.merge_append (o : Ocp) (ks js : List Ocp) :
    o.merge (ks ++ js) = Py.bind (Ocp.merge ks) (fun _ => Ocp.merge js) o := by
  induction ks generalizing o with
  | nil => rfl
  | cons k ks ih =>
    show Py.bind (Ocp.mergeOne k) (fun _ => Ocp.merge (ks ++ js)) o =
      Py.bind (Py.bind (Ocp.mergeOne k) (fun _ => Ocp.merge ks)) (fun _ => Ocp.merge js) o
    cases h : Ocp.mergeOne k o with
    | mk r o₁ =>
      cases r with
      | error e => rw [Py.bind_error h, Py.bind_error (Py.bind_error h)]
      | ok a =>
        rw [Py.bind_ok h, ih]
        unfold Py.bind
        rw [h]

/-- C35, C36. A problem with a different horizon raises `ValueError`; the problems before it in the
list have been merged, nothing else has changed. -/
theorem C35_different_horizon (o o₁ : Ocp) (ks : List Ocp) (k : Ocp) (js : List Ocp)
    (h : o.merge ks = (.ok (), o₁)) (hk : k.t0 ≠ o₁.t0 ∨ k.tf ≠ o₁.tf) :
    o.merge (ks ++ k :: js) = (.error .valueError, o₁) := by
  rw [Ocp.merge_append, Py.bind_ok h]
  show Py.bind (Ocp.mergeOne k) (fun _ => Ocp.merge js) o₁ = _
  refine Py.bind_error ?_
  unfold Ocp.mergeOne
  simp only [Py.bind_eq, Py.get_bind]
  by_cases h₀ : o₁.t0 = k.t0
  · have h₁ : o₁.tf ≠ k.tf := fun e => by
      rcases hk with hk | hk
      · exact hk h₀.symm
      · exact hk e.symm
    rw [Py.bind_ok (s' := o₁) (a := ()) (by simp [Py.raiseIf, h₀]),
      Py.bind_error (s' := o₁) (e := .valueError) (by simp [Py.raiseIf, h₁])]
  · rw [Py.bind_error (s' := o₁) (e := .valueError) (by simp [Py.raiseIf, h₀])]

/-- C36, proved part. When the first problem of the list has a different horizon, the receiving
problem is unchanged. -/
theorem C36_first_partial (o k : Ocp) (js : List Ocp) (hk : k.t0 ≠ o.t0 ∨ k.tf ≠ o.tf) :
    o.merge (k :: js) = (.error .valueError, o) :=
  C35_different_horizon o o [] k js rfl hk

/-- A problem with one state, horizon and cost. -/
def Example.small (x : Sym) (tf : Rat) : Ocp :=
  { Ocp.new { SysModel.new (x + 1) (x + 2) with
      x := [x]
      x0 := [x + 3]
      ode := [(x, some (.sym x))] } (some [1]) 0 tf with
    L := .mul (.sym x) (.sym x) }

/-- C36 fails. A merge that raises because of the second problem has already merged the first. -/
theorem C36_atomic_fails : ¬ ∀ (o : Ocp) (ks : List Ocp), (o.merge ks).1 = .error .valueError →
    (o.merge ks).2 = o := by
  intro h
  have := congrArg (fun o => o.model.x) (h (Example.small 10 1) [Example.small 20 1, Example.small 30 2]
    (by decide +kernel))
  revert this
  decide +kernel

/-- The hypotheses are met by two problems with states. -/
example : SameHorizon (Example.small 10 1) [Example.small 20 1, Example.small 30 1] ∧
    Sized (Example.small 10 1) ∧
    ((Example.small 10 1).merge [Example.small 20 1, Example.small 30 1]).1 = .ok () ∧
    ((Example.small 10 1).merge [Example.small 20 1, Example.small 30 1]).2.model.x =
      [10, 20, 30] := by
  refine ⟨by unfold SameHorizon; decide +kernel, by constructor <;> decide +kernel, by decide +kernel,
    by decide +kernel⟩

end Verif
