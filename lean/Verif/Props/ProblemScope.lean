import Verif.Lemmas.ProblemScope
import Verif.Props.OcpMerge
/-!
# C164: the costs and constraints of a problem speak of its own variables
-/
namespace Verif
open Spec

/-- C164. The terms of a new problem mention its states and their initial conditions only. -/
theorem C164_new (m : SysModel) (x0 : Option (List Rat)) (t0 tf : Rat) :
    TermsScoped (Ocp.new m x0 t0 tf) := by
  intro e he s hs
  rw [Ocp.mem_terms] at he
  simp only [Ocp.new, List.not_mem_nil, false_or, or_false] at he
  rcases he with rfl | rfl | rfl | he
  · simp [Expr.syms] at hs
  · simp [Expr.syms] at hs
  · simp [Expr.syms] at hs
  · obtain ⟨a, b, ha, hb, rfl⟩ := mem_zipWith _ _ _ _ he
    simp only [Expr.syms, List.mem_append, List.mem_singleton] at hs
    rcases hs with rfl | rfl
    · exact .inl (.inr (.inr (.inl ha)))
    · exact .inr (.inl hb)

/-- C164, proved part. Run any program of calls that take no variable away on a problem whose terms
mention only symbols known to it, giving terms that mention only symbols the problem has by then:
the terms of the resulting problem mention only symbols known to it. -/
theorem C164_kept_partial (cs : List Ocp.Call) (o o' : Ocp) (h : TermsScoped o)
    (hp : ScopedTerms cs o) (hr : Ocp.runCalls cs o = (.ok (), o')) : TermsScoped o' := by
  induction cs generalizing o with
  | nil => cases hr; exact h
  | cons c cs ih =>
    obtain ⟨hc, o₁, h₁, ha, hp'⟩ := hp
    obtain ⟨_, o₂, h₂, h₃⟩ := Py.bind_eq_ok.mp hr
    rw [h₁] at h₂
    cases h₂
    exact ih o₁ (Ocp.scoped_call c hc o o₁ h h₁ ha) hp' h₃

/-- C164, proved part. Merging problems whose terms do not mention their own times and whose
controls are not parametrised. -/
theorem C164_merge_partial (o o' : Ocp) (ks : List Ocp) (h : TermsScoped o)
    (hk : ∀ k ∈ ks, TermsScoped k ∧ Timeless k ∧ ∀ v ∈ k.model.uPar, v ∈ k.model.u)
    (hm : Mergeable o.model (ks.map (·.model))) (hr : o.merge ks = (.ok (), o')) :
    TermsScoped o' := by
  have hh : SameHorizon o ks := by
    clear hk hm h
    induction ks generalizing o with
    | nil => simp [SameHorizon]
    | cons k ks ih =>
      obtain ⟨_, o₁, h₁, h₂⟩ := Py.bind_eq_ok.mp
        (show Py.bind (Ocp.mergeOne k) (fun _ => Ocp.merge ks) o = _ from hr)
      obtain ⟨a, b, m', -, rfl⟩ := Ocp.mergeOne_ok_iff.mp h₁
      intro j hj
      rcases List.mem_cons.mp hj with rfl | hj
      · exact ⟨a.symm, b.symm⟩
      · exact ih _ h₂ j hj
  obtain ⟨o₁, h₁, hmod⟩ := C35_returns o ks hh hm
  rw [hr] at h₁
  cases h₁
  intro e he s hs
  have heta := Ocp.merge_eta ks hr
  rcases (Ocp.merge_syms ks hr s).mp ⟨e, he, hs⟩ with ⟨a, ha, hsa⟩ | ⟨k, hkm, a, ha, hsa⟩
  · rcases h a ha s hsa with hin | hin | hin
    · refine .inl ?_
      rw [hmod]
      simp only [InScope, merged, List.mem_append] at hin ⊢
      tauto
    · exact .inr (.inl (by rw [hmod]; exact List.mem_append_left _ hin))
    · exact .inr (.inr (by rw [heta]; exact List.mem_append_left _ hin))
  · obtain ⟨hsc, htl, hpar⟩ := hk k hkm
    have hf : ∀ f : SysModel → List Sym, s ∈ f k.model → s ∈ (ks.map (·.model)).flatMap f :=
      fun f hs => List.mem_flatMap.mpr ⟨k.model, List.mem_map_of_mem hkm, hs⟩
    rcases hsc a ha s hsa with hin | hin | hin
    · refine .inl ?_
      rw [hmod]
      simp only [InScope, merged, List.mem_append] at hin ⊢
      rcases hin with rfl | rfl | hin | hin | hin | hin | hin
      · exact absurd hsa (htl a ha).1
      · exact absurd hsa (htl a ha).2
      · exact .inr (.inr (.inl (.inr (hf (·.x) hin))))
      · exact .inr (.inr (.inr (.inl (.inr (hf (·.y) hin)))))
      · exact .inr (.inr (.inr (.inr (.inl (.inr (hf (·.p) hin))))))
      · exact .inr (.inr (.inr (.inr (.inr (.inl (.inr (hf (·.theta) hin)))))))
      · exact .inr (.inr (.inr (.inr (.inr (.inr (.inr (hf (·.u) (hpar s hin))))))))
    · exact .inr (.inl (by rw [hmod]; exact List.mem_append_right _ (hf (·.x0) hin)))
    · refine .inr (.inr ?_)
      rw [heta]
      exact List.mem_append_right _ (List.mem_flatMap.mpr ⟨k, hkm, hin⟩)

/-- A symbol a problem knows neither as a state, an algebraic variable, a parameter, an initial
condition, a multiplier nor a time. -/
def Spec.OnlyControl (o : Ocp) (s : Sym) : Prop :=
  s ≠ o.model.t ∧ s ≠ o.model.tau ∧ s ∉ o.model.x ∧ s ∉ o.model.y ∧ s ∉ o.model.p ∧
    s ∉ o.model.theta ∧ s ∉ o.model.x0 ∧ s ∉ o.eta

/-- C164 fails when problems with time-dependent costs or constraints are merged: the model is
written in the time of the merged problem, its costs and constraints are not. The time of the
merged-in problem stays in them, and the merged problem does not know it. -/
theorem C164_merge_time_fails (o o' : Ocp) (ks : List Ocp) (k : Ocp) (hk : k ∈ ks)
    (ht : ∃ e ∈ terms k, k.model.t ∈ e.syms)
    (hown : ¬ KnownTo o k.model.t ∧ ∀ j ∈ ks, k.model.t ∉ j.model.x ∧ k.model.t ∉ j.model.y ∧
      k.model.t ∉ j.model.u ∧ k.model.t ∉ j.model.p ∧ k.model.t ∉ j.model.theta ∧
      k.model.t ∉ j.model.x0 ∧ k.model.t ∉ j.eta)
    (hm : Mergeable o.model (ks.map (·.model))) (hh : SameHorizon o ks)
    (hr : o.merge ks = (.ok (), o')) : ¬ TermsScoped o' := by
  intro hc
  obtain ⟨e, he, hs⟩ := ht
  obtain ⟨e', he', hs'⟩ := (Ocp.merge_syms ks hr k.model.t).mpr (.inr ⟨k, hk, e, he, hs⟩)
  obtain ⟨o₁, h₁, hmod⟩ := C35_returns o ks hh hm
  rw [hr] at h₁
  cases h₁
  have hf : ∀ f : SysModel → List Sym, (∀ j ∈ ks, k.model.t ∉ f j.model) →
      k.model.t ∉ (ks.map (·.model)).flatMap f := by
    intro f hf h
    obtain ⟨m, hm, hx⟩ := List.mem_flatMap.mp h
    obtain ⟨j, hj, rfl⟩ := List.mem_map.mp hm
    exact hf j hj hx
  rcases hc e' he' _ hs' with hin | hin | hin
  · rw [hmod] at hin
    have h1 := hf (·.x) fun j hj => (hown.2 j hj).1
    have h2 := hf (·.y) fun j hj => (hown.2 j hj).2.1
    have h3 := hf (·.u) fun j hj => (hown.2 j hj).2.2.1
    have h4 := hf (·.p) fun j hj => (hown.2 j hj).2.2.2.1
    have h5 := hf (·.theta) fun j hj => (hown.2 j hj).2.2.2.2.1
    refine hown.1 (.inl ?_)
    simp only [InScope, merged, List.mem_append] at hin ⊢
    tauto
  · rw [hmod] at hin
    have h6 := hf (·.x0) fun j hj => (hown.2 j hj).2.2.2.2.2.1
    simp only [merged, List.mem_append] at hin
    exact hown.1 (.inr (.inl (hin.resolve_right h6)))
  · rw [Ocp.merge_eta ks hr, List.mem_append] at hin
    refine hown.1 (.inr (.inr (hin.resolve_right fun h => ?_)))
    obtain ⟨j, hj, hx⟩ := List.mem_flatMap.mp h
    exact (hown.2 j hj).2.2.2.2.2.2 hx

/-- C164 fails for inputs connected by replacement: they are replaced in the equations of the model,
but a cost or constraint that mentions one keeps it, although the problem does not have it any
more. -/
theorem C164_replace_fails (o o' : Ocp) (u : List Sym) (y : List Expr) (v : Sym) (hv : v ∈ u)
    (hm : ∃ e ∈ terms o, v ∈ e.syms) (ho : OnlyControl o v)
    (hr : o.connect u y true = (.ok (), o')) : ¬ TermsScoped o' := by
  intro hc
  obtain ⟨e, he, hs⟩ := hm
  obtain ⟨h1, h2, h3⟩ := Ocp.connect_replace_terms hr
  simp only [SysModel.connect, Py.bind_eq, Py.raiseIf_bind_ok, if_true] at h3
  obtain ⟨-, h3⟩ := h3
  obtain ⟨_, m₁, hm₁, h3⟩ := Py.bind_eq_ok.mp h3
  obtain ⟨a1, a2, a3, a4, a5, a6, a7, a8⟩ := SysModel.removeControl_fields _ _ _ h3
  unfold SysModel.replaceVariable at hm₁
  split at hm₁
  · cases hm₁
  simp only [Prod.mk.injEq, true_and] at hm₁
  subst hm₁
  obtain ⟨b1, b2, b3, b4, b5, b6, b7, b8⟩ := ho
  rcases hc e (h1 ▸ he) v hs with hin | hin | hin
  · unfold InScope at hin
    rw [a1, a2, a3, a4, a5, a6, a8] at hin
    simp only [List.mem_filter, hv, not_true_eq_false, decide_false, Bool.false_eq_true,
      and_false, or_false] at hin
    tauto
  · rw [a7] at hin
    exact b7 hin
  · rw [h2] at hin
    exact b8 hin

/-- C164 fails for controls that are removed: a cost or constraint that mentions one keeps it. -/
theorem C164_remove_fails (o o' : Ocp) (u : List Sym) (v : Sym) (hv : v ∈ u)
    (hm : ∃ e ∈ terms o, v ∈ e.syms) (ho : OnlyControl o v)
    (hr : o.removeControl u = (.ok (), o')) : ¬ TermsScoped o' := by
  intro hc
  obtain ⟨e, he, hs⟩ := hm
  obtain ⟨h1, h2, h3⟩ := Ocp.removeControl_terms hr
  obtain ⟨a1, a2, a3, a4, a5, a6, a7, a8⟩ := SysModel.removeControl_fields _ _ _ h3
  obtain ⟨b1, b2, b3, b4, b5, b6, b7, b8⟩ := ho
  rcases hc e (h1 ▸ he) v hs with hin | hin | hin
  · unfold InScope at hin
    rw [a1, a2, a3, a4, a5, a6, a8] at hin
    simp only [List.mem_filter, hv, not_true_eq_false, decide_false, Bool.false_eq_true,
      and_false, or_false] at hin
    tauto
  · rw [a7] at hin
    exact b7 hin
  · rw [h2] at hin
    exact b8 hin

/-! ## Non-vacuity -/

namespace Example

/-- `x' = x + u` over its own time `t`. -/
def timedModel (t : Sym) : SysModel where
  t := t
  tau := t + 1
  x := [t + 2]
  x0 := [t + 3]
  ode := [(t + 2, some (.add (.sym (t + 2)) (.sym (t + 4))))]
  u := [t + 4]
  uExpr := [.sym (t + 4)]
  uPar := [t + 4]

/-- Follow the reference `t`: the cost is `(x - t)²`. -/
def tracking (t : Sym) : Ocp :=
  { Ocp.new (timedModel t) (some [1]) 0 5 with
    L := .mul (.sub (.sym (t + 2)) (.sym t)) (.sub (.sym (t + 2)) (.sym t)) }

/-- The cost is `u²`. -/
def effort (t : Sym) : Ocp :=
  { Ocp.new (timedModel t) (some [1]) 0 5 with L := .mul (.sym (t + 4)) (.sym (t + 4)) }

example : ScopedTerms
    [.includeControl [50] none none none none none,
      .includeTimeInequality [.sub (.sym 50) (.sym 10)] "default",
      .connect [14] [.sym 12] false] (tracking 10) := by
  refine ⟨rfl, _, rfl, by simp [argTerms], rfl, _, rfl, ?_, rfl, _, rfl, by simp [argTerms], trivial⟩
  intro e he s hs
  simp only [argTerms, List.mem_singleton] at he
  subst he
  simp only [Expr.syms, List.mem_append, List.mem_singleton] at hs
  rcases hs with rfl | rfl
  · exact .inl (by simp [InScope, SysModel.includeControl])
  · exact .inl (.inl rfl)

/-- The hypotheses of the theorem about merging with time-dependent costs. -/
example : ∃ o', (effort 10).merge [tracking 20] = (.ok (), o') ∧ ¬ TermsScoped o' := by
  have hm : Mergeable (effort 10).model ([tracking 20].map (·.model)) := by
    refine ⟨?_, ?_, ?_, ?_, ?_, ?_⟩ <;>
      simp [effort, tracking, Ocp.new, timedModel, Complete, Brings, equations,
        SysModel.odeVec, Dict.values, Dict.keys, Expr.syms]
  have hh : SameHorizon (effort 10) [tracking 20] := by
    intro k hk
    simp only [List.mem_singleton] at hk
    subst hk
    exact ⟨rfl, rfl⟩
  obtain ⟨o', hr, -⟩ := C35_returns _ _ hh hm
  refine ⟨o', hr, C164_merge_time_fails _ _ _ (tracking 20) (by simp)
    ⟨(tracking 20).L, by simp [terms], by simp [tracking, timedModel, Ocp.new, Expr.syms]⟩ ⟨?_, ?_⟩ hm
    hh hr⟩
  · simp [KnownTo, InScope, effort, tracking, timedModel, Ocp.new]
  · intro j hj
    simp only [List.mem_singleton] at hj
    subst hj
    simp [tracking, timedModel, Ocp.new]

/-- The hypotheses of the theorem about merging timeless problems. -/
example : (TermsScoped (effort 20) ∧ Timeless (effort 20) ∧
    ∀ v ∈ (effort 20).model.uPar, v ∈ (effort 20).model.u) ∧
    Mergeable (effort 10).model ([effort 20].map (·.model)) := by
  refine ⟨⟨?_, ?_, ?_⟩, ?_⟩
  · intro e he s hs
    simp only [terms, effort, Ocp.new, timedModel, List.zipWith, List.mem_append, List.mem_cons,
      List.not_mem_nil, or_false] at he
    rcases he with (rfl | rfl | rfl) | rfl <;>
      simp only [Expr.syms, List.mem_append, List.mem_cons, List.not_mem_nil, or_false, or_self]
        at hs
    · exact .inl (by simp [InScope, effort, Ocp.new, timedModel, hs])
    · rcases hs with rfl | rfl
      · exact .inl (by simp [InScope, effort, Ocp.new, timedModel])
      · exact .inr (.inl (by simp [effort, Ocp.new, timedModel]))
  · intro e he
    simp only [terms, effort, Ocp.new, timedModel, List.zipWith, List.mem_append, List.mem_cons,
      List.not_mem_nil, or_false] at he
    rcases he with (rfl | rfl | rfl) | rfl <;> simp [Expr.syms, effort, Ocp.new, timedModel]
  · simp [effort, Ocp.new, timedModel]
  · refine ⟨?_, ?_, ?_, ?_, ?_, ?_⟩ <;>
      simp [effort, Ocp.new, timedModel, Complete, Brings, equations,
        SysModel.odeVec, Dict.values, Dict.keys, Expr.syms]

/-- The hypotheses of the theorems about replacement and removal. -/
example : ((effort 10).connect [14] [.sym 12] true).1.isOk = true ∧
    ((effort 10).removeControl [14]).1.isOk = true ∧ OnlyControl (effort 10) 14 ∧
    ∃ e ∈ terms (effort 10), 14 ∈ e.syms :=
  ⟨by decide +kernel, by decide +kernel, by simp [OnlyControl, effort, Ocp.new, timedModel],
    (effort 10).L, by simp [terms], by simp [effort, Expr.syms]⟩

end Example
end Verif
