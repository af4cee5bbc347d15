import Verif.Lemmas.Ocp
import Verif.Lemmas.Expr
/-!
# C33, C34: initial constraints and time tags
-/
namespace Verif
open Spec

/-! ## C33 -/

theorem Ocp.newX0_length (var : List Sym) (xs : Option (List Sym)) (f : Sym)
    (h : ∀ v, xs = some v → v.length = var.length) :
    (Ocp.x0Symbols var xs f).length = var.length := by
  cases xs with
  | none => simp [Ocp.x0Symbols]
  | some v => exact h v rfl

/-- C33. A state included with an initial value: the value is recorded for the state's initial
condition symbol, and the constraints added hold exactly when the state has that value. -/
theorem C33_initial_value {K : Type} [Field K] (ops : Expr.Ops K) (var : List Sym)
    (ode : Option (List Expr)) (v : List Rat) (lo hi : Option BArg) (hI : Option (List Expr))
    (xs : Option (List Sym)) (sup : Bool) (fresh : Sym) (o o' : Ocp)
    (hxs : ∀ s, xs = some s → s.length = var.length)
    (hr : o.includeState var ode (some v) lo hi hI xs sup fresh = (.ok (), o')) :
    o'.x0 = o.x0 ++ v ∧ o'.model.x0 = o.model.x0 ++ Ocp.x0Symbols var xs fresh ∧
    ∃ new, o'.hInitial = o.hInitial ++ new ∧ ∀ ρ : Sym → K,
      (Ocp.x0Symbols var xs fresh).map ρ = v.map (fun q : Rat => (q : K)) →
      ((∀ e ∈ new, e.eval ops ρ = 0) ↔ var.map ρ = v.map (fun q : Rat => (q : K))) := by
  obtain ⟨-, lo, hi, m', hh, -, -, -, -, -, h₆, h₇, rfl⟩ := Ocp.includeState_ok_iff.mp hr
  obtain ⟨-, -, -, -, rfl⟩ := (SysModel.includeState_ok_iff ..).mp h₆
  have hl := Ocp.newX0_length var xs fresh hxs
  simp only [Ocp.initialConstraint, vecSub, List.length_map, hl, if_true] at h₇
  cases h₇
  refine ⟨rfl, by cases xs <;> rfl, _, rfl, fun ρ hρ => ?_⟩
  rw [← hρ]
  simp only [Option.getD_some]
  generalize Ocp.x0Symbols var xs fresh = w at hl
  clear hρ h₆ hr hxs
  induction w generalizing var with
  | nil => cases var <;> simp_all
  | cons a w ih =>
    cases var with
    | nil => simp at hl
    | cons b var =>
      simp only [List.map_cons, List.zipWith_cons_cons, List.forall_mem_cons, Expr.eval,
        List.cons.injEq, sub_eq_zero]
      have := ih var (by simpa using hl)
      rw [this]
      constructor
      · rintro ⟨a, b⟩; exact ⟨a.symm, b⟩
      · rintro ⟨a, b⟩; exact ⟨a.symm, b⟩

/-- C33, proved part. An explicit initial constraint given without an initial value is part of the
problem. -/
theorem C33_constraint_partial (var : List Sym) (ode : Option (List Expr)) (lo hi : Option BArg)
    (c : List Expr) (xs : Option (List Sym)) (sup : Bool) (fresh : Sym) (o o' : Ocp)
    (hr : o.includeState var ode none lo hi (some c) xs sup fresh = (.ok (), o')) :
    o'.hInitial = o.hInitial ++ c := by
  obtain ⟨-, lo, hi, m', hh, -, -, -, -, -, h₆, h₇, rfl⟩ := Ocp.includeState_ok_iff.mp hr
  simp only [Ocp.initialConstraint, Except.ok.injEq] at h₇
  subst h₇
  rfl

/-- C33. Without an initial value, an initial constraint or `suppress`, the state is rejected and the
problem unchanged. -/
theorem C33_required (var : List Sym) (ode : Option (List Expr)) (lo hi : Option BArg)
    (xs : Option (List Sym)) (fresh : Sym) (o : Ocp) :
    o.includeState var ode none lo hi none xs false fresh = (.error .exception, o) := by
  unfold Ocp.includeState
  simp only [Py.bind_eq]
  rw [Py.bind_error]
  rfl

/-- C33 fails. An explicit initial constraint given together with an initial value is dropped. -/
theorem C33_constraint_fails : ¬ ∀ (var : List Sym) (v : List Rat) (c : List Expr) (fresh : Sym)
    (o o' : Ocp), o.includeState var none (some v) none none (some c) none false fresh =
      (.ok (), o') → ∀ e ∈ c, e ∈ o'.hInitial := by
  intro h
  have := h [5] [1] [.sub (.sym 5) (.const 2)] 6 (Ocp.new (SysModel.new 0 1) none 0 1)
    (Ocp.includeState [5] none (some [1]) none none (some [.sub (.sym 5) (.const 2)]) none false 6
      (Ocp.new (SysModel.new 0 1) none 0 1)).2 (Prod.ext (by decide +kernel) rfl) _
    (List.mem_singleton.mpr rfl)
  revert this
  decide +kernel

/-- Two states included with initial values. -/
example : (Ocp.includeState [5, 6] none (some [1, 2]) none none none none false 7
      (Ocp.new (SysModel.new 0 1) none 0 1)).1 = .ok () ∧
    (Ocp.includeState [5, 6] none (some [1, 2]) none none none none false 7
      (Ocp.new (SysModel.new 0 1) none 0 1)).2.hInitial =
      [.sub (.sym 7) (.sym 5), .sub (.sym 8) (.sym 6)] ∧
    (Ocp.includeState [5, 6] none none none none (some [.sym 6]) none false 7
      (Ocp.new (SysModel.new 0 1) none 0 1)).1 = .ok () := by decide +kernel

/-! ## C34 -/

/-- What a call does to the list of path equalities, each with the tag that says when it holds. -/
def Spec.tagEq : Ocp.Call → List (Expr × String) → List (Expr × String)
  | .includeTimeEquality e w, l => l ++ e.map fun x => (x, w)
  | .merge ks, l => l ++ ks.flatMap fun k => k.gEq.zip k.timeGEq
  | .replaceVariable v w, l => l.map fun p => (p.1.subst v w, p.2)
  | .parametrizeControl u e _, l => l.map fun p => (p.1.subst u e, p.2)
  | _, l => l

/-- The same for path inequalities. -/
def Spec.tagIneq : Ocp.Call → List (Expr × String) → List (Expr × String)
  | .includeTimeInequality e w, l => l ++ e.map fun x => (x, w)
  | .merge ks, l => l ++ ks.flatMap fun k => k.gIneq.zip k.timeGIneq
  | .replaceVariable v w, l => l.map fun p => (p.1.subst v w, p.2)
  | .parametrizeControl u e _, l => l.map fun p => (p.1.subst u e, p.2)
  | _, l => l

/-- One tag per path constraint. -/
def Spec.Tagged (o : Ocp) : Prop :=
  o.timeGEq.length = o.gEq.length ∧ o.timeGIneq.length = o.gIneq.length

/-- Merged problems have one tag per constraint. -/
def Spec.MergesTagged : Ocp.Call → Prop
  | .merge ks => ∀ k ∈ ks, Spec.Tagged k
  | _ => True

namespace Ocp

/-- Constraints and tags do not change. -/
def SameTags (o o' : Ocp) : Prop :=
  o'.gEq = o.gEq ∧ o'.timeGEq = o.timeGEq ∧ o'.gIneq = o.gIneq ∧ o'.timeGIneq = o.timeGIneq

/-- What `C34` says of one call. -/
def TagStep (c : Call) (o o' : Ocp) : Prop :=
  Tagged o' ∧ o'.gEq.zip o'.timeGEq = tagEq c (o.gEq.zip o.timeGEq) ∧
    o'.gIneq.zip o'.timeGIneq = tagIneq c (o.gIneq.zip o.timeGIneq)

theorem SameTags.step {c : Call} {o o' : Ocp} (h : SameTags o o') (ht : Tagged o)
    (he : ∀ l, tagEq c l = l) (hi : ∀ l, tagIneq c l = l) : TagStep c o o' := by
  obtain ⟨h₁, h₂, h₃, h₄⟩ := h
  refine ⟨?_, ?_, ?_⟩
  · unfold Tagged; rw [h₁, h₂, h₃, h₄]; exact ht
  · rw [h₁, h₂, he]
  · rw [h₃, h₄, hi]

/-- Properties of the attributes outside the model are not changed by calls on the model. -/
theorem onModel_tags {α : Type} {c : Py SysModel α} {a : α} {o o' : Ocp}
    (hr : onModel c o = (.ok a, o')) : SameTags o o' := by
  obtain ⟨m', hm, rfl⟩ := onModel_ok.mp hr
  exact ⟨rfl, rfl, rfl, rfl⟩

theorem lift_step {α β : Type} {r : Except Err α} {f : α → Py Ocp β} {o o' : Ocp} {b : β}
    (h : Py.bind (Py.lift r) f o = (.ok b, o')) : ∃ a, f a o = (.ok b, o') := by
  obtain ⟨a, -, h⟩ := Py.lift_bind_ok.mp h
  exact ⟨a, h⟩

theorem removeAlgebraic_tags {v eq} {o o' : Ocp} (hr : removeAlgebraic v eq o = (.ok (), o')) :
    SameTags o o' := by
  unfold removeAlgebraic at hr
  simp only [Py.bind_eq, Py.get_bind] at hr
  obtain ⟨hi, -, h₁⟩ := Py.lift_bind_ok.mp hr
  rw [Py.modify_bind] at h₁
  obtain ⟨lo, -, h₂⟩ := Py.lift_bind_ok.mp h₁
  rw [Py.modify_bind] at h₂
  obtain ⟨g, -, h₃⟩ := Py.lift_bind_ok.mp h₂
  rw [Py.modify_bind] at h₃
  exact onModel_tags (o := { o with yMax := hi, yMin := lo, yGuess := g }) h₃

theorem removeControlBounds_tags {ind} {o o' : Ocp} (hr : removeControlBounds ind o = (.ok (), o')) :
    SameTags o o' := by
  unfold removeControlBounds at hr
  simp only [Py.bind_eq, Py.get_bind] at hr
  obtain ⟨a, -, h₁⟩ := Py.lift_bind_ok.mp hr
  rw [Py.modify_bind] at h₁
  obtain ⟨b, -, h₂⟩ := Py.lift_bind_ok.mp h₁
  rw [Py.modify_bind] at h₂
  obtain ⟨c, -, h₃⟩ := Py.lift_bind_ok.mp h₂
  rw [Py.modify_bind] at h₃
  obtain ⟨d, -, h₄⟩ := Py.lift_bind_ok.mp h₃
  cases h₄
  exact ⟨rfl, rfl, rfl, rfl⟩

theorem SameTags.trans {o o' o'' : Ocp} (h : SameTags o o') (h' : SameTags o' o'') :
    SameTags o o'' :=
  ⟨h'.1.trans h.1, h'.2.1.trans h.2.1, h'.2.2.1.trans h.2.2.1, h'.2.2.2.trans h.2.2.2⟩

theorem removeControl_tags {v} {o o' : Ocp} (hr : removeControl v o = (.ok (), o')) :
    SameTags o o' := by
  unfold removeControl at hr
  simp only [Py.bind_eq, Py.get_bind] at hr
  obtain ⟨_, o₁, h₁, h₂⟩ := Py.bind_eq_ok.mp hr
  obtain ⟨g, -, h₃⟩ := Py.lift_bind_ok.mp h₂
  rw [Py.modify_bind] at h₃
  exact (removeControlBounds_tags h₁).trans
    (onModel_tags (o := { o₁ with uGuess := g }) h₃)

theorem connectBounds_tags {ind} {o o' : Ocp} (hr : connectBounds ind o = (.ok (), o')) :
    SameTags o o' := by
  unfold connectBounds at hr
  simp only [Py.bind_eq, Py.get_bind] at hr
  obtain ⟨a, -, h₁⟩ := Py.lift_bind_ok.mp hr
  rw [Py.modify_bind] at h₁
  obtain ⟨b, -, h₂⟩ := Py.lift_bind_ok.mp h₁
  rw [Py.modify_bind] at h₂
  obtain ⟨c, -, h₃⟩ := Py.lift_bind_ok.mp h₂
  cases h₃
  exact ⟨rfl, rfl, rfl, rfl⟩

theorem when_tags {c : Bool} {ind} {o o' : Ocp}
    (hr : when c (connectBounds ind) o = (.ok (), o')) : SameTags o o' := by
  cases c with
  | true => exact connectBounds_tags hr
  | false => cases hr; exact ⟨rfl, rfl, rfl, rfl⟩

theorem connect_tags {u y r} {o o' : Ocp} (hr : connect u y r o = (.ok (), o')) :
    SameTags o o' := by
  unfold connect at hr
  simp only [Py.bind_eq] at hr
  obtain ⟨-, h₁⟩ := Py.raiseIf_bind_ok.mp hr
  rw [Py.get_bind] at h₁
  obtain ⟨_, o₁, h₂, h₃⟩ := Py.bind_eq_ok.mp h₁
  obtain ⟨_, o₂, h₄, h₅⟩ := Py.bind_eq_ok.mp h₃
  refine ((onModel_tags h₂).trans (when_tags h₄)).trans ?_
  obtain ⟨a, -, h₆⟩ := Py.lift_bind_ok.mp h₅
  rw [Py.modify_bind] at h₆
  obtain ⟨b, -, h₇⟩ := Py.lift_bind_ok.mp h₆
  rw [Py.modify_bind] at h₇
  obtain ⟨c, -, h₈⟩ := Py.lift_bind_ok.mp h₇
  rw [Py.modify_bind] at h₈
  obtain ⟨d, -, h₉⟩ := Py.lift_bind_ok.mp h₈
  rw [Py.modify_bind] at h₉
  obtain ⟨e, -, h₁₀⟩ := Py.lift_bind_ok.mp h₉
  cases h₁₀
  exact ⟨rfl, rfl, rfl, rfl⟩

theorem includeState_tags {var ode x0 lo hi hI xs s f} {o o' : Ocp}
    (hr : includeState var ode x0 lo hi hI xs s f o = (.ok (), o')) : SameTags o o' := by
  obtain ⟨-, lo, hi, m', hh, -, -, -, -, -, -, -, rfl⟩ := includeState_ok_iff.mp hr
  exact ⟨rfl, rfl, rfl, rfl⟩

/-- The pairs after replacing in the constraints. -/
theorem zip_map_subst (v : List Sym) (w : List Expr) (g : List Expr) (t : List String) :
    (g.map (Expr.subst v w)).zip t = (g.zip t).map fun p => (p.1.subst v w, p.2) := by
  rw [List.zip_map_left]
  rfl

theorem replaceVariable_tags {v w} {o o' : Ocp} (ht : Tagged o)
    (hr : replaceVariable v w o = (.ok (), o')) : Tagged o' ∧
      o'.gEq.zip o'.timeGEq = (o.gEq.zip o.timeGEq).map (fun p => (p.1.subst v w, p.2)) ∧
      o'.gIneq.zip o'.timeGIneq =
        (o.gIneq.zip o.timeGIneq).map (fun p => (p.1.subst v w, p.2)) := by
  rw [replaceVariable_run] at hr
  split at hr
  · simp at hr
  · simp only [Prod.mk.injEq, true_and] at hr
    subst hr
    exact ⟨⟨by simpa using ht.1, by simpa using ht.2⟩, zip_map_subst .., zip_map_subst ..⟩

theorem merge_tags (ks : List Ocp) (o o' : Ocp) (ht : Tagged o) (hk : ∀ k ∈ ks, Tagged k)
    (hr : merge ks o = (.ok (), o')) : TagStep (.merge ks) o o' := by
  induction ks generalizing o with
  | nil => cases hr; exact ⟨ht, by simp [tagEq], by simp [tagIneq]⟩
  | cons k ks ih =>
    obtain ⟨_, o₁, h₁, h₂⟩ := Py.bind_eq_ok.mp
      (show Py.bind (mergeOne k) (fun _ => merge ks) o = _ from hr)
    obtain ⟨-, -, m', hm, rfl⟩ := mergeOne_ok_iff.mp h₁
    have hkt := hk k (by simp)
    have ht₁ : Tagged { mergeAttributes o k with model := m' } :=
      ⟨by simp [mergeAttributes, ht.1, hkt.1], by simp [mergeAttributes, ht.2, hkt.2]⟩
    obtain ⟨a, b, c⟩ := ih _ ht₁ (fun j hj => hk j (by simp [hj])) h₂
    refine ⟨a, ?_, ?_⟩
    · rw [b]
      simp only [tagEq, mergeAttributes, List.zip_append ht.1.symm, List.flatMap_cons,
        List.append_assoc]
    · rw [c]
      simp only [tagIneq, mergeAttributes, List.zip_append ht.2.symm, List.flatMap_cons,
        List.append_assoc]

theorem zip_replicate (e : List Expr) (w : String) :
    e.zip (List.replicate e.length w) = e.map fun x => (x, w) := by
  induction e with
  | nil => rfl
  | cons a e ih => simp [List.replicate_succ, ih]

theorem call_tags (c : Call) (o o' : Ocp) (ht : Tagged o) (hm : MergesTagged c)
    (hr : c.run o = (.ok (), o')) : TagStep c o o' := by
  cases c with
  | includeState => exact (includeState_tags hr).step ht (fun _ => rfl) fun _ => rfl
  | includeAlgebraic =>
    obtain ⟨-, -, rfl⟩ := includeAlgebraic_ok_iff.mp hr
    exact SameTags.step (o := o) ⟨rfl, rfl, rfl, rfl⟩ ht (fun _ => rfl) fun _ => rfl
  | includeControl =>
    obtain ⟨-, -, -, -, -, -, rfl⟩ := includeControl_ok_iff.mp hr
    exact SameTags.step (o := o) ⟨rfl, rfl, rfl, rfl⟩ ht (fun _ => rfl) fun _ => rfl
  | includeParameter v => exact (onModel_tags hr).step ht (fun _ => rfl) fun _ => rfl
  | includeTheta v => exact (onModel_tags hr).step ht (fun _ => rfl) fun _ => rfl
  | setParameterOpt =>
    obtain ⟨-, -, rfl⟩ := setParameterOpt_ok_iff.mp hr
    exact SameTags.step (o := o) ⟨rfl, rfl, rfl, rfl⟩ ht (fun _ => rfl) fun _ => rfl
  | setThetaOpt =>
    obtain ⟨-, -, rfl⟩ := setThetaOpt_ok_iff.mp hr
    exact SameTags.step (o := o) ⟨rfl, rfl, rfl, rfl⟩ ht (fun _ => rfl) fun _ => rfl
  | includeParameterOpt v lo hi =>
    obtain ⟨_, o₁, h₁, h₂⟩ := Py.bind_eq_ok.mp
      (show Py.bind (onModel (SysModel.includeParameter v)) (fun _ => setParameterOpt v lo hi) o = _
        from hr)
    obtain ⟨-, -, rfl⟩ := setParameterOpt_ok_iff.mp h₂
    exact ((onModel_tags h₁).trans (o'' := { o₁ with
        pOpt := _
        pOptMin := _
        pOptMax := _ }) ⟨rfl, rfl, rfl, rfl⟩).step ht (fun _ => rfl) fun _ => rfl
  | includeThetaOpt v lo hi =>
    obtain ⟨_, o₁, h₁, h₂⟩ := Py.bind_eq_ok.mp
      (show Py.bind (onModel (SysModel.includeTheta v)) (fun _ => setThetaOpt v lo hi) o = _
        from hr)
    obtain ⟨-, -, rfl⟩ := setThetaOpt_ok_iff.mp h₂
    exact ((onModel_tags h₁).trans (o'' := { o₁ with
        thetaOpt := _
        thetaOptMin := _
        thetaOptMax := _ }) ⟨rfl, rfl, rfl, rfl⟩).step ht (fun _ => rfl) fun _ => rfl
  | includeInitialEquality =>
    cases hr; exact SameTags.step (o := o) ⟨rfl, rfl, rfl, rfl⟩ ht (fun _ => rfl) fun _ => rfl
  | includeFinalEquality =>
    cases hr; exact SameTags.step (o := o) ⟨rfl, rfl, rfl, rfl⟩ ht (fun _ => rfl) fun _ => rfl
  | includeTimeInequality e w =>
    cases hr
    refine ⟨⟨ht.1, by simp [ht.2]⟩, rfl, ?_⟩
    simp only [tagIneq, List.zip_append ht.2.symm, zip_replicate]
  | includeTimeEquality e w =>
    cases hr
    refine ⟨⟨by simp [ht.1], ht.2⟩, ?_, rfl⟩
    simp only [tagEq, List.zip_append ht.1.symm, zip_replicate]
  | includeEquality =>
    cases hr; exact SameTags.step (o := o) ⟨rfl, rfl, rfl, rfl⟩ ht (fun _ => rfl) fun _ => rfl
  | includeSystemEquations ode alg => exact (onModel_tags hr).step ht (fun _ => rfl) fun _ => rfl
  | removeAlgebraic v eq => exact (removeAlgebraic_tags hr).step ht (fun _ => rfl) fun _ => rfl
  | removeControl v => exact (removeControl_tags hr).step ht (fun _ => rfl) fun _ => rfl
  | replaceVariable v w => exact replaceVariable_tags ht hr
  | parametrizeControl u e up =>
    obtain ⟨m', hm, hs⟩ := parametrizeControl_ok_iff.mp hr
    exact replaceVariable_tags (o := { o with model := m' }) ht hs
  | createCostState xc f =>
    obtain ⟨o₁, h₁, rfl⟩ := createCostState_ok_iff.mp hr
    exact ((includeState_tags h₁).trans (o'' := { o₁ with xCost := _ }) ⟨rfl, rfl, rfl, rfl⟩).step
      ht (fun _ => rfl) fun _ => rfl
  | merge ks => exact merge_tags ks o o' ht hm hr
  | connect u y r => exact (connect_tags hr).step ht (fun _ => rfl) fun _ => rfl

end Ocp

/-- C34. After any history of successful calls there is one tag per path constraint, and the
constraints with their tags are what the calls gave, in order, up to the substitutions made on the
constraints. -/
theorem C34_tags (calls : List Ocp.Call) (o o' : Ocp) (ht : Tagged o)
    (hm : ∀ c ∈ calls, MergesTagged c) (hr : Ocp.runCalls calls o = (.ok (), o')) :
    Tagged o' ∧
    o'.gEq.zip o'.timeGEq = calls.foldl (fun l c => tagEq c l) (o.gEq.zip o.timeGEq) ∧
    o'.gIneq.zip o'.timeGIneq =
      calls.foldl (fun l c => tagIneq c l) (o.gIneq.zip o.timeGIneq) := by
  induction calls generalizing o with
  | nil => cases hr; exact ⟨ht, rfl, rfl⟩
  | cons c cs ih =>
    obtain ⟨_, o₁, h₁, h₂⟩ := Py.bind_eq_ok.mp
      (show Py.bind c.run (fun _ => Ocp.runCalls cs) o = _ from hr)
    obtain ⟨a, b, d⟩ := Ocp.call_tags c o o₁ ht (hm c (by simp)) h₁
    obtain ⟨e, f, g⟩ := ih o₁ a (fun c hc => hm c (by simp [hc])) h₂
    exact ⟨e, by rw [f, b]; rfl, by rw [g, d]; rfl⟩

/-- A new problem has no path constraints. -/
theorem C34_new (m : SysModel) (x0 : Option (List Rat)) (t0 tf : Rat) :
    Tagged (Ocp.new m x0 t0 tf) := ⟨rfl, rfl⟩

/-- A history with constraints, a merge and a substitution. -/
example :
    let k : Ocp := { Ocp.new (SysModel.new 5 6) none 0 1 with
      gEq := [.sym 7]
      timeGEq := ["end"] }
    let calls : List Ocp.Call := [.includeTimeEquality [.sym 2, .sym 3] "start", .merge [k],
      .replaceVariable [3] [.const 4], .includeTimeEquality [.sym 8] "default"]
    Tagged k ∧ (Ocp.runCalls calls (Ocp.new (SysModel.new 0 1) none 0 1)).1 = .ok () ∧
    (Ocp.runCalls calls (Ocp.new (SysModel.new 0 1) none 0 1)).2.timeGEq =
      ["start", "start", "end", "default"] ∧
    (Ocp.runCalls calls (Ocp.new (SysModel.new 0 1) none 0 1)).2.gEq =
      [.sym 2, .const 4, .sym 7, .sym 8] := by
  refine ⟨⟨rfl, rfl⟩, ?_⟩
  decide +kernel

end Verif
