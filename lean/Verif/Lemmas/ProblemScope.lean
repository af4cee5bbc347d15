import Verif.Spec.ProblemScope
import Verif.Lemmas.Scope
import Verif.Lemmas.Ocp
/-!
# Symbols of the costs and constraints of a problem after each call
-/
namespace Verif
open SysModel

namespace SysModel

theorem removeControl_fields (v : List Sym) (m m' : SysModel)
    (h : removeControl v m = (.ok (), m')) :
    m'.t = m.t ∧ m'.tau = m.tau ∧ m'.x = m.x ∧ m'.y = m.y ∧ m'.p = m.p ∧ m'.theta = m.theta ∧
      m'.x0 = m.x0 ∧ m'.uPar = m.uPar.filter fun a => decide (a ∉ v) := by
  unfold removeControl at h
  simp only [Py.bind_eq, Py.get_bind, Py.lift_bind_ok, Py.modify_bind, Py.modify_ok] at h
  obtain ⟨ue, -, u', -, up, hup, rfl⟩ := h
  rw [removeVars_eq] at hup
  split at hup
  · cases hup
    exact ⟨rfl, rfl, rfl, rfl, rfl, rfl, rfl, rfl⟩
  · cases hup

/-- A connection by an equation takes no symbol away. -/
theorem connect_scope (u : List Sym) (y : List Expr) (m m' : SysModel)
    (h : connect u y false m = (.ok (), m')) :
    (∀ s, Spec.InScope m s → Spec.InScope m' s) ∧ m'.x0 = m.x0 := by
  simp only [connect, Py.bind_eq, Py.raiseIf_bind_ok, Bool.false_eq_true, if_false] at h
  obtain ⟨-, h⟩ := h
  rw [Py.bind_ok (includeEquations_alg ..), Py.bind_ok (includeAlgebraic_none ..)] at h
  obtain ⟨h1, h2, h3, h4, h5, h6, h7, h8⟩ := removeControl_fields _ _ _ h
  refine ⟨fun s hs => ?_, h7⟩
  unfold Spec.InScope at hs ⊢
  rw [h1, h2, h3, h4, h5, h6, h8]
  by_cases hu : s ∈ u
  · exact .inr (.inr (.inr (.inl (by simp [hu]))))
  · simp only [List.mem_append, List.mem_filter, decide_eq_true_eq]
    tauto

theorem replaceVariable_scope (v : List Sym) (w : List Expr) (m : SysModel) (s : Sym) :
    (Spec.InScope (replaceVariable v w m).2 s ↔ Spec.InScope m s) ∧
      (replaceVariable v w m).2.x0 = m.x0 := by
  unfold replaceVariable
  split <;> exact ⟨Iff.rfl, rfl⟩

theorem includeEquations_scope (a o x g) (m : SysModel) :
    (∀ s, Spec.InScope (includeEquations a o x g m).2 s ↔ Spec.InScope m s) :=
  fun s => (keeps_includeEquations (S := fun _ => True) (m₀ := m) (args := a) (o := o) (x := x)
    (g := g) (by simp) (by simp) (by simp) (by simp) m (keeps_self m _ (by simp))).inScope s

theorem includeFromKwargs_x0 {X : List Sym} (x e) :
    Py.Always (fun m : SysModel => m.x0 = X) (includeFromKwargs x e) := by
  intro m hm
  unfold includeFromKwargs
  split
  · exact hm
  · split <;> exact hm

theorem includeEquations_x0 {X : List Sym} (a o x g) :
    Py.Always (fun m : SysModel => m.x0 = X) (includeEquations a o x g) := by
  have h1 : Py.Always (fun m : SysModel => m.x0 = X) (includeAlgEquations a g) := fun m hm => hm
  have h2 : Py.Always (fun m : SysModel => m.x0 = X) (includeArgs a) := by
    unfold includeArgs
    split
    · exact includeFromKwargs_x0 _ _
    · exact fun m hm => hm
  unfold includeEquations
  intro m hm
  refine Py.Always.bind h1 ?_ m hm
  intro _
  cases o with
  | none =>
    cases x with
    | none => exact h2
    | some xs => exact fun m hm => hm
  | some e =>
    cases x with
    | some xs => exact Py.Always.bind h2 fun _ => includeFromKwargs_x0 _ _
    | none =>
      refine Py.Always.bind h2 fun _ => ?_
      intro m hm
      simp only [Py.bind_eq, Py.get_bind]
      cases hg : guessStates m e.length with
      | error er => simpa [Py.lift, Py.bind] using hm
      | ok xs =>
        rw [Py.lift_ok_bind]
        exact includeFromKwargs_x0 _ _ m hm

end SysModel

namespace Ocp
open Spec

theorem mem_terms (o : Ocp) (e : Expr) : e ∈ terms o ↔
    e = o.L ∨ e = o.V ∨ e = o.S ∨ e ∈ o.h ∨ e ∈ o.hInitial ∨ e ∈ o.hFinal ∨ e ∈ o.gEq ∨
      e ∈ o.gIneq := by
  simp only [terms, List.mem_append, List.mem_cons, List.not_mem_nil, or_false]
  tauto

/-- Terms stay scoped when no symbol is taken away and the new terms are scoped. -/
theorem scoped_of {o o' : Ocp} (h : TermsScoped o) (hk : ∀ s, KnownTo o s → KnownTo o' s)
    (ht : ∀ e ∈ terms o', e ∈ terms o ∨ ∀ s ∈ e.syms, KnownTo o' s) : TermsScoped o' := by
  intro e he s hs
  rcases ht e he with h' | h'
  · exact hk s (h e h' s hs)
  · exact h' s hs

theorem scoped_same {o o' : Ocp} (h : TermsScoped o) (hk : ∀ s, KnownTo o s → KnownTo o' s)
    (ht : terms o' = terms o) : TermsScoped o' :=
  scoped_of h hk fun e he => .inl (ht ▸ he)

theorem known_of_model {o o' : Ocp} (he : o'.eta = o.eta)
    (hm : ∀ s, InScope o.model s → InScope o'.model s) (hx : ∀ s ∈ o.model.x0, s ∈ o'.model.x0) :
    ∀ s, KnownTo o s → KnownTo o' s := by
  rintro s (h | h | h)
  · exact .inl (hm s h)
  · exact .inr (.inl (hx s h))
  · exact .inr (.inr (he ▸ h))

/-- The symbols of a difference of columns. -/
theorem vecSub_syms {a b c : List Expr} (h : vecSub a b = .ok c) :
    ∀ e ∈ c, ∀ s ∈ e.syms, (∃ e' ∈ a, s ∈ e'.syms) ∨ ∃ e' ∈ b, s ∈ e'.syms := by
  intro e he s hs
  unfold vecSub at h
  split at h
  · cases h
    obtain ⟨x, y, hx, hy, rfl⟩ := mem_zipWith _ _ _ _ he
    simp only [Expr.syms, List.mem_append] at hs
    exact hs.imp (fun h => ⟨x, hx, h⟩) fun h => ⟨y, hy, h⟩
  · split at h
    · cases h
      obtain ⟨y, hy, rfl⟩ := List.mem_map.mp he
      simp only [Expr.syms, List.mem_append] at hs
      exact hs.imp (fun h => ⟨_, List.mem_singleton.mpr rfl, h⟩) fun h => ⟨y, hy, h⟩
    · cases h
      obtain ⟨x, hx, rfl⟩ := List.mem_map.mp he
      simp only [Expr.syms, List.mem_append] at hs
      exact hs.imp (fun h => ⟨x, hx, h⟩) fun h => ⟨_, List.mem_singleton.mpr rfl, h⟩
    · cases h

theorem scoped_includeState {var ode x0 xMin xMax hI x0S sup fresh} {o o' : Ocp}
    (h : TermsScoped o)
    (hr : includeState var ode x0 xMin xMax hI x0S sup fresh o = (.ok (), o'))
    (ha : ∀ e ∈ hI.getD [], ∀ s ∈ e.syms, KnownTo o' s) : TermsScoped o' := by
  obtain ⟨-, lo, hi, m', hc, -, -, -, -, -, hm, hin, rfl⟩ := includeState_ok_iff.mp hr
  obtain ⟨-, -, -, -, rfl⟩ := (SysModel.includeState_ok_iff ..).mp hm
  refine scoped_of h (known_of_model rfl ?_ ?_) ?_
  · intro s hs
    simp only [InScope, List.mem_append] at hs ⊢
    tauto
  · intro s hs
    exact List.mem_append_left _ hs
  · intro e he
    rw [mem_terms] at he
    rw [mem_terms]
    simp only [List.mem_append] at he
    by_cases hec : e ∈ hc.getD []
    · right
      cases x0 with
      | none =>
        cases hin
        exact ha e hec
      | some v =>
        simp only [initialConstraint] at hin
        have hx : x0Symbols var x0S fresh = SysModel.newX0 var x0S fresh := by
          cases x0S <;> rfl
        rw [hx] at hin
        have hk : ∀ s, s ∈ SysModel.newX0 var x0S fresh ∨ s ∈ var → KnownTo
            { o with
              model := { o.model with
                x := o.model.x ++ var
                x0 := o.model.x0 ++ SysModel.newX0 var x0S fresh
                ode := SysModel.tableWith o.model.ode var ode }
              x0 := o.x0 ++ (some v).getD (List.replicate var.length 0)
              hInitial := o.hInitial ++ hc.getD []
              xMin := o.xMin ++ lo
              xMax := o.xMax ++ hi } s := by
          rintro s (hs | hs)
          · exact .inr (.inl (List.mem_append_right _ hs))
          · exact .inl (.inr (.inr (.inl (List.mem_append_right _ hs))))
        intro s hs
        refine hk s ?_
        cases hv : vecSub ((SysModel.newX0 var x0S fresh).map .sym) (var.map .sym) with
        | error e => rw [hv] at hin; cases hin
        | ok c =>
          rw [hv] at hin
          cases hin
          rcases vecSub_syms hv e hec s hs with ⟨e', he', hs'⟩ | ⟨e', he', hs'⟩
          · obtain ⟨a, ha', rfl⟩ := List.mem_map.mp he'
            simp only [Expr.syms, List.mem_singleton] at hs'
            exact .inl (hs' ▸ ha')
          · obtain ⟨a, ha', rfl⟩ := List.mem_map.mp he'
            simp only [Expr.syms, List.mem_singleton] at hs'
            exact .inr (hs' ▸ ha')
    · left
      tauto

theorem scoped_replace' {v : List Sym} {w : List Expr} {o o₀ o' : Ocp} (h : TermsScoped o₀)
    (ht : terms o = terms o₀) (hk : ∀ s, KnownTo o₀ s → s ∉ v → KnownTo o s)
    (hr : replaceVariable v w o = (.ok (), o'))
    (ha : ∀ e ∈ w, ∀ s ∈ e.syms, KnownTo o' s) : TermsScoped o' := by
  rw [replaceVariable_run] at hr
  split at hr
  · cases hr
  next hl =>
  rw [ne_eq, not_not] at hl
  simp only [Prod.mk.injEq, true_and] at hr
  have hkn : ∀ s, KnownTo o s → KnownTo o' s := by
    subst hr
    exact known_of_model rfl (fun s hs => (SysModel.replaceVariable_scope v w o.model s).1.mpr hs)
      (fun s hs => by rw [(SysModel.replaceVariable_scope v w o.model s).2]; exact hs)
  intro e he s hs
  obtain ⟨e₀, he₀, rfl⟩ : ∃ e₀ ∈ terms o, e = e₀.subst v w := by
    subst hr
    rw [mem_terms] at he
    simp only [List.mem_map] at he
    rcases he with rfl | rfl | rfl | ⟨a, ha', rfl⟩ | ⟨a, ha', rfl⟩ | ⟨a, ha', rfl⟩ | ⟨a, ha', rfl⟩ |
      ⟨a, ha', rfl⟩ <;> refine ⟨_, ?_, rfl⟩ <;> rw [mem_terms] <;> tauto
  rcases Expr.mem_syms_subst v w hl _ s hs with ⟨h₁, h₂⟩ | ⟨r, hr', hs'⟩
  · exact hkn s (hk s (h e₀ (ht ▸ he₀) s h₁) h₂)
  · exact ha r hr' s hs'

theorem connect_terms {u y} {o o' : Ocp} (hr : connect u y false o = (.ok (), o')) :
    terms o' = terms o ∧ o'.eta = o.eta ∧
      SysModel.connect u y false o.model = (.ok (), o'.model) := by
  unfold connect connectBounds at hr
  simp only [Py.bind_eq, Py.raiseIf_bind_ok, Py.get_bind, onModel_bind_ok, when, Bool.not_false,
    if_true] at hr
  obtain ⟨-, _, m', hm, hr⟩ := hr
  obtain ⟨_, o₁, h₁, h₂⟩ := Py.bind_eq_ok.mp hr
  simp only [Py.bind_eq, Py.get_bind, Py.lift_bind_ok, Py.modify_bind, Py.modify_ok] at h₁ h₂
  obtain ⟨_, -, _, -, _, -, rfl⟩ := h₁
  obtain ⟨_, -, _, -, _, -, _, -, _, -, rfl⟩ := h₂
  exact ⟨rfl, rfl, hm⟩

theorem connect_replace_terms {u y} {o o' : Ocp} (hr : connect u y true o = (.ok (), o')) :
    terms o' = terms o ∧ o'.eta = o.eta ∧
      SysModel.connect u y true o.model = (.ok (), o'.model) := by
  unfold connect at hr
  simp only [Py.bind_eq, Py.raiseIf_bind_ok, Py.get_bind, onModel_bind_ok, when, Bool.not_true,
    Bool.false_eq_true, if_false, Py.pure_bind, Py.lift_bind_ok, Py.modify_bind, Py.modify_ok] at hr
  obtain ⟨-, _, m', hm, _, -, _, -, _, -, _, -, _, -, rfl⟩ := hr
  exact ⟨rfl, rfl, hm⟩

theorem removeControl_terms {v} {o o' : Ocp} (hr : removeControl v o = (.ok (), o')) :
    terms o' = terms o ∧ o'.eta = o.eta ∧ SysModel.removeControl v o.model = (.ok (), o'.model) := by
  unfold removeControl removeControlBounds at hr
  simp only [Py.bind_eq, Py.get_bind] at hr
  obtain ⟨_, o₁, h₁, h₂⟩ := Py.bind_eq_ok.mp hr
  simp only [Py.bind_eq, Py.get_bind, Py.lift_bind_ok, Py.modify_bind, Py.modify_ok] at h₁ h₂
  obtain ⟨_, -, _, -, _, -, _, -, rfl⟩ := h₁
  obtain ⟨_, -, h₂⟩ := h₂
  obtain ⟨m', hm, rfl⟩ := onModel_ok.mp h₂
  exact ⟨rfl, rfl, hm⟩

theorem mergeOne_terms {k o o' : Ocp} (hr : mergeOne k o = (.ok (), o')) (e : Expr) :
    e ∈ terms o' ↔ e = .add o.L k.L ∨ e = .add o.V k.V ∨ e = .add o.S k.S ∨
      (e ∈ o.h ∨ e ∈ o.hInitial ∨ e ∈ o.hFinal ∨ e ∈ o.gEq ∨ e ∈ o.gIneq) ∨
      (e ∈ k.h ∨ e ∈ k.hInitial ∨ e ∈ k.hFinal ∨ e ∈ k.gEq ∨ e ∈ k.gIneq) := by
  obtain ⟨-, -, m', -, rfl⟩ := mergeOne_ok_iff.mp hr
  rw [mem_terms]
  simp only [mergeAttributes, List.mem_append]
  tauto

/-- The symbols of the terms after a merge are those of both problems. -/
theorem mergeOne_syms {k o o' : Ocp} (hr : mergeOne k o = (.ok (), o')) (s : Sym) :
    (∃ e ∈ terms o', s ∈ e.syms) ↔
      (∃ e ∈ terms o, s ∈ e.syms) ∨ ∃ e ∈ terms k, s ∈ e.syms := by
  constructor
  · rintro ⟨e, he, hs⟩
    rcases (mergeOne_terms hr e).mp he with rfl | rfl | rfl | he | he
    · simp only [Expr.syms, List.mem_append] at hs
      exact hs.imp (fun h => ⟨o.L, by simp [terms], h⟩) fun h => ⟨k.L, by simp [terms], h⟩
    · simp only [Expr.syms, List.mem_append] at hs
      exact hs.imp (fun h => ⟨o.V, by simp [terms], h⟩) fun h => ⟨k.V, by simp [terms], h⟩
    · simp only [Expr.syms, List.mem_append] at hs
      exact hs.imp (fun h => ⟨o.S, by simp [terms], h⟩) fun h => ⟨k.S, by simp [terms], h⟩
    · exact .inl ⟨e, by rw [mem_terms]; tauto, hs⟩
    · exact .inr ⟨e, by rw [mem_terms]; tauto, hs⟩
  · have hL : ∀ a b : Expr, ∀ s, s ∈ a.syms ∨ s ∈ b.syms → s ∈ (Expr.add a b).syms := by
      intro a b s h
      simpa [Expr.syms] using h
    rintro (⟨e, he, hs⟩ | ⟨e, he, hs⟩)
    · rcases (mem_terms o e).mp he with rfl | rfl | rfl | he
      · exact ⟨_, (mergeOne_terms hr _).mpr (.inl rfl), hL _ _ _ (.inl hs)⟩
      · exact ⟨_, (mergeOne_terms hr _).mpr (.inr (.inl rfl)), hL _ _ _ (.inl hs)⟩
      · exact ⟨_, (mergeOne_terms hr _).mpr (.inr (.inr (.inl rfl))), hL _ _ _ (.inl hs)⟩
      · exact ⟨e, (mergeOne_terms hr _).mpr (by tauto), hs⟩
    · rcases (mem_terms k e).mp he with rfl | rfl | rfl | he
      · exact ⟨_, (mergeOne_terms hr _).mpr (.inl rfl), hL _ _ _ (.inr hs)⟩
      · exact ⟨_, (mergeOne_terms hr _).mpr (.inr (.inl rfl)), hL _ _ _ (.inr hs)⟩
      · exact ⟨_, (mergeOne_terms hr _).mpr (.inr (.inr (.inl rfl))), hL _ _ _ (.inr hs)⟩
      · exact ⟨e, (mergeOne_terms hr _).mpr (by tauto), hs⟩

theorem merge_syms {o o' : Ocp} (ks : List Ocp) (hr : o.merge ks = (.ok (), o')) (s : Sym) :
    (∃ e ∈ terms o', s ∈ e.syms) ↔
      (∃ e ∈ terms o, s ∈ e.syms) ∨ ∃ k ∈ ks, ∃ e ∈ terms k, s ∈ e.syms := by
  induction ks generalizing o with
  | nil => cases hr; simp
  | cons k ks ih =>
    obtain ⟨_, o₁, h₁, h₂⟩ := Py.bind_eq_ok.mp
      (show Py.bind (mergeOne k) (fun _ => merge ks) o = _ from hr)
    rw [ih h₂, mergeOne_syms h₁]
    simp only [List.mem_cons, exists_eq_or_imp]
    exact or_assoc

theorem merge_eta {o o' : Ocp} (ks : List Ocp) (hr : o.merge ks = (.ok (), o')) :
    o'.eta = o.eta ++ ks.flatMap (·.eta) := by
  induction ks generalizing o with
  | nil => cases hr; simp
  | cons k ks ih =>
    obtain ⟨_, o₁, h₁, h₂⟩ := Py.bind_eq_ok.mp
      (show Py.bind (mergeOne k) (fun _ => merge ks) o = _ from hr)
    rw [ih h₂]
    obtain ⟨-, -, m', -, rfl⟩ := mergeOne_ok_iff.mp h₁
    simp [mergeAttributes]

/-- One call that takes no variable away. -/
theorem scoped_call (c : Call) (hc : keepsVariables c = true) (o o' : Ocp) (h : TermsScoped o)
    (hr : c.run o = (.ok (), o')) (ha : ∀ e ∈ argTerms c, ∀ s ∈ e.syms, KnownTo o' s) :
    TermsScoped o' := by
  have hself : ∀ s, KnownTo o s → KnownTo o s := fun s hs => hs
  cases c with
  | includeState var ode x0 lo hi hI xs sup f => exact scoped_includeState h hr ha
  | includeAlgebraic var alg lo hi g =>
    obtain ⟨-, -, rfl⟩ := includeAlgebraic_ok_iff.mp hr
    refine scoped_same h (known_of_model rfl ?_ fun s hs => hs) rfl
    intro s hs
    simp only [InScope, List.mem_append] at hs ⊢
    tauto
  | includeControl var lo hi dlo dhi g =>
    obtain ⟨-, -, -, -, -, -, rfl⟩ := includeControl_ok_iff.mp hr
    refine scoped_same h (known_of_model rfl ?_ fun s hs => hs) rfl
    intro s hs
    simp only [InScope, List.mem_append] at hs ⊢
    tauto
  | includeParameter v =>
    cases hr
    refine scoped_same h (known_of_model rfl ?_ fun s hs => hs) rfl
    intro s hs
    simp only [InScope, SysModel.includeParameter, Py.modify_apply, List.mem_append] at hs ⊢
    tauto
  | includeTheta v =>
    cases hr
    refine scoped_same h (known_of_model rfl ?_ fun s hs => hs) rfl
    intro s hs
    simp only [InScope, SysModel.includeTheta, Py.modify_apply, List.mem_append] at hs ⊢
    tauto
  | setParameterOpt v lo hi =>
    obtain ⟨-, -, rfl⟩ := setParameterOpt_ok_iff.mp hr
    exact scoped_same h (fun s hs => hs) rfl
  | setThetaOpt v lo hi =>
    obtain ⟨-, -, rfl⟩ := setThetaOpt_ok_iff.mp hr
    exact scoped_same h (fun s hs => hs) rfl
  | includeParameterOpt v lo hi =>
    obtain ⟨_, m', hm, hr⟩ := onModel_bind_ok.mp
      (show Py.bind (onModel (SysModel.includeParameter v)) (fun _ => setParameterOpt v lo hi) o = _
        from hr)
    obtain ⟨-, -, rfl⟩ := setParameterOpt_ok_iff.mp hr
    cases hm
    refine scoped_same h (known_of_model rfl ?_ fun s hs => hs) rfl
    intro s hs
    simp only [InScope, List.mem_append] at hs ⊢
    tauto
  | includeThetaOpt v lo hi =>
    obtain ⟨_, m', hm, hr⟩ := onModel_bind_ok.mp
      (show Py.bind (onModel (SysModel.includeTheta v)) (fun _ => setThetaOpt v lo hi) o = _
        from hr)
    obtain ⟨-, -, rfl⟩ := setThetaOpt_ok_iff.mp hr
    cases hm
    refine scoped_same h (known_of_model rfl ?_ fun s hs => hs) rfl
    intro s hs
    simp only [InScope, List.mem_append] at hs ⊢
    tauto
  | includeInitialEquality e =>
    cases hr
    refine scoped_of h (fun s hs => hs) fun a hm => ?_
    by_cases hae : a ∈ e
    · exact .inr (ha a hae)
    · left
      rw [mem_terms] at hm ⊢
      simp only [List.mem_append] at hm
      tauto
  | includeFinalEquality e =>
    cases hr
    refine scoped_of h (fun s hs => hs) fun a hm => ?_
    by_cases hae : a ∈ e
    · exact .inr (ha a hae)
    · left
      rw [mem_terms] at hm ⊢
      simp only [List.mem_append] at hm
      tauto
  | includeTimeInequality e w =>
    cases hr
    refine scoped_of h (fun s hs => hs) fun a hm => ?_
    by_cases hae : a ∈ e
    · exact .inr (ha a hae)
    · left
      rw [mem_terms] at hm ⊢
      simp only [List.mem_append] at hm
      tauto
  | includeTimeEquality e w =>
    cases hr
    refine scoped_of h (fun s hs => hs) fun a hm => ?_
    by_cases hae : a ∈ e
    · exact .inr (ha a hae)
    · left
      rw [mem_terms] at hm ⊢
      simp only [List.mem_append] at hm
      tauto
  | includeEquality e =>
    cases hr
    refine scoped_of h (fun s hs => hs) fun a hm => ?_
    by_cases hae : a ∈ e
    · exact .inr (ha a hae)
    · left
      rw [mem_terms] at hm ⊢
      simp only [List.mem_append] at hm
      tauto
  | includeSystemEquations ode alg =>
    obtain ⟨m', hm, rfl⟩ := onModel_ok.mp
      (show onModel (SysModel.includeEquations [] ode none alg) o = _ from hr)
    have h1 := SysModel.includeEquations_scope [] ode none alg o.model
    have h2 := SysModel.includeEquations_x0 (X := o.model.x0) [] ode none alg o.model rfl
    rw [hm] at h1 h2
    exact scoped_same h (known_of_model rfl (fun s hs => (h1 s).mpr hs)
      (fun s hs => by rw [show m'.x0 = _ from h2]; exact hs)) rfl
  | removeAlgebraic v e => cases hc
  | removeControl v => cases hc
  | replaceVariable v w => exact scoped_replace' h rfl (fun s hs _ => hs) hr ha
  | parametrizeControl u e up =>
    obtain ⟨m', hm, hr⟩ := parametrizeControl_ok_iff.mp hr
    refine scoped_replace' (o := { o with model := m' }) h rfl ?_ hr ha
    rw [SysModel.parametrize_run] at hm
    split at hm
    · cases hm
    split at hm
    · cases hm
    split at hm
    · cases hm
    have key : _ = m' := congrArg Prod.snd hm
    rintro s (hs | hs | hs) hv
    · refine .inl ?_
      rw [← key]
      refine (SysModel.replaceVariable_scope u e _ s).1.mpr ?_
      simp only [InScope, List.mem_append, List.mem_filter, decide_eq_true_eq] at hs ⊢
      tauto
    · refine .inr (.inl ?_)
      rw [← key]
      unfold SysModel.replaceVariable
      split <;> exact hs
    · exact .inr (.inr hs)
  | createCostState xc f =>
    obtain ⟨o₁, h₁, rfl⟩ := createCostState_ok_iff.mp hr
    have := scoped_includeState h h₁ (by simp)
    exact this
  | merge ks => cases hc
  | connect u y r =>
    cases r with
    | true => cases hc
    | false =>
      obtain ⟨h1, h2, h3⟩ := connect_terms (show connect u y false o = _ from hr)
      obtain ⟨h4, h5⟩ := SysModel.connect_scope _ _ _ _ h3
      exact scoped_same h (known_of_model h2 h4 (fun s hs => by rw [h5]; exact hs)) h1

end Ocp
end Verif
