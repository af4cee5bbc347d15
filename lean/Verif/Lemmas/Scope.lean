import Verif.Spec.Scope
import Verif.Lemmas.Merge
import Verif.Lemmas.Controls
/-! Lemmas on scope. -/
namespace Verif
open SysModel

theorem mem_equations (m : SysModel) (e : Expr) :
    e ∈ Spec.equations m ↔ (∃ s, (s, some e) ∈ m.ode) ∨ e ∈ m.alg ∨ e ∈ m.uExpr := by
  simp only [Spec.equations, List.mem_append, mem_odeVec, or_assoc]

theorem mem_set {κ α : Type} [DecidableEq κ] (d : Dict κ α) (k : κ) (v : α) (kv : κ × α)
    (h : kv ∈ d.set k v) : kv ∈ d ∨ kv = (k, v) := by
  induction d with
  | nil => simpa [Dict.set] using h
  | cons p d ih =>
    obtain ⟨k', v'⟩ := p
    by_cases hk : k = k'
    · simp only [Dict.set, hk, if_true, List.mem_cons] at h ⊢
      rcases h with h | h
      · exact .inr (by rw [h])
      · exact .inl (.inr h)
    · simp only [Dict.set, hk, if_false, List.mem_cons] at h ⊢
      rcases h with h | h
      · exact .inl (.inl h)
      · rcases ih h with h | h
        · exact .inl (.inr h)
        · exact .inr h

theorem mem_update {κ α : Type} [DecidableEq κ] (d : Dict κ α) (kvs : List (κ × α)) (kv : κ × α)
    (h : kv ∈ d.update kvs) : kv ∈ d ∨ kv ∈ kvs := by
  induction kvs generalizing d with
  | nil => exact .inl h
  | cons p kvs ih =>
    rcases ih (d.set p.1 p.2) h with h | h
    · rcases mem_set d p.1 p.2 kv h with h | h
      · exact .inl h
      · exact .inr (by simp [h])
    · exact .inr (by simp [h])

/-- Equations come from `S`; the symbols in scope are those of `m₀`. -/
structure Keeps (S : Expr → Prop) (m₀ m : SysModel) : Prop where
  eqs : ∀ e ∈ Spec.equations m, S e
  t : m.t = m₀.t
  tau : m.tau = m₀.tau
  x : m.x = m₀.x
  y : m.y = m₀.y
  p : m.p = m₀.p
  theta : m.theta = m₀.theta
  uPar : m.uPar = m₀.uPar

theorem Keeps.inScope {S m₀ m} (h : Keeps S m₀ m) (s : Sym) :
    Spec.InScope m s ↔ Spec.InScope m₀ s := by
  unfold Spec.InScope
  rw [h.t, h.tau, h.x, h.y, h.p, h.theta, h.uPar]

section
variable {S : Expr → Prop} {m₀ : SysModel}

theorem keeps_includeFromKwargs {x : List Sym} {e : List Expr} (he : ∀ a ∈ e, S a) :
    Py.Always (Keeps S m₀) (includeFromKwargs x e) := by
  intro m h
  unfold includeFromKwargs
  split
  · exact h
  · split
    · exact h
    · refine { h with eqs := fun a ha => ?_ }
      rw [mem_equations] at ha
      rcases ha with ⟨s, ha⟩ | ha | ha
      · rcases mem_update _ _ _ ha with ha | ha
        · exact h.eqs a ((mem_equations ..).mpr (.inl ⟨s, ha⟩))
        · obtain ⟨b, hb, hba⟩ := List.mem_map.mp (List.of_mem_zip ha).2
          simp only [Option.some.injEq] at hba
          exact hba ▸ he b hb
      · exact h.eqs a ((mem_equations ..).mpr (.inr (.inl ha)))
      · exact h.eqs a ((mem_equations ..).mpr (.inr (.inr ha)))

theorem keeps_includeAlg {args : List EqArg} {g : List Expr} (hg : ∀ a ∈ g, S a)
    (hr : ∀ a ∈ args.flatMap EqArg.residuals, S a) :
    Py.Always (Keeps S m₀) (includeAlgEquations args g) := by
  intro m h
  refine { h with eqs := fun a ha => ?_ }
  rw [includeAlgEquations, Py.modify_apply, mem_equations] at ha
  simp only [List.mem_append] at ha
  rcases ha with ha | (ha | ha | ha) | ha
  · exact h.eqs a ((mem_equations ..).mpr (.inl ha))
  · exact h.eqs a ((mem_equations ..).mpr (.inr (.inl ha)))
  · exact hg a ha
  · exact hr a ha
  · exact h.eqs a ((mem_equations ..).mpr (.inr (.inr ha)))

theorem keeps_includeEquations {args : List EqArg} {o : Option (List Expr)}
    {x : Option (List Sym)} {g : List Expr} (hg : ∀ a ∈ g, S a)
    (hr : ∀ a ∈ args.flatMap EqArg.residuals, S a) (hs : ∀ a ∈ args.flatMap EqArg.rhss, S a)
    (ho : ∀ a ∈ o.getD [], S a) :
    Py.Always (Keeps S m₀) (includeEquations args o x g) := by
  have h₁ : Py.Always (Keeps S m₀) (includeAlgEquations args g) := keeps_includeAlg hg hr
  have h₂ : Py.Always (Keeps S m₀) (includeFromDiff args) := keeps_includeFromKwargs hs
  have h₃ : ∀ e, o = some e → ∀ {x}, Py.Always (Keeps S m₀) (includeFromKwargs x e) :=
    fun e he => keeps_includeFromKwargs (by simpa [he] using ho)
  clear ho
  cases o with
  | none =>
    cases x <;> (unfold includeEquations includeArgs; simp only; py_always [h₁, h₂])
  | some e =>
    have h₄ : ∀ {x}, Py.Always (Keeps S m₀) (includeFromKwargs x e) := fun {x} => h₃ e rfl
    cases x <;> (unfold includeEquations includeArgs; simp only; py_always [h₁, h₂, h₄])
end

theorem keeps_self (m : SysModel) (S : Expr → Prop) (h : ∀ e ∈ Spec.equations m, S e) :
    Keeps S m m := ⟨h, rfl, rfl, rfl, rfl, rfl, rfl, rfl⟩

/-- `include_equations` keeps a model well scoped. -/
theorem scoped_includeEquations (args o x g) (m : SysModel) (h : Spec.WellScoped m)
    (ha : ∀ e ∈ Spec.argExprs (.includeEquations args o x g), ∀ s ∈ e.syms,
      Spec.InScope m s) :
    Spec.WellScoped (includeEquations args o x g m).2 ∧
      ∀ s, Spec.InScope (includeEquations args o x g m).2 s ↔ Spec.InScope m s := by
  simp only [Spec.argExprs, List.mem_append] at ha
  have hk := keeps_includeEquations (S := fun e => ∀ s ∈ e.syms, Spec.InScope m s) (m₀ := m)
    (args := args) (o := o) (x := x) (g := g)
    (fun a h => ha a (.inl (.inl (.inl h)))) (fun a h => ha a (.inl (.inr h)))
    (fun a h => ha a (.inr h)) (fun a h => ha a (.inl (.inl (.inr h)))) m (keeps_self m _ h)
  exact ⟨fun e he s hs => (hk.inScope s).mpr (hk.eqs e he s hs), hk.inScope⟩

/-- Substitution keeps a model well scoped when the symbols of the replacement are in scope and the
old scope, except for the replaced symbols, is in the new one. -/
theorem scoped_replace (v : List Sym) (w : List Expr) (m m' : SysModel)
    (hl : v.length = w.length) (h : Spec.WellScoped m)
    (he : ∀ e ∈ Spec.equations m', ∃ e₀ ∈ Spec.equations m, e = e₀.subst v w)
    (hscope : ∀ s, Spec.InScope m s → s ∉ v → Spec.InScope m' s)
    (hw : ∀ e ∈ w, ∀ s ∈ e.syms, Spec.InScope m' s) : Spec.WellScoped m' := by
  intro e hem s hs
  obtain ⟨e₀, he₀, rfl⟩ := he e hem
  rcases Expr.mem_syms_subst v w hl e₀ s hs with ⟨h₁, h₂⟩ | ⟨r, hr, h₁⟩
  · exact hscope s (h e₀ he₀ s h₁) h₂
  · exact hw r hr s h₁

theorem replace_equations_mem (v : List Sym) (w : List Expr) (m : SysModel)
    (hl : v.length = w.length) : ∀ e ∈ Spec.equations (replaceVariable v w m).2,
      ∃ e₀ ∈ Spec.equations m, e = e₀.subst v w := by
  rw [equations_replace m v w hl]
  intro e he
  obtain ⟨e₀, h₁, h₂⟩ := List.mem_map.mp he
  exact ⟨e₀, h₁, h₂.symm⟩

/-- Well scoped, with as many control expressions as controls. -/
def Good (m : SysModel) : Prop := Spec.WellScoped m ∧ m.u.length = m.uExpr.length

/-- A larger scope keeps the equations well scoped. -/
theorem scoped_mono {m m' : SysModel} (h : Spec.WellScoped m)
    (hs : ∀ s, Spec.InScope m s → Spec.InScope m' s)
    (he : ∀ e ∈ Spec.equations m', e ∈ Spec.equations m ∨ ∀ s ∈ e.syms, Spec.InScope m' s) :
    Spec.WellScoped m' := by
  intro e hem s hse
  rcases he e hem with h' | h'
  · exact hs s (h e h' s hse)
  · exact h' s hse

theorem good_includeState (var ode x0 fresh) (m m' : SysModel) (h : Good m)
    (hrun : includeState var ode x0 fresh m = (.ok (), m'))
    (ha : ∀ e ∈ ode.getD [], ∀ s ∈ e.syms, Spec.InScope m' s) : Good m' := by
  obtain ⟨-, -, -, -, rfl⟩ := (includeState_ok_iff ..).mp hrun
  refine ⟨scoped_mono h.1 ?_ ?_, h.2⟩
  · intro s hs
    simp only [Spec.InScope, List.mem_append] at hs ⊢
    tauto
  · intro e he
    rw [mem_equations] at he ⊢
    rcases he with ⟨s, he⟩ | he
    · cases ode with
      | none =>
        simp only [tableWith, List.mem_append, List.mem_map, Prod.mk.injEq, reduceCtorEq,
          and_false, exists_false, or_false] at he
        exact .inl (.inl ⟨s, he⟩)
      | some o =>
        rcases mem_update _ _ _ he with he | he
        · simp only [List.mem_append, List.mem_map, Prod.mk.injEq, reduceCtorEq,
            and_false, exists_false, or_false] at he
          exact .inl (.inl ⟨s, he⟩)
        · obtain ⟨b, hb, hba⟩ := List.mem_map.mp (List.of_mem_zip he).2
          simp only [Option.some.injEq] at hba
          exact .inr (ha e (by simpa [hba] using hb))
    · exact .inl (.inr he)

theorem good_includeAlgebraic (var alg) (m m' : SysModel) (h : Good m)
    (hrun : includeAlgebraic var alg m = (.ok (), m'))
    (ha : ∀ e ∈ alg.getD [], ∀ s ∈ e.syms, Spec.InScope m' s) : Good m' := by
  have hm : m' = { m with y := m.y ++ var, alg := m.alg ++ alg.getD [] } := by
    unfold includeAlgebraic at hrun
    cases alg with
    | none => simpa [eq_comm] using hrun
    | some a =>
      simp only [Py.bind_eq, Py.modify_bind, includeEquations_alg] at hrun
      simpa [eq_comm] using hrun
  subst hm
  refine ⟨scoped_mono h.1 ?_ ?_, h.2⟩
  · intro s hs
    simp only [Spec.InScope, List.mem_append] at hs ⊢
    tauto
  · intro e he
    rw [mem_equations] at he ⊢
    simp only [List.mem_append] at he
    rcases he with he | (he | he) | he
    · exact .inl (.inl he)
    · exact .inl (.inr (.inl he))
    · exact .inr (ha e he)
    · exact .inl (.inr (.inr he))

theorem good_includeControl (var) (m : SysModel) (h : Good m) :
    Good (includeControl var m).2 := by
  refine ⟨scoped_mono h.1 ?_ ?_, by simp [includeControl, h.2]⟩
  · intro s hs
    simp only [Spec.InScope, includeControl, Py.modify_apply, List.mem_append] at hs ⊢
    tauto
  · intro e he
    rw [mem_equations] at he ⊢
    simp only [includeControl, Py.modify_apply, List.mem_append, List.mem_map] at he
    rcases he with he | he | he | ⟨a, ha, rfl⟩
    · exact .inl (.inl he)
    · exact .inl (.inr (.inl he))
    · exact .inl (.inr (.inr he))
    · right
      intro s hs
      simp only [Expr.syms, List.mem_singleton] at hs
      subst hs
      simp [Spec.InScope, includeControl, ha]

theorem good_includeParameter (var) (m : SysModel) (h : Good m) :
    Good (includeParameter var m).2 := by
  refine ⟨scoped_mono h.1 ?_ fun e he => .inl he, h.2⟩
  intro s hs
  simp only [Spec.InScope, includeParameter, Py.modify_apply, List.mem_append] at hs ⊢
  tauto

theorem good_includeTheta (var) (m : SysModel) (h : Good m) :
    Good (includeTheta var m).2 := by
  refine ⟨scoped_mono h.1 ?_ fun e he => .inl he, h.2⟩
  intro s hs
  simp only [Spec.InScope, includeTheta, Py.modify_apply, List.mem_append] at hs ⊢
  tauto

theorem good_replace (v w) (m m' : SysModel) (h : Good m)
    (hrun : replaceVariable v w m = (.ok (), m'))
    (ha : ∀ e ∈ w, ∀ s ∈ e.syms, Spec.InScope m' s) : Good m' := by
  by_cases hl : v.length = w.length
  · have hm : m' = (replaceVariable v w m).2 := by rw [hrun]
    refine ⟨scoped_replace v w m m' hl h.1 (hm ▸ replace_equations_mem v w m hl) ?_ ha, ?_⟩
    · intro s hs _
      rw [hm, replaceVariable, if_neg (not_not.mpr hl)]
      exact hs
    · rw [hm, replaceVariable, if_neg (not_not.mpr hl)]
      simpa using h.2
  · simp [replaceVariable, hl] at hrun

theorem good_parametrize (u e up) (m m' : SysModel) (h : Good m)
    (hrun : parametrizeControl u e up m = (.ok (), m'))
    (ha : ∀ a ∈ e, ∀ s ∈ a.syms, Spec.InScope m' s) : Good m' := by
  rw [parametrize_run] at hrun
  by_cases hl : u.length = e.length
  · rw [if_neg (not_not.mpr hl)] at hrun
    split at hrun
    · simp at hrun
    · split at hrun
      · simp at hrun
      · generalize hm₀ : SysModel.mk _ _ _ _ _ _ _ _ _ _ _ _ _ _ = m₀ at hrun
        have hm : m' = (replaceVariable u e m₀).2 := by rw [hrun]
        have hq : Spec.equations m = Spec.equations m₀ := by rw [← hm₀]; rfl
        refine ⟨scoped_replace u e m m' hl h.1
          (hq ▸ hm ▸ replace_equations_mem u e m₀ hl) ?_ ha, ?_⟩
        · intro s hs hsu
          rw [hm, replaceVariable, if_neg (not_not.mpr hl), ← hm₀]
          simp only [Spec.InScope, List.mem_append, List.mem_filter, decide_eq_true_eq] at hs ⊢
          tauto
        · rw [hm, replaceVariable, if_neg (not_not.mpr hl), ← hm₀]
          simpa using h.2
  · simp [hl] at hrun

theorem good_includeEquations (a o x g) (m m' : SysModel) (h : Good m)
    (hrun : includeEquations a o x g m = (.ok (), m'))
    (ha : ∀ e ∈ Spec.argExprs (.includeEquations a o x g), ∀ s ∈ e.syms,
      Spec.InScope m' s) : Good m' := by
  have hm : m' = (includeEquations a o x g m).2 := by rw [hrun]
  have hs : ∀ s, Spec.InScope m' s ↔ Spec.InScope m s := by
    have := keeps_includeEquations (S := fun _ => True) (m₀ := m) (args := a) (o := o) (x := x)
      (g := g) (fun _ _ => trivial) (fun _ _ => trivial) (fun _ _ => trivial)
      (fun _ _ => trivial) m (keeps_self m _ fun _ _ => trivial)
    rw [hm]; exact this.inScope
  refine ⟨?_, ?_⟩
  · rw [hm]
    exact (scoped_includeEquations a o x g m h.1 fun e he s hse => (hs s).mp (ha e he s hse)).1
  · obtain ⟨h₁, h₂, -⟩ := u_includeEquations (U := m.u) (E := m.uExpr) (P := m.parametrized)
      (a := a) (o := o) (x := x) (g := g) m ⟨rfl, rfl, rfl⟩
    rw [hm, h₁, h₂]; exact h.2

/-- Removing controls whose symbols no equation needs, or that are in scope otherwise. -/
theorem removeControl_ok (v) (m m' : SysModel) (hlen : m.u.length = m.uExpr.length)
    (hrun : removeControl v m = (.ok (), m')) :
    m' = { m with
      uExpr := keepUnlisted ((findIndices v m.u).map Int.ofNat) m.uExpr
      u := m.u.filter fun a => decide (a ∉ v)
      uPar := m.uPar.filter fun a => decide (a ∉ v) } := by
  rw [removeControl_run v m hlen] at hrun
  split at hrun
  · simp only at hrun
    split at hrun
    · simpa [eq_comm] using hrun
    · simp at hrun
  · simp at hrun

theorem keepUnlisted_mem {α : Type*} (js : List Int) (l : List α) (a : α)
    (h : a ∈ keepUnlisted js l) : a ∈ l := by
  unfold keepUnlisted at h
  simp only [List.mem_filterMap] at h
  obtain ⟨⟨b, i⟩, hb, hi⟩ := h
  have := List.fst_mem_of_mem_zipIdx hb
  split at hi
  · simp at hi
  · simp only [Option.some.injEq] at hi; exact hi ▸ this

theorem keepUnlisted_length {α β : Type*} (js : List Int) (l : List α) (l' : List β)
    (h : l.length = l'.length) : (keepUnlisted js l).length = (keepUnlisted js l').length :=
  (forall₂_keepUnlisted (R := fun _ _ => True) js l l'
    (List.forall₂_iff_get.mpr ⟨h, fun _ _ _ => trivial⟩)).length_eq

theorem good_removeControl (v) (m m' : SysModel) (h : Good m)
    (hrun : removeControl v m = (.ok (), m'))
    (hscope : ∀ e ∈ Spec.equations m', ∀ s ∈ e.syms, s ∈ v → Spec.InScope m' s) : Good m' := by
  have hm := removeControl_ok v m m' h.2 hrun
  have hu : (m.u.filter fun a => decide (a ∉ v)) =
      keepUnlisted ((findIndices v m.u).map Int.ofNat) m.u := by
    simpa using (keepUnlisted_findIndices_map id v m.u).symm
  refine ⟨?_, ?_⟩
  · intro e he s hs
    by_cases hv : s ∈ v
    · exact hscope e he s hs hv
    · have he' : e ∈ Spec.equations m := by
        rw [mem_equations] at he ⊢
        rw [hm] at he
        rcases he with he | he | he
        · exact .inl he
        · exact .inr (.inl he)
        · exact .inr (.inr (keepUnlisted_mem _ _ _ he))
      have := h.1 e he' s hs
      rw [hm]
      simp only [Spec.InScope, List.mem_filter, decide_eq_true_eq] at this ⊢
      tauto
  · rw [hm]
    simp only [hu]
    exact keepUnlisted_length _ _ _ h.2

theorem mem_zipWith {α β γ : Type*} (f : α → β → γ) (l : List α) (l' : List β) (c : γ)
    (h : c ∈ l.zipWith f l') : ∃ a b, a ∈ l ∧ b ∈ l' ∧ c = f a b := by
  rw [← List.map_uncurry_zip_eq_zipWith] at h
  obtain ⟨⟨a, b⟩, hab, rfl⟩ := List.mem_map.mp h
  exact ⟨a, b, (List.of_mem_zip hab).1, (List.of_mem_zip hab).2, rfl⟩

theorem good_connect (u y r) (m m' : SysModel) (h : Good m)
    (hrun : connect u y r m = (.ok (), m'))
    (ha : ∀ e ∈ y, ∀ s ∈ e.syms, Spec.InScope m' s) : Good m' := by
  unfold connect at hrun
  by_cases hl : u.length = y.length
  · simp only [hl, ne_eq, not_true_eq_false, decide_false, Py.bind_eq, Py.raiseIf,
      Bool.false_eq_true, if_false, Py.pure_bind] at hrun
    cases r with
    | true =>
      simp only [if_true] at hrun
      obtain ⟨a, m₁, h₁, h₂⟩ := Py.bind_eq_ok.mp hrun
      have hm₁ : m₁ = (replaceVariable u y m).2 := by rw [h₁]
      have hlen₁ : m₁.u.length = m₁.uExpr.length := by
        rw [hm₁, replaceVariable, if_neg (not_not.mpr hl)]; simpa using h.2
      have hm := removeControl_ok u m₁ m' hlen₁ h₂
      have hsc : ∀ s, Spec.InScope m' s → Spec.InScope m₁ s := by
        intro s hs
        rw [hm] at hs
        simp only [Spec.InScope, List.mem_filter] at hs ⊢
        tauto
      have hg := good_replace u y m m₁ h h₁ fun e he s hs => hsc s (ha e he s hs)
      refine good_removeControl u m₁ m' hg h₂ fun e he s hs hsu => ?_
      have he' : e ∈ Spec.equations m₁ := by
        rw [mem_equations] at he ⊢
        rw [hm] at he
        rcases he with he | he | he
        · exact .inl he
        · exact .inr (.inl he)
        · exact .inr (.inr (keepUnlisted_mem _ _ _ he))
      rw [hm₁] at he'
      obtain ⟨e₀, -, rfl⟩ := replace_equations_mem u y m hl e he'
      rcases Expr.mem_syms_subst u y hl e₀ s hs with ⟨-, h'⟩ | ⟨q, hq, h'⟩
      · exact absurd hsu h'
      · exact ha q hq s h'
    | false =>
      simp only [Bool.false_eq_true, if_false] at hrun
      rw [Py.bind_ok (includeEquations_alg _ m)] at hrun
      obtain ⟨_, m₂, hb, h₃⟩ := Py.bind_eq_ok.mp hrun
      have hm₂ : m₂ = { m with
          alg := m.alg ++ u.zipWith (fun a b => Expr.sub (.sym a) b) y
          y := m.y ++ u } := by
        simpa [includeAlgebraic, eq_comm] using hb
      have hlen₂ : m₂.u.length = m₂.uExpr.length := by rw [hm₂]; exact h.2
      have hm := removeControl_ok u m₂ m' hlen₂ h₃
      have hy : ∀ s ∈ u, Spec.InScope m' s := by
        intro s hs
        rw [hm, hm₂]
        simp [Spec.InScope, hs]
      have hsc : ∀ s, Spec.InScope m' s → Spec.InScope m₂ s := by
        intro s hs
        rw [hm] at hs
        simp only [Spec.InScope, List.mem_filter] at hs ⊢
        tauto
      have hg : Good m₂ := by
        refine ⟨scoped_mono h.1 ?_ ?_, hlen₂⟩
        · intro s hs
          rw [hm₂]
          simp only [Spec.InScope, List.mem_append] at hs ⊢
          tauto
        · intro e he
          rw [mem_equations, hm₂] at he
          simp only [List.mem_append] at he
          rw [mem_equations]
          rcases he with he | (he | he) | he
          · exact .inl (.inl he)
          · exact .inl (.inr (.inl he))
          · right
            intro s hs
            obtain ⟨a, b, ha', hb', rfl⟩ := mem_zipWith _ _ _ _ he
            rw [Expr.syms, List.mem_append] at hs
            rcases hs with hs | hs
            · simp only [Expr.syms, List.mem_singleton] at hs
              exact hsc s (hy s (hs ▸ ha'))
            · exact hsc s (ha b hb' s hs)
          · exact .inl (.inr (.inr he))
      exact good_removeControl u m₂ m' hg h₃ fun _ _ s _ hsu => hy s hsu
  · simp [hl, Py.raiseIf] at hrun

theorem good_includeVariables (x y u p th fresh) (m m' : SysModel) (h : Good m)
    (hrun : includeVariables x y u p th fresh m = (.ok (), m')) : Good m' := by
  have hx : Py.Triple Good (Py.whenSome x fun v => includeState v none none fresh) Good :=
    Py.Triple.whenSome _ _ fun v _ s a s' hs hr =>
      good_includeState v none none fresh s s' hs hr (by simp)
  have hy : Py.Triple Good (Py.whenSome y fun v => includeAlgebraic v none) Good :=
    Py.Triple.whenSome _ _ fun v _ s a s' hs hr =>
      good_includeAlgebraic v none s s' hs hr (by simp)
  have hu : Py.Triple Good (Py.whenSome u includeControl) Good :=
    Py.Triple.whenSome _ _ fun v _ s a s' hs hr => by
      have := good_includeControl v s hs; rwa [hr] at this
  have hp : Py.Triple Good (Py.whenSome p includeParameter) Good :=
    Py.Triple.whenSome _ _ fun v _ s a s' hs hr => by
      have := good_includeParameter v s hs; rwa [hr] at this
  have ht : Py.Triple Good (Py.whenSome th includeTheta) Good :=
    Py.Triple.whenSome _ _ fun v _ s a s' hs hr => by
      have := good_includeTheta v s hs; rwa [hr] at this
  exact (hx.bind fun _ => hy.bind fun _ => hu.bind fun _ => hp.bind fun _ => ht) m () m' h hrun

/-- Every building call keeps a model well scoped. -/
theorem good_call (c : Call) (hb : Spec.isBuilding c = true) (m m' : SysModel) (h : Good m)
    (hrun : Call.run c m = (.ok (), m'))
    (ha : ∀ e ∈ Spec.argExprs c, ∀ s ∈ e.syms, Spec.InScope m' s) : Good m' := by
  cases c with
  | includeState v o x f => exact good_includeState v o x f m m' h hrun ha
  | includeAlgebraic v a => exact good_includeAlgebraic v a m m' h hrun ha
  | includeControl v =>
    have := good_includeControl v m h
    simp only [Call.run] at hrun; rwa [hrun] at this
  | includeParameter v =>
    have := good_includeParameter v m h
    simp only [Call.run] at hrun; rwa [hrun] at this
  | includeTheta v =>
    have := good_includeTheta v m h
    simp only [Call.run] at hrun; rwa [hrun] at this
  | parametrizeControl u e up => exact good_parametrize u e up m m' h hrun ha
  | includeEquations a o x g => exact good_includeEquations a o x g m m' h hrun ha
  | replaceVariable v w => exact good_replace v w m m' h hrun ha
  | connect u y r => exact good_connect u y r m m' h hrun ha
  | includeVariables x y u p th f => exact good_includeVariables x y u p th f m m' h hrun
  | _ => simp [Spec.isBuilding] at hb

theorem good_program (cs : List Call) (m m' : SysModel) (h : Good m)
    (hp : Spec.ScopedProgram cs m) (hrun : runCalls cs m = (.ok (), m')) : Good m' := by
  induction cs generalizing m with
  | nil =>
    simp only [runCalls, Py.forEach, Py.pure_apply, Prod.mk.injEq, true_and] at hrun
    exact hrun ▸ h
  | cons c cs ih =>
    obtain ⟨hb, m₁, h₁, ha, hp'⟩ := hp
    refine ih m₁ (good_call c hb m m₁ h h₁ ha) hp' ?_
    unfold runCalls at hrun ⊢
    rwa [Py.forEach, Py.bind_ok h₁] at hrun

end Verif
