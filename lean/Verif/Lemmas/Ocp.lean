import Verif.Spec.Ocp
import Verif.Lemmas.Merge
import Verif.Lemmas.Scope
import Verif.Lemmas.Controls
/-! Lemmas about problems. -/
namespace Verif

namespace SysModel

/-- The three vectors of variables. -/
def HasVars (X Y U : List Sym) (m : SysModel) : Prop := m.x = X ∧ m.y = Y ∧ m.u = U

section
variable {X Y U : List Sym}

theorem v_includeFromKwargs {x e} : Py.Always (HasVars X Y U) (includeFromKwargs x e) := by
  intro m h
  unfold includeFromKwargs
  split
  · exact h
  · split
    · exact h
    · exact h

theorem v_includeEquations {a o x g} : Py.Always (HasVars X Y U) (includeEquations a o x g) := by
  unfold includeEquations includeArgs includeFromDiff includeAlgEquations
  py_always [v_includeFromKwargs]

theorem v_addSlot {a} : Py.Always (HasVars X Y U) (addSlot a) := by
  intro m h; unfold addSlot; split <;> exact h

theorem v_replaceVariable {v w} : Py.Always (HasVars X Y U) (replaceVariable v w) := by
  intro m h; unfold replaceVariable; split <;> exact h

theorem v_registerParametrized {a} : Py.Always (HasVars X Y U) (registerParametrized a) := by
  intro m h; unfold registerParametrized; split <;> exact h

theorem v_parametrizeControl {u e up} :
    Py.Always (HasVars X Y U) (parametrizeControl u e up) := by
  unfold parametrizeControl
  py_always [v_registerParametrized, v_replaceVariable]

theorem v_includeParameter {v} : Py.Always (HasVars X Y U) (includeParameter v) := fun _ h => h
theorem v_includeTheta {v} : Py.Always (HasVars X Y U) (includeTheta v) := fun _ h => h
end

theorem vars_of_always {α} {c : Py SysModel α}
    (h : ∀ X Y U, Py.Always (HasVars X Y U) c) (m : SysModel) :
    (c m).2.x = m.x ∧ (c m).2.y = m.y ∧ (c m).2.u = m.u := h m.x m.y m.u m ⟨rfl, rfl, rfl⟩

/-- `include_algebraic` always returns. -/
theorem includeAlgebraic_run (v : List Sym) (a : Option (List Expr)) (m : SysModel) :
    includeAlgebraic v a m = (.ok (), { m with y := m.y ++ v, alg := m.alg ++ a.getD [] }) := by
  cases a with
  | none => simp [includeAlgebraic_none]
  | some a =>
    unfold includeAlgebraic
    simp only [Py.bind_eq, Py.modify_bind, includeEquations_alg, Option.getD_some]

theorem removeAlgebraic_ok (v : List Sym) (e : Option (List Expr)) (m m' : SysModel)
    (h : removeAlgebraic v e m = (.ok (), m')) :
    m'.x = m.x ∧ m'.y = (m.y.filter fun a => decide (a ∉ v)) ∧ m'.u = m.u ∧
      m'.p = m.p ∧ m'.theta = m.theta := by
  unfold removeAlgebraic at h
  simp only [Py.bind_eq, Py.get_bind, removeVars_eq] at h
  by_cases h₁ : ∃ s ∈ v, s ∈ m.y
  · simp only [h₁, if_true, Py.lift_ok_bind, Py.modify_bind] at h
    cases e with
    | none => simp only [Py.pure_apply, Prod.mk.injEq, true_and] at h; subst h; simp
    | some e =>
      simp only at h
      by_cases h₂ : ∃ s ∈ e, s ∈ m.alg
      · simp only [h₂, if_true, Py.lift_ok_bind, Py.modify_apply, Prod.mk.injEq, true_and] at h
        subst h; simp
      · simp only [h₂, if_false, Py.lift_error_bind, Prod.mk.injEq, reduceCtorEq,
          false_and] at h
  · simp only [h₁, if_false, Py.lift_error_bind, Prod.mk.injEq, reduceCtorEq, false_and] at h

theorem after_includeModel (k M M' : SysModel) (h : Py.bind
      (includeEquations [] (some k.odeVec) (some k.x) k.alg) (fun _ => Py.bind Py.get fun m₀ =>
        Py.bind (replaceVariable [k.t] [.sym m₀.t]) fun _ =>
          replaceVariable [k.tau] [.sym m₀.tau]) M = (.ok (), M')) :
    M'.x = M.x ∧ M'.y = M.y ∧ M'.u = M.u := by
  have := vars_of_always (c := Py.bind
      (includeEquations [] (some k.odeVec) (some k.x) k.alg) (fun _ => Py.bind Py.get fun m₀ =>
        Py.bind (replaceVariable [k.t] [.sym m₀.t]) fun _ =>
          replaceVariable [k.tau] [.sym m₀.tau]))
    (fun X Y U => by py_always [v_includeEquations, v_replaceVariable]) M
  rwa [h] at this

theorem includeModel_vars (k m m' : SysModel) (h : includeModel k m = (.ok (), m')) :
    m'.x = m.x ++ k.x ∧ m'.y = m.y ++ k.y ∧ m'.u = m.u ++ k.u := by
  unfold includeModel at h
  simp only [Py.bind_eq] at h
  obtain ⟨_, m₁, h₁, h⟩ := Py.bind_eq_ok.mp h
  obtain ⟨-, -, -, -, rfl⟩ := (includeState_ok_iff ..).mp h₁
  rw [Py.bind_ok (includeAlgebraic_none _ _)] at h
  unfold includeControl includeParameter includeTheta at h
  simp only [Py.modify_bind] at h
  exact after_includeModel k _ _ h

theorem merge_vars (k m m' : SysModel) (h : merge [k] none m = (.ok (), m')) :
    m'.x = m.x ++ k.x ∧ m'.y = m.y ++ k.y ∧ m'.u = m.u ++ k.u := by
  unfold merge includeModels at h
  simp only [Py.bind_eq, Py.forEach] at h
  obtain ⟨_, m₁, h₁, h₂⟩ := Py.bind_eq_ok.mp h
  obtain ⟨_, m₂, h₃, h₄⟩ := Py.bind_eq_ok.mp h₁
  simp only [Py.pure_apply, Prod.mk.injEq, true_and] at h₂ h₄
  subst h₂ h₄
  exact includeModel_vars k m _ h₃

/-- The variables after removing controls. -/
theorem removeControl_vars (v : List Sym) (m m' : SysModel)
    (h : removeControl v m = (.ok (), m')) :
    m'.x = m.x ∧ m'.y = m.y ∧ m'.u = m.u.filter (fun a => decide (a ∉ v)) := by
  unfold removeControl at h
  simp only [Py.bind_eq, Py.get_bind] at h
  obtain ⟨ue, m₁, h₁, h⟩ := Py.bind_eq_ok.mp h
  simp only [Py.lift, Prod.mk.injEq] at h₁
  obtain ⟨h₁, rfl⟩ := h₁
  simp only [Py.modify_bind] at h
  obtain ⟨u', m₂, h₂, h⟩ := Py.bind_eq_ok.mp h
  simp only [Py.lift, Prod.mk.injEq] at h₂
  obtain ⟨h₂, rfl⟩ := h₂
  simp only [Py.modify_bind] at h
  obtain ⟨up, m₃, h₃, h⟩ := Py.bind_eq_ok.mp h
  simp only [Py.lift, Prod.mk.injEq] at h₃
  obtain ⟨h₃, rfl⟩ := h₃
  simp only [Py.modify_apply, Prod.mk.injEq, true_and] at h
  subst h
  rw [removeVars_eq] at h₂
  split at h₂
  · simp only [Except.ok.injEq] at h₂
    exact ⟨rfl, rfl, h₂.symm⟩
  · simp at h₂

/-- The variables after connecting inputs. -/
theorem connect_vars (u : List Sym) (y : List Expr) (r : Bool) (m m' : SysModel)
    (h : connect u y r m = (.ok (), m')) :
    m'.x = m.x ∧ m'.y = (if r then m.y else m.y ++ u) ∧
      m'.u = m.u.filter (fun a => decide (a ∉ u)) := by
  unfold connect at h
  simp only [Py.bind_eq] at h
  obtain ⟨_, m₁, h₁, k⟩ := Py.bind_eq_ok.mp h
  clear h
  have e₁ : m₁ = m := by
    unfold Py.raiseIf at h₁; split at h₁ <;> simp_all
  subst e₁
  cases r with
  | true =>
    simp only [if_true] at k ⊢
    obtain ⟨_, m₂, h₂, h₃⟩ := Py.bind_eq_ok.mp k
    have hv := vars_of_always (c := replaceVariable u y) (fun X Y U => v_replaceVariable) m₁
    rw [h₂] at hv
    obtain ⟨a, b, c⟩ := removeControl_vars _ _ _ h₃
    exact ⟨a.trans hv.1, b.trans hv.2.1, by rw [c, hv.2.2]⟩
  | false =>
    simp only [Bool.false_eq_true, if_false] at k ⊢
    rw [Py.bind_ok (includeEquations_alg _ _), Py.bind_ok (includeAlgebraic_none _ _)] at k
    exact removeControl_vars _ _ _ k

end SysModel

/-! ### Vectors -/

theorem removeByIndices_find {α : Type} (v l : List Sym) (b : List α) (h : b.length = l.length) :
    removeByIndices ((findIndices v l).map Int.ofNat) b =
      .ok (((l.zip b).filter fun p => decide (p.1 ∉ v)).map Prod.snd) := by
  rw [removeByIndices_eq, if_neg]
  · congr 1
    have h₁ : l = (l.zip b).map Prod.fst := by rw [List.map_fst_zip]; omega
    have h₂ : b = (l.zip b).map Prod.snd := by rw [List.map_snd_zip]; omega
    have := SysModel.keepUnlisted_findIndices_map Prod.fst v (l.zip b)
    rw [← h₁] at this
    conv_lhs => rw [h₂]
    rw [← this]
    unfold keepUnlisted
    rw [List.zipIdx_map, List.filterMap_map, List.map_filterMap]
    congr 1
    funext p
    simp only [Function.comp_apply, Prod.map_fst, Prod.map_snd, id_eq]
    split <;> simp
  · rintro ⟨j, hj, hc⟩
    obtain ⟨i, hi, rfl⟩ := List.mem_map.mp hj
    have := findIndices_lt hi
    simp only [Int.ofNat_eq_natCast] at hc
    omega

theorem keepUnlisted_reverse {α : Type} (js : List Int) (l : List α) :
    keepUnlisted js.reverse l = keepUnlisted js l := by
  unfold keepUnlisted
  simp

theorem removeByIndices_reverse {α : Type} (js : List Int) (l : List α) :
    removeByIndices js.reverse l = removeByIndices js l := by
  rw [removeByIndices_eq, removeByIndices_eq, keepUnlisted_reverse]
  simp

theorem zip_filter_snd {α : Type} (v l : List Sym) (b : List α) (h : b.length = l.length) :
    (l.filter fun a => decide (a ∉ v)).zip
      (((l.zip b).filter fun p => decide (p.1 ∉ v)).map Prod.snd) =
      (l.zip b).filter fun p => decide (p.1 ∉ v) := by
  have h₁ : l.filter (fun a => decide (a ∉ v)) =
      ((l.zip b).filter fun p => decide (p.1 ∉ v)).map Prod.fst := by
    conv_lhs => rw [show l = (l.zip b).map Prod.fst by rw [List.map_fst_zip]; omega]
    rw [List.filter_map]
    rfl
  rw [h₁, ← List.unzip_fst, ← List.unzip_snd, List.zip_unzip]

theorem filter_zip_length {α : Type} (v l : List Sym) (b : List α) (h : b.length = l.length) :
    (((l.zip b).filter fun p => decide (p.1 ∉ v)).map Prod.snd).length =
      (l.filter fun a => decide (a ∉ v)).length := by
  have h₁ : l.filter (fun a => decide (a ∉ v)) =
      ((l.zip b).filter fun p => decide (p.1 ∉ v)).map Prod.fst := by
    conv_lhs => rw [show l = (l.zip b).map Prod.fst by rw [List.map_fst_zip]; omega]
    rw [List.filter_map]
    rfl
  rw [h₁, List.length_map, List.length_map]

theorem filterMap_eq_idxOf (v : Sym) (l : List Sym) (hn : l.Nodup) (n : Nat) :
    ((l.zipIdx n).filterMap fun p => if p.1 == v then some p.2 else none) =
      if v ∈ l then [n + l.idxOf v] else [] := by
  induction l generalizing n with
  | nil => simp
  | cons a l ih =>
    obtain ⟨ha, hl⟩ := List.nodup_cons.mp hn
    rw [List.zipIdx_cons, List.filterMap_cons]
    by_cases h : a = v
    · subst h
      simp only [BEq.rfl, if_true, ih hl, ha, if_false, List.mem_cons, true_or,
        List.idxOf_cons_self, Nat.add_zero]
    · have h' : ¬ v = a := fun e => h e.symm
      have hb : (a == v) = false := by simp [h]
      simp only [hb, Bool.false_eq_true, if_false, ih hl, List.mem_cons, h', false_or]
      split
      · rw [List.idxOf_cons_ne _ h, Nat.add_assoc, Nat.add_comm 1]
      · rfl

/-- With distinct variables, each one is found at its own position. -/
theorem findIndices_nodup (u l : List Sym) (hn : l.Nodup) (hu : ∀ v ∈ u, v ∈ l) :
    findIndices u l = u.map fun v => l.idxOf v := by
  unfold findIndices
  have : ∀ v ∈ u, (l.zipIdx.filterMap fun p => if p.1 == v then some p.2 else none) =
      [l.idxOf v] := by
    intro v hv
    rw [filterMap_eq_idxOf v l hn 0, if_pos (hu v hv), Nat.zero_add]
  clear hu
  induction u with
  | nil => rfl
  | cons a u ih =>
    rw [List.flatMap_cons, this a (by simp), List.map_cons,
      ih fun v hv => this v (by simp [hv])]
    rfl

theorem gather_find {α : Type} (u l : List Sym) (b : List α) (h : b.length = l.length) :
    gather b (findIndices u l) = .ok ((findIndices u l).filterMap fun i => b[i]?) := by
  unfold gather
  rw [if_pos]
  rw [List.all_eq_true]
  intro i hi
  have := findIndices_lt hi
  simp only [decide_eq_true_eq]
  omega

theorem lookup_zip {α : Type} (l : List Sym) (b : List α) (h : b.length = l.length) (v : Sym)
    (hv : v ∈ l) : (l.zip b).lookup v = b[l.idxOf v]? := by
  induction l generalizing b with
  | nil => simp at hv
  | cons a l ih =>
    cases b with
    | nil => simp at h
    | cons c b =>
      rw [List.zip_cons_cons, List.lookup_cons]
      by_cases e : v = a
      · subst e; simp
      · have e' : a ≠ v := fun h => e h.symm
        rw [List.idxOf_cons_ne _ e', List.getElem?_cons_succ]
        have : (v == a) = false := by simp [e]
        simp only [this]
        exact ih b (by simpa using h) (by simpa [e] using hv)

/-- The bounds picked for distinct variables are their own bounds. -/
theorem gathered {α : Type} (u l : List Sym) (b : List α) (h : b.length = l.length) (hn : l.Nodup)
    (hu : ∀ v ∈ u, v ∈ l) :
    ((findIndices u l).filterMap fun i => b[i]?).map some = u.map fun v => (l.zip b).lookup v := by
  rw [findIndices_nodup u l hn hu, List.filterMap_map]
  clear hn
  induction u with
  | nil => rfl
  | cons a u ih =>
    have ha : a ∈ l := hu a (by simp)
    have hlt : l.idxOf a < b.length := by rw [h]; exact List.idxOf_lt_length_of_mem ha
    simp only [List.filterMap_cons, Function.comp_apply, List.getElem?_eq_getElem hlt,
      List.map_cons, lookup_zip l b h a ha]
    exact congrArg _ (ih fun v hv => hu v (by simp [hv]))

/-! ### Calls that return -/

namespace Py
variable {σ : Type} {α β : Type}

theorem raiseIf_ok {c : Bool} {e : Err} {s s' : σ} {a : Unit} :
    Py.raiseIf c e s = (.ok a, s') ↔ c = false ∧ s' = s := by
  unfold Py.raiseIf
  cases c <;> simp [eq_comm]

theorem lift_ok {r : Except Err α} {s s' : σ} {a : α} :
    Py.lift r s = (.ok a, s') ↔ r = .ok a ∧ s' = s := by
  simp [Py.lift, eq_comm]

theorem get_ok {s s' : σ} {a : σ} : Py.get s = (.ok a, s') ↔ a = s ∧ s' = s := by
  simp [Py.get, eq_comm]

theorem modify_ok {f : σ → σ} {s s' : σ} {a : Unit} :
    Py.modify f s = (.ok a, s') ↔ s' = f s := by
  simp [eq_comm]

theorem raiseIf_bind_ok {c : Bool} {e : Err} {f : Unit → Py σ β} {s s'' : σ} {b : β} :
    Py.bind (Py.raiseIf c e) f s = (.ok b, s'') ↔ c = false ∧ f () s = (.ok b, s'') := by
  cases c <;> simp [Py.raiseIf]

theorem lift_bind_ok {r : Except Err α} {f : α → Py σ β} {s s'' : σ} {b : β} :
    Py.bind (Py.lift r) f s = (.ok b, s'') ↔ ∃ a, r = .ok a ∧ f a s = (.ok b, s'') := by
  cases r <;> simp

end Py

namespace Ocp

theorem onModel_ok {α : Type} {c : Py SysModel α} {o o' : Ocp} {a : α} :
    onModel c o = (.ok a, o') ↔ ∃ m', c o.model = (.ok a, m') ∧ o' = { o with model := m' } := by
  unfold onModel
  constructor
  · intro h
    simp only [Prod.mk.injEq] at h
    exact ⟨(c o.model).2, by rw [← h.1], h.2.symm⟩
  · rintro ⟨m', h, rfl⟩
    rw [h]

theorem onModel_bind_ok {α β : Type} {c : Py SysModel α} {f : α → Py Ocp β} {o o' : Ocp} {b : β} :
    Py.bind (onModel c) f o = (.ok b, o') ↔
      ∃ a m', c o.model = (.ok a, m') ∧ f a { o with model := m' } = (.ok b, o') := by
  rw [Py.bind_eq_ok]
  constructor
  · rintro ⟨a, o₁, h₁, h₂⟩
    obtain ⟨m', h₃, rfl⟩ := onModel_ok.mp h₁
    exact ⟨a, m', h₃, h₂⟩
  · rintro ⟨a, m', h₁, h₂⟩
    exact ⟨a, _, onModel_ok.mpr ⟨m', h₁, rfl⟩, h₂⟩

theorem includeState_ok_iff {var ode x0 xMin xMax hI x0S sup fresh} {o o' : Ocp} :
    includeState var ode x0 xMin xMax hI x0S sup fresh o = (.ok (), o') ↔
      (x0.isNone && hI.isNone && !sup) = false ∧
      ∃ lo hi m' h, stateBound ⊥ var.length xMin = .ok lo ∧ stateBound ⊤ var.length xMax = .ok hi ∧
        var.length = hi.length ∧ var.length = lo.length ∧
        (x0.any fun v => decide (var.length ≠ v.length)) = false ∧
        SysModel.includeState var ode x0S fresh o.model = (.ok (), m') ∧
        initialConstraint x0 hI (x0Symbols var x0S fresh) var = .ok h ∧
        o' = { o with
          model := m'
          x0 := o.x0 ++ x0.getD (List.replicate var.length 0)
          hInitial := o.hInitial ++ h.getD []
          xMin := o.xMin ++ lo
          xMax := o.xMax ++ hi } := by
  unfold includeState
  simp only [Py.bind_eq, Py.raiseIf_bind_ok, Py.lift_bind_ok, onModel_bind_ok, Py.modify_bind,
    Py.modify_ok, decide_eq_false_iff_not, not_not, ne_eq]
  constructor
  · rintro ⟨h₀, lo, h₁, hi, h₂, h₃, h₄, h₅, _, m', h₆, h, h₇, rfl⟩
    exact ⟨h₀, lo, hi, m', h, h₁, h₂, h₃, h₄, h₅, h₆, h₇, rfl⟩
  · rintro ⟨h₀, lo, hi, m', h, h₁, h₂, h₃, h₄, h₅, h₆, h₇, rfl⟩
    exact ⟨h₀, lo, h₁, hi, h₂, h₃, h₄, h₅, _, m', h₆, h, h₇, rfl⟩

theorem includeAlgebraic_ok_iff {var alg yMin yMax g} {o o' : Ocp} :
    includeAlgebraic var alg yMin yMax g o = (.ok (), o') ↔
      var.length = (yMin.getD (List.replicate var.length ⊥)).length ∧
      var.length = (yMax.getD (List.replicate var.length ⊤)).length ∧
      o' = { o with
        model := { o.model with y := o.model.y ++ var, alg := o.model.alg ++ alg.getD [] }
        yGuess := extendGuess var.length o.yGuess g
        yMin := o.yMin ++ yMin.getD (List.replicate var.length ⊥)
        yMax := o.yMax ++ yMax.getD (List.replicate var.length ⊤) } := by
  unfold includeAlgebraic
  simp only [Py.bind_eq, Py.raiseIf_bind_ok, onModel_bind_ok, Py.modify_bind, Py.modify_ok,
    SysModel.includeAlgebraic_run, decide_eq_false_iff_not, not_not, ne_eq]
  constructor
  · rintro ⟨h₀, h₁, _, _, h₂, rfl⟩
    simp only [Prod.mk.injEq] at h₂
    obtain ⟨-, rfl⟩ := h₂
    exact ⟨h₀, h₁, rfl⟩
  · rintro ⟨h₀, h₁, rfl⟩
    exact ⟨h₀, h₁, _, _, rfl, rfl⟩

theorem includeControl_ok_iff {var lo hi dlo dhi g} {o o' : Ocp} :
    includeControl var lo hi dlo dhi g o = (.ok (), o') ↔
      (g.isNone && o.uGuess.isSome) = false ∧
      var.length = (controlBound ⊥ var.length lo).length ∧
      var.length = (controlBound ⊤ var.length hi).length ∧
      var.length = (controlBound ⊥ var.length dlo).length ∧
      var.length = (controlBound ⊤ var.length dhi).length ∧
      (g.any fun g => decide (var.length ≠ g.length)) = false ∧
      o' = { o with
        uMin := o.uMin ++ controlBound ⊥ var.length lo
        uMax := o.uMax ++ controlBound ⊤ var.length hi
        duMin := o.duMin ++ controlBound ⊥ var.length dlo
        duMax := o.duMax ++ controlBound ⊤ var.length dhi
        uGuess := controlGuess o.model.u.length o.uGuess g
        model := { o.model with
          u := o.model.u ++ var
          uExpr := o.model.uExpr ++ var.map .sym
          uPar := o.model.uPar ++ var } } := by
  unfold includeControl SysModel.includeControl
  simp only [Py.bind_eq, Py.raiseIf_bind_ok, Py.get_bind, onModel_ok, Py.modify_bind, Py.modify_ok,
    decide_eq_false_iff_not, not_not, ne_eq, exists_eq_left]

theorem setParameterOpt_ok_iff {v lo hi} {o o' : Ocp} :
    setParameterOpt v lo hi o = (.ok (), o') ↔
      v.length = (hi.getD (List.replicate v.length ⊤)).length ∧
      v.length = (lo.getD (List.replicate v.length ⊥)).length ∧
      o' = { o with
        pOpt := o.pOpt ++ v
        pOptMin := o.pOptMin ++ lo.getD (List.replicate v.length ⊥)
        pOptMax := o.pOptMax ++ hi.getD (List.replicate v.length ⊤) } := by
  unfold setParameterOpt
  simp only [Py.bind_eq, Py.raiseIf_bind_ok, Py.modify_ok, decide_eq_false_iff_not, not_not, ne_eq]

theorem setThetaOpt_ok_iff {v lo hi} {o o' : Ocp} :
    setThetaOpt v lo hi o = (.ok (), o') ↔
      v.length = (hi.getD (List.replicate v.length ⊤)).length ∧
      v.length = (lo.getD (List.replicate v.length ⊥)).length ∧
      o' = { o with
        thetaOpt := o.thetaOpt ++ v
        thetaOptMin := o.thetaOptMin ++ lo.getD (List.replicate v.length ⊥)
        thetaOptMax := o.thetaOptMax ++ hi.getD (List.replicate v.length ⊤) } := by
  unfold setThetaOpt
  simp only [Py.bind_eq, Py.raiseIf_bind_ok, Py.modify_ok, decide_eq_false_iff_not, not_not, ne_eq]

/-- The part of `l` at the positions of the variables not in `v`. -/
def kept {α : Type} (v vars : List Sym) (b : List α) : List α :=
  ((vars.zip b).filter fun p => decide (p.1 ∉ v)).map Prod.snd

theorem removeAlgebraic_ok_iff {v eq} {o o' : Ocp} (hhi : o.yMax.length = o.model.y.length)
    (hlo : o.yMin.length = o.model.y.length) :
    removeAlgebraic v eq o = (.ok (), o') ↔
      ∃ g m', removeGuess (((findIndices v o.model.y).map Int.ofNat).reverse) o.yGuess = .ok g ∧
      SysModel.removeAlgebraic v eq o.model = (.ok (), m') ∧
      o' = { o with
        model := m'
        yMax := kept v o.model.y o.yMax
        yMin := kept v o.model.y o.yMin
        yGuess := g } := by
  unfold removeAlgebraic
  simp only [Py.bind_eq, Py.get_bind, removeByIndices_reverse, removeByIndices_find _ _ _ hhi,
    removeByIndices_find _ _ _ hlo, Py.lift_ok_bind, Py.modify_bind]
  simp only [Py.lift_bind_ok, onModel_ok, Py.modify_bind]
  constructor
  · rintro ⟨g, h₁, m', h₂, rfl⟩
    exact ⟨g, m', h₁, h₂, rfl⟩
  · rintro ⟨g, m', h₁, h₂, rfl⟩
    exact ⟨g, h₁, m', h₂, rfl⟩

theorem removeControl_ok_iff {v} {o o' : Ocp} (h₁ : o.uMax.length = o.model.u.length)
    (h₂ : o.uMin.length = o.model.u.length) (h₃ : o.duMax.length = o.model.u.length)
    (h₄ : o.duMin.length = o.model.u.length) :
    removeControl v o = (.ok (), o') ↔
      ∃ g m', removeGuess ((findIndices v o.model.u).map Int.ofNat) o.uGuess = .ok g ∧
      SysModel.removeControl v o.model = (.ok (), m') ∧
      o' = { o with
        model := m'
        uMax := kept v o.model.u o.uMax
        uMin := kept v o.model.u o.uMin
        duMax := kept v o.model.u o.duMax
        duMin := kept v o.model.u o.duMin
        uGuess := g } := by
  have hb : removeControlBounds ((findIndices v o.model.u).map Int.ofNat) o = (.ok (), { o with
        uMax := kept v o.model.u o.uMax
        uMin := kept v o.model.u o.uMin
        duMax := kept v o.model.u o.duMax
        duMin := kept v o.model.u o.duMin }) := by
    unfold removeControlBounds
    simp only [Py.bind_eq, Py.get_bind, removeByIndices_find _ _ _ h₁, removeByIndices_find _ _ _ h₂,
      removeByIndices_find _ _ _ h₃, removeByIndices_find _ _ _ h₄, Py.lift_ok_bind,
      Py.modify_bind, Py.modify_apply]
    rfl
  unfold removeControl
  simp only [Py.bind_eq, Py.get_bind]
  rw [Py.bind_ok hb]
  simp only [Py.lift_bind_ok, onModel_ok, Py.modify_bind]
  constructor
  · rintro ⟨g, h₁, m', h₂, rfl⟩
    exact ⟨g, m', h₁, h₂, rfl⟩
  · rintro ⟨g, m', h₁, h₂, rfl⟩
    exact ⟨g, h₁, m', h₂, rfl⟩

theorem replaceVariable_run (v : List Sym) (w : List Expr) (o : Ocp) :
    replaceVariable v w o = if v.length ≠ w.length then (.error .valueError, o) else
      (.ok (), { o with
        L := o.L.subst v w
        V := o.V.subst v w
        S := o.S.subst v w
        hInitial := o.hInitial.map (Expr.subst v w)
        hFinal := o.hFinal.map (Expr.subst v w)
        gIneq := o.gIneq.map (Expr.subst v w)
        gEq := o.gEq.map (Expr.subst v w)
        h := o.h.map (Expr.subst v w)
        model := (SysModel.replaceVariable v w o.model).2 }) := by
  unfold replaceVariable
  simp only [Py.bind_eq]
  by_cases h : v.length = w.length
  · rw [Py.bind_ok (s' := o) (a := ()) (by unfold Py.raiseIf; simp [h])]
    simp only [Py.modify_bind, h]
    unfold onModel SysModel.replaceVariable
    simp [h]
  · rw [if_pos h]
    rw [Py.bind_error (s' := o) (e := .valueError) (by unfold Py.raiseIf; simp [h])]

theorem parametrizeControl_ok_iff {u e up} {o o' : Ocp} :
    parametrizeControl u e up o = (.ok (), o') ↔
      ∃ m', SysModel.parametrizeControl u e up o.model = (.ok (), m') ∧
        replaceVariable u e { o with model := m' } = (.ok (), o') := by
  unfold parametrizeControl
  simp only [Py.bind_eq, onModel_bind_ok]
  exact ⟨fun ⟨_, m', h⟩ => ⟨m', h⟩, fun ⟨m', h⟩ => ⟨(), m', h⟩⟩

theorem createCostState_ok_iff {xc fresh} {o o' : Ocp} :
    createCostState xc fresh o = (.ok (), o') ↔
      ∃ o₁, includeState [xc] (some [o.L]) (some [0])
        (some (.dm [if o.positiveObjective then XRat.fin 0 else ⊥])) none none none false fresh o =
          (.ok (), o₁) ∧ o' = { o₁ with xCost := some xc } := by
  unfold createCostState createState
  simp only [Py.bind_eq, Py.get_bind, Py.bind_eq_ok, Py.modify_ok]
  exact ⟨fun ⟨_, m', h⟩ => ⟨m', h⟩, fun ⟨m', h⟩ => ⟨(), m', h⟩⟩

theorem mergeOne_ok_iff {k} {o o' : Ocp} :
    mergeOne k o = (.ok (), o') ↔ o.t0 = k.t0 ∧ o.tf = k.tf ∧
      ∃ m', SysModel.merge [k.model] none o.model = (.ok (), m') ∧
        o' = { mergeAttributes o k with model := m' } := by
  unfold mergeOne
  simp only [Py.bind_eq, Py.get_bind, Py.raiseIf_bind_ok, onModel_ok, Py.modify_bind,
    decide_eq_false_iff_not, not_not, ne_eq]
  rfl

theorem connectBounds_run (o : Ocp) (u l : List Sym) (h₁ : o.uMax.length = l.length)
    (h₂ : o.uMin.length = l.length) (g : Option (List Rat))
    (hg : connectGuess (findIndices u l) o.yGuess o.uGuess = .ok g) :
    connectBounds (findIndices u l) o = (.ok (), { o with
      yGuess := g
      yMax := o.yMax ++ (findIndices u l).filterMap fun i => o.uMax[i]?
      yMin := o.yMin ++ (findIndices u l).filterMap fun i => o.uMin[i]? }) := by
  unfold connectBounds
  simp only [Py.bind_eq, Py.get_bind, hg, gather_find _ _ _ h₁, gather_find _ _ _ h₂,
    Py.lift_ok_bind, Py.modify_bind, Py.modify_apply]

theorem connect_ok_iff {u y r} {o o' : Ocp} (h₁ : o.uMax.length = o.model.u.length)
    (h₂ : o.uMin.length = o.model.u.length) (h₃ : o.duMax.length = o.model.u.length)
    (h₄ : o.duMin.length = o.model.u.length) :
    connect u y r o = (.ok (), o') ↔ u.length = y.length ∧
      ∃ m' gy gu, SysModel.connect u y r o.model = (.ok (), m') ∧
        (if r then .ok o.yGuess else
          connectGuess (findIndices u o.model.u) o.yGuess o.uGuess) = .ok gy ∧
        removeGuess ((findIndices u o.model.u).map Int.ofNat) o.uGuess = .ok gu ∧
        o' = { o with
          model := m'
          yGuess := gy
          uGuess := gu
          yMax := o.yMax ++
            if r then [] else (findIndices u o.model.u).filterMap fun i => o.uMax[i]?
          yMin := o.yMin ++
            if r then [] else (findIndices u o.model.u).filterMap fun i => o.uMin[i]?
          uMax := kept u o.model.u o.uMax
          uMin := kept u o.model.u o.uMin
          duMax := kept u o.model.u o.duMax
          duMin := kept u o.model.u o.duMin } := by
  unfold connect
  simp only [Py.bind_eq, Py.raiseIf_bind_ok, Py.get_bind, onModel_bind_ok, decide_eq_false_iff_not,
    not_not, ne_eq, removeByIndices_find _ _ _ h₁, removeByIndices_find _ _ _ h₂,
    removeByIndices_find _ _ _ h₃, removeByIndices_find _ _ _ h₄]
  refine and_congr_right fun _ => ?_
  cases r with
  | true =>
    simp only [when, Bool.not_true, Bool.false_eq_true, if_false, Py.pure_bind, Py.lift_bind_ok,
      Py.modify_ok, Py.modify_bind, if_true, Except.ok.injEq, List.append_nil, exists_eq_left']
    constructor
    · rintro ⟨_, m', h, gu, hgu, rfl⟩
      exact ⟨m', _, gu, h, rfl, hgu, rfl⟩
    · rintro ⟨m', _, gu, h, rfl, hgu, rfl⟩
      exact ⟨_, m', h, gu, hgu, rfl⟩
  | false =>
    simp only [when, Bool.not_false, Bool.false_eq_true, if_false, if_true]
    constructor
    · rintro ⟨_, m', h, hk⟩
      cases hg : connectGuess (findIndices u o.model.u) o.yGuess o.uGuess with
      | error e =>
        rw [Py.bind_error (s' := { o with model := m' }) (e := e)
          (by unfold connectBounds; simp only [Py.bind_eq, Py.get_bind, hg]; rfl)] at hk
        simp at hk
      | ok gy =>
        rw [Py.bind_ok (connectBounds_run { o with model := m' } u o.model.u h₁ h₂ gy hg)] at hk
        simp only [Py.lift_bind_ok, Py.modify_ok, Py.modify_bind, Except.ok.injEq,
          exists_eq_left'] at hk
        obtain ⟨gu, hgu, rfl⟩ := hk
        exact ⟨m', gy, gu, h, rfl, hgu, rfl⟩
    · rintro ⟨m', gy, gu, h, hg, hgu, rfl⟩
      refine ⟨(), m', h, ?_⟩
      rw [Py.bind_ok (connectBounds_run { o with model := m' } u o.model.u h₁ h₂ gy hg)]
      simp only [Py.lift_bind_ok, Py.modify_ok, Py.modify_bind, Except.ok.injEq, exists_eq_left']
      exact ⟨gu, hgu, rfl⟩

end Ocp
end Verif
