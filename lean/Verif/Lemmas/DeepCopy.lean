import Verif.Spec.DeepCopy
import Verif.Lemmas.Merge
/-! Lemmas on deep copies. -/
namespace Verif
open SysModel

theorem replacementOf_append (v₁ v₂ : List Sym) (w₁ w₂ : List Expr) (h : v₁.length = w₁.length)
    (s : Sym) : Expr.replacementOf (v₁ ++ v₂) (w₁ ++ w₂) s =
      if s ∈ v₁ then Expr.replacementOf v₁ w₁ s else Expr.replacementOf v₂ w₂ s := by
  induction v₁ generalizing w₁ with
  | nil =>
    cases w₁ with
    | nil => simp
    | cons b w => simp at h
  | cons a v ih =>
    cases w₁ with
    | nil => simp at h
    | cons b w =>
      simp only [List.cons_append, Expr.replacementOf, List.mem_cons]
      by_cases hs : s = a
      · simp [hs]
      · simp only [hs, if_false, false_or]
        exact ih w (by simpa using h)

/-- Renaming in two steps, when the new names of the first are not renamed by the second. -/
theorem subst_subst (v₁ v₂ : List Sym) (w₁ : List Sym) (w₂ : List Expr) (h : v₁.length = w₁.length)
    (hw : ∀ s ∈ w₁, s ∉ v₂) (e : Expr) :
    (e.subst v₁ (w₁.map .sym)).subst v₂ w₂ = e.subst (v₁ ++ v₂) (w₁.map .sym ++ w₂) := by
  simp only [Expr.subst]
  induction e with
  | sym s =>
    simp only [Expr.mapSyms]
    rw [replacementOf_append _ _ _ _ (by simpa using h)]
    by_cases hs : s ∈ v₁
    · rw [if_pos hs]
      obtain ⟨r, hr, hre⟩ := List.mem_map.mp
        (Expr.replacementOf_mem v₁ (w₁.map .sym) (by simpa using h) s hs)
      rw [← hre]
      simp only [Expr.mapSyms]
      exact Expr.replacementOf_not_mem _ _ _ (hw r hr)
    · rw [if_neg hs, Expr.replacementOf_not_mem _ _ _ hs]
      rfl
  | _ => simp_all [Expr.mapSyms]

/-- A renaming evaluated at `ρ`: each symbol takes the value of its first new name. -/
theorem eval_rename {K : Type u} [Field K] (ops : Expr.Ops K) (v w : List Sym)
    (hl : v.length = w.length) (ρ ρ' : Sym → K)
    (hin : ∀ s ∈ v, ∀ r, w[v.idxOf s]? = some r → ρ' s = ρ r)
    (hout : ∀ s, s ∉ v → ρ' s = ρ s) (e : Expr) :
    (e.subst v (w.map .sym)).eval ops ρ = e.eval ops ρ' := by
  rw [Expr.subst, Expr.eval_mapSyms]
  congr 1
  funext s
  by_cases hs : s ∈ v
  · have hr : ∀ (v w : List Sym), v.length = w.length → s ∈ v → ∃ r, w[v.idxOf s]? = some r ∧
        Expr.replacementOf v (w.map .sym) s = .sym r := by
      intro v
      induction v with
      | nil => intro w _ h; simp at h
      | cons a v ih =>
        intro w hl hs
        cases w with
        | nil => simp at hl
        | cons b w =>
          by_cases h : s = a
          · exact ⟨b, by simp [h], by simp [Expr.replacementOf, h]⟩
          · obtain ⟨r, h₁, h₂⟩ := ih w (by simpa using hl) (by simpa [h] using hs)
            refine ⟨r, ?_, ?_⟩
            · rw [List.idxOf_cons_ne _ (Ne.symm h)]; simpa using h₁
            · simpa [Expr.replacementOf, h] using h₂
    obtain ⟨r, h₁, h₂⟩ := hr v w hl hs
    rw [h₂, hin s hs r h₁]
    rfl
  · rw [Expr.replacementOf_not_mem _ _ _ hs, hout s hs]
    rfl

theorem replace_ok (v : List Sym) (w : List Expr) (m : SysModel) (hl : v.length = w.length) :
    replaceVariable v w m = (.ok (), { m with
      uExpr := m.uExpr.map (Expr.subst v w)
      alg := m.alg.map (Expr.subst v w)
      ode := m.ode.map fun kv => (kv.1, kv.2.map (Expr.subst v w)) }) := by
  rw [replaceVariable, if_neg (not_not.mpr hl)]
  by_cases h0 : v.length > 0
  · simp only [if_pos h0, substSlot_eq]
  · have hv0 : v = [] := List.eq_nil_of_length_eq_zero (by omega)
    subst hv0
    have : (m.ode.map fun kv => (kv.1, kv.2.map (Expr.subst [] w))) = m.ode :=
      map_slots_id _ _ fun s e _ => Expr.subst_eq_self [] w e (by simp)
    simp only [if_neg h0, this]

theorem createStates_run (xs x0s : List Sym) (m : SysModel) (hl : xs.length = x0s.length)
    (hn : xs.Nodup) (hd : ∀ s ∈ xs, s ∉ m.ode.keys) :
    Py.forEach (xs.zip x0s) (fun xx => createState [xx.1] [xx.2]) m =
      (.ok (), { m with x := m.x ++ xs, x0 := m.x0 ++ x0s,
                        ode := m.ode ++ xs.map fun s => (s, none) }) := by
  induction xs generalizing x0s m with
  | nil =>
    cases x0s with
    | nil => simp [Py.forEach, Py.pure]
    | cons b x0s => simp at hl
  | cons a xs ih =>
    cases x0s with
    | nil => simp at hl
    | cons b x0s =>
      rw [List.zip_cons_cons, Py.forEach]
      have hc : createState [a] [b] m = (.ok (), { m with
          x := m.x ++ [a], x0 := m.x0 ++ [b], ode := m.ode ++ [(a, none)] }) := by
        unfold createState
        exact (includeState_ok_iff ..).mpr ⟨by simp, by simp, by simpa using hd a (by simp),
          by simp, by simp [tableWith, newX0]⟩
      rw [Py.bind_ok hc, ih]
      · simp
      · simpa using hl
      · exact (List.nodup_cons.mp hn).2
      · intro s hs
        simp only [keys_append, List.mem_append, not_or]
        refine ⟨hd s (by simp [hs]), ?_⟩
        simp only [Dict.keys, List.map_cons, List.map_nil, List.mem_cons, List.not_mem_nil,
          or_false]
        exact fun h => (List.nodup_cons.mp hn).1 (h ▸ hs)

theorem forEach_includeAlgebraic (l : List Sym) (m : SysModel) :
    Py.forEach l (fun s => includeAlgebraic [s] none) m = (.ok (), { m with y := m.y ++ l }) := by
  induction l generalizing m with
  | nil => simp [Py.forEach, Py.pure]
  | cons a l ih => rw [Py.forEach, Py.bind_ok (includeAlgebraic_none ..), ih]; simp

theorem forEach_includeControl (l : List Sym) (m : SysModel) :
    Py.forEach l (fun s => includeControl [s]) m = (.ok (), { m with
      u := m.u ++ l, uExpr := m.uExpr ++ l.map .sym, uPar := m.uPar ++ l }) := by
  induction l generalizing m with
  | nil => simp [Py.forEach, Py.pure]
  | cons a l ih => rw [Py.forEach, includeControl, Py.modify_bind, ih]; simp

theorem forEach_includeParameter (l : List Sym) (m : SysModel) :
    Py.forEach l (fun s => includeParameter [s]) m = (.ok (), { m with p := m.p ++ l }) := by
  induction l generalizing m with
  | nil => simp [Py.forEach, Py.pure]
  | cons a l ih => rw [Py.forEach, includeParameter, Py.modify_bind, ih]; simp

theorem forEach_includeTheta (l : List Sym) (m : SysModel) :
    Py.forEach l (fun s => includeTheta [s]) m = (.ok (), { m with theta := m.theta ++ l }) := by
  induction l generalizing m with
  | nil => simp [Py.forEach, Py.pure]
  | cons a l ih => rw [Py.forEach, includeTheta, Py.modify_bind, ih]; simp

/-- The variables of the copy. -/
theorem deepCopyVariables_run (f : Fresh) (hl : f.x.length = f.x0.length) (hn : f.x.Nodup) :
    deepCopyVariables f (new f.t f.tau) = (.ok (), {
      t := f.t, tau := f.tau, x := f.x, x0 := f.x0,
      ode := f.x.map fun s => (s, none), y := f.y, u := f.u, uExpr := f.u.map .sym, uPar := f.u,
      p := f.p, theta := f.theta }) := by
  unfold deepCopyVariables
  simp only [Py.bind_eq]
  rw [Py.bind_ok (createStates_run f.x f.x0 _ hl hn (by simp [new, Dict.keys])),
    Py.bind_ok (forEach_includeAlgebraic ..), Py.bind_ok (forEach_includeControl ..),
    Py.bind_ok (forEach_includeParameter ..), forEach_includeTheta]
  simp [new]

/-- Guessing states when no state has an equation yet. -/
theorem guess_empty (m : SysModel) (xs : List Sym) (n : Nat)
    (h : m.ode = xs.map fun s => (s, none)) (hx : xs ≠ []) (hn : 0 < n) :
    guessStates m n = .ok (xs.take n) := by
  unfold guessStates
  cases xs with
  | nil => exact absurd rfl hx
  | cons a xs =>
    cases n with
    | zero => omega
    | succ n => simp [h, Dict.values, Dict.keys, Function.comp_def, List.findIdx?_cons]

theorem rename_chain (m : SysModel) (f : Fresh) (h : Spec.FreshFor m f) (e : Expr) :
    ((((((e.subst m.x (f.x.map .sym)).subst m.y (f.y.map .sym)).subst m.u (f.u.map .sym)).subst
      m.p (f.p.map .sym)).subst m.theta (f.theta.map .sym)).subst m.uPar (f.uPar.map .sym)) =
      Spec.rename m f e := by
  have hnew := h.new
  simp only [Spec.newVars, Spec.oldVars, List.mem_append, not_or] at hnew
  have hx : ∀ s ∈ f.x, _ := fun s hs => hnew s (.inl (.inl (.inl (.inl (.inl hs)))))
  have hy : ∀ s ∈ f.y, _ := fun s hs => hnew s (.inl (.inl (.inl (.inl (.inr hs)))))
  have hu : ∀ s ∈ f.u, _ := fun s hs => hnew s (.inl (.inl (.inl (.inr hs))))
  have hp : ∀ s ∈ f.p, _ := fun s hs => hnew s (.inl (.inl (.inr hs)))
  have hth : ∀ s ∈ f.theta, _ := fun s hs => hnew s (.inl (.inr hs))
  rw [subst_subst m.x m.y f.x _ h.x.symm fun s hs => (hx s hs).1.1.1.1.2, ← List.map_append,
    subst_subst _ m.u _ _ (by simp [h.x, h.y]) (by
      intro s hs; rcases List.mem_append.mp hs with hs | hs
      exacts [(hx s hs).1.1.1.2, (hy s hs).1.1.1.2]), ← List.map_append,
    subst_subst _ m.p _ _ (by simp [h.x, h.y, h.u]) (by
      intro s hs
      simp only [List.mem_append] at hs
      rcases hs with (hs | hs) | hs
      exacts [(hx s hs).1.1.2, (hy s hs).1.1.2, (hu s hs).1.1.2]), ← List.map_append,
    subst_subst _ m.theta _ _ (by simp [h.x, h.y, h.u, h.p]) (by
      intro s hs
      simp only [List.mem_append] at hs
      rcases hs with ((hs | hs) | hs) | hs
      exacts [(hx s hs).1.2, (hy s hs).1.2, (hu s hs).1.2, (hp s hs).1.2]), ← List.map_append,
    subst_subst _ m.uPar _ _ (by simp [h.x, h.y, h.u, h.p, h.theta]) (by
      intro s hs
      simp only [List.mem_append] at hs
      rcases hs with (((hs | hs) | hs) | hs) | hs
      exacts [(hx s hs).2, (hy s hs).2, (hu s hs).2, (hp s hs).2, (hth s hs).2]),
    ← List.map_append]
  rfl

theorem deepCopy_run (m : SysModel) (f : Fresh) (h : Spec.FreshFor m f) (hc : Spec.Complete m)
    (hx : m.x ≠ []) : deepCopy m f = .ok (Spec.deepCopied m f) := by
  have hpos : 0 < m.x.length := List.length_pos_iff.mpr hx
  have hlen := complete_length m hc
  have hfx : f.x ≠ [] := by
    intro h0; have := h.x; rw [h0] at this; simp at this; omega
  have heq : ∀ c : SysModel, c.ode = (f.x.map fun s => (s, none)) →
      includeEquations [] (some m.odeVec) none m.alg c =
        (.ok (), { c with alg := c.alg ++ m.alg, ode := f.x.zip (m.odeVec.map some) }) := by
    intro c hcode
    have hg : guessStates { c with alg := c.alg ++ m.alg } m.odeVec.length = .ok f.x := by
      rw [guess_empty _ f.x _ (by exact hcode) hfx (by omega), List.take_of_length_le (by rw [h.x, hlen])]
    have hkw : includeFromKwargs f.x m.odeVec { c with alg := c.alg ++ m.alg } =
        (.ok (), { c with alg := c.alg ++ m.alg, ode := f.x.zip (m.odeVec.map some) }) := by
      refine (includeFromKwargs_ok_iff ..).mpr ⟨by rw [hlen, h.x], ?_, ?_⟩
      · intro v hv; simp only [hcode, keys_new]; exact hv
      · have := update_fresh_slots [] f.x (m.odeVec.map some) h.distinct (by simp [Dict.keys])
          (by simp [hlen, h.x])
        simp only [List.nil_append] at this
        simp only [hcode, this]
    simp only [includeEquations, includeAlgEquations, includeArgs, Py.bind_eq, Py.modify_bind,
      List.length_nil, gt_iff_lt, Nat.lt_irrefl, if_false, Py.pure_bind, Py.get_bind,
      List.flatMap_nil, List.append_nil]
    rw [hg, Py.lift_ok_bind, hkw]
  unfold deepCopy
  simp only [Py.bind_eq]
  rw [Py.bind_ok (deepCopyVariables_run f (by rw [h.x, h.x0]) h.distinct)]
  unfold deepCopyEquations
  simp only [Py.bind_eq]
  rw [Py.bind_ok (heq _ rfl), Py.modify_bind,
    Py.bind_ok (replace_ok m.x _ _ (by simp [h.x])),
    Py.bind_ok (replace_ok m.y _ _ (by simp [h.y])),
    Py.bind_ok (replace_ok m.u _ _ (by simp [h.u])),
    Py.bind_ok (replace_ok m.p _ _ (by simp [h.p])),
    Py.bind_ok (replace_ok m.theta _ _ (by simp [h.theta])),
    Py.bind_ok (replace_ok m.uPar _ _ (by simp [h.uPar]))]
  simp only [Py.modify, List.map_map, Function.comp_def, Option.map_map, rename_chain m f h,
    Spec.deepCopied, List.nil_append]
  have hz : (f.x.zip (m.odeVec.map some)).map (fun kv => (kv.1, kv.2.map (Spec.rename m f))) =
      f.x.zip (m.odeVec.map fun e => some (Spec.rename m f e)) := by
    rw [List.zip_map_right, List.zip_map_right, List.map_map]
    rfl
  rw [hz]

end Verif
