import Verif.Lemmas.DeepCopy
import Verif.Lemmas.Replace
/-!
# C21: `get_deepcopy`

The property is false of the code in four ways (`_fails`); what holds is the `_partial` part.
-/
namespace Verif
open SysModel

/-- C21 (the part that holds). For a model with an equation for each of its (one or more) states the
deep copy succeeds and is the original with `x, y, u, p, theta, u_par` renamed to new symbols, the
i-th state keeping its equation. Missing from C21: time symbols, control parameters, and models
without states or with missing equations, see below. -/
theorem C21_renamed_partial (m : SysModel) (f : Fresh) (h : Spec.FreshFor m f)
    (hc : Spec.Complete m) (hx : m.x ≠ []) : deepCopy m f = .ok (Spec.deepCopied m f) :=
  deepCopy_run m f h hc hx

/-- C21 (the part that holds). The value of each equation of the copy at a point `ρ` is the value
of the original's equation at the point `ρ'` where each old variable has the value of the new one
made for it (the first one: a free control is listed both in `u` and in `u_par`). -/
theorem C21_same_values_partial {K : Type u} [Field K] (ops : Expr.Ops K) (m : SysModel)
    (f : Fresh) (h : Spec.FreshFor m f) (ρ ρ' : Sym → K)
    (hin : ∀ s ∈ Spec.oldVars m, ∀ r, (Spec.newVars f)[(Spec.oldVars m).idxOf s]? = some r →
      ρ' s = ρ r)
    (hout : ∀ s, s ∉ Spec.oldVars m → ρ' s = ρ s) :
    (Spec.deepCopied m f).ode.map (fun kv => kv.2.map (Expr.eval ops ρ)) =
      ((m.odeVec.map fun e => some (Expr.eval ops ρ' e)).take f.x.length) ∧
    (Spec.deepCopied m f).alg.map (Expr.eval ops ρ) = m.alg.map (Expr.eval ops ρ') ∧
    (Spec.deepCopied m f).uExpr.map (Expr.eval ops ρ) = m.uExpr.map (Expr.eval ops ρ') := by
  have hl : (Spec.oldVars m).length = ((Spec.newVars f).map Expr.sym).length := by
    simp [Spec.oldVars, Spec.newVars, h.x, h.y, h.u, h.p, h.theta, h.uPar]
  have he : ∀ e : Expr, (e.subst (Spec.oldVars m) ((Spec.newVars f).map .sym)).eval ops ρ =
      e.eval ops ρ' := fun e => eval_rename ops _ _ (by simpa using hl) ρ ρ' hin hout e
  refine ⟨?_, ?_, ?_⟩
  · simp only [Spec.deepCopied, Spec.rename]
    rw [← List.map_take]
    have : ∀ (a : List Sym) (b : List Expr),
        ((a.zip (b.map fun e => some (e.subst (Spec.oldVars m) ((Spec.newVars f).map .sym)))).map
          fun kv => kv.2.map (Expr.eval ops ρ)) =
        (b.take a.length).map fun e => some (Expr.eval ops ρ' e) := by
      intro a
      induction a with
      | nil => simp
      | cons x a ih =>
        intro b
        cases b with
        | nil => simp
        | cons y b => simp [ih, he]
    exact this _ _
  · simp [Spec.deepCopied, Spec.rename, he, Function.comp_def]
  · simp [Spec.deepCopied, Spec.rename, he, Function.comp_def]

/-- C21 (the part that holds). None of the renamed variables of the original occurs in an equation
of the copy. -/
theorem C21_no_old_variable_partial (m : SysModel) (f : Fresh) (h : Spec.FreshFor m f) (s : Sym)
    (hs : s ∈ Spec.oldVars m) : ∀ e ∈ Spec.equations (Spec.deepCopied m f), s ∉ e.syms := by
  have hl : (Spec.oldVars m).length = ((Spec.newVars f).map Expr.sym).length := by
    simp [Spec.oldVars, Spec.newVars, h.x, h.y, h.u, h.p, h.theta, h.uPar]
  have hren : ∀ e, s ∉ (Spec.rename m f e).syms := by
    intro e hse
    rcases Expr.mem_syms_subst _ _ hl e s hse with ⟨_, h'⟩ | ⟨r, hr, h'⟩
    · exact h' hs
    · obtain ⟨q, hq, rfl⟩ := List.mem_map.mp hr
      simp only [Expr.syms, List.mem_cons, List.not_mem_nil, or_false] at h'
      subst h'
      exact h.new s hq hs
  intro e he
  simp only [Spec.equations, List.mem_append, mem_odeVec, Spec.deepCopied, List.mem_map] at he
  rcases he with (⟨r, he⟩ | ⟨e', _, rfl⟩) | ⟨e', _, rfl⟩
  · obtain ⟨e', _, hee⟩ := List.mem_map.mp (List.of_mem_zip he).2
    simp only [Option.some.injEq] at hee
    exact hee ▸ hren e'
  · exact hren e'
  · exact hren e'

/-- The symbols a model calls its own. -/
def Spec.ownSymbols (m : SysModel) : List Sym :=
  m.t :: m.tau :: (m.x ++ m.y ++ m.p ++ m.theta ++ m.uPar)

/-- C21 is false: equations that mention time keep the time symbol of the original, which the copy
does not own. -/
theorem C21_time_fails (m : SysModel) (f : Fresh)
    (ht : m.t ∉ Spec.oldVars m) (e : Expr) (he : e ∈ m.alg) (hte : m.t ∈ e.syms) :
    ∃ e' ∈ (Spec.deepCopied m f).alg, m.t ∈ e'.syms := by
  refine ⟨Spec.rename m f e, List.mem_map.mpr ⟨e, he, rfl⟩, ?_⟩
  unfold Spec.rename Expr.subst
  rw [Expr.mem_syms_mapSyms]
  exact ⟨m.t, hte, by rw [Expr.replacementOf_not_mem _ _ _ ht]; simp [Expr.syms]⟩

/-- C21 is false, concretely: `der(x) = t` gives a copy whose equation is the original's `t`. -/
theorem C21_own_time_fails : ∃ (m : SysModel) (f : Fresh) (c : SysModel),
    Spec.FreshFor m f ∧ Spec.Complete m ∧ deepCopy m f = .ok c ∧
    ∃ e ∈ Spec.equations c, ∃ s ∈ e.syms, s ∉ Spec.ownSymbols c := by
  refine ⟨{ t := 0, tau := 1, x := [2], x0 := [3], ode := [(2, some (.sym 0))] },
    ⟨10, 11, [12], [13], [], [], [], [], []⟩,
    { t := 10, tau := 11, x := [12], x0 := [13], ode := [(12, some (.sym 0))] }, ?_, ?_, ?_, ?_⟩
  · constructor <;> simp [Spec.newVars, Spec.oldVars]
  · simp [Spec.Complete, Dict.keys]
  · decide +kernel
  · exact ⟨.sym 0, by simp [Spec.equations, odeVec, Dict.values], 0, by simp [Expr.syms],
      by simp [Spec.ownSymbols]⟩

/-- C21 is false: the copy of a model with a free control has equations in the new control symbol,
but its list of control parameters still holds the original's symbol. -/
theorem C21_control_fails : ∃ (m : SysModel) (f : Fresh) (c : SysModel),
    Spec.FreshFor m f ∧ Spec.Complete m ∧ deepCopy m f = .ok c ∧
    c.uPar = m.uPar ∧ c.uPar ≠ [] ∧ (∀ s ∈ c.uPar, s ∉ c.u) ∧
    ∃ e ∈ Spec.equations c, ∃ s ∈ e.syms, s ∉ Spec.ownSymbols c := by
  refine ⟨{ t := 0, tau := 1, x := [2], x0 := [3], ode := [(2, some (.sym 4))], u := [4],
            uExpr := [.sym 4], uPar := [4] },
    ⟨10, 11, [12], [13], [], [14], [], [], [15]⟩,
    { t := 10, tau := 11, x := [12], x0 := [13], ode := [(12, some (.sym 14))], u := [14],
      uExpr := [.sym 14], uPar := [4] }, ?_, ?_, ?_, rfl, by simp, by simp, ?_⟩
  · constructor <;> simp [Spec.newVars, Spec.oldVars]
  · simp [Spec.Complete, Dict.keys]
  · decide +kernel
  · exact ⟨.sym 14, by simp [Spec.equations, odeVec, Dict.values], 14, by simp [Expr.syms],
      by simp [Spec.ownSymbols]⟩

/-- C21 is false: deep-copying a model without states raises (`ValueError`, from looking for a
state without equation). -/
theorem C21_no_states_fails (m : SysModel) (f : Fresh) (h : f.x = []) :
    deepCopy m f = .error .valueError := by
  unfold deepCopy
  have hv := deepCopyVariables_run { f with x := [], x0 := [] } rfl (by simp)
  have hz : deepCopyVariables f = deepCopyVariables { f with x := [], x0 := [] } := by
    simp [deepCopyVariables, h]
  simp only [Py.bind_eq]
  rw [hz, Py.bind_ok (by exact hv)]
  unfold deepCopyEquations
  simp only [Py.bind_eq, includeEquations, includeAlgEquations, includeArgs]
  rw [Py.bind_error (e := .valueError) (by
    rw [Py.modify_bind]
    simp only [List.length_nil, gt_iff_lt, Nat.lt_irrefl, if_false, Py.pure_bind, Py.get_bind]
    rw [guessStates]
    simp only [List.map_nil, Dict.values, List.findIdx?_nil]
    rw [Py.lift_error_bind])]

/-- C21 is false: when an earlier state has no equation the copy gives the equation to the wrong
state. -/
theorem C21_order_fails : ∃ (m : SysModel) (f : Fresh) (c : SysModel),
    Spec.FreshFor m f ∧ deepCopy m f = .ok c ∧
    m.ode = [(2, none), (3, some (.const 5))] ∧ c.ode = [(12, some (.const 5)), (13, none)] := by
  refine ⟨{ t := 0, tau := 1, x := [2, 3], x0 := [4, 5], ode := [(2, none), (3, some (.const 5))] },
    ⟨10, 11, [12, 13], [14, 15], [], [], [], [], []⟩,
    { t := 10, tau := 11, x := [12, 13], x0 := [14, 15],
      ode := [(12, some (.const 5)), (13, none)] }, ?_, ?_, rfl, rfl⟩
  · constructor <;> simp [Spec.newVars, Spec.oldVars]
  · decide +kernel

/-- C21 is false: parametrised controls are not registered in the copy, so it accepts a second
parametrisation that the original refuses. -/
theorem C21_registration_lost_fails (m : SysModel) (f : Fresh) (h : Spec.FreshFor m f)
    (hc : Spec.Complete m) (hx : m.x ≠ []) :
    ∃ c, deepCopy m f = .ok c ∧ c.isParametrized = false :=
  ⟨_, deepCopy_run m f h hc hx, rfl⟩

/-- Non-vacuity: a model with all kinds of variables. -/
example : Spec.FreshFor
    { t := 0, tau := 1, x := [2, 3], x0 := [4, 5], y := [6], u := [7], uExpr := [.sym 7],
      uPar := [7], p := [8], theta := [9],
      ode := [(2, some (.sym 3)), (3, some (.add (.sym 6) (.sym 7)))], alg := [.sub (.sym 6) (.sym 8)] }
    ⟨20, 21, [22, 23], [24, 25], [26], [27], [28], [29], [30]⟩ := by
  constructor <;> simp [Spec.newVars, Spec.oldVars]

end Verif
