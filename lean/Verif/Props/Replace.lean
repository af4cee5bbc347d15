import Verif.Lemmas.Replace
import Mathlib.Tactic.NormNum
/-!
# C16, C17: replacing variables
-/
namespace Verif
open SysModel

/-- C16. After `replace_variable(v, w)` every equation evaluated at `ρ` has the value the old
equation has at `ρ` with each `v[i]` given the value of `w[i]`. The variables are untouched. -/
theorem C16_replace_evaluates {K : Type u} [Field K] (ops : Expr.Ops K) (m : SysModel)
    (v : List Sym) (w : List Expr) (hv : v.Nodup) (hl : v.length = w.length)
    (ρ ρ' : Sym → K) (hρ : Spec.MovedTo ops v w ρ ρ') :
    ∃ m', replaceVariable v w m = (.ok (), m') ∧
      Spec.odeAt ops ρ m' = Spec.odeAt ops ρ' m ∧
      m'.alg.map (Expr.eval ops ρ) = m.alg.map (Expr.eval ops ρ') ∧
      m'.uExpr.map (Expr.eval ops ρ) = m.uExpr.map (Expr.eval ops ρ') ∧
      { m' with ode := m.ode, alg := m.alg, uExpr := m.uExpr } = m := by
  have he := Expr.eval_subst ops ρ ρ' v w hv hl hρ.1 hρ.2
  have hode := odeAt_replace ops m v w hv hl ρ ρ' hρ
  rw [replaceVariable, if_neg (not_not.mpr hl)] at hode ⊢
  refine ⟨_, rfl, hode, ?_, ?_, rfl⟩
  · simp [he]
  · simp [he]

/-- C16. Vectors of different sizes are refused with `ValueError` and nothing changes. -/
theorem C16_size_mismatch (m : SysModel) (v : List Sym) (w : List Expr) (h : v.length ≠ w.length) :
    replaceVariable v w m = (.error .valueError, m) := by
  rw [replaceVariable, if_pos h]

/-- C17. A symbol of `v` that does not occur in `w` occurs in no equation afterwards. -/
theorem C17_gone (m : SysModel) (v : List Sym) (w : List Expr) (hl : v.length = w.length)
    (s : Sym) (hs : s ∈ v) (hw : ∀ r ∈ w, s ∉ r.syms) :
    ∀ e ∈ Spec.equations (replaceVariable v w m).2, s ∉ e.syms := by
  rw [equations_replace m v w hl]
  intro e he hse
  obtain ⟨e', _, rfl⟩ := List.mem_map.mp he
  rcases Expr.mem_syms_subst v w hl e' s hse with ⟨_, h⟩ | ⟨r, hr, h⟩
  · exact h hs
  · exact hw r hr h

/-- C17. The equations are the old ones in the old order, and one not mentioning `v` is the same
expression as before. -/
theorem C17_others_unchanged (m : SysModel) (v : List Sym) (w : List Expr)
    (hl : v.length = w.length) :
    (Spec.equations (replaceVariable v w m).2).length = (Spec.equations m).length ∧
    ∀ (i : Nat) (e : Expr), (Spec.equations m)[i]? = some e → (∀ s ∈ v, s ∉ e.syms) →
      (Spec.equations (replaceVariable v w m).2)[i]? = some e := by
  rw [equations_replace m v w hl]
  refine ⟨by simp, fun i e hi hv => ?_⟩
  rw [List.getElem?_map, hi, Option.map_some, Expr.subst_eq_self v w e hv]

/-- C17. Nothing new occurs besides the symbols of `w`. -/
theorem C17_only_replacement_symbols (m : SysModel) (v : List Sym) (w : List Expr)
    (hl : v.length = w.length) (e : Expr)
    (he : e ∈ Spec.equations (replaceVariable v w m).2) (s : Sym) (hs : s ∈ e.syms) :
    (∃ e' ∈ Spec.equations m, s ∈ e'.syms) ∨ ∃ r ∈ w, s ∈ r.syms := by
  rw [equations_replace m v w hl] at he
  obtain ⟨e', he', rfl⟩ := List.mem_map.mp he
  rcases Expr.mem_syms_subst v w hl e' s hs with ⟨h, _⟩ | h
  · exact .inl ⟨e', he', h⟩
  · exact .inr h

/-- Non-vacuity: a swap of two variables, which a sequential replacement would get wrong. -/
example :
    let m : SysModel := { t := 0, tau := 1, x := [2], y := [3],
                          ode := [(2, some (.sub (.sym 2) (.sym 3)))], alg := [.sym 3] }
    (replaceVariable [2, 3] [.sym 3, .sym 2] m).2.odeVec = [.sub (.sym 3) (.sym 2)] ∧
    (replaceVariable [2, 3] [.sym 3, .sym 2] m).2.alg = [.sym 2] := by decide +kernel

/-- Non-vacuity of `MovedTo`: the swapped point. -/
example : Spec.MovedTo (K := Rat) ⟨fun _ a => a, fun _ a _ => a⟩ [2, 3] [.sym 3, .sym 2]
    (fun s => s) (fun s => if s = 2 then 3 else if s = 3 then 2 else s) := by
  refine ⟨fun i h₁ h₂ => ?_, fun s hs => ?_⟩
  · match i with
    | 0 => norm_num [Expr.eval]
    | 1 => norm_num [Expr.eval]
  · simp only [List.mem_cons, List.not_mem_nil, or_false, not_or] at hs
    simp [hs.1, hs.2]

end Verif
