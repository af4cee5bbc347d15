import Verif.Model.Expr
import Mathlib.Data.List.Basic
/-! Lemmas on substitution, evaluation and occurrence. -/
namespace Verif.Expr

variable {K : Type u} [Field K]

theorem eval_mapSyms (ops : Ops K) (ρ : Sym → K) (σ : Sym → Expr) (e : Expr) :
    eval ops ρ (mapSyms σ e) = eval ops (fun s => eval ops ρ (σ s)) e := by
  induction e <;> simp_all [mapSyms, eval]

theorem eval_congr (ops : Ops K) (ρ ρ' : Sym → K) (e : Expr)
    (h : ∀ s ∈ e.syms, ρ s = ρ' s) : eval ops ρ e = eval ops ρ' e := by
  induction e <;> simp_all [eval, syms]

theorem replacementOf_not_mem (v : List Sym) (w : List Expr) (s : Sym) (h : s ∉ v) :
    replacementOf v w s = sym s := by
  induction v generalizing w with
  | nil => simp [replacementOf]
  | cons a v ih =>
    cases w with
    | nil => simp [replacementOf]
    | cons b w =>
      simp only [List.mem_cons, not_or] at h
      simp [replacementOf, h.1, ih _ h.2]

theorem replacementOf_get (v : List Sym) (w : List Expr) (hv : v.Nodup) (i : Nat)
    (h₁ : i < v.length) (h₂ : i < w.length) : replacementOf v w v[i] = w[i] := by
  induction v generalizing w i with
  | nil => simp at h₁
  | cons a v ih =>
    cases w with
    | nil => simp at h₂
    | cons b w =>
      cases i with
      | zero => simp [replacementOf]
      | succ i =>
        simp only [List.nodup_cons] at hv
        have hne : v[i]'(by simpa using h₁) ≠ a := fun hh =>
          hv.1 (hh ▸ List.getElem_mem _)
        simp only [List.getElem_cons_succ, replacementOf, if_neg hne]
        exact ih w hv.2 i _ _

theorem replacementOf_mem (v : List Sym) (w : List Expr) (hl : v.length = w.length) (s : Sym)
    (h : s ∈ v) : replacementOf v w s ∈ w := by
  induction v generalizing w with
  | nil => simp at h
  | cons a v ih =>
    cases w with
    | nil => simp at hl
    | cons b w =>
      simp only [replacementOf]
      split
      · simp
      · next hne =>
        simp only [List.mem_cons] at h
        exact List.mem_cons_of_mem _ (ih w (by simpa using hl) (h.resolve_left hne))

/-- Substitution is evaluation at the replaced values. -/
theorem eval_subst (ops : Ops K) (ρ ρ' : Sym → K) (v : List Sym) (w : List Expr) (hv : v.Nodup)
    (hl : v.length = w.length)
    (hin : ∀ i (h₁ : i < v.length) (h₂ : i < w.length), ρ' v[i] = eval ops ρ w[i])
    (hout : ∀ s, s ∉ v → ρ' s = ρ s) (e : Expr) :
    eval ops ρ (subst v w e) = eval ops ρ' e := by
  rw [subst, eval_mapSyms]
  congr 1
  funext s
  by_cases hs : s ∈ v
  · obtain ⟨i, hi, rfl⟩ := List.getElem_of_mem hs
    rw [replacementOf_get v w hv i hi (hl ▸ hi), hin i hi (hl ▸ hi)]
  · rw [replacementOf_not_mem v w s hs, hout s hs]; rfl

theorem mem_syms_mapSyms (σ : Sym → Expr) (e : Expr) (s : Sym) :
    s ∈ (mapSyms σ e).syms ↔ ∃ r ∈ e.syms, s ∈ (σ r).syms := by
  induction e <;> simp_all [mapSyms, syms, or_and_right, exists_or]

theorem mapSyms_id (σ : Sym → Expr) (e : Expr) (h : ∀ s ∈ e.syms, σ s = sym s) :
    mapSyms σ e = e := by
  induction e <;> simp_all [mapSyms, syms]

theorem subst_eq_self (v : List Sym) (w : List Expr) (e : Expr) (h : ∀ s ∈ v, s ∉ e.syms) :
    subst v w e = e :=
  mapSyms_id _ _ fun s hs => replacementOf_not_mem v w s fun hv => h s hv hs

/-- Symbols after a substitution: old ones not replaced, or symbols of a replacement. -/
theorem mem_syms_subst (v : List Sym) (w : List Expr) (hl : v.length = w.length) (e : Expr)
    (s : Sym) (h : s ∈ (subst v w e).syms) :
    (s ∈ e.syms ∧ s ∉ v) ∨ ∃ r ∈ w, s ∈ r.syms := by
  rw [subst, mem_syms_mapSyms] at h
  obtain ⟨r, hr, hs⟩ := h
  by_cases hv : r ∈ v
  · exact .inr ⟨_, replacementOf_mem v w hl r hv, hs⟩
  · rw [replacementOf_not_mem v w r hv] at hs
    simp only [syms, List.mem_singleton] at hs
    subst hs
    exact .inl ⟨hr, hv⟩

end Verif.Expr
