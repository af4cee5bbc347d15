import Verif.Model.Indirect
import Verif.Spec.Indirect
import Verif.Lemmas.Ocp
import Verif.Lemmas.Diff
import Verif.Lemmas.Merge
import Mathlib.LinearAlgebra.Matrix.NonsingularInverse
/-! Lemmas for the indirect method. -/
namespace Verif

variable {K : Type u} [Field K]

theorem newSyms_length (b : Sym) (n : Nat) : (newSyms b n).length = n := by simp [newSyms]

theorem newSyms_mem {b s : Sym} {n : Nat} (h : s ∈ newSyms b n) : b ≤ s ∧ s < b + n := by
  simp only [newSyms, List.mem_map, List.mem_range] at h
  obtain ⟨i, hi, rfl⟩ := h
  exact ⟨Nat.le_add_right .., Nat.add_lt_add_left hi _⟩

theorem newSyms_nodup (b : Sym) (n : Nat) : (newSyms b n).Nodup :=
  List.nodup_range.map fun _ _ h => Nat.add_left_cancel h

theorem Expr.eval_foldl_add (ops : Expr.Ops K) (ρ : Sym → K) (l : List Expr) (a : Expr) :
    (l.foldl .add a).eval ops ρ = a.eval ops ρ + (l.map (Expr.eval ops ρ)).sum := by
  induction l generalizing a with
  | nil => simp
  | cons b l ih => simp [ih, Expr.eval, add_assoc]

theorem Expr.eval_dot (ops : Expr.Ops K) (ρ : Sym → K) (a b : List Expr) :
    (Expr.dot a b).eval ops ρ =
      (List.zipWith (fun x y => x.eval ops ρ * y.eval ops ρ) a b).sum := by
  rw [Expr.dot, Expr.eval_foldl_add, List.map_zipWith]
  simp [Expr.eval]

theorem Ocp.hamiltonian_ok_iff {lamb nu : List Sym} {o : Ocp} {H : Expr} :
    o.hamiltonian lamb nu = .ok H ↔
      lamb.length = o.model.odeVec.length ∧ nu.length = o.model.alg.length ∧
      H = .add (.add o.L (Expr.dot (lamb.map .sym) o.model.odeVec))
        (Expr.dot (nu.map .sym) o.model.alg) := by
  unfold Ocp.hamiltonian
  split
  · next h => simp only [reduceCtorEq, false_iff]; tauto
  · next h => simp only [Except.ok.injEq]; tauto

theorem eval_hamiltonian (ops : Expr.Ops K) (ρ : Sym → K) (o : Ocp) (lamb nu : List Sym) (H : Expr)
    (h : o.hamiltonian lamb nu = .ok H) :
    H.eval ops ρ = Spec.hamiltonianAt ops o lamb nu ρ := by
  obtain ⟨-, -, rfl⟩ := Ocp.hamiltonian_ok_iff.mp h
  simp [Expr.eval, Expr.eval_dot, Spec.hamiltonianAt, List.zipWith_map_left]

/-- What a successful `create_adjoint_states` leaves. -/
theorem createAdjointStates_ok {D : Expr.DiffTable} {base : Sym} {o o' : Ocp} {H : Expr}
    (h : o.createAdjointStates D base = (.ok H, o')) :
    let lamb := newSyms base o.model.x.length
    let nu := newSyms (base + o.model.x.length) o.model.y.length
    let eta := newSyms (base + o.model.x.length + o.model.y.length) o.hFinal.length
    o.hamiltonian lamb nu = .ok H ∧ (∀ v ∈ lamb, v ∉ o.model.ode.keys) ∧ lamb ≠ [] ∧
    o' = { o with
      eta := eta
      model := { o.model with
        x := o.model.x ++ lamb
        x0 := o.model.x0 ++ newSyms (base + o.model.x.length + o.model.y.length + o.hFinal.length)
          o.model.x.length
        ode := SysModel.tableWith o.model.ode lamb
          (some ((Expr.gradient D o.model.x H).map .neg))
        hasAdjoint := true
        y := o.model.y ++ nu
        alg := o.model.alg ++ Expr.gradient D o.model.y H }
      x0 := o.x0 ++ List.replicate o.model.x.length 0
      xMin := o.xMin ++ List.replicate o.model.x.length ⊥
      xMax := o.xMax ++ List.replicate o.model.x.length ⊤
      yGuess := Ocp.extendGuess o.model.y.length o.yGuess none
      yMin := o.yMin ++ List.replicate o.model.y.length ⊥
      yMax := o.yMax ++ List.replicate o.model.y.length ⊤
      hFinal := o.hFinal ++
        List.zipWith (Ocp.transversality D o.V o.hFinal eta) lamb o.model.x } := by
  intro lamb nu eta
  unfold Ocp.createAdjointStates at h
  simp only [Py.bind_eq, Py.get_bind, Py.modify_bind, Py.lift_bind_ok] at h
  obtain ⟨H', hH, h⟩ := h
  obtain ⟨⟨⟩, o₁, h₁, h⟩ := Py.bind_eq_ok.mp h
  obtain ⟨-, lo, hi, m', hh, hlo, hhi, -, -, -, h₆, h₇, rfl⟩ := Ocp.includeState_ok_iff.mp h₁
  obtain ⟨hne, -, hk, -, rfl⟩ := (SysModel.includeState_ok_iff ..).mp h₆
  cases hlo
  cases hhi
  cases h₇
  rw [Py.modify_bind] at h
  obtain ⟨⟨⟩, o₂, h₂, h⟩ := Py.bind_eq_ok.mp h
  obtain ⟨-, -, rfl⟩ := Ocp.includeAlgebraic_ok_iff.mp h₂
  rw [Py.modify_bind] at h
  simp only [Py.pure, Prod.mk.injEq, Except.ok.injEq] at h
  obtain ⟨rfl, rfl⟩ := h
  refine ⟨hH, hk, hne rfl, ?_⟩
  have hlen : (o.model.x ++ newSyms base o.model.x.length).length / 2 = o.model.x.length := by
    rw [List.length_append, newSyms_length]; omega
  have hx0 : ∀ b c n, SysModel.newX0 (newSyms b n) none c = newSyms c n := by
    intro b c n; simp [SysModel.newX0, newSyms]
  have hd : (o.model.x.length + o.model.x.length) / 2 = o.model.x.length := by omega
  clear h₁ h₂ h₆
  simp [hx0, newSyms_length, SysModel.lamb, SysModel.xSys, hd, eta, lamb, nu]


theorem smoothAt_foldl_add (ops : Expr.Ops ℝ) (D : Expr.DiffTable) (ρ : Sym → ℝ) (l : List Expr)
    (a : Expr) (ha : a.SmoothAt ops D ρ) (hl : ∀ e ∈ l, e.SmoothAt ops D ρ) :
    (l.foldl .add a).SmoothAt ops D ρ := by
  induction l generalizing a with
  | nil => exact ha
  | cons b l ih =>
    exact ih _ ⟨ha, hl b (by simp)⟩ fun e he => hl e (by simp [he])

theorem smoothAt_dot (ops : Expr.Ops ℝ) (D : Expr.DiffTable) (ρ : Sym → ℝ) (a b : List Expr)
    (ha : ∀ e ∈ a, e.SmoothAt ops D ρ) (hb : ∀ e ∈ b, e.SmoothAt ops D ρ) :
    (Expr.dot a b).SmoothAt ops D ρ := by
  refine smoothAt_foldl_add ops D ρ _ _ trivial fun e he => ?_
  obtain ⟨i, hi, rfl⟩ := List.getElem_of_mem he
  rw [List.getElem_zipWith]
  exact ⟨ha _ (List.getElem_mem _), hb _ (List.getElem_mem _)⟩

theorem smoothAt_hamiltonian (ops : Expr.Ops ℝ) (D : Expr.DiffTable) (ρ : Sym → ℝ) (o : Ocp)
    (lamb nu : List Sym) (H : Expr) (h : o.hamiltonian lamb nu = .ok H)
    (hL : o.L.SmoothAt ops D ρ) (ho : ∀ e ∈ o.model.odeVec, e.SmoothAt ops D ρ)
    (ha : ∀ e ∈ o.model.alg, e.SmoothAt ops D ρ) : H.SmoothAt ops D ρ := by
  obtain ⟨-, -, rfl⟩ := Ocp.hamiltonian_ok_iff.mp h
  have hs : ∀ l : List Sym, ∀ e ∈ l.map Expr.sym, e.SmoothAt ops D ρ := by
    intro l e he
    obtain ⟨s, -, rfl⟩ := List.mem_map.mp he
    trivial
  exact ⟨⟨hL, smoothAt_dot ops D ρ _ _ (hs _) ho⟩, smoothAt_dot ops D ρ _ _ (hs _) ha⟩

/-- The table after `create_adjoint_states`. -/
theorem adjoint_table {D : Expr.DiffTable} {base : Sym} {o o' : Ocp} {H : Expr}
    (h : o.createAdjointStates D base = (.ok H, o')) :
    o'.model.ode = o.model.ode ++ (newSyms base o.model.x.length).zip
      (((Expr.gradient D o.model.x H).map .neg).map some) := by
  obtain ⟨-, hk, -, rfl⟩ := createAdjointStates_ok h
  exact update_fresh_slots _ _ _ (newSyms_nodup _ _) hk
    (by simp [newSyms_length, Expr.gradient])

theorem get?_append_zip (d : Dict Sym (Option Expr)) (v : List Sym) (w : List (Option Expr))
    (hv : v.Nodup) (hd : ∀ s ∈ v, s ∉ d.keys) (i : Nat) (h₁ : i < v.length) (h₂ : i < w.length) :
    Dict.get? (d ++ v.zip w) v[i] = some w[i] := by
  rw [Dict.get?_append]
  have hn : d.get? v[i] = none := (Dict.get?_eq_none_iff ..).mpr (hd _ (List.getElem_mem _))
  rw [hn]
  clear hn hd
  induction v generalizing w i with
  | nil => simp at h₁
  | cons a v ih =>
    cases w with
    | nil => simp at h₂
    | cons b w =>
      cases i with
      | zero => simp [Dict.get?]
      | succ i =>
        rw [List.nodup_cons] at hv
        have hne : v[i]'(by simpa using h₁) ≠ a := fun hh => hv.1 (hh ▸ List.getElem_mem _)
        simp only [List.zip_cons_cons, List.getElem_cons_succ, Dict.get?, if_neg hne]
        exact ih w hv.2 i _ _

theorem hasDerivAt_weighted (ops : Expr.Ops ℝ) (D : Expr.DiffTable) (ρ : Sym → ℝ) (x : Sym)
    (hf : List Expr) (eta : List Sym) (hh : ∀ e ∈ hf, e.SmoothAt ops D ρ) :
    HasDerivAt (fun v => (List.zipWith (fun h n => h.eval ops (Function.update ρ x v) * ρ n)
      hf eta).sum)
      (List.zipWith (fun h n => (Expr.diff D x h).eval ops ρ * ρ n) hf eta).sum (ρ x) := by
  induction hf generalizing eta with
  | nil => simpa using hasDerivAt_const (ρ x) (0 : ℝ)
  | cons a hf ih =>
    cases eta with
    | nil => simpa using hasDerivAt_const (ρ x) (0 : ℝ)
    | cons n eta =>
      simp only [List.zipWith_cons_cons, List.sum_cons]
      exact ((Expr.hasDerivAt_diff ops D ρ x a (hh a (by simp))).mul_const _).fun_add
        (ih eta fun e he => hh e (by simp [he]))

theorem XRat.cases (b : XRat) : b = ⊥ ∨ b = ⊤ ∨ ∃ q, b = XRat.fin q := by
  cases b with
  | none => exact .inl rfl
  | some b => cases b with
    | top => exact .inr (.inl rfl)
    | coe q => exact .inr (.inr ⟨q, rfl⟩)

end Verif
