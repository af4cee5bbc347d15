import Verif.Lemmas.Expr
import Mathlib.Tactic.FieldSimp
import Mathlib.Tactic.Ring
import Mathlib.Tactic.Linarith
import Mathlib.Algebra.CharZero.Defs
import Mathlib.Data.Rat.Cast.CharZero
import Mathlib.Algebra.Order.Field.Rat
/-!
# C05: element-time and absolute-time conversions are mutually inverse

`ρ` assigns values to symbols, `tk`/`tkp1` are the ends of the element. An expression "in element
time" does not mention `t`, one "in absolute time" does not mention `tau`.
-/
namespace Verif

variable {K : Type u} [Field K] [CharZero K]

/-- Element time to absolute time: the value is that of the old expression with
`tau = (t - tk) / h`. -/
theorem C05_tau_to_time_value (ops : Expr.Ops K) (ρ : Sym → K) (e : Expr) (t tau : Sym)
    (tk tkp1 : Rat) :
    (convertTauToTime e t tau tk tkp1).eval ops ρ =
      e.eval ops (fun s => if s = tau then (ρ t - tk) / ((tkp1 - tk : Rat) : K) else ρ s) := by
  rw [convertTauToTime]
  refine Expr.eval_subst ops ρ _ [tau] _ (by simp) (by simp) ?_ ?_ e
  · intro i h₁ h₂
    simp only [List.length_singleton, Nat.lt_one_iff] at h₁
    subst h₁
    simp [Expr.eval]
  · intro s hs; simp only [List.mem_singleton] at hs; simp [hs]

/-- Absolute time to element time: the value is that of the old expression with
`t = tau * h + tk`. -/
theorem C05_time_to_tau_value (ops : Expr.Ops K) (ρ : Sym → K) (e : Expr) (t tau : Sym)
    (tk tkp1 : Rat) :
    (convertTimeToTau e t tau tk tkp1).eval ops ρ =
      e.eval ops (fun s => if s = t then ρ tau * ((tkp1 - tk : Rat) : K) + tk else ρ s) := by
  rw [convertTimeToTau]
  refine Expr.eval_subst ops ρ _ [t] _ (by simp) (by simp) ?_ ?_ e
  · intro i h₁ h₂
    simp only [List.length_singleton, Nat.lt_one_iff] at h₁
    subst h₁
    simp [Expr.eval]
  · intro s hs; simp only [List.mem_singleton] at hs; simp [hs]

/-- Element time to absolute time and back: same value at every assignment. -/
theorem C05_roundtrip_from_tau (ops : Expr.Ops K) (ρ : Sym → K) (e : Expr) (t tau : Sym)
    (tk tkp1 : Rat) (hh : tkp1 ≠ tk) (he : t ∉ e.syms) :
    (convertTimeToTau (convertTauToTime e t tau tk tkp1) t tau tk tkp1).eval ops ρ =
      e.eval ops ρ := by
  have hK : ((tkp1 - tk : Rat) : K) ≠ 0 := by exact_mod_cast sub_ne_zero.mpr hh
  rw [C05_time_to_tau_value, C05_tau_to_time_value]
  apply Expr.eval_congr
  intro s hs
  by_cases h : s = tau
  · simp only [h, if_true]; field_simp; ring
  · have : s ≠ t := fun hst => he (hst ▸ hs)
    simp [h, this]

/-- Absolute time to element time and back: same value at every assignment. -/
theorem C05_roundtrip_from_time (ops : Expr.Ops K) (ρ : Sym → K) (e : Expr) (t tau : Sym)
    (tk tkp1 : Rat) (hh : tkp1 ≠ tk) (he : tau ∉ e.syms) :
    (convertTauToTime (convertTimeToTau e t tau tk tkp1) t tau tk tkp1).eval ops ρ =
      e.eval ops ρ := by
  have hK : ((tkp1 - tk : Rat) : K) ≠ 0 := by exact_mod_cast sub_ne_zero.mpr hh
  rw [C05_tau_to_time_value, C05_time_to_tau_value]
  apply Expr.eval_congr
  intro s hs
  by_cases h : s = t
  · simp only [h, if_true]; field_simp; ring
  · have : s ≠ tau := fun hst => he (hst ▸ hs)
    simp [h, this]

/-- Expressions that mention both times: the round trips are still exact at every point where the
two times agree, `t = tk + tau * h`. -/
theorem C05_roundtrip_consistent (ops : Expr.Ops K) (ρ : Sym → K) (e : Expr) (t tau : Sym)
    (tk tkp1 : Rat) (hne : t ≠ tau) (hh : tkp1 ≠ tk)
    (hρ : ρ t = tk + ρ tau * ((tkp1 : K) - tk)) :
    (convertTimeToTau (convertTauToTime e t tau tk tkp1) t tau tk tkp1).eval ops ρ =
        e.eval ops ρ ∧
      (convertTauToTime (convertTimeToTau e t tau tk tkp1) t tau tk tkp1).eval ops ρ =
        e.eval ops ρ := by
  have hK : ((tkp1 : K) - tk) ≠ 0 := by
    have : ((tkp1 - tk : Rat) : K) ≠ 0 := by exact_mod_cast sub_ne_zero.mpr hh
    simpa using this
  constructor
  · rw [C05_time_to_tau_value, C05_tau_to_time_value]
    apply Expr.eval_congr
    intro s _
    by_cases h : s = tau
    · simp only [h, if_true]; push_cast; field_simp; ring
    · by_cases h' : s = t
      · subst h'; simp only [h, if_false, if_true, hρ]; push_cast; ring
      · simp [h, h']
  · rw [C05_tau_to_time_value, C05_time_to_tau_value]
    apply Expr.eval_congr
    intro s _
    by_cases h : s = t
    · simp only [h, if_true]; push_cast; field_simp; ring
    · by_cases h' : s = tau
      · subst h'; simp only [h, if_false, if_true, hρ]; push_cast; field_simp; ring
      · simp [h, h']

/-- The ends of the element: an expression in absolute time, converted, has at `tau = 0` the value
it had at `t = tk`, and at `tau = 1` the value it had at `t = tkp1`. -/
theorem C05_ends_time_to_tau (ops : Expr.Ops K) (ρ : Sym → K) (e : Expr) (t tau : Sym)
    (tk tkp1 : Rat) :
    (ρ tau = 0 → (convertTimeToTau e t tau tk tkp1).eval ops ρ =
      e.eval ops (fun s => if s = t then (tk : K) else ρ s)) ∧
    (ρ tau = 1 → (convertTimeToTau e t tau tk tkp1).eval ops ρ =
      e.eval ops (fun s => if s = t then (tkp1 : K) else ρ s)) := by
  constructor <;> intro h <;> rw [C05_time_to_tau_value] <;> congr 1 <;> funext s <;> simp [h]

/-- Conversely, at `t = tk` the converted element-time expression has its value at `tau = 0`, and
at `t = tkp1` its value at `tau = 1`. -/
theorem C05_ends_tau_to_time (ops : Expr.Ops K) (ρ : Sym → K) (e : Expr) (t tau : Sym)
    (tk tkp1 : Rat) (hh : tkp1 ≠ tk) :
    (ρ t = tk → (convertTauToTime e t tau tk tkp1).eval ops ρ =
      e.eval ops (fun s => if s = tau then 0 else ρ s)) ∧
    (ρ t = tkp1 → (convertTauToTime e t tau tk tkp1).eval ops ρ =
      e.eval ops (fun s => if s = tau then 1 else ρ s)) := by
  have hK : ((tkp1 : K) - tk) ≠ 0 := by
    have : ((tkp1 - tk : Rat) : K) ≠ 0 := by exact_mod_cast sub_ne_zero.mpr hh
    simpa using this
  constructor <;> intro h <;> rw [C05_tau_to_time_value] <;> congr 1 <;> funext s <;>
    simp [h, div_self hK]

/-- The hypotheses are met by `2 * tau + x` on the element [1, 3]. -/
example : (0 : Sym) ≠ 1 ∧ (3 : Rat) ≠ 1 ∧
    (0 : Sym) ∉ (Expr.add (.mul (.const 2) (.sym 1)) (.sym 2)).syms := by decide

end Verif
