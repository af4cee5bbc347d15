import Verif.Spec.Vectors
import Verif.Lemmas.SystemModel
import Verif.Lemmas.Ocp
/-!
# C91: removing algebraic variables and parameters
-/
namespace Verif
namespace SysModel

theorem removeParameter_run (v : List Sym) (m : SysModel) :
    removeParameter v m = if ∃ s ∈ v, s ∈ m.p
      then (.ok (), { m with p := Spec.without v m.p }) else (.error .valueError, m) := by
  simp only [removeParameter, Py.bind_eq, Py.get_bind, removeVars_eq]
  split <;> rfl

theorem removeTheta_run (v : List Sym) (m : SysModel) :
    removeTheta v m = if ∃ s ∈ v, s ∈ m.theta
      then (.ok (), { m with theta := Spec.without v m.theta }) else (.error .valueError, m) := by
  simp only [removeTheta, Py.bind_eq, Py.get_bind, removeVars_eq]
  split <;> rfl

theorem removeAlgebraic_none (v : List Sym) (m : SysModel) :
    removeAlgebraic v none m = if ∃ s ∈ v, s ∈ m.y
      then (.ok (), { m with y := Spec.without v m.y }) else (.error .valueError, m) := by
  simp only [removeAlgebraic, Py.bind_eq, Py.get_bind, removeVars_eq]
  split <;> rfl

theorem removeAlgebraic_some (v : List Sym) (e : List Expr) (m : SysModel) :
    removeAlgebraic v (some e) m = if ∃ s ∈ v, s ∈ m.y
      then if ∃ a ∈ e, a ∈ m.alg
        then (.ok (), { m with
          y := Spec.without v m.y
          alg := Spec.without e m.alg })
        else (.error .valueError, { m with y := Spec.without v m.y })
      else (.error .valueError, m) := by
  simp only [removeAlgebraic, Py.bind_eq, Py.get_bind, removeVars_eq]
  split
  · rw [Py.lift_ok_bind, Py.modify_bind]
    split <;> rfl
  · rfl

theorem without_append_self {α : Type} [DecidableEq α] {l v : List α} (h : ∀ s ∈ v, s ∉ l) :
    Spec.without v (l ++ v) = l := by
  unfold Spec.without
  rw [List.filter_append, List.filter_eq_self.mpr, List.filter_eq_nil_iff.mpr, List.append_nil]
  · intro a ha
    simpa using ha
  · intro a ha
    simpa using fun hc => h a hc ha

end SysModel

/-- **C91**: removing parameters takes exactly those out, keeping the order of the others, and changes
nothing else; when none of them is a parameter the call is rejected and the model unchanged. -/
theorem C91_parameter (v : List Sym) (m : SysModel) :
    m.removeParameter v = if ∃ s ∈ v, s ∈ m.p
      then (.ok (), { m with p := Spec.without v m.p }) else (.error .valueError, m) :=
  SysModel.removeParameter_run v m

/-- **C91**: the same for the parameters of the finite elements. -/
theorem C91_theta (v : List Sym) (m : SysModel) :
    m.removeTheta v = if ∃ s ∈ v, s ∈ m.theta
      then (.ok (), { m with theta := Spec.without v m.theta }) else (.error .valueError, m) :=
  SysModel.removeTheta_run v m

/-- **C91**: removing algebraic variables without naming equations takes exactly those out. -/
theorem C91_algebraic (v : List Sym) (m : SysModel) :
    m.removeAlgebraic v none = if ∃ s ∈ v, s ∈ m.y
      then (.ok (), { m with y := Spec.without v m.y }) else (.error .valueError, m) :=
  SysModel.removeAlgebraic_none v m

/-- **C91** (partial: the call returned): removing algebraic variables with equations takes exactly
those variables and those equations out. Missing: a rejected call leaves the model unchanged, see
`C91_rejected_fails`. -/
theorem C91_equations_partial (v : List Sym) (e : List Expr) (m m' : SysModel) :
    m.removeAlgebraic v (some e) = (.ok (), m') ↔
      (∃ s ∈ v, s ∈ m.y) ∧ (∃ a ∈ e, a ∈ m.alg) ∧ m' = { m with
        y := Spec.without v m.y
        alg := Spec.without e m.alg } := by
  rw [SysModel.removeAlgebraic_some]
  split
  · split
    · simp_all [eq_comm]
    · simp_all
  · simp_all

/-- **C91**: including variables and removing them again gives the model back. -/
theorem C91_round_trip (v : List Sym) (e : List Expr) (m : SysModel) (hv : v ≠ []) (he : e ≠ [])
    (hp : ∀ s ∈ v, s ∉ m.p) (ht : ∀ s ∈ v, s ∉ m.theta) (hy : ∀ s ∈ v, s ∉ m.y)
    (ha : ∀ a ∈ e, a ∉ m.alg) :
    Py.bind (SysModel.includeParameter v) (fun _ => SysModel.removeParameter v) m = (.ok (), m) ∧
    Py.bind (SysModel.includeTheta v) (fun _ => SysModel.removeTheta v) m = (.ok (), m) ∧
    Py.bind (SysModel.includeAlgebraic v (some e)) (fun _ => SysModel.removeAlgebraic v (some e)) m =
      (.ok (), m) := by
  obtain ⟨s, hs⟩ := List.exists_mem_of_ne_nil v hv
  obtain ⟨a, hae⟩ := List.exists_mem_of_ne_nil e he
  refine ⟨?_, ?_, ?_⟩
  · rw [SysModel.includeParameter, Py.modify_bind, SysModel.removeParameter_run,
      if_pos ⟨s, hs, by simp [hs]⟩]
    simp only [SysModel.without_append_self hp]
  · rw [SysModel.includeTheta, Py.modify_bind, SysModel.removeTheta_run,
      if_pos ⟨s, hs, by simp [hs]⟩]
    simp only [SysModel.without_append_self ht]
  · rw [Py.bind_ok (SysModel.includeAlgebraic_run v (some e) m), SysModel.removeAlgebraic_some]
    simp only [Option.getD_some]
    rw [if_pos ⟨s, hs, by simp [hs]⟩, if_pos ⟨a, hae, by simp [hae]⟩]
    simp only [SysModel.without_append_self hy, SysModel.without_append_self ha]

/-- **C91** (negation of the missing part): naming an equation the model does not have is rejected
after the variables are gone. -/
theorem C91_rejected_fails :
    ∃ (m : SysModel) (v : List Sym) (e : List Expr), (m.removeAlgebraic v (some e)).1 = .error .valueError ∧
      (m.removeAlgebraic v (some e)).2.y ≠ m.y :=
  ⟨{ SysModel.new 0 1 with y := [5], alg := [.sym 5] }, [5], [.sym 6], by decide +kernel⟩

/-- Two algebraic variables and equations, one of each removed. -/
example : ({ SysModel.new 0 1 with
      y := [5, 6], alg := [.sym 5, .sym 6] } : SysModel).removeAlgebraic [5] (some [.sym 6]) =
    (.ok (), { SysModel.new 0 1 with y := [6], alg := [.sym 5] }) := by decide +kernel

example : ({ SysModel.new 0 1 with p := [5, 6, 7], theta := [8] } : SysModel).removeParameter [6, 9] =
    (.ok (), { SysModel.new 0 1 with p := [5, 7], theta := [8] }) := by decide +kernel

end Verif
