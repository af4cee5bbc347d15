import Verif.Lemmas.SystemModel
import Verif.Lemmas.Expr
import Verif.Spec.Equations
/-! Lemmas on replacement of variables. -/
namespace Verif
open SysModel

theorem odeVec_replace (m : SysModel) (v : List Sym) (w : List Expr) (hl : v.length = w.length) :
    (replaceVariable v w m).2.odeVec = m.odeVec.map (Expr.subst v w) := by
  rw [replaceVariable, if_neg (not_not.mpr hl)]
  by_cases h0 : v.length > 0
  · simp only [odeVec, Dict.values, if_pos h0, List.map_map, List.filterMap_map,
      List.map_filterMap]
    refine List.filterMap_congr fun kv _ => ?_
    obtain ⟨k, e⟩ := kv
    cases e <;> rfl
  · have hv0 : v = [] := List.eq_nil_of_length_eq_zero (by omega)
    subst hv0
    have : Expr.subst [] w = id := funext fun e => Expr.subst_eq_self [] w e (by simp)
    simp [odeVec, this]

/-- The equations after a replacement, in order, are the old ones with the substitution done. -/
theorem equations_replace (m : SysModel) (v : List Sym) (w : List Expr)
    (hl : v.length = w.length) :
    Spec.equations (replaceVariable v w m).2 = (Spec.equations m).map (Expr.subst v w) := by
  have h := odeVec_replace m v w hl
  rw [Spec.equations, h]
  simp [replaceVariable, if_neg (not_not.mpr hl), Spec.equations]

/-- The value of the equation table after a replacement. -/
theorem odeAt_replace {K : Type u} [Field K] (ops : Expr.Ops K) (m : SysModel)
    (v : List Sym) (w : List Expr) (hv : v.Nodup) (hl : v.length = w.length)
    (ρ ρ' : Sym → K) (hρ : Spec.MovedTo ops v w ρ ρ') :
    Spec.odeAt ops ρ (replaceVariable v w m).2 = Spec.odeAt ops ρ' m := by
  have he := Expr.eval_subst ops ρ ρ' v w hv hl hρ.1 hρ.2
  rw [replaceVariable, if_neg (not_not.mpr hl)]
  by_cases h0 : v.length > 0
  · simp only [Spec.odeAt, if_pos h0, List.map_map]
    refine List.map_congr_left fun kv _ => ?_
    obtain ⟨k, e⟩ := kv
    cases e <;> simp [substSlot, he]
  · simp only [Spec.odeAt, if_neg h0]
    have hv0 : v = [] := List.eq_nil_of_length_eq_zero (by omega)
    have : ρ' = ρ := funext fun s => hρ.2 s (by simp [hv0])
    rw [this]

end Verif
