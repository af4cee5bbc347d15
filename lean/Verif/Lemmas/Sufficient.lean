import Verif.Spec.Sufficient
import Verif.Lemmas.IndirectOptimal
import Verif.Lemmas.Expr
import Verif.Lemmas.DirectCommon
import Mathlib.Data.List.GetD
import Mathlib.Analysis.Convex.Deriv
import Mathlib.Analysis.Calculus.Deriv.Pi
import Mathlib.Analysis.Calculus.MeanValue
/-! Lemmas on sufficient conditions of optimality. -/
namespace Verif
namespace Sufficient
open Spec Set

section Convex
variable {v : List Sym} {G : (Sym → ℝ) → ℝ} {ρ : Sym → ℝ}

/-- The partial derivative. -/
noncomputable def partialAt (G : (Sym → ℝ) → ℝ) (ρ : Sym → ℝ) (s : Sym) : ℝ :=
  deriv (fun r => G (Function.update ρ s r)) (ρ s)

/-- The derivative in the direction of another point. -/
noncomputable def slopeTo (v : List Sym) (G : (Sym → ℝ) → ℝ) (ρ σ : Sym → ℝ) : ℝ :=
  (v.map fun s => partialAt G ρ s * (σ s - ρ s)).sum

/-- The point on the way from `ρ` to `σ`. -/
noncomputable def between (v : List Sym) (ρ σ : Sym → ℝ) (r : ℝ) : Sym → ℝ :=
  assign v (fun i => ρ v[i] + r * (σ v[i] - ρ v[i])) ρ

theorem slope_deriv (hv : v.Nodup) (hG : ConvexIn v G ρ) (σ : Sym → ℝ) :
    HasDerivAt (fun r => G (between v ρ σ r)) (slopeTo v G ρ σ) 0 := by
  set F : (Fin v.length → ℝ) → ℝ := fun w => G (assign v w ρ) with hF
  set w0 : Fin v.length → ℝ := fun i => ρ v[i]
  have hd : HasFDerivAt F (fderiv ℝ F w0) w0 := hG.smooth.hasFDerivAt
  have hp : ∀ i : Fin v.length, fderiv ℝ F w0 (Pi.single i 1) = partialAt G ρ v[i] := by
    intro i
    have h₁ : HasDerivAt (Function.update w0 i) (Pi.single i 1) (w0 i) := hasDerivAt_update w0 i (w0 i)
    have h₂ : HasFDerivAt F (fderiv ℝ F w0) (Function.update w0 i (w0 i)) := by
      rw [Function.update_eq_self]; exact hd
    have h₃ := h₂.comp_hasDerivAt (w0 i) h₁
    have h₄ : (F ∘ Function.update w0 i) = fun r => G (Function.update ρ v[i] r) := by
      funext r
      show G (assign v (Function.update w0 i r) ρ) = _
      rw [assign_update v hv, assign_self]
    rw [h₄] at h₃
    exact h₃.deriv.symm
  set dir : Fin v.length → ℝ := fun i => σ v[i] - ρ v[i]
  have hs : fderiv ℝ F w0 dir = slopeTo v G ρ σ := by
    have : dir = ∑ i, dir i • (Pi.single i (1 : ℝ) : Fin v.length → ℝ) := by
      funext j
      simp [Finset.sum_apply, Pi.single_apply]
    rw [this, map_sum]
    simp only [map_smul, hp, smul_eq_mul]
    unfold slopeTo
    rw [← List.sum_ofFn]
    congr 1
    refine List.ext_getElem (by simp) fun i h₁ h₂ => ?_
    rw [List.getElem_ofFn, List.getElem_map]
    exact mul_comm _ _
  have hl : HasDerivAt (fun r : ℝ => w0 + r • dir) dir 0 := by
    have := ((hasDerivAt_id (0 : ℝ)).smul_const dir).const_add w0
    simpa using this
  have h₅ : HasFDerivAt F (fderiv ℝ F w0) (w0 + (0 : ℝ) • dir) := by simpa using hd
  have := h₅.comp_hasDerivAt (0 : ℝ) hl
  rw [hs] at this
  exact this

/-- A convex function is above its tangent. -/
theorem tangent_le (hv : v.Nodup) (hG : ConvexIn v G ρ) (σ : Sym → ℝ) :
    G ρ + slopeTo v G ρ σ ≤ G (assign v (fun i => σ v[i]) ρ) := by
  have hc : ConvexOn ℝ univ fun r : ℝ => G (between v ρ σ r) := by
    refine ⟨convex_univ, fun r _ r' _ a b ha hb hab => ?_⟩
    have := hG.convex.2 (x := fun i => ρ v[i] + r * (σ v[i] - ρ v[i])) (mem_univ _)
      (y := fun i => ρ v[i] + r' * (σ v[i] - ρ v[i])) (mem_univ _) ha hb hab
    refine le_of_eq_of_le ?_ this
    show G (assign v _ ρ) = G (assign v _ ρ)
    congr 2
    funext i
    simp only [Pi.add_apply, Pi.smul_apply, smul_eq_mul]
    have : b = 1 - a := by linarith
    subst this
    ring
  have h := hc.le_slope_of_hasDerivAt (mem_univ 0) (mem_univ 1) one_pos (slope_deriv hv hG σ)
  rw [slope_def_field] at h
  have h0 : between v ρ σ 0 = ρ := by
    unfold between
    simp only [zero_mul, add_zero]
    exact assign_self v ρ
  have h1 : between v ρ σ 1 = assign v (fun i => σ v[i]) ρ := by
    unfold between
    congr 1
    funext i
    ring
  rw [h0, h1] at h
  have : (1 : ℝ) - 0 = 1 := by norm_num
  rw [this, div_one] at h
  linarith

/-- The derivative towards a point is not negative if the function does not decrease on the way. -/
theorem slope_nonneg (hv : v.Nodup) (hG : ConvexIn v G ρ) (σ : Sym → ℝ)
    (h : ∀ r ∈ Icc (0 : ℝ) 1, G ρ ≤ G (between v ρ σ r)) : 0 ≤ slopeTo v G ρ σ := by
  by_contra hn
  push Not at hn
  have hd := slope_deriv hv hG σ
  have h0 : between v ρ σ 0 = ρ := by
    unfold between
    simp only [zero_mul, add_zero]
    exact assign_self v ρ
  have hc : HasDerivWithinAt (fun r => G (between v ρ σ r)) (slopeTo v G ρ σ) (Ioi 0) 0 :=
    hd.hasDerivWithinAt
  have ht := (hasDerivWithinAt_iff_tendsto_slope' (by simp)).mp hc
  have hev : ∀ᶠ r in nhdsWithin (0 : ℝ) (Ioi 0), 0 ≤ slope (fun r => G (between v ρ σ r)) 0 r := by
    have : Ioo (0 : ℝ) 1 ∈ nhdsWithin (0 : ℝ) (Ioi 0) := Ioo_mem_nhdsGT one_pos
    filter_upwards [this] with r hr
    rw [slope_def_field]
    have := h r ⟨hr.1.le, hr.2.le⟩
    simp only [h0]
    exact div_nonneg (by linarith) (by linarith [hr.1])
  exact absurd (ge_of_tendsto ht hev) (not_le.mpr hn)

end Convex

section Point
variable {ops : Expr.Ops ℝ} {o : Ocp} {a : Added} {ρ σ : Sym → ℝ}

theorem slopeTo_append (v w : List Sym) (G : (Sym → ℝ) → ℝ) :
    slopeTo (v ++ w) G ρ σ = slopeTo v G ρ σ + slopeTo w G ρ σ := by
  unfold slopeTo
  rw [List.map_append, List.sum_append]

theorem slopeTo_zero {v : List Sym} {G : (Sym → ℝ) → ℝ}
    (h : ∀ s ∈ v, partialAt G ρ s = 0 ∨ σ s = ρ s) : slopeTo v G ρ σ = 0 := by
  unfold slopeTo
  refine List.sum_eq_zero fun r hr => ?_
  obtain ⟨s, hs, rfl⟩ := List.mem_map.mp hr
  rcases h s hs with h | h
  · rw [h, zero_mul]
  · rw [h, sub_self, mul_zero]

theorem slopeTo_congr {v : List Sym} {G : (Sym → ℝ) → ℝ} {σ' : Sym → ℝ} (h : ∀ s ∈ v, σ s = σ' s) :
    slopeTo v G ρ σ = slopeTo v G ρ σ' := by
  unfold slopeTo
  congr 1
  exact List.map_congr_left fun s hs => by rw [h s hs]

theorem within_between {lo hi : XRat} {x y r : ℝ} (hx : Within lo hi x) (hy : Within lo hi y)
    (hr : r ∈ Icc (0 : ℝ) 1) : Within lo hi (x + r * (y - x)) := by
  obtain ⟨h₁, h₂, h₃, h₄⟩ := hx
  obtain ⟨-, -, h₃', h₄'⟩ := hy
  refine ⟨h₁, h₂, fun q hq => ?_, fun q hq => ?_⟩
  · nlinarith [h₃ q hq, h₃' q hq, hr.1, hr.2]
  · nlinarith [h₄ q hq, h₄' q hq, hr.1, hr.2]

theorem zip_zero {α β : Type} (f : α → β → ℝ) (l : List α) (m : List β) (h : ∀ x ∈ l, ∀ y ∈ m, f x y = 0) :
    (List.zipWith f l m).sum = 0 := by
  refine List.sum_eq_zero fun r hr => ?_
  rw [← List.map_uncurry_zip_eq_zipWith] at hr
  obtain ⟨⟨x, y⟩, hxy, rfl⟩ := List.mem_map.mp hr
  exact h x (List.of_mem_zip hxy).1 y (List.of_mem_zip hxy).2

/-- Where the functions of the problem are the same. -/
theorem eval_moved (hs : StateProblem o) (hu : o.model.uPar = o.model.u)
    (hk : ∀ s, s = o.model.t ∨ s = o.model.tau ∨ s ∈ o.model.p ∨ s ∈ o.model.theta → σ s = ρ s)
    (hnd : (o.model.x ++ o.model.y ++ o.model.u).Nodup) (e : Expr)
    (he : e ∈ o.L :: (o.model.odeVec ++ o.model.alg)) :
    e.eval ops (assign (o.model.x ++ o.model.y ++ o.model.u)
      (fun i => σ (o.model.x ++ o.model.y ++ o.model.u)[i]) ρ) = e.eval ops σ := by
  refine Expr.eval_congr ops _ _ e fun s hse => ?_
  by_cases hmem : s ∈ o.model.x ++ o.model.y ++ o.model.u
  · obtain ⟨j, hj, rfl⟩ := List.getElem_of_mem hmem
    exact assign_get _ hnd _ ρ ⟨j, hj⟩
  · rw [assign_not_mem _ _ _ _ hmem]
    simp only [List.mem_append, not_or] at hmem
    rcases hs.path e he s hse with h | h | h | h | h | h | h
    · exact (hk s (.inl h)).symm
    · exact (hk s (.inr (.inl h))).symm
    · exact absurd h hmem.1.1
    · exact absurd h hmem.1.2
    · exact (hk s (.inr (.inr (.inl h)))).symm
    · exact (hk s (.inr (.inr (.inr h)))).symm
    · exact absurd (hu ▸ h) hmem.2

/-- The inequality of the Hamiltonians at a time. -/
theorem hamiltonian_le (hs : StateProblem o) (hu : o.model.uPar = o.model.u)
    (hnd : (indirectSymbols o a).Nodup)
    (hk : ∀ s, s = o.model.t ∨ s = o.model.tau ∨ s ∈ o.model.p ∨ s ∈ o.model.theta → σ s = ρ s)
    (hc : ConvexIn (o.model.x ++ o.model.y ++ o.model.u) (hamiltonianAt ops o a.lamb a.nu) ρ)
    (hm : MinimisesHamiltonian ops o a ρ)
    (hy : ∀ s ∈ o.model.y, partialAt (hamiltonianAt ops o a.lamb a.nu) ρ s = 0)
    (hρ : ∀ e ∈ o.model.alg, e.eval ops ρ = 0) (hσ : ∀ e ∈ o.model.alg, e.eval ops σ = 0)
    (hb : InBounds o fun i => σ o.model.u[i]) :
    o.L.eval ops ρ + (List.zipWith (fun l f => ρ l * f.eval ops ρ) a.lamb o.model.odeVec).sum +
        slopeTo o.model.x (hamiltonianAt ops o a.lamb a.nu) ρ σ ≤
      o.L.eval ops σ + (List.zipWith (fun l f => ρ l * f.eval ops σ) a.lamb o.model.odeVec).sum := by
  set G := hamiltonianAt ops o a.lamb a.nu with hG
  have hsub : ∀ l : List Sym, l.Sublist (indirectSymbols o a) → l.Nodup := fun l h => h.nodup hnd
  have hV : (o.model.x ++ o.model.y ++ o.model.u).Nodup := by
    refine hsub _ ?_
    unfold indirectSymbols
    refine List.Sublist.append ?_ (List.Sublist.refl _)
    simp only [List.append_assoc]
    refine (List.Sublist.append (l₁ := o.model.x) (l₂ := [o.model.t, o.model.tau] ++ o.model.x)
      (List.sublist_append_right _ _) ?_).trans (by simp only [List.append_assoc]; exact List.Sublist.refl _)
    refine List.Sublist.trans ?_ (List.sublist_append_right a.lamb _)
    exact List.sublist_append_left _ _
  have hlam : ∀ l ∈ a.lamb ++ a.nu, l ∉ o.model.x ++ o.model.y ++ o.model.u := by
    intro l hl hmem
    have hnd' := hnd
    unfold indirectSymbols at hnd'
    simp only [List.nodup_append, List.mem_append, List.mem_cons] at hnd' hl hmem
    grind
  have hmove := eval_moved (ops := ops) hs hu hk hV
  -- the tangent
  have h₁ := tangent_le hV hc σ
  rw [slopeTo_append, slopeTo_append, slopeTo_zero (v := o.model.y) fun s h => .inl (hy s h)] at h₁
  have h₂ : 0 ≤ slopeTo o.model.u G ρ σ := by
    set σ' := assign o.model.u (fun i => σ o.model.u[i]) ρ with hσ'
    have hun : o.model.u.Nodup := hV.of_append_right
    have hout : ∀ s ∈ o.model.x ++ o.model.y, σ' s = ρ s := by
      intro s h
      refine assign_not_mem _ _ _ _ fun h' => ?_
      exact (List.nodup_append.mp hV).2.2 s h s h' rfl
    have hin : ∀ s ∈ o.model.u, σ' s = σ s := by
      intro s h
      obtain ⟨j, hj, rfl⟩ := List.getElem_of_mem h
      exact assign_get _ hun _ ρ ⟨j, hj⟩
    have h := slope_nonneg hV hc σ' fun r hr => ?_
    · rw [slopeTo_append, slopeTo_zero fun s h => .inr (hout s h), zero_add] at h
      rwa [slopeTo_congr fun s h => (hin s h).symm]
    · have := hm.least (fun i => ρ o.model.u[i] + r * (σ o.model.u[i] - ρ o.model.u[i]))
        fun i lo hi hlo hhi => within_between (hm.within i lo hi hlo hhi) (hb i lo hi hlo hhi) hr
      refine this.trans_eq ?_
      show G _ = G _
      congr 1
      unfold between
      funext s
      by_cases hsu : s ∈ o.model.u
      · have hsV : s ∈ o.model.x ++ o.model.y ++ o.model.u := List.mem_append_right _ hsu
        obtain ⟨j, hj, hjs⟩ := List.getElem_of_mem hsu
        obtain ⟨k, hk', hks⟩ := List.getElem_of_mem hsV
        have e₁ := assign_get o.model.u hun
          (fun i => ρ o.model.u[i] + r * (σ o.model.u[i] - ρ o.model.u[i])) ρ ⟨j, hj⟩
        have e₂ := assign_get (o.model.x ++ o.model.y ++ o.model.u) hV
          (fun i => ρ (o.model.x ++ o.model.y ++ o.model.u)[i] +
            r * (σ' (o.model.x ++ o.model.y ++ o.model.u)[i] - ρ (o.model.x ++ o.model.y ++ o.model.u)[i])) ρ
          ⟨k, hk'⟩
        simp only [Fin.getElem_fin] at e₁ e₂
        rw [hjs] at e₁
        rw [hks] at e₂
        simp only [Fin.getElem_fin]
        rw [e₁, e₂, hin s hsu]
      · rw [assign_not_mem _ _ _ _ hsu]
        by_cases hsV : s ∈ o.model.x ++ o.model.y ++ o.model.u
        · obtain ⟨k, hk', hks⟩ := List.getElem_of_mem hsV
          have e₂ := assign_get (o.model.x ++ o.model.y ++ o.model.u) hV
            (fun i => ρ (o.model.x ++ o.model.y ++ o.model.u)[i] +
              r * (σ' (o.model.x ++ o.model.y ++ o.model.u)[i] - ρ (o.model.x ++ o.model.y ++ o.model.u)[i]))
            ρ ⟨k, hk'⟩
          simp only [Fin.getElem_fin] at e₂
          rw [hks] at e₂
          simp only [Fin.getElem_fin]
          rw [e₂, hout s ((List.mem_append.mp hsV).resolve_right hsu)]
          ring
        · rw [assign_not_mem _ _ _ _ hsV]
  -- the values
  set ξ := assign (o.model.x ++ o.model.y ++ o.model.u)
    (fun i => σ (o.model.x ++ o.model.y ++ o.model.u)[i]) ρ with hξ
  have hGρ : G ρ = o.L.eval ops ρ +
      (List.zipWith (fun l f => ρ l * f.eval ops ρ) a.lamb o.model.odeVec).sum := by
    rw [hG]
    unfold hamiltonianAt
    rw [zip_zero (fun n g => ρ n * g.eval ops ρ) a.nu o.model.alg fun n _ g hg => by rw [hρ g hg, mul_zero],
      add_zero]
  have hGξ : G ξ = o.L.eval ops σ +
      (List.zipWith (fun l f => ρ l * f.eval ops σ) a.lamb o.model.odeVec).sum := by
    rw [hG]
    unfold hamiltonianAt
    rw [zip_zero (fun n g => ξ n * g.eval ops ξ) a.nu o.model.alg fun n _ g hg => by
        rw [hmove g (by simp [hg]), hσ g hg, mul_zero],
      add_zero, hmove o.L (by simp)]
    congr 2
    rw [← List.map_uncurry_zip_eq_zipWith, ← List.map_uncurry_zip_eq_zipWith]
    refine List.map_congr_left fun x hx => ?_
    obtain ⟨l, f⟩ := x
    have h := List.of_mem_zip hx
    show ξ l * f.eval ops ξ = ρ l * f.eval ops σ
    rw [hmove f (by simp [h.2]), hξ, assign_not_mem _ _ _ _ (hlam l (by simp [h.1]))]
  rw [hGρ, hGξ] at h₁
  linarith

/-- The inequality of the final costs. -/
theorem final_le (hs : StateProblem o) (hx : o.model.x.Nodup)
    (hk : ∀ s, s = o.model.t ∨ s = o.model.tau ∨ s ∈ o.model.p ∨ s ∈ o.model.theta → σ s = ρ s)
    (hc : ConvexIn o.model.x (finalAt ops o a.eta ρ) ρ)
    (hρ : ∀ e ∈ o.hFinal, e.eval ops ρ = 0) (hσ : ∀ e ∈ o.hFinal, e.eval ops σ = 0) :
    o.V.eval ops ρ + slopeTo o.model.x (finalAt ops o a.eta ρ) ρ σ ≤ o.V.eval ops σ := by
  have hmove : ∀ e ∈ o.V :: o.hFinal,
      e.eval ops (assign o.model.x (fun i => σ o.model.x[i]) ρ) = e.eval ops σ := by
    intro e he
    refine Expr.eval_congr ops _ _ e fun s hse => ?_
    by_cases hmem : s ∈ o.model.x
    · obtain ⟨j, hj, rfl⟩ := List.getElem_of_mem hmem
      exact assign_get _ hx _ ρ ⟨j, hj⟩
    · rw [assign_not_mem _ _ _ _ hmem]
      rcases hs.final e he s hse with h | h | h | h | h
      · exact (hk s (.inl h)).symm
      · exact (hk s (.inr (.inl h))).symm
      · exact absurd h hmem
      · exact (hk s (.inr (.inr (.inl h)))).symm
      · exact (hk s (.inr (.inr (.inr h)))).symm
  have h₁ := tangent_le hx hc σ
  have e₁ : finalAt ops o a.eta ρ ρ = o.V.eval ops ρ := by
    unfold finalAt
    rw [zip_zero (fun h n => h.eval ops ρ * ρ n) o.hFinal a.eta fun h hh n _ => by rw [hρ h hh, zero_mul],
      add_zero]
  have e₂ : finalAt ops o a.eta ρ (assign o.model.x (fun i => σ o.model.x[i]) ρ) = o.V.eval ops σ := by
    unfold finalAt
    rw [zip_zero (fun (h : Expr) (n : Sym) =>
        h.eval ops (assign o.model.x (fun i => σ o.model.x[i]) ρ) * ρ n) o.hFinal a.eta
      fun h hh n _ => by rw [hmove h (by simp [hh]), hσ h hh, zero_mul], add_zero, hmove _ (by simp)]
  rw [e₁, e₂] at h₁
  exact h₁

end Point

section Path
variable {ops : Expr.Ops ℝ} {o : Ocp} {a : Added} {M : Mesh} {b : Blocks ℝ} {x0 p : List ℝ}
  {theta : List (List ℝ)} {X Y : Nat → ℝ → Sym → ℝ}

theorem node_zero : nodeTime o M 0 = 0 := by simp [nodeTime]

theorem node_lt (ho : o.t0 < o.tf) (hN : 0 < M.elements) (el : Nat) :
    nodeTime o M el < nodeTime o M (el + 1) := by
  have h₁ : (o.t0 : ℝ) < (o.tf : ℝ) := by exact_mod_cast ho
  have h₂ : (0 : ℝ) < (M.elements : ℝ) := by exact_mod_cast hN
  have : 0 < stepLength (K := ℝ) o M := by
    unfold stepLength
    exact div_pos (sub_pos.mpr h₁) h₂
  unfold nodeTime
  push_cast
  nlinarith

theorem open_closed {el : Nat} {t : ℝ} (h : t ∈ openTimes o M el) : t ∈ elementTimes o M el :=
  ⟨h.1, h.2.le⟩

theorem start_mem (ho : o.t0 < o.tf) (hN : 0 < M.elements) (el : Nat) :
    nodeTime o M el ∈ elementTimes o M el := ⟨le_refl _, (node_lt ho hN el).le⟩

theorem end_mem (ho : o.t0 < o.tf) (hN : 0 < M.elements) (el : Nat) :
    nodeTime o M (el + 1) ∈ elementTimes o M el := ⟨(node_lt ho hN el).le, le_refl _⟩

theorem right_deriv {f : ℝ → ℝ} {f' t : ℝ} {el : Nat} (h : HasDerivWithinAt f f' (elementTimes o M el) t)
    (ht : t ∈ openTimes o M el) : HasDerivWithinAt f f' (Ici t) t :=
  (h.mono (Icc_subset_Icc_left ht.1)).mono_of_mem_nhdsWithin (Icc_mem_nhdsGE ht.2)

/-- The extremal is a trajectory of the problem. -/
theorem trajectory_of (ho : IndirectProblem o) (hN : 0 < M.elements) (hs : StateProblem o)
    (hX : ∀ el < M.elements, ExtremalPath ops o a M b x0 p theta el (X el))
    (hE : ShotExtremal ops o a M b X) : ControlledTrajectory ops o M x0 p theta X where
  given el hel t ht := by
    have h := (hX el hel).known t ht
    refine ⟨h.time, h.position, fun i s hi => h.parameters i s hi (by rw [hs.known.1]; simp),
      fun i s hi => h.thetas i s hi (by rw [hs.known.2]; simp), fun i s hi => h.starts i s ?_⟩
    have hi' := (List.getElem?_eq_some_iff.mp hi).1
    rw [List.getElem?_append_left hi']
    exact hi
  initial := hE.initial
  joined el hel s hmem := by
    obtain ⟨i, hi, rfl⟩ := List.getElem_of_mem hmem
    have h : (o.model.x ++ a.lamb)[i]? = some o.model.x[i] := by
      rw [List.getElem?_append_left hi]
      exact List.getElem?_eq_getElem hi
    rw [(hX (el + 1) hel).start i _ h, hE.states el (by omega) i _ h]
  continuous el hel s hmem := by
    obtain ⟨i, hi, rfl⟩ := List.getElem_of_mem hmem
    have hl := complete_length _ ho.complete
    intro t ht
    exact ((hX el hel).ode t ht _ _ ((complete_get ho.complete i _ (o.model.odeVec[i]'(by omega))
      (List.getElem?_eq_getElem hi)).mpr (List.getElem?_eq_getElem _))).continuousWithinAt
  dynamics el hel t ht s e he := right_deriv ((hX el hel).ode t (open_closed ht) s e he) ht
  algebraic el hel t ht e he := (hX el hel).alg t (open_closed ht) e he
  controls el hel t ht := ((hX el hel).controls t (open_closed ht)).within
  final := hE.final

/-- The adjoints times the difference of the states. -/
noncomputable def pairing (o : Ocp) (a : Added) (ρ σ : Sym → ℝ) : ℝ :=
  ∑ i ∈ Finset.range o.model.x.length,
    ρ (a.lamb.getD i 0) * (σ (o.model.x.getD i 0) - ρ (o.model.x.getD i 0))

theorem sum_getD {α : Type} (l : List α) (f : α → ℝ) (d : α) :
    (l.map f).sum = ∑ i ∈ Finset.range l.length, f (l.getD i d) := by
  induction l with
  | nil => simp
  | cons x l ih =>
    rw [List.map_cons, List.sum_cons, ih, List.length_cons, Finset.sum_range_succ']
    simp [add_comm]

theorem zip_getD {α β : Type} (f : α → β → ℝ) (d : α) (d' : β) : ∀ (l : List α) (m : List β),
    l.length = m.length →
    (List.zipWith f l m).sum = ∑ i ∈ Finset.range m.length, f (l.getD i d) (m.getD i d')
  | [], [], _ => by simp
  | x :: l, y :: m, h => by
    rw [List.zipWith_cons_cons, List.sum_cons, zip_getD f d d' l m (by simpa using h), List.length_cons,
      Finset.sum_range_succ']
    simp [add_comm]

/-- During an element the difference of the costs and the pairing grow together. -/
theorem element_le (ho : IndirectProblem o) (hN : 0 < M.elements) (hs : StateProblem o)
    (hnd : (indirectSymbols o a).Nodup) (hla : a.lamb.length = o.model.x.length)
    (hX : ∀ el < M.elements, ExtremalPath ops o a M b x0 p theta el (X el))
    (hT : ControlledTrajectory ops o M x0 p theta X) (hY : ControlledTrajectory ops o M x0 p theta Y)
    (hcv : ConvexAlong ops o a M X) {c c' : Nat → ℝ → ℝ} (hc : RunningCost ops o M X c)
    (hc' : RunningCost ops o M Y c') (el : Nat) (hel : el < M.elements) :
    c el (nodeTime o M (el + 1)) - c el (nodeTime o M el) ≤
      (c' el (nodeTime o M (el + 1)) +
        pairing o a (X el (nodeTime o M (el + 1))) (Y el (nodeTime o M (el + 1)))) -
      (c' el (nodeTime o M el) + pairing o a (X el (nodeTime o M el)) (Y el (nodeTime o M el))) := by
  set G := hamiltonianAt ops o a.lamb a.nu with hG
  have hlo := complete_length _ ho.complete
  have hsym : ∀ i ∈ Finset.range o.model.x.length, o.model.x[i]? = some (o.model.x.getD i 0) ∧
      a.lamb[i]? = some (a.lamb.getD i 0) ∧
      o.model.odeVec[i]? = some (o.model.odeVec.getD i (.const 0)) := by
    intro i hi
    have hi := Finset.mem_range.mp hi
    refine ⟨?_, ?_, ?_⟩
    · rw [List.getD_eq_getElem _ _ hi]; exact List.getElem?_eq_getElem hi
    · rw [List.getD_eq_getElem _ _ (by omega)]; exact List.getElem?_eq_getElem _
    · rw [List.getD_eq_getElem _ _ (by omega)]; exact List.getElem?_eq_getElem _
  have hmem : ∀ i ∈ Finset.range o.model.x.length, o.model.x.getD i 0 ∈ o.model.x := fun i hi =>
    List.mem_of_getElem? (hsym i hi).1
  have hget : ∀ i ∈ Finset.range o.model.x.length,
      o.model.ode.get? (o.model.x.getD i 0) = some (some (o.model.odeVec.getD i (.const 0))) := fun i hi =>
    (complete_get ho.complete i _ _ (hsym i hi).1).mpr (hsym i hi).2.2
  have hlamc : ∀ i ∈ Finset.range o.model.x.length,
      ContinuousOn (fun t => X el t (a.lamb.getD i 0)) (elementTimes o M el) := fun i hi t ht =>
    ((hX el hel).costate t ht i _ _ (hsym i hi).1 (hsym i hi).2.1).continuousWithinAt
  -- the derivative of the pairing
  have hpd : ∀ t ∈ openTimes o M el, HasDerivWithinAt (fun r => pairing o a (X el r) (Y el r))
      (-slopeTo o.model.x G (X el t) (Y el t) +
        ((List.zipWith (fun l f => X el t l * f.eval ops (Y el t)) a.lamb o.model.odeVec).sum -
        (List.zipWith (fun l f => X el t l * f.eval ops (X el t)) a.lamb o.model.odeVec).sum)) (Ici t) t := by
    intro t ht
    have key : HasDerivWithinAt (fun r => pairing o a (X el r) (Y el r))
        (∑ i ∈ Finset.range o.model.x.length,
          (-partialAt G (X el t) (o.model.x.getD i 0) *
            (Y el t (o.model.x.getD i 0) - X el t (o.model.x.getD i 0)) +
          X el t (a.lamb.getD i 0) * ((o.model.odeVec.getD i (.const 0)).eval ops (Y el t) -
            (o.model.odeVec.getD i (.const 0)).eval ops (X el t)))) (Ici t) t := by
      unfold pairing
      refine HasDerivWithinAt.fun_sum fun i hi => ?_
      have h₁ := right_deriv ((hX el hel).costate t (open_closed ht) i _ _ (hsym i hi).1 (hsym i hi).2.1) ht
      have h₂ := hT.dynamics el hel t ht _ _ (hget i hi)
      have h₃ := hY.dynamics el hel t ht _ _ (hget i hi)
      exact h₁.mul (h₃.sub h₂)
    refine key.congr_deriv ?_
    unfold slopeTo
    rw [sum_getD _ _ 0, zip_getD _ 0 (.const 0) _ _ (by omega), zip_getD _ 0 (.const 0) _ _ (by omega), hlo,
      ← Finset.sum_sub_distrib, ← Finset.sum_neg_distrib, ← Finset.sum_add_distrib]
    refine Finset.sum_congr rfl fun i _ => ?_
    ring
  have hpc : ContinuousOn (fun r => pairing o a (X el r) (Y el r)) (elementTimes o M el) := by
    unfold pairing
    refine continuousOn_finset_sum _ fun i hi => ?_
    exact (hlamc i hi).mul ((hY.continuous el hel _ (hmem i hi)).sub (hT.continuous el hel _ (hmem i hi)))
  have hle := image_le_of_deriv_right_le_deriv_boundary (f := c el)
    (f' := fun t => o.L.eval ops (X el t)) (a := nodeTime o M el) (b := nodeTime o M (el + 1))
    (hc.continuous el hel) (fun t ht => hc.integral el hel t ht)
    (B := fun t => c' el t + pairing o a (X el t) (Y el t) + (c el (nodeTime o M el) -
      (c' el (nodeTime o M el) + pairing o a (X el (nodeTime o M el)) (Y el (nodeTime o M el)))))
    (B' := fun t => o.L.eval ops (Y el t) + (-slopeTo o.model.x G (X el t) (Y el t) +
        ((List.zipWith (fun l f => X el t l * f.eval ops (Y el t)) a.lamb o.model.odeVec).sum -
        (List.zipWith (fun l f => X el t l * f.eval ops (X el t)) a.lamb o.model.odeVec).sum)))
    (by simp) (((hc'.continuous el hel).add hpc).add continuousOn_const)
    (fun t ht => ((hc'.integral el hel t ht).add (hpd t ht)).add_const _)
    (fun t ht => ?_) (end_mem ho.horizon hN el)
  · linarith
  · have ht' := open_closed (o := o) (M := M) ht
    have hg := hT.given el hel t ht'
    have hg' := hY.given el hel t ht'
    have := hamiltonian_le (ops := ops) (ρ := X el t) (σ := Y el t) hs ho.free.1 hnd (by
      rintro s (rfl | rfl | h | h)
      · rw [hg.time, hg'.time]
      · rw [hg.position, hg'.position]
      · obtain ⟨i, hi, rfl⟩ := List.getElem_of_mem h
        rw [hg.parameters i _ (List.getElem?_eq_getElem hi), hg'.parameters i _ (List.getElem?_eq_getElem hi)]
      · obtain ⟨i, hi, rfl⟩ := List.getElem_of_mem h
        rw [hg.thetas i _ (List.getElem?_eq_getElem hi), hg'.thetas i _ (List.getElem?_eq_getElem hi)])
      (hcv.path el hel t ht) ((hX el hel).controls t ht') ((hX el hel).stationary t ht')
      (hT.algebraic el hel t ht) (hY.algebraic el hel t ht) (hY.controls el hel t ht)
    linarith

/-- An extremal of a convex problem is optimal. -/
theorem optimal_of (ho : IndirectProblem o) (hN : 0 < M.elements) (hs : StateProblem o)
    (hnd : (indirectSymbols o a).Nodup) (hla : a.lamb.length = o.model.x.length)
    (hX : ∀ el < M.elements, ExtremalPath ops o a M b x0 p theta el (X el))
    (hE : ShotExtremal ops o a M b X) (hcv : ConvexAlong ops o a M X) :
    OptimalTrajectory ops o M x0 p theta X := by
  have hT := trajectory_of ho hN hs hX hE
  refine ⟨hT, ?_⟩
  rintro J ⟨c, hc, rfl⟩ Y hY J' ⟨c', hc', rfl⟩
  have hxi : ∀ i ∈ Finset.range o.model.x.length, o.model.x.getD i 0 ∈ o.model.x ∧
      o.model.x[i]? = some (o.model.x.getD i 0) ∧ (o.model.x ++ a.lamb)[o.model.x.length + i]? =
        some (a.lamb.getD i 0) ∧ a.lamb[i]? = some (a.lamb.getD i 0) := by
    intro i hi
    have hi := Finset.mem_range.mp hi
    refine ⟨?_, ?_, ?_, ?_⟩
    · rw [List.getD_eq_getElem _ _ hi]; exact List.getElem_mem _
    · rw [List.getD_eq_getElem _ _ hi]; exact List.getElem?_eq_getElem hi
    · rw [List.getElem?_append_right (by omega), Nat.add_sub_cancel_left,
        List.getD_eq_getElem _ _ (by omega)]
      exact List.getElem?_eq_getElem _
    · rw [List.getD_eq_getElem _ _ (by omega)]; exact List.getElem?_eq_getElem _
  -- at the nodes
  have hjoin : ∀ el, el + 1 < M.elements →
      pairing o a (X (el + 1) (nodeTime o M (el + 1))) (Y (el + 1) (nodeTime o M (el + 1))) =
      pairing o a (X el (nodeTime o M (el + 1))) (Y el (nodeTime o M (el + 1))) := by
    intro el hel
    unfold pairing
    refine Finset.sum_congr rfl fun i hi => ?_
    obtain ⟨h₁, -, h₂, -⟩ := hxi i hi
    rw [hT.joined el hel _ h₁, hY.joined el hel _ h₁, (hX (el + 1) hel).start _ _ h₂,
      hE.states el (by omega) _ _ h₂]
  have hstart : pairing o a (X 0 0) (Y 0 0) = 0 := by
    unfold pairing
    refine Finset.sum_eq_zero fun i hi => ?_
    have hx0 : o.model.x0[i]? = some (o.model.x0.getD i 0) := by
      have : i < o.model.x0.length := by rw [ho.starts]; exact Finset.mem_range.mp hi
      rw [List.getD_eq_getElem _ _ this]; exact List.getElem?_eq_getElem this
    have hm := hs.start i _ _ (hxi i hi).2.1 hx0
    have h0 := start_mem (M := M) ho.horizon hN 0
    rw [node_zero] at h0
    have e₁ := hT.initial _ hm
    have e₂ := hY.initial _ hm
    simp only [Expr.eval] at e₁ e₂
    rw [(hT.given 0 hN 0 h0).starts i _ hx0] at e₁
    rw [(hY.given 0 hN 0 h0).starts i _ hx0] at e₂
    have : Y 0 0 (o.model.x.getD i 0) = X 0 0 (o.model.x.getD i 0) := by linarith
    rw [this, sub_self, mul_zero]
  have hind : ∀ el, el < M.elements → c el (nodeTime o M (el + 1)) ≤ c' el (nodeTime o M (el + 1)) +
      pairing o a (X el (nodeTime o M (el + 1))) (Y el (nodeTime o M (el + 1))) := by
    intro el
    induction el with
    | zero =>
      intro hel
      have h := element_le ho hN hs hnd hla hX hT hY hcv hc hc' 0 hel
      rw [node_zero, hc.start, hc'.start, hstart] at h
      linarith
    | succ el ih =>
      intro hel
      have h := element_le ho hN hs hnd hla hX hT hY hcv hc hc' (el + 1) hel
      rw [hc.joined el hel, hc'.joined el hel, hjoin el hel] at h
      linarith [ih (by omega)]
  have hlast : M.elements - 1 + 1 = M.elements := by omega
  have h₁ := hind (M.elements - 1) (by omega)
  rw [hlast] at h₁
  have hend := end_mem (M := M) ho.horizon hN (M.elements - 1)
  rw [hlast] at hend
  have hg := hT.given (M.elements - 1) (by omega) _ hend
  have hg' := hY.given (M.elements - 1) (by omega) _ hend
  have h₂ := final_le (ops := ops) (a := a) (ρ := X (M.elements - 1) (nodeTime o M M.elements))
    (σ := Y (M.elements - 1) (nodeTime o M M.elements)) hs ho.complete.2.1 (by
      rintro s (rfl | rfl | h | h)
      · rw [hg.time, hg'.time]
      · rw [hg.position, hg'.position]
      · obtain ⟨i, hi, rfl⟩ := List.getElem_of_mem h
        rw [hg.parameters i _ (List.getElem?_eq_getElem hi), hg'.parameters i _ (List.getElem?_eq_getElem hi)]
      · obtain ⟨i, hi, rfl⟩ := List.getElem_of_mem h
        rw [hg.thetas i _ (List.getElem?_eq_getElem hi), hg'.thetas i _ (List.getElem?_eq_getElem hi)])
    hcv.final hT.final hY.final
  have h₃ : slopeTo o.model.x (finalAt ops o a.eta (X (M.elements - 1) (nodeTime o M M.elements)))
      (X (M.elements - 1) (nodeTime o M M.elements)) (Y (M.elements - 1) (nodeTime o M M.elements)) =
      pairing o a (X (M.elements - 1) (nodeTime o M M.elements))
        (Y (M.elements - 1) (nodeTime o M M.elements)) := by
    unfold slopeTo pairing
    rw [sum_getD _ _ 0]
    refine Finset.sum_congr rfl fun i hi => ?_
    rw [hE.transversality i _ _ (hxi i hi).2.1 (hxi i hi).2.2.2]
    rfl
  rw [h₃] at h₂
  linarith

end Path

end Sufficient
end Verif
