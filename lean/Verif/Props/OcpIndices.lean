import Verif.Model.OcpCost
import Verif.Lemmas.Ocp
/-!
# C39: optimised parameters
-/
namespace Verif
open Spec

/-- C39. The `i`-th index addresses the `i`-th optimised parameter in the model's vector. -/
theorem C39_addresses (o : Ocp) (hn : o.model.p.Nodup) (hs : ∀ s ∈ o.pOpt, s ∈ o.model.p) :
    o.pOptIndices.map (fun i => o.model.p[i]?) = o.pOpt.map some := by
  unfold Ocp.pOptIndices
  rw [findIndices_nodup _ _ hn hs, List.map_map]
  apply List.map_congr_left
  intro s h
  have := List.idxOf_lt_length_of_mem (hs s h)
  simp [List.getElem?_eq_getElem this]

/-- C39. The same for the time-dependent parameters. -/
theorem C39_theta_addresses (o : Ocp) (hn : o.model.theta.Nodup)
    (hs : ∀ s ∈ o.thetaOpt, s ∈ o.model.theta) :
    o.thetaOptIndices.map (fun i => o.model.theta[i]?) = o.thetaOpt.map some := by
  unfold Ocp.thetaOptIndices
  rw [findIndices_nodup _ _ hn hs, List.map_map]
  apply List.map_congr_left
  intro s h
  have := List.idxOf_lt_length_of_mem (hs s h)
  simp [List.getElem?_eq_getElem this]

theorem Ocp.putValues_length {α : Type} (ind : List Nat) (values p : List α) :
    (Ocp.putValues ind values p).length = p.length := by
  unfold Ocp.putValues
  induction ind.zip values generalizing p with
  | nil => rfl
  | cons a l ih => rw [List.foldl_cons, ih]; simp

theorem Ocp.putValues_other {α : Type} (ind : List Nat) (values p : List α) (j : Nat)
    (hj : j ∉ ind) : (Ocp.putValues ind values p)[j]? = p[j]? := by
  unfold Ocp.putValues
  induction ind generalizing values p with
  | nil => rfl
  | cons i ind ih =>
    cases values with
    | nil => rfl
    | cons v values =>
      rw [List.zip_cons_cons, List.foldl_cons, ih _ _ (by simp_all), List.getElem?_set_ne]
      rintro rfl
      simp at hj

theorem Ocp.putValues_at {α : Type} (ind : List Nat) (values p : List α) (hn : ind.Nodup)
    (hi : ∀ i ∈ ind, i < p.length) (hl : values.length = ind.length) (k : Nat)
    (hk : k < ind.length) :
    (Ocp.putValues ind values p)[ind[k]]? = some (values[k]'(hl ▸ hk)) := by
  induction ind generalizing values p k with
  | nil => simp at hk
  | cons i ind ih =>
    cases values with
    | nil => simp at hl
    | cons v values =>
      obtain ⟨h₁, h₂⟩ := List.nodup_cons.mp hn
      have e : Ocp.putValues (i :: ind) (v :: values) p = Ocp.putValues ind values (p.set i v) := rfl
      rw [e]
      cases k with
      | zero =>
        rw [List.getElem_cons_zero, Ocp.putValues_other _ _ _ _ h₁,
          List.getElem?_set_self (hi i (by simp))]
        rfl
      | succ k =>
        simp only [List.getElem_cons_succ]
        exact ih values (p.set i v) h₂ (fun j hj => by simpa using hi j (by simp [hj]))
          (by simpa using hl) k (by simpa using hk)

theorem Ocp.lookup_put {α : Type} (opt ps : List Sym) (values p : List α) (hn : ps.Nodup)
    (ho : opt.Nodup) (hs : ∀ s ∈ opt, s ∈ ps) (hp : p.length = ps.length)
    (hv : values.length = opt.length) (s : Sym) (hsp : s ∈ ps) :
    (ps.zip (Ocp.putValues (findIndices opt ps) values p)).lookup s =
      if s ∈ opt then (opt.zip values).lookup s else (ps.zip p).lookup s := by
  rw [lookup_zip _ _ (by rw [Ocp.putValues_length]; exact hp) s hsp, findIndices_nodup _ _ hn hs]
  have hinj : ∀ a ∈ ps, ∀ b ∈ ps, ps.idxOf a = ps.idxOf b → a = b := by
    intro a ha b hb h
    have h₁ := List.getElem_idxOf (List.idxOf_lt_length_of_mem ha)
    have h₂ := List.getElem_idxOf (List.idxOf_lt_length_of_mem hb)
    rw [← h₁, ← h₂]
    simp only [h]
  split
  · next h =>
    have hk := List.idxOf_lt_length_of_mem h
    rw [lookup_zip _ _ hv s h]
    have hnd : (opt.map fun v => ps.idxOf v).Nodup := by
      refine List.Nodup.map_on ?_ ho
      intro a ha b hb
      exact hinj a (hs a ha) b (hs b hb)
    have := Ocp.putValues_at (opt.map fun v => ps.idxOf v) values p hnd
      (by
        intro i hi
        obtain ⟨a, ha, rfl⟩ := List.mem_map.mp hi
        rw [hp]
        exact List.idxOf_lt_length_of_mem (hs a ha)) (by simpa using hv) (opt.idxOf s)
      (by simpa using hk)
    rw [List.getElem_map, List.getElem_idxOf hk] at this
    rw [this, List.getElem?_eq_getElem]
  · next h =>
    rw [Ocp.putValues_other, lookup_zip _ _ hp s hsp]
    intro hm
    obtain ⟨a, ha, e⟩ := List.mem_map.mp hm
    exact h (hinj a (hs a ha) s hsp e ▸ ha)

/-- C39. Writing the decision values through the indices gives each optimised parameter its own value
and leaves the other parameters as they are. -/
theorem C39_written {α : Type} (o : Ocp) (values p : List α) (hn : o.model.p.Nodup)
    (ho : o.pOpt.Nodup) (hs : ∀ s ∈ o.pOpt, s ∈ o.model.p) (hp : p.length = o.model.p.length)
    (hv : values.length = o.pOpt.length) (s : Sym) (hsp : s ∈ o.model.p) :
    (bounds o.model.p (Ocp.putValues o.pOptIndices values p)).lookup s =
      if s ∈ o.pOpt then (bounds o.pOpt values).lookup s else (bounds o.model.p p).lookup s :=
  Ocp.lookup_put o.pOpt o.model.p values p hn ho hs hp hv s hsp

/-- C39. The same for the time-dependent parameters of an element. -/
theorem C39_theta_written {α : Type} (o : Ocp) (values th : List α) (hn : o.model.theta.Nodup)
    (ho : o.thetaOpt.Nodup) (hs : ∀ s ∈ o.thetaOpt, s ∈ o.model.theta)
    (hp : th.length = o.model.theta.length) (hv : values.length = o.thetaOpt.length) (s : Sym)
    (hsp : s ∈ o.model.theta) :
    (bounds o.model.theta (Ocp.putValues o.thetaOptIndices values th)).lookup s =
      if s ∈ o.thetaOpt then (bounds o.thetaOpt values).lookup s
      else (bounds o.model.theta th).lookup s :=
  Ocp.lookup_put o.thetaOpt o.model.theta values th hn ho hs hp hv s hsp

/-- C39. Reading the values back through the indices gives each optimised parameter's value. -/
theorem C39_read {α : Type} (o : Ocp) (p : List α) (hn : o.model.p.Nodup)
    (hs : ∀ s ∈ o.pOpt, s ∈ o.model.p) (hp : p.length = o.model.p.length) :
    ∃ v, Ocp.getValues o.pOptIndices p = .ok v ∧
      v.map some = o.pOpt.map fun s => (bounds o.model.p p).lookup s :=
  ⟨_, gather_find _ _ _ hp, gathered _ _ _ hp hn hs⟩

/-- C39. Values can be read exactly when every index is a position of the vector. -/
theorem C39_read_rejects {α : Type} (ind : List Nat) (p : List α) :
    (∃ i ∈ ind, p.length ≤ i) ↔ Ocp.getValues ind p = .error .runtimeError := by
  simp only [Ocp.getValues, gather]
  split
  · rename_i h
    simp only [List.all_eq_true, decide_eq_true_eq] at h
    simp only [reduceCtorEq, iff_false, not_exists, not_and, Nat.not_le]
    exact h
  · rename_i h
    simp only [List.all_eq_true, decide_eq_true_eq, not_forall] at h
    obtain ⟨i, hi, hl⟩ := h
    simpa using ⟨i, hi, by omega⟩

/-- Two of three parameters, in another order. -/
example :
    let o : Ocp := { Ocp.new { SysModel.new 0 1 with p := [7, 8, 9] } none 0 1 with
      pOpt := [9, 7] }
    o.model.p.Nodup ∧ o.pOpt.Nodup ∧ (∀ s ∈ o.pOpt, s ∈ o.model.p) ∧ o.pOptIndices = [2, 0] ∧
      Ocp.putValues o.pOptIndices [90, 70] [1, 2, 3] = [70, 2, 90] := by decide +kernel

end Verif
