import Verif.Lemmas.CollocationScheme
/-! When the constraints of the collocation scheme hold. -/
namespace Verif

variable {K : Type} [Field K] [LinearOrder K] [IsStrictOrderedRing K]

set_option linter.unusedSectionVars false

theorem holds_equality (v : List K) : (Con.equality v).Holds ↔ ∀ x ∈ v, x = 0 := by
  unfold Con.Holds Con.equality
  refine forall_congr' fun x => imp_congr_right fun _ => ?_
  simp only [WithBot.coe_le_coe, WithTop.coe_le_coe]
  exact ⟨fun h => le_antisymm h.2 h.1, fun h => ⟨h.ge, h.le⟩⟩

theorem holds_nonpositive (v : List K) : (Con.nonpositive v).Holds ↔ ∀ x ∈ v, x ≤ 0 := by
  unfold Con.Holds Con.nonpositive
  refine forall_congr' fun x => imp_congr_right fun _ => ?_
  simp only [WithBot.coe_le_coe, WithTop.coe_le_coe, bot_le, true_and]

theorem zipWith_sub_zero (a b : List K) (h : a.length = b.length) :
    (∀ x ∈ List.zipWith (fun x y => x - y) a b, x = 0) ↔ a = b := by
  induction a generalizing b with
  | nil =>
    cases b with
    | nil => simp
    | cons => simp at h
  | cons x a ih =>
    cases b with
    | nil => simp at h
    | cons y b =>
      simp only [List.zipWith_cons_cons, List.forall_mem_cons, sub_eq_zero, List.cons.injEq,
        ih b (by simpa using h)]

theorem range_map_getD {α : Type} (z : α) (l : List α) :
    (List.range l.length).map (fun s => l.getD s z) = l := by
  apply List.ext_getElem
  · simp
  · intro i h1 h2
    simp [h2]

namespace Transcription

open Spec

variable (m : Transcription K) (b : Blocks K) (p : List K) (theta : List (List K))

theorem state_at_node (h : Collocatable m) (hb : CollocationData m.dims b) (el : Nat)
    (hel : el < m.dims.elements) (j : Nat) (hj : j < (0 :: m.roots).length) :
    (pointAt m b p theta el (0 :: m.roots)[j]).x = (b.x.getD el []).getD j [] := by
  have hx := grid_columns hb.x hel
  have hj' : j < (b.x.getD el []).length := by
    rw [hx.1, ← h.points]; simpa using hj
  have hlen : ((b.x.getD el []).getD j []).length = m.dims.nX :=
    hx.2 _ (by
      rw [List.getD_eq_getElem?_getD (l := b.x.getD el []), List.getElem?_eq_getElem hj']
      exact List.getElem_mem hj')
  rw [← range_map_getD 0 ((b.x.getD el []).getD j []), hlen]
  show List.map _ _ = _
  apply List.map_congr_left
  intro s _
  exact Lagrange.eval_interpolate_at_node
    (fun j : Fin (0 :: m.roots).length => ((b.x.getD el []).getD j []).getD s 0)
    (nodes_injOn (h.increasing.imp fun h => ne_of_lt h)) (Finset.mem_univ (⟨j, hj⟩ : Fin _))

theorem state_at_start (h : Collocatable m) (hb : CollocationData m.dims b) (el : Nat)
    (hel : el < m.dims.elements) :
    some (pointAt m b p theta el 0).x = (b.x.getD el []).head? := by
  have hx := grid_columns hb.x hel
  have := state_at_node m b p theta h hb el hel 0 (by simp)
  rw [List.getElem_cons_zero] at this
  rw [this]
  cases hl : b.x.getD el [] with
  | nil => rw [hl] at hx; simp [Columns] at hx
  | cons c l => rfl

theorem state_at_end (h : Collocatable m) (hb : CollocationData m.dims b) (el : Nat)
    (hel : el < m.dims.elements) :
    some (pointAt m b p theta el 1).x = (b.x.getD el []).getLast? := by
  have hx := grid_columns hb.x hel
  have hne : m.roots ≠ [] := roots_ne m h
  have hj : m.dims.degree < (0 :: m.roots).length := by simp [h.points]
  have h1 : (0 :: m.roots)[m.dims.degree] = 1 := by
    have := h.last
    rw [List.getLast?_eq_some_getLast hne, Option.some.injEq, List.getLast_eq_getElem] at this
    rw [← this]
    have hd := h.degree
    simp only [List.getElem_cons, h.points]
    rw [dif_neg (by omega)]
  have := state_at_node m b p theta h hb el hel _ hj
  rw [h1] at this
  rw [this, List.getLast?_eq_getElem?, hx.1, Nat.add_sub_cancel,
    getElem?_getD [] (by rw [hx.1]; omega)]

theorem forall_roots (h : Collocatable m) (P : K → Prop) :
    (∀ j < m.dims.degree, P (m.roots.getD j 0)) ↔ ∀ tau ∈ m.roots, P tau := by
  constructor
  · intro hp tau ht
    obtain ⟨j, hj, rfl⟩ := List.mem_iff_getElem.mp ht
    have := hp j (by rw [← h.points]; exact hj)
    simpa [hj] using this
  · intro hp j hj
    apply hp
    have hj' : j < m.roots.length := by rw [h.points]; exact hj
    rw [List.getD_eq_getElem?_getD, List.getElem?_eq_getElem hj']
    exact List.getElem_mem hj'

theorem holds_dynamics (h : Collocatable m) (el : Nat) (hel : el < m.dims.elements) (tau : K) :
    (dynamicsCon m b p theta el tau).Holds ↔ ∀ s < m.dims.nX,
      (through (0 :: m.roots) (b.x.getD el []) s).derivative.eval tau =
        elementLength m * (m.ode el (pointAt m b p theta el tau)).getD s 0 := by
  have ho := h.ode el hel (pointAt m b p theta el tau)
  rw [dynamicsCon, holds_equality, zipWith_sub_zero _ _ (by simp [ho])]
  constructor
  · intro he s hs
    have := congrArg (fun l => l[s]?) he
    simp only [List.getElem?_map, List.getElem?_range hs, Option.map_some,
      getElem?_getD 0 (show s < (m.ode el (pointAt m b p theta el tau)).length by omega)] at this
    exact Option.some.inj this
  · intro hs
    apply List.ext_getElem
    · simp [ho]
    · intro s h1 h2
      have hs' : s < m.dims.nX := by simpa using h1
      have := hs s hs'
      have h3 : s < (m.ode el (pointAt m b p theta el tau)).length := by omega
      rw [List.getElem_map, List.getElem_map, List.getElem_range, this,
        List.getD_eq_getElem?_getD (l := m.ode el _), List.getElem?_eq_getElem h3]
      rfl

theorem unlimited (hd : ¬ m.hasDeltaU = true) (i : Nat) (hi : i < m.dims.nU) :
    m.duMax[i]? = some ⊤ ∧ m.duMin[i]? = some ⊥ := by
  simp only [hasDeltaU, List.any_eq_true, List.mem_range, not_exists, not_and, Bool.or_eq_true,
    decide_eq_true_eq, not_or, not_not, ne_eq] at hd
  exact hd i hi

theorem holds_rates (hb : SharedShape m.dims b) (lastU : Option (List K))
    (hr : m.hasDeltaU = true → RatesFit m lastU) (el : Nat) (hel : el < m.dims.elements) :
    (∀ c ∈ (if m.hasDeltaU then ratesAt m b lastU el else []), c.Holds) ↔
      ∀ before now, controlBefore b lastU el = some before →
    (b.u.getD el []).head? = some now → ∀ (i : Nat) (a c : K) (lo hi : WithBot (WithTop K)),
      now[i]? = some a → before[i]? = some c → m.duMin[i]? = some lo → m.duMax[i]? = some hi →
      lo ≤ ((a - c : K) : WithTop K) ∧ (((a - c : K) : WithTop K) : WithBot (WithTop K)) ≤ hi := by
  by_cases hd : m.hasDeltaU = true
  · have hr := hr hd
    rw [if_pos hd]
    unfold ratesAt
    obtain ⟨u, rest, hu, hul⟩ := controls_head m b hb hr.controls el hel
    cases hc : controlBefore b lastU el with
    | none => simp
    | some before =>
      simp only [hu, List.head?_cons, Option.getD_some, List.mem_flatMap, List.mem_range]
      constructor
      · rintro hh before' now ⟨⟩ ⟨⟩ i a c lo hi ha hcv hlo hhi
        have hi' : i < m.dims.nU := by
          rw [← hul]; exact (List.getElem?_eq_some_iff.mp ha).1
        by_cases hf : hi = ⊤ ∧ lo = ⊥
        · rw [hf.1, hf.2]; exact ⟨bot_le, le_top⟩
        · have := hh ⟨[a - c], lo, hi⟩ ⟨i, hi', by
            simp only [rateCon, List.getD_eq_getElem?_getD, ha, hcv, hlo, hhi, Option.getD_some]
            rw [if_neg hf]
            exact List.mem_singleton_self _⟩
          exact this _ (List.mem_singleton_self _)
      · rintro hh c ⟨i, hi, hc'⟩
        have hbl : before.length = m.dims.nU := by
          cases el with
          | zero => exact hr.last before hc
          | succ el =>
            obtain ⟨v, rest', hv, hvl⟩ := controls_head m b hb hr.controls el (by omega)
            simp only [controlBefore, hv, List.head?_cons, Option.some.injEq] at hc
            rw [← hc]; exact hvl
        unfold rateCon at hc'
        split at hc'
        · cases hc'
        · cases List.mem_singleton.mp hc'
          intro v hv
          cases List.mem_singleton.mp hv
          exact hh before u rfl rfl i _ _ _ _ (getElem?_getD 0 (by omega))
            (getElem?_getD 0 (by omega)) (getElem?_getD ⊥ (by rw [hr.min]; exact hi))
            (getElem?_getD ⊤ (by rw [hr.max]; exact hi))
  · rw [if_neg hd]
    simp only [List.not_mem_nil, false_implies, implies_true, true_iff]
    intro before now _ hn i a c lo hi ha _ hlo hhi
    have hi' : i < m.dims.nU := by
      obtain ⟨-, h2⟩ := grid_columns hb.u hel
      rw [← h2 now (List.mem_of_mem_head? hn)]
      exact (List.getElem?_eq_some_iff.mp ha).1
    obtain ⟨h1, h2⟩ := unlimited m hd i hi'
    rw [h1] at hhi
    rw [h2] at hlo
    cases hhi; cases hlo
    exact ⟨bot_le, le_top⟩

theorem holds_path (gs : List (PathCon K)) (el : Nat) (key : Nat → Key)
    (hk : ∀ i, m.taus (key i) = ((gs[i]?).bind fun g => pathPositions m.roots g.time).getD [])
    (hv : ∀ i pt, m.valueOf el pt (key i) = ((gs[i]?).map fun g => g.value el pt).getD [])
    (con : List K → Con K) :
    (∀ c ∈ (List.range gs.length).flatMap fun i =>
        (resultAt m b p theta el (key i)).map con, c.Holds) ↔
      ∀ g ∈ gs, ∀ taus, pathPositions m.roots g.time = some taus → ∀ tau ∈ taus,
        (con (g.value el (pointAt m b p theta el tau))).Holds := by
  simp only [List.mem_flatMap, List.mem_range, List.mem_map, resultAt, hk, hv]
  constructor
  · intro hh g hg taus ht tau htau
    obtain ⟨i, hi, rfl⟩ := List.mem_iff_getElem.mp hg
    refine hh _ ⟨i, hi, _, ⟨tau, ?_, rfl⟩, ?_⟩
    · rw [List.getElem?_eq_getElem hi, Option.bind_some, ht]
      exact htau
    · rw [List.getElem?_eq_getElem hi]
      rfl
  · rintro hh c ⟨i, hi, v, ⟨tau, htau, rfl⟩, rfl⟩
    rw [List.getElem?_eq_getElem hi] at htau ⊢
    rw [Option.bind_some] at htau
    cases hp : pathPositions m.roots gs[i].time with
    | none => rw [hp] at htau; cases htau
    | some taus =>
      rw [hp] at htau
      exact hh _ (List.getElem_mem hi) taus hp tau htau

theorem holds_element (h : Collocatable m) (hb : CollocationData m.dims b)
    (lastU : Option (List K)) (el : Nat)
    (hel : el < m.dims.elements) :
    (∀ c ∈ consAt m b p theta lastU el, c.Holds) ↔
      (el ≠ 0 → (b.x.getD (el - 1) []).getLast? = (b.x.getD el []).head?) ∧
      (∀ tau ∈ m.roots, ∀ s < m.dims.nX,
        (through (0 :: m.roots) (b.x.getD el []) s).derivative.eval tau =
          elementLength m * (m.ode el (pointAt m b p theta el tau)).getD s 0) ∧
      (∀ tau ∈ m.roots, ∀ v ∈ m.alg el (pointAt m b p theta el tau), v = 0) ∧
      (∀ c ∈ (if m.hasDeltaU then ratesAt m b lastU el else []), c.Holds) ∧
      (∀ g ∈ m.gIneq, ∀ taus, pathPositions m.roots g.time = some taus → ∀ tau ∈ taus,
        ∀ v ∈ g.value el (pointAt m b p theta el tau), v ≤ 0) ∧
      (∀ g ∈ m.gEq, ∀ taus, pathPositions m.roots g.time = some taus → ∀ tau ∈ taus,
        ∀ v ∈ g.value el (pointAt m b p theta el tau), v = 0) := by
  unfold consAt
  simp only [List.forall_mem_append, and_assoc]
  refine and_congr ?_ (and_congr ?_ (and_congr ?_ (and_congr Iff.rfl (and_congr ?_ ?_))))
  · split
    · next h0 => simp [h0]
    · next h0 =>
      simp only [List.mem_singleton, forall_eq, holds_equality, ne_eq, h0, not_false_eq_true,
        true_implies]
      rw [zipWith_sub_zero _ _ (by simp [pointAt]), ← state_at_start m b p theta h hb el hel,
        ← state_at_end m b p theta h hb (el - 1) (by omega), Option.some.injEq]
  · rw [← forall_roots m h (fun tau => ∀ s < m.dims.nX, _ = _)]
    simp only [List.mem_map, List.mem_range, forall_exists_index, and_imp,
      forall_apply_eq_imp_iff₂, holds_dynamics m b p theta h el hel]
  · rw [← forall_roots m h (fun tau => ∀ v ∈ _, v = 0)]
    simp only [List.mem_map, List.mem_range, forall_exists_index, and_imp,
      forall_apply_eq_imp_iff₂, holds_equality]
  · rw [holds_path m b p theta m.gIneq el .ineq (fun _ => rfl) (fun _ _ => rfl)]
    simp only [holds_nonpositive]
  · rw [holds_path m b p theta m.gEq el .eq (fun _ => rfl) (fun _ _ => rfl)]
    simp only [holds_equality]

/-! ## Counting -/

theorem rows_append (a b : List (Con K)) : rows (a ++ b) = rows a + rows b := by
  simp [rows]

theorem rows_flatMap {α : Type} (l : List α) (f : α → List (Con K)) :
    rows (l.flatMap f) = (l.map fun a => rows (f a)).sum := by
  induction l with
  | nil => rfl
  | cons a l ih => simp [rows_append, ih]

theorem rows_const {α : Type} (l : List α) (f : α → Con K) (n : Nat)
    (h : ∀ a ∈ l, (f a).value.length = n) : rows (l.map f) = l.length * n := by
  induction l with
  | nil => simp [rows]
  | cons a l ih =>
    have h1 := h a List.mem_cons_self
    have h2 := ih fun b hb => h b (List.mem_cons_of_mem _ hb)
    simp only [rows, List.map_cons, List.sum_cons, List.length_cons, Nat.succ_mul] at h2 ⊢
    omega

theorem rows_rates (lastU : Option (List K)) (el : Nat) (hr : RatesFit m lastU) :
    rows (ratesAt m b lastU el) =
      if (controlBefore b lastU el).isSome then limitedControls m else 0 := by
  unfold ratesAt
  cases controlBefore b lastU el with
  | none => rfl
  | some before =>
    rw [rows_flatMap]
    simp only [Option.isSome_some, if_true, limitedControls]
    have : ∀ l : List Nat, (∀ i ∈ l, i < m.dims.nU) → (l.map fun i => rows (rateCon m
        ((b.u.getD el []).head?.getD []) before i)).sum = (l.filter fun i =>
          !(decide (m.duMax[i]? = some ⊤) && decide (m.duMin[i]? = some ⊥))).length := by
      intro l hl
      induction l with
      | nil => rfl
      | cons i l ih =>
        have hi := hl i List.mem_cons_self
        have ih := ih fun j hj => hl j (List.mem_cons_of_mem _ hj)
        have h1 := getElem?_getD (l := m.duMax) (i := i) ⊤ (by rw [hr.max]; exact hi)
        have h2 := getElem?_getD (l := m.duMin) (i := i) ⊥ (by rw [hr.min]; exact hi)
        rw [List.map_cons, List.sum_cons, ih, List.filter_cons, h1, h2, rateCon]
        simp only [Option.some.injEq]
        by_cases hc : m.duMax.getD i ⊤ = ⊤ ∧ m.duMin.getD i ⊥ = ⊥
        · rw [if_pos hc, if_neg (by
            rw [decide_eq_true hc.1, decide_eq_true hc.2]; decide)]
          simp [rows]
        · rw [if_neg hc, if_pos (by
            rcases not_and_or.mp hc with h | h
            · rw [decide_eq_false h]; rfl
            · rw [decide_eq_false h, Bool.and_false]; rfl)]
          simp [rows, Nat.add_comm]
    exact this _ fun i hi => List.mem_range.mp hi

theorem rows_path (gs : List (PathCon K)) (el : Nat) (key : Nat → Key)
    (hk : ∀ i, m.taus (key i) = ((gs[i]?).bind fun g => pathPositions m.roots g.time).getD [])
    (hv : ∀ i pt, m.valueOf el pt (key i) = ((gs[i]?).map fun g => g.value el pt).getD [])
    (con : List K → Con K) (hc : ∀ v, (con v).value = v) (size : PathCon K → Nat)
    (hs : ∀ g ∈ gs, ∀ el pt, (g.value el pt).length = size g) :
    rows ((List.range gs.length).flatMap fun i => (resultAt m b p theta el (key i)).map con) =
      (gs.map fun g => size g * ((pathPositions m.roots g.time).getD []).length).sum := by
  rw [rows_flatMap]
  congr 1
  apply List.ext_getElem
  · simp
  · intro i h1 h2
    have hi : i < gs.length := by simpa using h1
    simp only [List.getElem_map, List.getElem_range, resultAt, List.map_map]
    rw [rows_const _ _ (size gs[i])]
    · simp [hk, List.getElem?_eq_getElem hi, Nat.mul_comm]
    · intro tau _
      simp only [Function.comp, hc, hv, List.getElem?_eq_getElem hi]
      exact hs _ (List.getElem_mem hi) _ _

end Transcription
end Verif
