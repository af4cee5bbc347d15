import Verif.Spec.ConvexLocal
import Verif.Lemmas.ConvexDirect
/-! # Near a decision of a convex problem -/
namespace Verif.ConvexDirect
open Spec SolveDirect RelaxDirect PolyDecision Polynomial

variable {K : Type} [Field K] [LinearOrder K] [IsStrictOrderedRing K]

omit [IsStrictOrderedRing K] in
theorem flatten_near {eps : K} {v w : List (List K)} (h : List.Forall₂ (Near eps) v w) :
    Near eps v.flatten w.flatten := by
  induction h with
  | nil => exact .nil
  | cons h _ ih => exact List.rel_append h ih

omit [IsStrictOrderedRing K] in
theorem append_near {eps : K} {v w v' w' : List K} (h : Near eps v w) (h' : Near eps v' w') :
    Near eps (v ++ v') (w ++ w') := List.rel_append h h'

theorem refl_near {eps : K} (h : 0 ≤ eps) (v : List K) : Near eps v v := by
  refine List.forall₂_same.2 fun x _ => ?_
  simpa using h

/-- Tables that are near at all nodes. -/
theorem grid_near {eps : K} {e k n : Nat} {nodes : List K} (hn : nodes.Nodup) {g g' : List (List (List K))}
    (hg : Grid e k n g) (hg' : Grid e k n g') (hk : k = nodes.length)
    (h : ∀ el < e, ∀ tau ∈ nodes, ∀ i < n, |(through nodes (g.getD el []) i).eval tau -
      (through nodes (g'.getD el []) i).eval tau| ≤ eps) :
    Near eps g.flatten.flatten g'.flatten.flatten := by
  have entry : ∀ (cols : List (List K)) (j : Nat) (hj : j < nodes.length) (i : Nat),
      (through nodes cols i).eval nodes[j] = (cols.getD j []).getD i 0 := fun cols j hj i =>
    Lagrange.eval_interpolate_at_node (s := Finset.univ) (v := nodes.get)
      (fun j => (cols.getD j []).getD i 0) (nodes_injOn hn) (Finset.mem_univ (⟨j, hj⟩ : Fin nodes.length))
  have hin : List.Forall₂ (List.Forall₂ (Near eps)) g g' := by
    rw [List.forall₂_iff_get]
    refine ⟨by rw [hg.1, hg'.1], fun el h₁ h₂ => ?_⟩
    have hc := hg.2 _ (List.getElem_mem h₁)
    have hc' := hg'.2 _ (List.getElem_mem h₂)
    rw [List.forall₂_iff_get]
    refine ⟨hc.1.trans hc'.1.symm, fun j h₃ h₄ => ?_⟩
    have hd := hc.2 _ (List.getElem_mem h₃)
    have hd' := hc'.2 _ (List.getElem_mem h₄)
    unfold Near
    rw [List.forall₂_iff_get]
    refine ⟨hd.trans hd'.symm, fun i h₅ h₆ => ?_⟩
    have hj : j < nodes.length := by rw [← hk, ← hc.1]; exact h₃
    have hi : i < n := by rw [← hd]; exact h₅
    have := h el (by rw [← hg.1]; exact h₁) nodes[j] (List.getElem_mem hj) i hi
    rw [entry _ j hj i, entry _ j hj i] at this
    have e₁ : ∀ {l : List (List (List K))} (a₁ : el < l.length) (a₂ : j < l[el].length) (a₃ : i < l[el][j].length),
        ((l.getD el []).getD j []).getD i 0 = l[el][j][i] := by
      intro l a₁ a₂ a₃
      simp [List.getD_eq_getElem?_getD, a₁, a₂, a₃]
    rw [e₁ h₁ h₃ h₅, e₁ h₂ h₄ h₆] at this
    exact this
  have hflat : ∀ {v w : List (List (List K))}, List.Forall₂ (List.Forall₂ (Near eps)) v w →
      List.Forall₂ (Near eps) v.flatten w.flatten := by
    intro v w hvw
    induction hvw with
    | nil => exact .nil
    | cons h _ ih => exact List.rel_append h ih
  exact flatten_near (hflat hin)

/-- Convex functions do not jump: the change from `ρ₁` on the way to `ρ₂` is bounded by the values at `ρ₂`
and at its mirror image. -/
theorem convex_near_by {ops : Expr.Ops K} {o : Ocp} {e : Expr} (he : ConvexExpr ops o e) {ρ₁ ρ₂ : Sym → K}
    (hs : SameGiven o ρ₁ ρ₂) {t : K} (h0 : 0 ≤ t) (h1 : t ≤ 1) :
    |e.eval ops (partWay t ρ₁ ρ₂) - e.eval ops ρ₁| ≤ t * (|e.eval ops ρ₂ - e.eval ops ρ₁| +
      |e.eval ops (partWay (-1) ρ₁ ρ₂) - e.eval ops ρ₁|) := by
  have hmirror : partWay (-1) ρ₁ ρ₂ = fun s => 2 * ρ₁ s - ρ₂ s := by
    funext s
    show (1 - -1) * ρ₁ s + -1 * ρ₂ s = 2 * ρ₁ s - ρ₂ s
    ring
  rw [hmirror]
  set ρ₀ : Sym → K := fun s => 2 * ρ₁ s - ρ₂ s with hρ₀
  have hup := he t ρ₁ ρ₂ h0 h1 hs
  have hp : 0 < 1 + t := by linarith
  have hback : partWay (t / (1 + t)) (partWay t ρ₁ ρ₂) ρ₀ = ρ₁ := by
    funext s
    show (1 - t / (1 + t)) * ((1 - t) * ρ₁ s + t * ρ₂ s) + t / (1 + t) * (2 * ρ₁ s - ρ₂ s) = ρ₁ s
    field_simp
    ring
  have hlow := he (t / (1 + t)) (partWay t ρ₁ ρ₂) ρ₀ (div_nonneg h0 hp.le) ((div_le_one hp).2 (by linarith))
    (fun s hm => by
      show (1 - t) * ρ₁ s + t * ρ₂ s = 2 * ρ₁ s - ρ₂ s
      rw [hs s hm]; ring)
  rw [hback] at hlow
  have hlow' : (1 + t) * e.eval ops ρ₁ ≤ e.eval ops (partWay t ρ₁ ρ₂) + t * e.eval ops ρ₀ := by
    have := mul_le_mul_of_nonneg_left hlow hp.le
    have e₁ : (1 + t) * ((1 - t / (1 + t)) * e.eval ops (partWay t ρ₁ ρ₂) + t / (1 + t) * e.eval ops ρ₀) =
        e.eval ops (partWay t ρ₁ ρ₂) + t * e.eval ops ρ₀ := by
      field_simp
      ring
    rwa [e₁] at this
  have a₁ := mul_le_mul_of_nonneg_left (le_abs_self (e.eval ops ρ₂ - e.eval ops ρ₁)) h0
  have a₂ := mul_le_mul_of_nonneg_left (le_abs_self (e.eval ops ρ₀ - e.eval ops ρ₁)) h0
  have a₃ := mul_nonneg h0 (abs_nonneg (e.eval ops ρ₂ - e.eval ops ρ₁))
  have a₄ := mul_nonneg h0 (abs_nonneg (e.eval ops ρ₀ - e.eval ops ρ₁))
  rw [abs_le]
  constructor <;> nlinarith

/-- Convex functions do not jump. -/
theorem convex_near {ops : Expr.Ops K} {o : Ocp} {e : Expr} (he : ConvexExpr ops o e) {ρ₁ ρ₂ : Sym → K}
    (hs : SameGiven o ρ₁ ρ₂) : ∃ B, ∀ t, 0 ≤ t → t ≤ 1 →
      |e.eval ops (partWay t ρ₁ ρ₂) - e.eval ops ρ₁| ≤ t * B :=
  ⟨_, fun _ h0 h1 => convex_near_by he hs h0 h1⟩

/-- A polynomial is determined by its value at zero and its derivatives at the collocation points. -/
theorem determined {M : Mesh} (hM : GoodMesh M) {D : K[X]} (hd : D.natDegree ≤ M.roots.length) (h0 : D.eval 0 = 0)
    (hder : ∀ tau ∈ (inField M.roots : List K), D.derivative.eval tau = 0) : D = 0 := by
  have hnd : (inField M.roots : List K).Nodup := (List.nodup_cons.1 (ExactTraj.nodes_nodup (K := K) hM)).2
  have hlen : (inField M.roots : List K).length = M.roots.length := by simp [inField]
  have hpts := hM.points
  have hz : D.derivative = 0 := by
    refine Polynomial.eq_zero_of_natDegree_lt_card_of_eval_eq_zero D.derivative
      (f := (inField M.roots : List K).get) (List.nodup_iff_injective_get.1 hnd) (fun i => hder _ (List.get_mem _ _)) ?_
    rw [Fintype.card_fin, hlen]
    have := Polynomial.natDegree_derivative_le D
    omega
  have hc := Polynomial.derivative_eq_zero.1 hz
  rw [Polynomial.eq_C_of_natDegree_eq_zero hc] at h0 ⊢
  rw [eval_C] at h0
  rw [h0, C_0]

theorem sum_bound {n : Nat} (f : Nat → K) (hf : ∀ i, 0 ≤ f i) {i : Nat} (hi : i < n) :
    f i ≤ ∑ j ∈ Finset.range n, f j :=
  Finset.single_le_sum (f := f) (fun j _ => hf j) (Finset.mem_range.2 hi)

/-- Small derivatives at the collocation points give small values. -/
theorem small {M : Mesh} (hM : GoodMesh M) : ∃ A : K, 0 ≤ A ∧ ∀ (D : Nat → K[X]) (eps : K), 0 ≤ eps →
    (∀ el, (D el).natDegree ≤ M.roots.length) → (D 0).eval 0 = 0 →
    (∀ el, el + 1 < M.elements → (D el).eval 1 = (D (el + 1)).eval 0) →
    (∀ el < M.elements, ∀ tau ∈ (inField M.roots : List K), |(D el).derivative.eval tau| ≤ eps) →
    ∀ el < M.elements, ∀ tau ∈ (0 :: inField M.roots : List K), |(D el).eval tau| ≤ A * eps := by
  set r : List K := inField M.roots with hr
  have hone : (1 : K) ∈ r := by
    have := List.mem_of_getLast? hM.last
    rw [hr]
    unfold inField
    exact List.mem_map.2 ⟨1, this, Rat.cast_one⟩
  have hnd : r.Nodup := (List.nodup_cons.1 (ExactTraj.nodes_nodup (K := K) hM)).2
  have hP := fun j : Nat => exists_costState (K := K) hM fun _ tau => if r[j]? = some tau then 1 else 0
  choose P hPd hP0 hPc hPr using hP
  let nodes : List K := 0 :: r
  let A := ∑ j ∈ Finset.range r.length, ∑ k ∈ Finset.range nodes.length, |(P j 0).eval (nodes.getD k 0)|
  have hA : 0 ≤ A := Finset.sum_nonneg fun j _ => Finset.sum_nonneg fun k _ => abs_nonneg _
  have hnode : ∀ tau ∈ nodes, ∑ j ∈ Finset.range r.length, |(P j 0).eval tau| ≤ A := by
    intro tau ht
    obtain ⟨k, hk, rfl⟩ := List.getElem_of_mem ht
    refine Finset.sum_le_sum fun j _ => ?_
    have := sum_bound (n := nodes.length) (fun k => |(P j 0).eval (nodes.getD k 0)|) (fun k => abs_nonneg _) hk
    simpa [List.getD_eq_getElem?_getD, hk] using this
  refine ⟨M.elements * A, mul_nonneg (Nat.cast_nonneg _) hA, ?_⟩
  intro D eps heps hd h0 hcont hder
  have hrep : ∀ el, D el = C ((D el).eval 0) +
      ∑ j ∈ Finset.range r.length, C ((D el).derivative.eval (r.getD j 0)) * P j 0 := by
    intro el
    rw [← sub_eq_zero]
    refine determined hM ?_ ?_ ?_
    · refine (natDegree_sub_le _ _).trans (max_le (hd el) ((natDegree_add_le _ _).trans (max_le ?_ ?_)))
      · rw [natDegree_C]; exact Nat.zero_le _
      · refine Polynomial.natDegree_sum_le_of_forall_le _ _ fun j _ => ?_
        exact (natDegree_C_mul_le _ _).trans (hPd j 0)
    · simp [eval_finsetSum, hP0]
    · intro tau ht
      obtain ⟨k, hk, rfl⟩ := List.getElem_of_mem ht
      simp only [derivative_sub, derivative_add, derivative_C, derivative_sum, derivative_C_mul, eval_sub, eval_add,
        eval_zero, zero_add, eval_finsetSum, eval_mul, eval_C]
      rw [Finset.sum_eq_single k]
      · rw [hPr k 0 _ ht, if_pos (List.getElem?_eq_getElem hk), List.getD_eq_getElem?_getD,
          List.getElem?_eq_getElem hk]
        simp [hr]
      · intro j hj hne
        rw [hPr j 0 _ ht, if_neg, mul_zero]
        intro heq
        have hj' := Finset.mem_range.1 hj
        rw [List.getElem?_eq_getElem hj', Option.some.injEq] at heq
        exact hne ((hnd.getElem_inj_iff).1 heq)
      · intro hnot
        exact absurd (Finset.mem_range.2 hk) hnot
  have hone_step : ∀ el < M.elements, ∀ tau ∈ nodes, |(D el).eval tau| ≤ |(D el).eval 0| + A * eps := by
    intro el hel tau ht
    have e₁ : (D el).eval tau = (D el).eval 0 +
        ∑ j ∈ Finset.range r.length, (D el).derivative.eval (r.getD j 0) * (P j 0).eval tau := by
      conv_lhs => rw [hrep el]
      simp [eval_finsetSum]
    rw [e₁]
    refine (abs_add_le _ _).trans (add_le_add le_rfl ?_)
    refine (Finset.abs_sum_le_sum_abs _ _).trans ?_
    refine le_trans (Finset.sum_le_sum (g := fun j => |(P j 0).eval tau| * eps) fun j hj => ?_) ?_
    · have hj' := Finset.mem_range.1 hj
      rw [abs_mul, mul_comm]
      refine mul_le_mul_of_nonneg_left (hder el hel _ ?_) (abs_nonneg _)
      rw [List.getD_eq_getElem?_getD, List.getElem?_eq_getElem hj', Option.getD_some]
      exact List.getElem_mem hj'
    · rw [← Finset.sum_mul]
      exact mul_le_mul_of_nonneg_right (hnode tau ht) heps
  have hAe : 0 ≤ A * eps := mul_nonneg hA heps
  have hstart : ∀ el < M.elements, |(D el).eval 0| ≤ el * (A * eps) := by
    intro el
    induction el with
    | zero => intro _; rw [h0]; simp
    | succ n ih =>
      intro hel
      rw [← hcont n hel]
      have h₁ := hone_step n (by omega) 1 (List.mem_cons_of_mem _ hone)
      have h₂ := ih (by omega)
      push_cast
      linarith
  intro el hel tau ht
  have h₁ := hone_step el hel tau ht
  have h₂ := hstart el hel
  have h₃ : ((el : K) + 1) * (A * eps) ≤ M.elements * (A * eps) :=
    mul_le_mul_of_nonneg_right (by exact_mod_cast hel) hAe
  have e₁ : (M.elements : K) * A * eps = M.elements * (A * eps) := by ring
  rw [e₁]
  linarith

omit [IsStrictOrderedRing K] in
theorem list_bounded (l : List K) : ∃ B, ∀ v ∈ l, v ≤ B := by
  induction l with
  | nil => exact ⟨0, by simp⟩
  | cons v l ih =>
    obtain ⟨B, hB⟩ := ih
    refine ⟨max v B, fun w hw => ?_⟩
    rcases List.mem_cons.1 hw with rfl | hw
    · exact le_max_left _ _
    · exact (hB w hw).trans (le_max_right _ _)

/-- Finitely many numbers are bounded. -/
theorem table_bounded (e n : Nat) (nodes : List K) (F : Nat → K → Nat → K) :
    ∃ B, 0 ≤ B ∧ ∀ el < e, ∀ tau ∈ nodes, ∀ i < n, F el tau i ≤ B := by
  obtain ⟨B, hB⟩ := list_bounded ((List.range e).flatMap fun el => nodes.flatMap fun tau =>
    (List.range n).map fun i => F el tau i)
  refine ⟨max B 0, le_max_right _ _, fun el hel tau ht i hi => (hB _ ?_).trans (le_max_left _ _)⟩
  simp only [List.mem_flatMap, List.mem_map, List.mem_range]
  exact ⟨el, hel, tau, ht, i, hi, rfl⟩

variable {o : Ocp} {M : Mesh} {x0 p : List K} {theta : List (List K)}

/-- Near a decision there are decisions on the way to any other one. -/
theorem closer (ops : Expr.Ops K) (hM : GoodMesh M) (hn : M.controlRoots.Nodup) (hB : BoundsFit o)
    (hpos : o.positiveObjective = false) (hopt : o.pOpt = [] ∧ o.thetaOpt = [])
    (hq : PositiveQuadrature K M) (hlen : o.t0 < o.tf) (hx : ConvexExprs ops o) {lastU : Option (List K)}
    {b₁ b₂ : Blocks K} {ρ₁ ρ₂ : Nat → K → Sym → K}
    (hD₁ : Decision ops o M x0 p theta lastU b₁ ρ₁) (hD₂ : Decision ops o M x0 p theta lastU b₂ ρ₂)
    {eps : K} (heps : 0 < eps) :
    ∃ t b ρ, 0 < t ∧ t ≤ 1 ∧ Decision ops o M x0 p theta lastU b ρ ∧
      directCost ops o M b ρ ≤ (1 - t) * directCost ops o M b₁ ρ₁ + t * directCost ops o M b₂ ρ₂ ∧
      Near eps (Layout.stacked b) (Layout.stacked b₁) := by
  have hE := hM.elements
  have hstep : (0 : K) < stepLength o M := by
    unfold stepLength
    exact div_pos (sub_pos.2 (by exact_mod_cast hlen)) (by exact_mod_cast hE)
  obtain ⟨A, hA0, hA⟩ := small (K := K) hM
  obtain ⟨G₁, hG₁, hb₁⟩ := table_bounded M.elements o.model.x.length (0 :: inField M.roots : List K) fun el tau i =>
    |(statePoly M b₂ el i).eval tau - (statePoly M b₁ el i).eval tau|
  obtain ⟨G₂, hG₂, hb₂⟩ := table_bounded M.elements o.model.y.length (inField M.roots : List K) fun el tau i =>
    |(algebraicPoly M b₂ el i).eval tau - (algebraicPoly M b₁ el i).eval tau|
  obtain ⟨G₃, hG₃, hb₃⟩ := table_bounded M.elements o.model.u.length (inField M.controlRoots : List K) fun el tau i =>
    |(controlPoly M b₂ el i).eval tau - (controlPoly M b₁ el i).eval tau|
  obtain ⟨G₄, hG₄, hb₄⟩ := table_bounded 1 o.eta.length ([0] : List K) fun _ _ i =>
    |b₂.eta.getD i 0 - b₁.eta.getD i 0|
  have hnear : ∀ el tau, ∃ B, el < M.elements → ∀ t, 0 ≤ t → t ≤ 1 →
      |o.L.eval ops (partWay t (ρ₁ el tau) (ρ₂ el tau)) - o.L.eval ops (ρ₁ el tau)| ≤ t * B := by
    intro el tau
    by_cases hel : el < M.elements
    · obtain ⟨B, hB⟩ := convex_near (hx.convex o.L (by simp))
        (same_given hopt (hD₁.reads el hel tau) (hD₂.reads el hel tau))
      exact ⟨B, fun _ => hB⟩
    · exact ⟨0, fun h => absurd h hel⟩
  choose BL hBL using hnear
  obtain ⟨G₅, hG₅, hb₅⟩ := table_bounded M.elements 1 (inField M.roots : List K) fun el tau _ => BL el tau
  let G := G₁ + G₂ + G₃ + G₄ + A * (stepLength o M * G₅)
  have hAG : 0 ≤ A * (stepLength o M * G₅) := mul_nonneg hA0 (mul_nonneg hstep.le hG₅)
  have hG : 0 ≤ G := by
    show 0 ≤ G₁ + G₂ + G₃ + G₄ + A * (stepLength o M * G₅)
    positivity
  let t := min 1 (eps / (G + 1))
  have hG1 : 0 < G + 1 := by linarith
  have ht0 : 0 < t := lt_min one_pos (div_pos heps hG1)
  have ht1 : t ≤ 1 := min_le_left _ _
  have htG : t * G ≤ eps := by
    have h₁ : t * (G + 1) ≤ eps := by
      refine (mul_le_mul_of_nonneg_right (min_le_right _ _) hG1.le).trans (le_of_eq ?_)
      exact div_mul_cancel₀ _ hG1.ne'
    nlinarith
  have hle : ∀ g, 0 ≤ g → g ≤ G → t * g ≤ eps := fun g _ hg => (mul_le_mul_of_nonneg_left hg ht0.le).trans htG
  have hmix : ∀ {a a' c : K}, |a' - a| ≤ c → |((1 - t) * a + t * a') - a| ≤ t * c := by
    intro a a' c hc
    rw [show ((1 - t) * a + t * a') - a = t * (a' - a) by ring, abs_mul, abs_of_pos ht0]
    exact mul_le_mul_of_nonneg_left hc ht0.le
  obtain ⟨b, hD, hcost, hY, hU, hX, heta⟩ := mixed_decision ops hM hn hB hpos hopt hq hlen hx ht0.le ht1 hD₁ hD₂
  refine ⟨t, b, _, ht0, ht1, hD, hcost, ?_⟩
  have hev : ∀ (f g : K[X]) (v : K), (C (1 - t) * f + C t * g).eval v = (1 - t) * f.eval v + t * g.eval v := by
    intro f g v
    simp
  obtain ⟨-, cost₁, -⟩ := solution_parts ops hM hD₁.data hD₁.solution
  obtain ⟨-, cost, -⟩ := solution_parts ops hM hD.data hD.solution
  have hD5 := hA (fun el => statePoly M b el o.model.x.length - statePoly M b₁ el o.model.x.length)
    (stepLength o M * (t * G₅)) (mul_nonneg hstep.le (mul_nonneg ht0.le hG₅)) ?_ ?_ ?_ ?_
  · have nx : Near eps b.x.flatten.flatten b₁.x.flatten.flatten := by
      refine grid_near (ExactTraj.nodes_nodup (K := K) hM) hD.data.x hD₁.data.x (by simp [inField, directDims]) ?_
      intro el hel tau ht i hi
      show |(statePoly M b el i).eval tau - (statePoly M b₁ el i).eval tau| ≤ eps
      have hi : i < o.model.x.length + 1 := hi
      rcases Nat.lt_or_ge i o.model.x.length with h | h
      · rw [hX el hel i h, hev]
        exact (hmix (hb₁ el hel tau ht i h)).trans (hle _ hG₁ (by
          show G₁ ≤ G₁ + G₂ + G₃ + G₄ + A * (stepLength o M * G₅)
          linarith))
      · obtain rfl : i = o.model.x.length := by omega
        have := hD5 el hel tau ht
        rw [eval_sub] at this
        refine this.trans ?_
        rw [show A * (stepLength o M * (t * G₅)) = t * (A * (stepLength o M * G₅)) by ring]
        exact hle _ hAG (by
          show A * (stepLength o M * G₅) ≤ G₁ + G₂ + G₃ + G₄ + A * (stepLength o M * G₅)
          linarith)
    have ny : Near eps b.y.flatten.flatten b₁.y.flatten.flatten := by
      refine grid_near (List.nodup_cons.1 (ExactTraj.nodes_nodup (K := K) hM)).2 hD.data.y hD₁.data.y
        (by simp [inField, directDims]) ?_
      intro el hel tau ht i hi
      show |(algebraicPoly M b el i).eval tau - (algebraicPoly M b₁ el i).eval tau| ≤ eps
      rw [hY el hel i hi, hev]
      exact (hmix (hb₂ el hel tau ht i hi)).trans (hle _ hG₂ (by
        show G₂ ≤ G₁ + G₂ + G₃ + G₄ + A * (stepLength o M * G₅)
        linarith))
    have nu : Near eps b.u.flatten.flatten b₁.u.flatten.flatten := by
      have g₁ := hD.data.u
      have g₂ := hD₁.data.u
      rw [points_eq o M hM.controls] at g₁ g₂
      by_cases h0 : o.model.u.length = 0
      · rw [if_pos h0] at g₁ g₂
        refine grid_near (nodes := []) List.nodup_nil g₁ g₂ rfl ?_
        intro el _ tau ht
        cases ht
      · rw [if_neg h0] at g₁ g₂
        refine grid_near (inField_nodup hn) g₁ g₂ (by simp [inField]) ?_
        intro el hel tau ht i hi
        show |(controlPoly M b el i).eval tau - (controlPoly M b₁ el i).eval tau| ≤ eps
        rw [hU el hel i hi, hev]
        exact (hmix (hb₃ el hel tau ht i hi)).trans (hle _ hG₃ (by
          show G₃ ≤ G₁ + G₂ + G₃ + G₄ + A * (stepLength o M * G₅)
          linarith))
    have ne : Near eps b.eta b₁.eta := by
      unfold Near
      rw [List.forall₂_iff_get]
      refine ⟨hD.data.eta.trans hD₁.data.eta.symm, fun i h₁ h₂ => ?_⟩
      have hi : i < o.eta.length := lt_of_lt_of_eq h₂ hD₁.data.eta
      have e₁ : b.eta.get ⟨i, h₁⟩ = (1 - t) * b₁.eta.getD i 0 + t * b₂.eta.getD i 0 := by
        have : b.eta[i]? = some ((1 - t) * b₁.eta.getD i 0 + t * b₂.eta.getD i 0) := by
          rw [heta, List.getElem?_map, List.getElem?_range hi]
          rfl
        rw [List.getElem?_eq_getElem h₁] at this
        exact Option.some.inj this
      have e₂ : b₁.eta.get ⟨i, h₂⟩ = b₁.eta.getD i 0 := by
        simp [List.getD_eq_getElem?_getD, h₂]
      rw [e₁, e₂]
      exact (hmix (hb₄ 0 Nat.one_pos 0 (by simp) i hi)).trans (hle _ hG₄ (by
        show G₄ ≤ G₁ + G₂ + G₃ + G₄ + A * (stepLength o M * G₅)
        linarith))
    have np : Near eps b.pOpt b₁.pOpt := by
      have l₁ := hD.data.pOpt
      have l₂ := hD₁.data.pOpt
      simp only [directDims, hopt.1, List.length_nil, List.length_eq_zero_iff] at l₁ l₂
      rw [l₁, l₂]
      exact .nil
    have nt : Near eps b.thetaOpt.flatten b₁.thetaOpt.flatten := by
      have l₁ := hD.data.thetaOpt
      have l₂ := hD₁.data.thetaOpt
      have hz : ∀ {l : List (List K)}, Columns (directDims o M).elements (directDims o M).nThetaOpt l → l.flatten = [] := by
        intro l hl
        refine List.flatten_eq_nil_iff.2 fun c hc => ?_
        have := hl.2 c hc
        simpa [directDims, hopt.2] using this
      rw [hz l₁, hz l₂]
      exact .nil
    unfold Layout.stacked
    exact append_near (append_near (append_near (append_near (append_near nx ny) nu) ne) np) nt
  · intro el
    exact (natDegree_sub_le _ _).trans (max_le (state_degree hM b el _) (state_degree hM b₁ el _))
  · rw [eval_sub, cost.start, cost₁.start, sub_zero]
  · intro el hel
    rw [eval_sub, eval_sub, cost.continuous el hel, cost₁.continuous el hel]
  · intro el hel tau ht
    rw [derivative_sub, eval_sub, cost.running el hel tau ht, cost₁.running el hel tau ht, ← mul_sub, abs_mul,
      abs_of_pos hstep]
    refine mul_le_mul_of_nonneg_left ((hBL el tau hel t ht0.le ht1).trans ?_) hstep.le
    exact mul_le_mul_of_nonneg_left (hb₅ el hel tau ht 0 Nat.one_pos) ht0.le

/-- Local solutions of convex problems are solutions. -/
theorem local_best (ops : Expr.Ops K) (hM : GoodMesh M) (hn : M.controlRoots.Nodup) (hB : BoundsFit o)
    (hpos : o.positiveObjective = false) (hopt : o.pOpt = [] ∧ o.thetaOpt = [])
    (hq : PositiveQuadrature K M) (hlen : o.t0 < o.tf) (hx : ConvexExprs ops o) {lastU : Option (List K)}
    {b : Blocks K} {ρ : Nat → K → Sym → K} (hb : LocallyBest ops o M x0 p theta lastU b ρ) :
    BestDecision ops o M x0 p theta lastU b ρ := by
  refine ⟨hb.toDecision, fun b₂ ρ₂ hD₂ => ?_⟩
  obtain ⟨eps, heps, hloc⟩ := hb.local_best
  obtain ⟨t, b', ρ', ht0, ht1, hD, hcost, hnear⟩ := closer ops hM hn hB hpos hopt hq hlen hx hb.toDecision hD₂ heps
  have h₁ := hloc b' ρ' hD hnear
  have h₂ : t * directCost ops o M b ρ ≤ t * directCost ops o M b₂ ρ₂ := by linarith
  exact le_of_mul_le_mul_left h₂ ht0

end Verif.ConvexDirect
