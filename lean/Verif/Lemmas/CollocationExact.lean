import Verif.Lemmas.CollocationFeasible
import Verif.Spec.CollocationExact
import Mathlib.Algebra.Polynomial.Div
import Mathlib.Algebra.Polynomial.Monic
/-!
# Helper lemmas: exact polynomial solutions
-/
namespace Verif
namespace Transcription

open Spec Polynomial

variable {K : Type} [Field K] [LinearOrder K]

theorem through_eq {nodes : List K} (hn : nodes.Nodup) {cols : List (List K)} {s : Nat} {P : K[X]}
    (hd : P.natDegree < nodes.length)
    (hv : ∀ (j : Nat) (hj : j < nodes.length), (cols.getD j []).getD s 0 = P.eval nodes[j]) :
    through nodes cols s = P := by
  symm
  refine Lagrange.eq_interpolate_of_eval_eq _ (nodes_injOn hn) ?_ fun i _ => ?_
  · rw [Finset.card_univ, Fintype.card_fin]
    exact lt_of_le_of_lt Polynomial.degree_le_natDegree (by exact_mod_cast hd)
  · exact (hv i.1 i.2).symm

theorem columns_entry (nodes : List K) (n s : Nat) (hs : s < n) (f : Nat → K[X]) (j : Nat)
    (hj : j < nodes.length) :
    ((nodes.map fun tau => (List.range n).map fun s => (f s).eval tau).getD j []).getD s 0 =
      (f s).eval nodes[j] := by
  simp [List.getD_eq_getElem?_getD, List.getElem?_eq_getElem, hj, hs]

theorem range_map_getD_lt {α : Type} (n el : Nat) (h : el < n) (f : Nat → α) (z : α) :
    ((List.range n).map f).getD el z = f el := by
  simp [List.getD_eq_getElem?_getD, h]

variable (m : Transcription K) (z : PolySolution K)

theorem sampled_data (h : CollocationGrid m) (hz : Representable m z) :
    CollocationData m.dims (sampled m z) where
  u := hz.u
  eta := hz.eta
  pOpt := hz.pOpt
  thetaOpt := hz.thetaOpt
  x := by
    refine ⟨by simp [sampled], fun l hl => ?_⟩
    obtain ⟨el, -, rfl⟩ := List.mem_map.1 hl
    refine ⟨by simp [h.points], fun c hc => ?_⟩
    obtain ⟨tau, -, rfl⟩ := List.mem_map.1 hc
    simp
  y := by
    refine ⟨by simp [sampled], fun l hl => ?_⟩
    obtain ⟨el, -, rfl⟩ := List.mem_map.1 hl
    refine ⟨by simp [h.points], fun c hc => ?_⟩
    obtain ⟨tau, -, rfl⟩ := List.mem_map.1 hc
    simp

theorem sampled_x (el : Nat) (he : el < m.dims.elements) :
    (sampled m z).x.getD el [] = (0 :: m.roots).map fun tau =>
      (List.range m.dims.nX).map fun s => (z.x el s).eval tau :=
  range_map_getD_lt _ _ he _ _

theorem sampled_y (el : Nat) (he : el < m.dims.elements) :
    (sampled m z).y.getD el [] = m.roots.map fun tau =>
      (List.range m.dims.nY).map fun s => (z.y el s).eval tau :=
  range_map_getD_lt _ _ he _ _

theorem sampled_through_x (h : CollocationGrid m) (hz : Representable m z) (el : Nat)
    (he : el < m.dims.elements) (s : Nat) (hs : s < m.dims.nX) :
    through (0 :: m.roots) ((sampled m z).x.getD el []) s = z.x el s := by
  refine through_eq (h.increasing.imp fun h => ne_of_lt h) ?_ fun j hj => ?_
  · have := hz.x el s
    rw [List.length_cons, h.points]
    omega
  · rw [sampled_x m z el he]
    exact columns_entry (0 :: m.roots) m.dims.nX s hs (z.x el) j hj

theorem sampled_through_y (h : CollocationGrid m) (hz : Representable m z) (el : Nat)
    (he : el < m.dims.elements) (s : Nat) (hs : s < m.dims.nY) :
    through m.roots ((sampled m z).y.getD el []) s = z.y el s := by
  refine through_eq ((List.pairwise_cons.1 h.increasing).2.imp fun h => ne_of_lt h) ?_ fun j hj => ?_
  · have := hz.y el s
    rw [h.points]
    omega
  · rw [sampled_y m z el he]
    exact columns_entry m.roots m.dims.nY s hs (z.y el) j hj

/-- Up to the time, the discretised trajectory is the exact one, everywhere in an element. -/
theorem sampled_point (h : CollocationGrid m) (hz : Representable m z) (p : List K)
    (theta : List (List K)) (el : Nat) (he : el < m.dims.elements) (tau : K) :
    pointAt m (sampled m z) p theta el tau =
      { exactPoint m z p theta el tau with t := elementLength m * ((el : K) + tau) } := by
  unfold pointAt exactPoint
  congr 1
  · refine List.map_congr_left fun s hs => ?_
    rw [sampled_through_x m z h hz el he s (List.mem_range.1 hs)]
  · refine List.map_congr_left fun s hs => ?_
    rw [sampled_through_y m z h hz el he s (List.mem_range.1 hs)]

theorem clock (hc : ClockIrrelevant m) (pt : Point K) (t : K) (ht : m.t0 = 0 → t = pt.t) (el : Nat) :
    m.ode el { pt with t := t } = m.ode el pt ∧ m.alg el { pt with t := t } = m.alg el pt ∧
    m.sCost el { pt with t := t } = m.sCost el pt ∧
    ∀ g ∈ m.gIneq ++ m.gEq, g.value el { pt with t := t } = g.value el pt := by
  rcases hc with h0 | hc
  · rw [ht h0]
    exact ⟨rfl, rfl, rfl, fun _ _ => rfl⟩
  · exact hc el pt t

theorem sampled_clock (hc : ClockIrrelevant m) (h : CollocationGrid m) (hz : Representable m z)
    (p : List K) (theta : List (List K)) (el : Nat) (he : el < m.dims.elements) (tau : K) :
    m.ode el (pointAt m (sampled m z) p theta el tau) = m.ode el (exactPoint m z p theta el tau) ∧
    m.alg el (pointAt m (sampled m z) p theta el tau) = m.alg el (exactPoint m z p theta el tau) ∧
    m.sCost el (pointAt m (sampled m z) p theta el tau) =
      m.sCost el (exactPoint m z p theta el tau) ∧
    ∀ g ∈ m.gIneq ++ m.gEq, g.value el (pointAt m (sampled m z) p theta el tau) =
      g.value el (exactPoint m z p theta el tau) := by
  rw [sampled_point m z h hz p theta el he tau]
  exact clock m hc _ _ (fun h0 => by simp [exactPoint, h0]) el

variable [IsStrictOrderedRing K]

theorem roots_within (h : CollocationGrid m) (tau : K) (ht : tau ∈ m.roots) : 0 ≤ tau ∧ tau ≤ 1 := by
  refine ⟨le_of_lt ((List.pairwise_cons.1 h.increasing).1 tau ht), ?_⟩
  obtain ⟨i, hi, rfl⟩ := List.mem_iff_getElem.1 ht
  have hl := h.last
  rw [List.getLast?_eq_getElem?] at hl
  obtain ⟨hl1, hl2⟩ := List.getElem?_eq_some_iff.1 hl
  have hp := (List.pairwise_cons.1 h.increasing).2
  rcases Nat.lt_or_ge i (m.roots.length - 1) with hlt | hge
  · rw [← hl2]
    exact le_of_lt (List.pairwise_iff_getElem.1 hp i _ hi hl1 hlt)
  · have : i = m.roots.length - 1 := by omega
    subst this
    exact le_of_eq hl2

theorem path_within (h : CollocationGrid m) (tag : String) (taus : List K)
    (hp : pathPositions m.roots tag = some taus) (tau : K) (ht : tau ∈ taus) :
    PathHoldsAt tag tau := by
  unfold pathPositions at hp
  split at hp
  · rename_i e
    cases hp
    exact Or.inl ⟨e, by simpa using ht⟩
  · split at hp
    · rename_i e
      cases hp
      exact Or.inr (Or.inl ⟨e, by simpa using ht⟩)
    · split at hp
      · rename_i e
        cases hp
        exact Or.inr (Or.inr ⟨e, roots_within m h tau ht⟩)
      · cases hp

theorem sampled_collocates (hc : ClockIrrelevant m) (h : CollocationGrid m)
    (hz : Representable m z) (x0 p : List K) (theta : List (List K)) (lastU : Option (List K))
    (hs : SolvesExactly m z x0 p theta lastU) : Collocates m (sampled m z) x0 p theta lastU where
  initial := by
    have : ((sampled m z).x.getD 0 []).getD 0 [] = (exactPoint m z p theta 0 0).x := by
      rw [sampled_x m z 0 h.elements]
      rfl
    rw [this]
    exact hs.initial
  continuous := by
    intro el he
    have hl : (0 :: m.roots).getLast? = some 1 := by
      rw [List.getLast?_cons, h.last]
      rfl
    rw [sampled_x m z el (by omega), sampled_x m z (el + 1) he, List.getLast?_map, hl,
      List.map_cons, List.head?_cons, Option.map_some]
    congr 1
    exact List.map_congr_left fun s hs' => hs.continuous el he s (List.mem_range.1 hs')
  dynamics := by
    intro el he tau ht s hs'
    rw [sampled_through_x m z h hz el he s hs', (sampled_clock m z hc h hz p theta el he tau).1]
    obtain ⟨h0, h1⟩ := roots_within m h tau ht
    exact hs.dynamics el he tau h0 h1 s hs'
  algebraic := by
    intro el he tau ht
    rw [(sampled_clock m z hc h hz p theta el he tau).2.1]
    obtain ⟨h0, h1⟩ := roots_within m h tau ht
    exact hs.algebraic el he tau h0 h1
  rates := hs.rates
  inequalities := by
    intro el he g hg taus hp tau ht
    rw [(sampled_clock m z hc h hz p theta el he tau).2.2.2 g (List.mem_append_left _ hg)]
    exact hs.inequalities el he g hg tau (path_within m h _ _ hp tau ht)
  equalities := by
    intro el he g hg taus hp tau ht
    rw [(sampled_clock m z hc h hz p theta el he tau).2.2.2 g (List.mem_append_right _ hg)]
    exact hs.equalities el he g hg tau (path_within m h _ _ hp tau ht)
  final := by
    rw [sampled_point m z h hz p theta _ (Nat.sub_lt h.elements Nat.one_pos) 1]
    exact hs.final
  independent := hs.independent

theorem sampled_cost (hc : ClockIrrelevant m) (h : CollocationGrid m) (hz : Representable m z)
    (p : List K) (theta : List (List K)) :
    collocationCost m (sampled m z) p theta = exactCost m z p theta := by
  unfold collocationCost exactCost
  rw [sampled_point m z h hz p theta _ (Nat.sub_lt h.elements Nat.one_pos) 1]
  congr 2
  refine List.map_congr_left fun el he => ?_
  exact (sampled_clock m z hc h hz p theta el (List.mem_range.1 he) 1).2.2.1

/-! ## Integrals -/

theorem length_pos (h : CollocationGrid m) : elementLength m ≠ 0 := by
  have h1 : (0 : K) < m.tf - m.t0 := sub_pos.2 h.horizon
  have h2 : (0 : K) < (m.dims.elements : K) := by exact_mod_cast h.elements
  exact ne_of_gt (div_pos h1 h2)

theorem through_degree {nodes : List K} (hn : nodes.Nodup) (cols : List (List K)) (s : Nat) :
    (through nodes cols s).degree < nodes.length := by
  have := Lagrange.degree_interpolate_lt (s := Finset.univ)
    (fun j : Fin nodes.length => (cols.getD j []).getD s 0) (nodes_injOn hn)
  rwa [Finset.card_univ, Fintype.card_fin] at this

/-- The derivative of the state, in an element where the right-hand side is a polynomial. -/
theorem derivative_rest (nodes : List K) (hn : nodes.Nodup) (h0 : 0 < nodes.length)
    (P r : K[X]) (hP : P.natDegree ≤ nodes.length) (hr : r.degree < nodes.length)
    (hv : ∀ tau ∈ nodes, P.derivative.eval tau = r.eval tau) : P.derivative = r := by
  refine Polynomial.eq_of_degrees_lt_of_eval_index_eq (s := Finset.univ) (v := nodes.get)
    (nodes_injOn hn) ?_ ?_ fun i _ => hv _ (List.get_mem _ _)
  · rw [Finset.card_univ, Fintype.card_fin]
    refine lt_of_le_of_lt Polynomial.degree_le_natDegree ?_
    have := Polynomial.natDegree_derivative_le P
    exact_mod_cast (show P.derivative.natDegree < nodes.length by omega)
  · rwa [Finset.card_univ, Fintype.card_fin]

/-- The polynomial with the given roots. -/
noncomputable def nodePoly (roots : List K) : K[X] := (roots.map fun a => X - C a).prod

omit [LinearOrder K] [IsStrictOrderedRing K] in
theorem nodePoly_monic (roots : List K) :
    (nodePoly roots).Monic ∧ (nodePoly roots).natDegree = roots.length := by
  induction roots with
  | nil => simp [nodePoly]
  | cons a l ih =>
    have : nodePoly (a :: l) = (X - C a) * nodePoly l := by simp [nodePoly]
    rw [this]
    refine ⟨(monic_X_sub_C a).mul ih.1, ?_⟩
    rw [(monic_X_sub_C a).natDegree_mul ih.1, ih.2, natDegree_X_sub_C, List.length_cons, Nat.add_comm]

omit [LinearOrder K] [IsStrictOrderedRing K] in
theorem nodePoly_root (roots : List K) (t : K) (ht : t ∈ roots) : (nodePoly roots).eval t = 0 := by
  rw [nodePoly, eval_list_prod, List.map_map]
  exact List.prod_eq_zero (List.mem_map.2 ⟨t, ht, by simp⟩)

theorem state_derivative (b : Blocks K) (h : CollocationGrid m) (el s : Nat) (r : K[X])
    (hr : r.degree < m.dims.degree)
    (hv : ∀ tau ∈ m.roots, (through (0 :: m.roots) (b.x.getD el []) s).derivative.eval tau =
      elementLength m * r.eval tau) :
    (through (0 :: m.roots) (b.x.getD el []) s).derivative = C (elementLength m) * r := by
  have hnd : m.roots.Nodup := (List.pairwise_cons.1 h.increasing).2.imp fun h => ne_of_lt h
  have hpd : (through (0 :: m.roots) (b.x.getD el []) s).natDegree ≤ m.roots.length := by
    have := through_degree (h.increasing.imp fun h => ne_of_lt h) (b.x.getD el []) s
    rw [List.length_cons] at this
    by_cases h0 : through (0 :: m.roots) (b.x.getD el []) s = 0
    · rw [h0, natDegree_zero]
      exact Nat.zero_le _
    · exact Nat.le_of_lt_succ ((Polynomial.natDegree_lt_iff_degree_lt h0).2 this)
  refine derivative_rest m.roots hnd (by rw [h.points]; have := h.degree; omega) _ _ hpd ?_ ?_
  · rw [Polynomial.degree_C_mul (length_pos m h), h.points]
    exact hr
  · intro t ht
    rw [hv t ht, eval_mul, eval_C]

theorem through_node (b : Blocks K) (h : Collocatable m) (hb : CollocationData m.dims b) (el : Nat)
    (he : el < m.dims.elements) (s : Nat) (hs : s < m.dims.nX) (j : Nat)
    (hj : j < (0 :: m.roots).length) :
    (through (0 :: m.roots) (b.x.getD el []) s).eval (0 :: m.roots)[j] =
      ((b.x.getD el []).getD j []).getD s 0 := by
  have := state_at_node m b [] [] h hb el he j hj
  rw [← this]
  simp [pointAt, List.getD_eq_getElem?_getD, hs]

end Transcription
end Verif
