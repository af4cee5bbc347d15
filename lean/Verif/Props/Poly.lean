import Verif.Lemmas.Poly
import Mathlib.Algebra.Order.Field.Rat
/-!
# C06: polynomial approximations interpolate their parameters

`points s j` is the parameter in row `s`, column `j`. The collocation points of the approximation
are `interpolationNodes`. `polyApproxUtil`/`polyApproxMethod` give the value of the approximation
(a vector of `size` entries) at `tau`.
-/
namespace Verif

variable {K : Type u} [Field K]

/-- The collocation points: the roots, with 0 in front when a point at zero is asked for. -/
def interpolationNodes (roots : List K) (withZero : Bool) : List K :=
  if withZero then 0 :: roots else roots

omit [Field K] in
theorem nodes_injOn {l : List K} (h : l.Nodup) :
    Set.InjOn l.get (Finset.univ : Finset (Fin l.length)) := by
  intro a _ b _ hab
  exact List.nodup_iff_injective_get.mp h hab

/-- At the `j`-th collocation point the approximation is the `j`-th column of parameters. -/
theorem C06_util_interpolates (roots : List K) (size degree : Nat) (pz : Bool)
    (points : Nat → Nat → K) (hdeg : degree ≠ 1) (hn : (interpolationNodes roots pz).Nodup)
    (j : Nat) (hj : j < (interpolationNodes roots pz).length) :
    polyApproxUtil roots size degree pz points (interpolationNodes roots pz)[j] =
      (List.range size).map fun s => points s j := by
  rw [polyApproxUtil, if_neg hdeg]
  apply List.map_congr_left
  intro s _
  rw [lagrangeBasisUtil_eq]
  exact (polyRow_eq_interpolate (interpolationNodes roots pz) points s _).trans
    (Lagrange.eval_interpolate_at_node (fun j : Fin _ => points s j) (nodes_injOn hn)
      (Finset.mem_univ (⟨j, hj⟩ : Fin _)))

/-- Row `s` of the approximation is, at every `tau`, the value of the one polynomial of degree
below the number of collocation points that takes the parameters at the collocation points. -/
theorem C06_util_unique (roots : List K) (size degree : Nat) (pz : Bool)
    (points : Nat → Nat → K) (hdeg : degree ≠ 1) (hn : (interpolationNodes roots pz).Nodup)
    (s : Nat) (hs : s < size) :
    ∃! p : Polynomial K, p.degree < (interpolationNodes roots pz).length ∧
      (∀ j (hj : j < (interpolationNodes roots pz).length),
        p.eval (interpolationNodes roots pz)[j] = points s j) ∧
      ∀ tau, (polyApproxUtil roots size degree pz points tau)[s]? = some (p.eval tau) := by
  have hval : ∀ tau, (polyApproxUtil roots size degree pz points tau)[s]? = some
      ((Lagrange.interpolate Finset.univ (interpolationNodes roots pz).get
        fun j => points s j).eval tau) := by
    intro tau
    rw [polyApproxUtil, if_neg hdeg, List.getElem?_map, List.getElem?_range hs, Option.map_some,
      lagrangeBasisUtil_eq]
    exact congrArg some (polyRow_eq_interpolate (interpolationNodes roots pz) points s tau)
  refine ⟨Lagrange.interpolate Finset.univ (interpolationNodes roots pz).get fun j => points s j,
    ⟨?_, ?_, hval⟩, ?_⟩
  · simpa using Lagrange.degree_interpolate_lt (s := Finset.univ)
      (fun j : Fin (interpolationNodes roots pz).length => points s j) (nodes_injOn hn)
  · intro j hj
    exact Lagrange.eval_interpolate_at_node (fun j : Fin _ => points s j) (nodes_injOn hn)
      (Finset.mem_univ (⟨j, hj⟩ : Fin _))
  · rintro q ⟨hq, hqe, -⟩
    exact Lagrange.eq_interpolate_of_eval_eq (s := Finset.univ)
      (fun j : Fin (interpolationNodes roots pz).length => points s j) (nodes_injOn hn)
      (by simpa using hq) (fun i _ => hqe i.1 i.2)

/-- The basis polynomials sum to one at every `tau`. -/
theorem C06_util_partition_of_unity (roots : List K) (pz : Bool)
    (hn : (interpolationNodes roots pz).Nodup) (h0 : interpolationNodes roots pz ≠ []) (tau : K) :
    (lagrangeBasisUtil roots pz tau).sum = 1 := by
  rw [lagrangeBasisUtil_eq]
  change (List.ofFn fun j : Fin (interpolationNodes roots pz).length =>
    (Lagrange.basis Finset.univ (interpolationNodes roots pz).get j).eval tau).sum = 1
  have hpos : 0 < (interpolationNodes roots pz).length := List.length_pos_of_ne_nil h0
  rw [List.sum_ofFn, ← Polynomial.eval_finsetSum,
    Lagrange.sum_basis (nodes_injOn hn) ⟨⟨0, hpos⟩, Finset.mem_univ _⟩, Polynomial.eval_one]

/-- Degree one: the approximation is constant in `tau` and equal to its parameters. -/
theorem C06_util_degree_one (roots : List K) (size : Nat) (pz : Bool) (points : Nat → Nat → K)
    (tau : K) :
    polyApproxUtil roots size 1 pz points tau = (List.range size).map fun s => points s 0 := by
  simp [polyApproxUtil]

/-- The approximation of the solution methods interpolates too, whenever it can be built. -/
theorem C06_method_interpolates (roots : List K) (size degree : Nat) (pt0 : Bool)
    (points : Nat → Nat → K) (hdeg : degree ≠ 1) (hsize : 0 < size ∨ pt0 = false)
    (hn : (interpolationNodes roots pt0).Nodup)
    (j : Nat) (hj : j < (interpolationNodes roots pt0).length) :
    polyApproxMethod roots size degree pt0 points (interpolationNodes roots pt0)[j] =
      .ok ((List.range size).map fun s => points s j) := by
  rw [polyApproxMethod, if_neg hdeg]
  cases pt0 with
  | true =>
    have hs : size > 0 := by simpa using hsize
    rw [if_pos rfl, if_pos hs]
    congr 1
    apply List.map_congr_left
    intro s _
    rw [lagrangeBasisMethod_zero, polyRow_eq_interpolate (0 :: roots)]
    exact Lagrange.eval_interpolate_at_node (fun j : Fin (0 :: roots).length => points s j)
      (nodes_injOn hn) (Finset.mem_univ (⟨j, hj⟩ : Fin _))
  | false =>
    rw [if_neg (by simp)]
    congr 1
    apply List.map_congr_left
    intro s _
    rw [lagrangeBasisMethod_one, polyRow_eq_interpolate roots]
    exact Lagrange.eval_interpolate_at_node (fun j : Fin roots.length => points s j)
      (nodes_injOn hn) (Finset.mem_univ (⟨j, hj⟩ : Fin _))

/-- The two functions that build approximations agree wherever the second does not raise. -/
theorem C06_method_eq_util (roots : List K) (size degree : Nat) (pt0 : Bool)
    (points : Nat → Nat → K) (tau : K) (hsize : 0 < size ∨ pt0 = false ∨ degree = 1) :
    polyApproxMethod roots size degree pt0 points tau =
      .ok (polyApproxUtil roots size degree pt0 points tau) := by
  unfold polyApproxMethod polyApproxUtil
  split
  · rfl
  · next hdeg =>
    cases pt0 with
    | true =>
      have hs : size > 0 := by simpa [hdeg] using hsize
      rw [if_pos rfl, if_pos hs, lagrangeBasisMethod_zero, lagrangeBasisUtil_eq]
      rfl
    | false =>
      rw [if_neg (by simp), lagrangeBasisMethod_one, lagrangeBasisUtil_eq]
      rfl

/-- When the approximation of the solution methods raises: an empty vector of degree other than
one with a point at the start. -/
theorem C06_method_error_iff (roots : List K) (size degree : Nat) (pt0 : Bool)
    (points : Nat → Nat → K) (tau : K) :
    (∃ e, polyApproxMethod roots size degree pt0 points tau = .error e) ↔
      size = 0 ∧ pt0 = true ∧ degree ≠ 1 := by
  unfold polyApproxMethod
  by_cases hdeg : degree = 1
  · simp [hdeg]
  · cases pt0 <;> by_cases hs : size > 0 <;> simp [hdeg, hs] <;> omega

/-- The parameter vector stacks the columns: parameter `s` of the `j`-th collocation point is at
position `j * size + s`, and there are `size` times the number of columns of them. -/
theorem C06_parameter_layout {α : Type v} (n m : Nat) (M : Nat → Nat → α) :
    (vecMat n m M).length = m * n ∧
    ∀ i j, i < n → j < m → (vecMat n m M)[j * n + i]? = some (M i j) := by
  constructor
  · simp [vecMat, List.length_flatMap]
  · intro i j hi hj
    induction m generalizing j M with
    | zero => omega
    | succ m ih =>
      rw [vecMat, List.range_succ_eq_map, List.flatMap_cons, List.flatMap_map]
      cases j with
      | zero =>
        rw [List.getElem?_append_left (by simpa using hi)]
        simp [hi]
      | succ j =>
        rw [List.getElem?_append_right (by simp; nlinarith)]
        simp only [List.length_map, List.length_range]
        have : (j + 1) * n + i - n = j * n + i := by rw [Nat.add_mul]; omega
        rw [this]
        exact ih (fun i j => M i (j + 1)) j (by omega)

/-- Number of parameter columns = number of collocation points, for degree above one, and one
column for degree one, when CasADi returns `degree` points. -/
theorem C06_number_of_columns (roots : List K) (degree : Nat) (pz : Bool)
    (hroots : roots.length = degree) (hd : 1 < degree) :
    polyNumColumns degree pz = (interpolationNodes roots pz).length := by
  cases pz <;> simp [polyNumColumns, interpolationNodes, hroots, hd]

/-- Non-vacuity: three distinct points including zero, a vector of size two. -/
example : (interpolationNodes [(1 : ℚ) / 3, 1] true).Nodup ∧ (2 : Nat) ≠ 1 ∧
    1 < (interpolationNodes [(1 : ℚ) / 3, 1] true).length := by
  refine ⟨?_, by decide, by simp [interpolationNodes]⟩
  simp [interpolationNodes]

end Verif
