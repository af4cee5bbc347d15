import Verif.Lemmas.CollocationExact
import Verif.Lemmas.DirectSolution
import Verif.Lemmas.Merge
import Verif.Spec.ExactTrajectory
/-!
# Helper lemmas: trajectories collocation can represent
-/
namespace Verif.ExactTraj
open Spec Polynomial

variable {K : Type} [Field K] [LinearOrder K] [IsStrictOrderedRing K]

theorem nodes_increasing {M : Mesh} (h : GoodMesh M) : (0 :: inField M.roots : List K).Pairwise (· < ·) := by
  have := h.increasing
  have h2 : (0 :: inField M.roots : List K) = (0 :: M.roots).map (Rat.cast : Rat → K) := by
    simp [inField]
  rw [h2]
  exact List.Pairwise.map _ (fun a b hab => by exact_mod_cast hab) this

theorem nodes_nodup {M : Mesh} (h : GoodMesh M) : (0 :: inField M.roots : List K).Nodup :=
  (nodes_increasing h).imp fun h => ne_of_lt h

theorem last_node {M : Mesh} (h : GoodMesh M) : (inField M.roots : List K).getLast? = some 1 := by
  unfold inField
  rw [List.getLast?_map, h.last]
  simp

theorem node_within {M : Mesh} (h : GoodMesh M) (tau : K) (ht : tau ∈ (inField M.roots : List K)) :
    0 ≤ tau ∧ tau ≤ 1 := by
  have hinc := nodes_increasing (K := K) h
  refine ⟨le_of_lt ((List.pairwise_cons.1 hinc).1 tau ht), ?_⟩
  obtain ⟨i, hi, rfl⟩ := List.mem_iff_getElem.1 ht
  have hl := last_node (K := K) h
  rw [List.getLast?_eq_getElem?] at hl
  obtain ⟨hl1, hl2⟩ := List.getElem?_eq_some_iff.1 hl
  have hp := (List.pairwise_cons.1 hinc).2
  rcases Nat.lt_or_ge i ((inField M.roots : List K).length - 1) with hlt | hge
  · rw [← hl2]
    exact le_of_lt (List.pairwise_iff_getElem.1 hp i _ hi hl1 hlt)
  · have : i = (inField M.roots : List K).length - 1 := by omega
    subst this
    exact le_of_eq hl2

theorem path_within {M : Mesh} (h : GoodMesh M) (tag : String) (taus : List K)
    (hp : pathPositions (inField M.roots) tag = some taus) (tau : K) (ht : tau ∈ taus) :
    PathHoldsAt tag tau := by
  unfold pathPositions at hp
  split at hp
  · rename_i e
    cases hp
    exact Or.inl ⟨e, by simpa using ht⟩
  · split at hp
    · rename_i e
      cases hp
      exact Or.inr (Or.inl ⟨e, by simpa using ht⟩)
    · split at hp
      · rename_i e
        cases hp
        exact Or.inr (Or.inr ⟨e, node_within h tau ht⟩)
      · cases hp

/-- A polynomial of low degree that vanishes at the collocation points is zero. -/
theorem zero_poly {M : Mesh} (h : GoodMesh M) (Q : K[X]) (hQ : Q.natDegree < M.roots.length)
    (hv : ∀ tau ∈ (inField M.roots : List K), Q.eval tau = 0) : Q = 0 := by
  refine Polynomial.eq_zero_of_natDegree_lt_card_of_eval_eq_zero Q
    (f := fun i : Fin (inField M.roots : List K).length => (inField M.roots : List K).get i) ?_
    (fun i => hv _ (List.get_mem _ _)) (by simpa [inField] using hQ)
  exact List.nodup_iff_injective_get.1 (List.nodup_cons.1 (nodes_nodup h)).2

/-- The derivative of a state whose derivative at the collocation points is a polynomial of low degree. -/
theorem derivative_poly {M : Mesh} (h : GoodMesh M) (b : Blocks K) (el i : Nat) (c : K) (Q : K[X])
    (hQ : Q.natDegree < M.roots.length)
    (hv : ∀ tau ∈ (inField M.roots : List K), (statePoly M b el i).derivative.eval tau = c * Q.eval tau) :
    (statePoly M b el i).derivative = C c * Q := by
  have hpd : (statePoly M b el i).natDegree ≤ M.roots.length := by
    have := Transcription.through_degree (nodes_nodup h) (b.x.getD el []) i
    rw [List.length_cons] at this
    by_cases h0 : statePoly M b el i = 0
    · rw [h0, natDegree_zero]
      exact Nat.zero_le _
    · have := (Polynomial.natDegree_lt_iff_degree_lt h0).2 this
      simpa [inField] using Nat.le_of_lt_succ this
  rw [← sub_eq_zero]
  refine zero_poly h _ ?_ fun t ht => by rw [eval_sub, hv t ht, eval_mul, eval_C, sub_self]
  have h1 := Polynomial.natDegree_derivative_le (statePoly M b el i)
  have h2 := Polynomial.natDegree_C_mul_le c Q
  have h3 := Polynomial.natDegree_sub_le (statePoly M b el i).derivative (C c * Q)
  have h4 := h.points
  omega

/-- The value at the end of an element, if the right-hand side is a polynomial of low degree. -/
theorem end_value {M : Mesh} (h : GoodMesh M) (b : Blocks K) (el i : Nat) (c : K) (R : K[X])
    (hQ : R.derivative.natDegree < M.roots.length)
    (hv : ∀ tau ∈ (inField M.roots : List K), (statePoly M b el i).derivative.eval tau =
      c * R.derivative.eval tau) :
    (statePoly M b el i).eval 1 = (statePoly M b el i).eval 0 + c * (R.eval 1 - R.eval 0) := by
  have hd := derivative_poly h b el i c R.derivative hQ hv
  have hz : (statePoly M b el i - C c * R).derivative = 0 := by
    rw [derivative_sub, derivative_C_mul, hd, sub_self]
  have hconst := Polynomial.eq_C_of_derivative_eq_zero hz
  have hev : ∀ t, (statePoly M b el i).eval t - c * R.eval t = (statePoly M b el i - C c * R).coeff 0 := by
    intro t
    have := congrArg (Polynomial.eval t) hconst
    rwa [eval_C, eval_sub, eval_mul, eval_C] at this
  have e1 := hev 1
  have e0 := hev 0
  linear_combination e1 - e0

theorem statePoly_node {M : Mesh} (h : GoodMesh M) (b : Blocks K) (el i j : Nat)
    (hj : j < (0 :: inField M.roots : List K).length) :
    (statePoly M b el i).eval (0 :: inField M.roots : List K)[j] = ((b.x.getD el []).getD j []).getD i 0 :=
  Lagrange.eval_interpolate_at_node (s := Finset.univ) (v := (0 :: inField M.roots : List K).get)
    (fun j => ((b.x.getD el []).getD j []).getD i 0) (nodes_injOn (nodes_nodup h))
    (Finset.mem_univ (⟨j, hj⟩ : Fin (0 :: inField M.roots : List K).length))

/-- The states are continuous from element to element. -/
theorem statePoly_continuous {M : Mesh} (h : GoodMesh M) {o : Ocp} {b : Blocks K}
    (hb : CollocationData (directDims o M) b) (el i : Nat) (he : el + 1 < M.elements)
    (hc : (b.x.getD el []).getLast? = (b.x.getD (el + 1) []).head?) :
    (statePoly M b el i).eval 1 = (statePoly M b (el + 1) i).eval 0 := by
  have h0 := statePoly_node h b (el + 1) i 0 (by simp)
  have hl : (b.x.getD el []).length = M.roots.length + 1 :=
    (Transcription.grid_columns hb.x (show el < M.elements by omega)).1
  have hlen : (inField M.roots : List K).length = M.roots.length := by simp [inField]
  have h1 := statePoly_node h b el i M.roots.length (by simp [hlen])
  have hlast : (0 :: inField M.roots : List K)[M.roots.length]'(by simp [hlen]) = 1 := by
    have := last_node (K := K) h
    rw [List.getLast?_eq_getElem?, hlen] at this
    have hp := h.points
    obtain ⟨k, hk⟩ : ∃ k, M.roots.length = k + 1 := ⟨M.roots.length - 1, by omega⟩
    simp only [hk, Nat.add_sub_cancel] at this
    obtain ⟨_, h2⟩ := List.getElem?_eq_some_iff.1 this
    simp only [hk, List.getElem_cons_succ]
    exact h2
  rw [hlast] at h1
  rw [h1]
  refine Eq.trans ?_ h0.symm
  rw [List.getLast?_eq_getElem?, hl, List.head?_eq_getElem?, Nat.add_sub_cancel] at hc
  rw [List.getD_eq_getElem?_getD (i := M.roots.length), hc, ← List.getD_eq_getElem?_getD]

section
variable {o : Ocp} {M : Mesh} {z : PolySolution K}

theorem sampledAt_x (el : Nat) (he : el < M.elements) :
    (sampledAt o M z).x.getD el [] = (0 :: inField M.roots).map fun tau =>
      (List.range (o.model.x.length + 1)).map fun i => (z.x el i).eval tau :=
  Transcription.range_map_getD_lt _ _ he _ _

theorem statePoly_sampledAt (h : GoodMesh M) (hz : FitsMesh o M z) (el : Nat) (he : el < M.elements)
    (i : Nat) (hi : i ≤ o.model.x.length) : statePoly M (sampledAt o M z) el i = z.x el i := by
  refine Transcription.through_eq (nodes_nodup h) ?_ fun j hj => ?_
  · have := hz.x el i
    simp only [List.length_cons, inField, List.length_map]
    omega
  · rw [sampledAt_x el he]
    exact Transcription.columns_entry (0 :: inField M.roots) _ i (Nat.lt_succ_of_le hi) (z.x el) j hj

theorem algebraicPoly_sampledAt (h : GoodMesh M) (hz : FitsMesh o M z) (el : Nat) (he : el < M.elements)
    (i : Nat) (hi : i < o.model.y.length) : algebraicPoly M (sampledAt o M z) el i = z.y el i := by
  refine Transcription.through_eq (List.nodup_cons.1 (nodes_nodup h)).2 ?_ fun j hj => ?_
  · have := hz.y el i
    simp only [inField, List.length_map]
    omega
  · have : (sampledAt o M z).y.getD el [] = (inField M.roots).map fun tau =>
        (List.range o.model.y.length).map fun i => (z.y el i).eval tau :=
      Transcription.range_map_getD_lt _ _ he _ _
    rw [this]
    exact Transcription.columns_entry (inField M.roots) _ i hi (z.y el) j hj

theorem sampledAt_data (hz : FitsMesh o M z) : CollocationData (directDims o M) (sampledAt o M z) where
  toSharedShape := hz.shared
  x := by
    refine ⟨by simp [sampledAt, directDims], fun l hl => ?_⟩
    obtain ⟨el, -, rfl⟩ := List.mem_map.1 hl
    refine ⟨by simp [inField, directDims], fun c hc => ?_⟩
    obtain ⟨tau, -, rfl⟩ := List.mem_map.1 hc
    simp [directDims]
  y := by
    refine ⟨by simp [sampledAt, directDims], fun l hl => ?_⟩
    obtain ⟨el, -, rfl⟩ := List.mem_map.1 hl
    refine ⟨by simp [inField, directDims], fun c hc => ?_⟩
    obtain ⟨tau, -, rfl⟩ := List.mem_map.1 hc
    simp [directDims]

omit [LinearOrder K] [IsStrictOrderedRing K] in
theorem mem_ode {α κ : Type} [DecidableEq κ] : ∀ {d : Dict κ α} {k : κ} {v : α}, d.get? k = some v → (k, v) ∈ d
  | [], _, _, h => by cases h
  | (k', v') :: d, k, v, h => by
    unfold Dict.get? at h
    split at h
    · rename_i hk
      cases h
      rw [hk]
      exact List.mem_cons_self
    · exact List.mem_cons_of_mem _ (mem_ode h)

/-- The values the method uses: the time counts from the start of the horizon. -/
noncomputable def shifted (o : Ocp) (M : Mesh) (ρ : Nat → K → Sym → K) (el : Nat) (tau : K) (s : Sym) : K :=
  if s = o.model.t then stepLength o M * ((el : K) + tau) else ρ el tau s

variable {ρ : Nat → K → Sym → K} {x0 p : List K} {theta : List (List K)}

theorem t_not_mem (hn : (problemSymbols o).Nodup) : o.model.t ∉ o.model.tau :: (o.model.x ++ o.model.y ++
    o.model.u ++ o.model.p ++ o.model.theta ++ o.model.x0 ++ o.eta) := by
  have : problemSymbols o = o.model.t :: (o.model.tau :: (o.model.x ++ o.model.y ++
    o.model.u ++ o.model.p ++ o.model.theta ++ o.model.x0 ++ o.eta)) := by
    simp [problemSymbols]
  rw [this] at hn
  exact (List.nodup_cons.1 hn).1

theorem shifted_of_ne {el : Nat} {tau : K} {s : Sym} (h : s ≠ o.model.t) :
    shifted o M ρ el tau s = ρ el tau s := if_neg h

theorem eval_along (ops : Expr.Ops K) (hc : ClockFree o) {el : Nat} {tau : K}
    (hv : TrajectoryValues o M z x0 p theta el tau (ρ el tau)) {e : Expr} (he : e ∈ alongPath o) :
    e.eval ops (shifted o M ρ el tau) = e.eval ops (ρ el tau) := by
  refine Expr.eval_congr ops _ _ e fun s hs => ?_
  unfold shifted
  split
  · rename_i h
    rcases hc with h0 | hf
    · rw [h, hv.time, h0]; simp
    · exact absurd (h ▸ hs) (hf e he)
  · rfl

theorem eval_apart (ops : Expr.Ops K) {el : Nat} {tau : K} {e : Expr}
    (he : o.model.t ∉ e.syms) :
    e.eval ops (shifted o M ρ el tau) = e.eval ops (ρ el tau) :=
  Expr.eval_congr ops _ _ e fun _ hs => shifted_of_ne fun h => he (h ▸ hs)

theorem reads (h : GoodMesh M) (hz : FitsMesh o M z) (hn : (problemSymbols o).Nodup)
    (hpo : ∀ s ∈ o.pOpt, s ∈ o.model.p) (hto : ∀ s ∈ o.thetaOpt, s ∈ o.model.theta)
    (el : Nat) (he : el < M.elements) (tau : K)
    (hv : TrajectoryValues o M z x0 p theta el tau (ρ el tau)) :
    Reads o M (sampledAt o M z) x0 p theta el tau (shifted o M ρ el tau) := by
  have hne := t_not_mem hn
  have ne : ∀ s ∈ o.model.tau :: (o.model.x ++ o.model.y ++ o.model.u ++ o.model.p ++ o.model.theta ++
      o.model.x0 ++ o.eta), shifted o M ρ el tau s = ρ el tau s :=
    fun s hs => shifted_of_ne fun h => hne (h ▸ hs)
  have len : ∀ {l : List Sym} {i : Nat} {s : Sym}, l[i]? = some s → i < l.length := fun h =>
    (List.getElem?_eq_some_iff.1 h).1
  refine ⟨⟨if_pos rfl, ?_, ?_, ?_, ?_, ?_, ?_, ?_, ?_⟩, ?_, ?_⟩
  · rw [ne _ (by simp), hv.position]
  · intro i s hs
    rw [ne _ (by simp [List.mem_of_getElem? hs]), hv.controls i s hs]
    rfl
  · intro i s hs hp
    rw [ne _ (by simp [List.mem_of_getElem? hs]), hv.parameters i s hs hp]
  · intro i s hs
    rw [ne _ (by simp [hpo s (List.mem_of_getElem? hs)]), hv.optimised i s hs]
    rfl
  · intro i s hs hp
    rw [ne _ (by simp [List.mem_of_getElem? hs]), hv.thetas i s hs hp]
  · intro i s hs
    rw [ne _ (by simp [hto s (List.mem_of_getElem? hs)]), hv.optimisedThetas i s hs]
    rfl
  · intro i s hs
    rw [ne _ (by simp [List.mem_of_getElem? hs]), hv.starts i s hs]
  · intro i s hs
    rw [ne _ (by simp [List.mem_of_getElem? hs]), hv.etas i s hs]
    rfl
  · intro i s hs
    rw [ne _ (by simp [List.mem_of_getElem? hs]), hv.states i s hs,
      statePoly_sampledAt h hz el he i (len hs).le]
  · intro i s hs
    rw [ne _ (by simp [List.mem_of_getElem? hs]), hv.algebraics i s hs,
      algebraicPoly_sampledAt h hz el he i (len hs)]

variable {lastU : Option (List K)}

theorem decision (ops : Expr.Ops K) (h : GoodMesh M) (hn : (problemSymbols o).Nodup)
    (ho : DirectProblem o) (hs : DirectScope o) (hc : ClockFree o)
    (hz : ExactTrajectory ops o M x0 p theta lastU z ρ) :
    Decision ops o M x0 p theta lastU (sampledAt o M z) (shifted o M ρ) ∧
      directCost ops o M (sampledAt o M z) (shifted o M ρ) = trajectoryCost ops o M z ρ := by
  have hne := t_not_mem hn
  have hE := h.elements
  have hlast : M.elements - 1 < M.elements := by omega
  have apart : ∀ (e : Expr) (l : List Sym), (∀ s ∈ e.syms, s ∈ l) → l ⊆ o.model.tau :: (o.model.x ++
      o.model.y ++ o.model.u ++ o.model.p ++ o.model.theta ++ o.model.x0 ++ o.eta) → o.model.t ∉ e.syms :=
    fun e l h₁ h₂ h₃ => hne (h₂ (h₁ _ h₃))
  refine ⟨⟨sampledAt_data hz.fits, fun el he tau => reads h hz.fits hn ho.parameters.2.2 ho.thetas.2.2 el he
    tau (hz.values el he tau), ?_, ?_⟩, ?_⟩
  · refine ⟨?_, ?_, hz.within.u, hz.within.pOpt, hz.within.thetaOpt⟩
    · intro l hl c hcol
      obtain ⟨el, he, rfl⟩ := List.mem_map.1 hl
      obtain ⟨tau, ht, rfl⟩ := List.mem_map.1 hcol
      rcases List.mem_cons.1 ht with rfl | ht
      · exact hz.within.x el (List.mem_range.1 he) 0 le_rfl zero_le_one
      · obtain ⟨h0, h1⟩ := node_within h tau ht
        exact hz.within.x el (List.mem_range.1 he) tau h0 h1
    · intro l hl c hcol
      obtain ⟨el, he, rfl⟩ := List.mem_map.1 hl
      obtain ⟨tau, ht, rfl⟩ := List.mem_map.1 hcol
      obtain ⟨h0, h1⟩ := node_within h tau ht
      exact hz.within.y el (List.mem_range.1 he) tau h0 h1
  · refine ⟨?_, ?_, ?_, ?_, ?_, ?_, ?_, ?_, hz.rates, ?_, ?_⟩
    · intro e he
      rw [eval_apart ops (apart e _ (hs.initial e he) (by intro s; simp; tauto))]
      exact hz.initial e he
    · rw [statePoly_sampledAt h hz.fits 0 hE _ le_rfl]
      exact hz.costStart
    · intro el he
      rw [sampledAt_x el (by omega), sampledAt_x (el + 1) he, List.getLast?_map, List.head?_map,
        List.getLast?_cons, last_node h]
      simp only [Option.getD_some, Option.map_some, List.head?_cons, Option.some.injEq]
      refine List.map_congr_left fun i hi => ?_
      exact hz.continuous el he i (Nat.lt_succ_iff.1 (List.mem_range.1 hi))
    · intro el he tau ht i s e hi hode
      obtain ⟨h0, h1⟩ := node_within h tau ht
      rw [statePoly_sampledAt h hz.fits el he i (List.getElem?_eq_some_iff.1 hi).1.le,
        eval_along ops hc (hz.values el he tau), hz.dynamics el he tau h0 h1 i s e hi hode]
      simp only [alongPath, List.mem_append]
      exact .inl (.inl (.inl (.inl ((mem_odeVec _ _).2 ⟨s, mem_ode hode⟩))))
    · intro el he tau ht
      obtain ⟨h0, h1⟩ := node_within h tau ht
      rw [statePoly_sampledAt h hz.fits el he _ le_rfl, eval_along ops hc (hz.values el he tau)
        (by simp [alongPath]), hz.running el he tau h0 h1]
    · intro el he tau ht e hmem
      obtain ⟨h0, h1⟩ := node_within h tau ht
      rw [eval_along ops hc (hz.values el he tau) (by simp [alongPath, hmem])]
      exact hz.algebraic el he tau h0 h1 e hmem
    · intro el he i e tag hi htag taus htaus tau ht
      rw [eval_along ops hc (hz.values el he tau) (by simp [alongPath, List.mem_of_getElem? hi])]
      exact hz.inequalities el he i e tag hi htag tau (path_within h tag taus htaus tau ht)
    · intro el he i e tag hi htag taus htaus tau ht
      rw [eval_along ops hc (hz.values el he tau) (by simp [alongPath, List.mem_of_getElem? hi])]
      exact hz.equalities el he i e tag hi htag tau (path_within h tag taus htaus tau ht)
    · intro e he
      rw [eval_apart ops (apart e _ (hs.final e he) (by intro s; simp; tauto))]
      exact hz.final e he
    · intro e he
      rw [eval_apart ops (apart e _ (hs.timeless e he) (by intro s; simp; tauto))]
      exact hz.timeless e he
  · unfold directCost trajectoryCost
    rw [statePoly_sampledAt h hz.fits _ hlast _ le_rfl,
      eval_apart ops (apart o.V _ hs.cost (by intro s; simp; tauto))]
    congr 2
    refine List.map_congr_left fun el he => ?_
    exact eval_along ops hc (hz.values el (List.mem_range.1 he) 1) (by simp [alongPath])

end
end Verif.ExactTraj
