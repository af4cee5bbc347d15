import Verif.Lemmas.ExactTrajectory
/-! # Decisions of a discretised problem in terms of their polynomials -/
namespace Verif.PolyDecision
open Spec Polynomial ExactTraj

variable {K : Type} [Field K] [LinearOrder K] [IsStrictOrderedRing K]

theorem inField_nodup {l : List Rat} (h : l.Nodup) : (inField l : List K).Nodup :=
  h.map (Rat.cast_injective (α := K))

/-- The positions of the columns of the controls. -/
def controlNodes (n : Nat) (M : Mesh) : List K := if n = 0 then [] else inField M.controlRoots

/-- The values of the controls at their points. -/
noncomputable def controlTable (n : Nat) (M : Mesh) (U : Nat → Nat → K[X]) : List (List (List K)) :=
  (List.range M.elements).map fun el => (controlNodes n M).map fun tau =>
    (List.range n).map fun i => (U el i).eval tau

/-- The values at the points of the mesh. -/
noncomputable def polyBlocks (o : Ocp) (M : Mesh) (X Y U : Nat → Nat → K[X]) (b : Blocks K) : Blocks K :=
  sampledAt o M ⟨X, Y, controlTable o.model.u.length M U, b.eta, b.pOpt, b.thetaOpt⟩

/-- The degrees the mesh can represent, and the sizes of the shared values. -/
structure Fits (o : Ocp) (M : Mesh) (X Y U : Nat → Nat → K[X]) (b : Blocks K) : Prop where
  x : ∀ el i, (X el i).natDegree ≤ M.roots.length
  y : ∀ el i, (Y el i).natDegree < M.roots.length
  u : ∀ el < M.elements, ∀ i < o.model.u.length, (U el i).natDegree < M.controlRoots.length
  eta : b.eta.length = o.eta.length
  pOpt : b.pOpt.length = o.pOpt.length
  thetaOpt : Columns M.elements o.thetaOpt.length b.thetaOpt

variable {o : Ocp} {M : Mesh} {X Y U : Nat → Nat → K[X]} {b : Blocks K}

omit [LinearOrder K] [IsStrictOrderedRing K] in
theorem controlNodes_length (n : Nat) (M : Mesh) :
    (controlNodes n M : List K).length = if n = 0 then 0 else M.controlRoots.length := by
  unfold controlNodes
  split <;> simp [inField]

omit [LinearOrder K] [IsStrictOrderedRing K] in
theorem points_eq (o : Ocp) (M : Mesh) (hc : 0 < M.controlRoots.length) :
    controlPoints (directDims o M) = if o.model.u.length = 0 then 0 else M.controlRoots.length := by
  unfold controlPoints directDims
  simp only
  split
  · rename_i h
    rw [if_neg]
    intro h'
    rw [h'] at h
    simp at h
  · rename_i h
    rw [if_pos]
    by_contra hne
    exact h (Nat.mul_pos (Nat.pos_of_ne_zero hne) hc)

omit [LinearOrder K] [IsStrictOrderedRing K] in
theorem Fits.fitsMesh (h : Fits o M X Y U b) (hc : 0 < M.controlRoots.length) :
    FitsMesh o M ⟨X, Y, controlTable o.model.u.length M U, b.eta, b.pOpt, b.thetaOpt⟩ := by
  refine ⟨h.x, h.y, ⟨?_, h.eta, h.pOpt, h.thetaOpt⟩⟩
  refine ⟨by simp [sampledAt, controlTable, directDims], fun l hl => ?_⟩
  obtain ⟨el, -, rfl⟩ := List.mem_map.1 hl
  refine ⟨?_, fun c hc => ?_⟩
  · rw [List.length_map, controlNodes_length, points_eq o M hc]
  · obtain ⟨tau, -, rfl⟩ := List.mem_map.1 hc
    simp [directDims]

theorem Fits.data (h : Fits o M X Y U b) (hc : 0 < M.controlRoots.length) :
    CollocationData (directDims o M) (polyBlocks o M X Y U b) := sampledAt_data (h.fitsMesh hc)

theorem Fits.state (h : Fits o M X Y U b) (hM : GoodMesh M) (el : Nat) (he : el < M.elements) (i : Nat)
    (hi : i ≤ o.model.x.length) : statePoly M (polyBlocks o M X Y U b) el i = X el i :=
  statePoly_sampledAt hM (h.fitsMesh hM.controls) el he i hi

theorem Fits.algebraic (h : Fits o M X Y U b) (hM : GoodMesh M) (el : Nat) (he : el < M.elements) (i : Nat)
    (hi : i < o.model.y.length) : algebraicPoly M (polyBlocks o M X Y U b) el i = Y el i :=
  algebraicPoly_sampledAt hM (h.fitsMesh hM.controls) el he i hi

theorem Fits.control (h : Fits o M X Y U b) (hn : M.controlRoots.Nodup) (el : Nat) (he : el < M.elements)
    (i : Nat) (hi : i < o.model.u.length) : controlPoly M (polyBlocks o M X Y U b) el i = U el i := by
  refine Transcription.through_eq (inField_nodup hn) ?_ fun j hj => ?_
  · have := h.u el he i hi
    simpa [inField] using this
  · have e₁ : (polyBlocks o M X Y U b).u.getD el [] = (inField M.controlRoots).map fun tau =>
        (List.range o.model.u.length).map fun i => (U el i).eval tau := by
      have : (controlNodes o.model.u.length M : List K) = inField M.controlRoots := if_neg (by omega)
      refine (Transcription.range_map_getD_lt _ _ he _ _).trans ?_
      rw [this]
    rw [e₁]
    exact Transcription.columns_entry (inField M.controlRoots) _ i hi (U el) j hj

/-! ## Bounds -/

/-- The numbers lie between the bounds with the same positions. -/
def EntryWithin (lo hi : List XRat) (f : Nat → K) : Prop :=
  ∀ (i : Nat) (l h : XRat), lo[i]? = some l → hi[i]? = some h →
    (extended l : WithBot (WithTop K)) ≤ finite (f i) ∧ finite (f i) ≤ extended h

/-- The bounds of the problem for the polynomials at their points. -/
structure PolyWithin (o : Ocp) (M : Mesh) (b : Blocks K) : Prop where
  x : ∀ el < M.elements, ∀ tau ∈ (0 :: inField M.roots : List K),
    EntryWithin (o.xMin ++ [if o.positiveObjective then XRat.fin 0 else ⊥]) (o.xMax ++ [⊤])
      fun i => (statePoly M b el i).eval tau
  y : ∀ el < M.elements, ∀ tau ∈ (inField M.roots : List K), EntryWithin o.yMin o.yMax
    fun i => (algebraicPoly M b el i).eval tau
  u : ∀ el < M.elements, ∀ tau ∈ (inField M.controlRoots : List K), EntryWithin o.uMin o.uMax
    fun i => (controlPoly M b el i).eval tau
  pOpt : ColumnWithin o.pOptMin o.pOptMax b.pOpt
  thetaOpt : ∀ col ∈ b.thetaOpt, ColumnWithin o.thetaOptMin o.thetaOptMax col

/-- Columns within bounds, entry by entry. -/
theorem columns_within {n k : Nat} {lo hi : List XRat} (hlo : lo.length = n) {nodes : List K}
    (hn : nodes.Nodup) {cols : List (List K)} (hc : Columns k n cols) (hk : k = nodes.length) :
    (∀ col ∈ cols, ColumnWithin lo hi col) ↔
      ∀ tau ∈ nodes, EntryWithin lo hi fun i => (through nodes cols i).eval tau := by
  have entry : ∀ (j : Nat) (hj : j < nodes.length) (i : Nat), (through nodes cols i).eval nodes[j] =
      (cols.getD j []).getD i 0 := fun j hj i =>
    Lagrange.eval_interpolate_at_node (s := Finset.univ) (v := nodes.get)
      (fun j => (cols.getD j []).getD i 0) (nodes_injOn hn) (Finset.mem_univ (⟨j, hj⟩ : Fin nodes.length))
  constructor
  · intro h tau ht i l u hl hu
    obtain ⟨j, hj, rfl⟩ := List.getElem_of_mem ht
    have hj' : j < cols.length := by rw [hc.1, hk]; exact hj
    simp only [entry j hj i]
    have hcol : cols.getD j [] ∈ cols := by
      rw [List.getD_eq_getElem?_getD, List.getElem?_eq_getElem hj']
      exact List.getElem_mem hj'
    have hi : i < (cols.getD j []).length := by
      rw [hc.2 _ hcol, ← hlo]
      exact (List.getElem?_eq_some_iff.1 hl).1
    refine h _ hcol i _ l u ?_ hl hu
    rw [List.getD_eq_getElem?_getD (i := i), List.getElem?_eq_getElem hi, Option.getD_some]
  · intro h col hcol i a l u ha hl hu
    obtain ⟨j, hj, rfl⟩ := List.getElem_of_mem hcol
    have hj' : j < nodes.length := by rw [← hk, ← hc.1]; exact hj
    have := h nodes[j] (List.getElem_mem hj') i l u hl hu
    simp only [entry j hj' i] at this
    rw [List.getD_eq_getElem?_getD (i := j), List.getElem?_eq_getElem hj, Option.getD_some,
      List.getD_eq_getElem?_getD, ha, Option.getD_some] at this
    exact this

theorem grid_within {e n k : Nat} {lo hi : List XRat} (hlo : lo.length = n) {nodes : List K}
    (hn : nodes.Nodup) {g : List (List (List K))} (hg : Grid e k n g) (hk : k = nodes.length) :
    (∀ cols ∈ g, ∀ col ∈ cols, ColumnWithin lo hi col) ↔
      ∀ el < e, ∀ tau ∈ nodes, EntryWithin lo hi fun i => (through nodes (g.getD el []) i).eval tau := by
  constructor
  · intro h el hel
    have hel' : el < g.length := by rw [hg.1]; exact hel
    have hm : g.getD el [] ∈ g := by
      rw [List.getD_eq_getElem?_getD, List.getElem?_eq_getElem hel']
      exact List.getElem_mem hel'
    exact (columns_within hlo hn (hg.2 _ hm) hk).1 (h _ hm)
  · intro h cols hm
    obtain ⟨el, hel, rfl⟩ := List.getElem_of_mem hm
    refine (columns_within hlo hn (hg.2 _ hm) hk).2 fun tau ht => ?_
    have := h el (by rw [← hg.1]; exact hel) tau ht
    rw [List.getD_eq_getElem?_getD, List.getElem?_eq_getElem hel, Option.getD_some] at this
    exact this

/-- The bounds, in terms of polynomials. -/
theorem within_iff (hM : GoodMesh M) (hn : M.controlRoots.Nodup) (hb : CollocationData (directDims o M) b)
    (hB : BoundsFit o) : WithinBounds o b ↔ PolyWithin o M b := by
  have hx := grid_within (K := K) (lo := o.xMin ++ [if o.positiveObjective then XRat.fin 0 else ⊥])
    (hi := o.xMax ++ [⊤]) (n := o.model.x.length + 1) (by simp [hB.x.lower]) (nodes_nodup hM) hb.x
    (by simp [inField, directDims])
  have hy := grid_within (K := K) (lo := o.yMin) (hi := o.yMax) (n := o.model.y.length) hB.y.lower
    (List.nodup_cons.1 (nodes_nodup hM)).2 hb.y (by simp [inField, directDims])
  have hu : (∀ cols ∈ b.u, ∀ col ∈ cols, ColumnWithin o.uMin o.uMax col) ↔
      ∀ el < M.elements, ∀ tau ∈ (inField M.controlRoots : List K), EntryWithin o.uMin o.uMax
        fun i => (controlPoly M b el i).eval tau := by
    have hp := points_eq o M hM.controls
    by_cases h0 : o.model.u.length = 0
    · rw [if_pos h0] at hp
      have hg := hb.u
      rw [hp] at hg
      constructor
      · intro _ el _ tau _ i l h hl _
        have := (List.getElem?_eq_some_iff.1 hl).1
        rw [hB.u.lower, h0] at this
        omega
      · intro _ cols hm col hcol
        have := (hg.2 cols hm).1
        rw [List.length_eq_zero_iff.1 this] at hcol
        cases hcol
    · rw [if_neg h0] at hp
      have hg := hb.u
      rw [hp] at hg
      exact grid_within (K := K) (n := o.model.u.length) hB.u.lower (inField_nodup hn) hg (by simp [inField])
  constructor
  · intro h
    exact ⟨hx.1 h.x, hy.1 h.y, hu.1 h.u, h.pOpt, h.thetaOpt⟩
  · intro h
    exact ⟨hx.2 h.x, hy.2 h.y, hu.2 h.u, h.pOpt, h.thetaOpt⟩

/-! ## Continuity -/

theorem continuous_iff (hM : GoodMesh M) (hb : CollocationData (directDims o M) b) (el : Nat)
    (he : el + 1 < M.elements) : (b.x.getD el []).getLast? = (b.x.getD (el + 1) []).head? ↔
      ∀ i ≤ o.model.x.length, (statePoly M b el i).eval 1 = (statePoly M b (el + 1) i).eval 0 := by
  constructor
  · intro h i _
    exact statePoly_continuous hM hb el i he h
  · intro h
    have hc₁ := Transcription.grid_columns hb.x (show el < M.elements by omega)
    have hc₂ := Transcription.grid_columns hb.x (show el + 1 < M.elements by omega)
    have hl₁ : (b.x.getD el []).length = M.roots.length + 1 := hc₁.1
    have hl₂ : (b.x.getD (el + 1) []).length = M.roots.length + 1 := hc₂.1
    have hlen : (inField M.roots : List K).length = M.roots.length := by simp [inField]
    have hlast : (0 :: inField M.roots : List K)[M.roots.length]'(by simp [hlen]) = 1 := by
      have := last_node (K := K) hM
      rw [List.getLast?_eq_getElem?, hlen] at this
      have hp := hM.points
      obtain ⟨k, hk⟩ : ∃ k, M.roots.length = k + 1 := ⟨M.roots.length - 1, by omega⟩
      simp only [hk, Nat.add_sub_cancel] at this
      obtain ⟨_, h2⟩ := List.getElem?_eq_some_iff.1 this
      simp only [hk, List.getElem_cons_succ]
      exact h2
    have h₁ : ∀ i, (statePoly M b el i).eval 1 = ((b.x.getD el []).getD M.roots.length []).getD i 0 := by
      intro i
      have := statePoly_node hM b el i M.roots.length (by simp [hlen])
      rw [hlast] at this
      exact this
    have h₀ : ∀ i, (statePoly M b (el + 1) i).eval 0 = ((b.x.getD (el + 1) []).getD 0 []).getD i 0 := by
      intro i
      exact statePoly_node hM b (el + 1) i 0 (by simp)
    rw [List.getLast?_eq_getElem?, hl₁, Nat.add_sub_cancel, List.head?_eq_getElem?,
      List.getElem?_eq_getElem (by omega), List.getElem?_eq_getElem (by omega), Option.some.injEq]
    have m₁ := hc₁.2 _ (List.getElem_mem (l := b.x.getD el []) (n := M.roots.length) (by omega))
    have m₂ := hc₂.2 _ (List.getElem_mem (l := b.x.getD (el + 1) []) (n := 0) (by omega))
    refine List.ext_getElem (m₁.trans m₂.symm) fun i hi₁ hi₂ => ?_
    have hi : i ≤ o.model.x.length := by
      have : i < o.model.x.length + 1 := by rw [m₁] at hi₁; exact hi₁
      omega
    have := h i hi
    rw [h₁ i, h₀ i] at this
    have g₁ : (b.x.getD el []).getD M.roots.length [] = (b.x.getD el [])[M.roots.length]'(by omega) := by
      rw [List.getD_eq_getElem?_getD (i := M.roots.length), List.getElem?_eq_getElem (by omega)]
      rfl
    have g₂ : (b.x.getD (el + 1) []).getD 0 [] = (b.x.getD (el + 1) [])[0]'(by omega) := by
      rw [List.getD_eq_getElem?_getD (i := 0), List.getElem?_eq_getElem (by omega)]
      rfl
    have key : ∀ (l : List K) (h : i < l.length), l.getD i 0 = l[i] := by
      intro l h
      rw [List.getD_eq_getElem?_getD, List.getElem?_eq_getElem h, Option.getD_some]
    rw [g₁, g₂, key _ hi₁, key _ hi₂] at this
    exact this

/-! ## Values of the symbols -/

/-- Values of the symbols of the problem are unique. -/
theorem reads_agree {x0 p : List K} {theta : List (List K)} {el : Nat} {tau : K} {ρ ρ' : Sym → K}
    (h : Reads o M b x0 p theta el tau ρ) (h' : Reads o M b x0 p theta el tau ρ') :
    ∀ s ∈ problemSymbols o, ρ' s = ρ s := by
  intro s hs
  unfold problemSymbols at hs
  simp only [List.mem_append, List.mem_cons, List.not_mem_nil, or_false] at hs
  rcases hs with ((((((((rfl | rfl) | hs) | hs) | hs) | hs) | hs) | hs) | hs)
  · rw [h.time, h'.time]
  · rw [h.position, h'.position]
  · obtain ⟨i, hi⟩ := List.getElem?_of_mem hs
    rw [h.states i s hi, h'.states i s hi]
  · obtain ⟨i, hi⟩ := List.getElem?_of_mem hs
    rw [h.algebraics i s hi, h'.algebraics i s hi]
  · obtain ⟨i, hi⟩ := List.getElem?_of_mem hs
    rw [h.controls i s hi, h'.controls i s hi]
  · by_cases ho : s ∈ o.pOpt
    · obtain ⟨i, hi⟩ := List.getElem?_of_mem ho
      rw [h.optimised i s hi, h'.optimised i s hi]
    · obtain ⟨i, hi⟩ := List.getElem?_of_mem hs
      rw [h.parameters i s hi ho, h'.parameters i s hi ho]
  · by_cases ho : s ∈ o.thetaOpt
    · obtain ⟨i, hi⟩ := List.getElem?_of_mem ho
      rw [h.optimisedThetas i s hi, h'.optimisedThetas i s hi]
    · obtain ⟨i, hi⟩ := List.getElem?_of_mem hs
      rw [h.thetas i s hi ho, h'.thetas i s hi ho]
  · obtain ⟨i, hi⟩ := List.getElem?_of_mem hs
    rw [h.starts i s hi, h'.starts i s hi]
  · obtain ⟨i, hi⟩ := List.getElem?_of_mem hs
    rw [h.etas i s hi, h'.etas i s hi]

/-- The expressions of the problem. -/
def allExprs (o : Ocp) : List Expr := alongPath o ++ o.hInitial ++ o.hFinal ++ o.h ++ [o.V]

theorem scope_symbols (h : DirectScope o) : ∀ e ∈ allExprs o, ∀ s ∈ e.syms, s ∈ problemSymbols o := by
  intro e he s hs
  unfold allExprs at he
  simp only [List.mem_append, List.mem_singleton] at he
  unfold problemSymbols
  simp only [List.mem_append]
  rcases he with (((he | he) | he) | he) | rfl
  · have := h.path e he s hs
    simp only [List.mem_append] at this
    tauto
  · have := h.initial e he s hs
    simp only [List.mem_append] at this
    tauto
  · have := h.final e he s hs
    simp only [List.mem_append] at this
    tauto
  · have := h.timeless e he s hs
    tauto
  · have := h.cost s hs
    simp only [List.mem_append] at this
    tauto

end Verif.PolyDecision
