import Verif.Spec.IntermediaryResult
import Verif.Props.Intermediary
import Verif.Props.CouplingError
import Mathlib.Tactic.LinearCombination
/-!
# Intermediary nodes and their neighbours (C70, C176)
-/
namespace Verif
open Spec Net DistAL Transcription AugLag Intermediary CouplingError

namespace IntermediaryResult

theorem told_pair (degree elements : Nat) (pred succ : Neighbour) (y u : Sym)
    (h : CoupledBetween degree elements pred succ y u) :
    thetaData degree elements [pred, succ] = .ok (pairRows elements degree
      (told pred (pred.vector.idxOf y)) (told succ (succ.vector.idxOf u))) := by
  have e₁ := lastValues_ok degree elements degree pred (h.coupled pred (by simp))
    (h.reported pred (by simp)) (pred.vector.idxOf y)
    (List.idxOf_lt_length_of_mem ((h.coupled pred (by simp)).found y (by simp [h.output])))
  have e₂ := lastValues_ok degree elements degree succ (h.coupled succ (by simp))
    (h.reported succ (by simp)) (succ.vector.idxOf u)
    (List.idxOf_lt_length_of_mem ((h.coupled succ (by simp)).found u (by simp [h.input])))
  have hk : ∀ n, known degree degree n = degree := by simp [known]
  unfold thetaData
  rw [coupled_of _ h.coupled]
  simp only [List.flatMap_cons, List.flatMap_nil, h.output, h.input, List.map_cons, List.map_nil,
    List.append_nil, List.cons_append, List.nil_append, List.foldlM_cons, List.foldlM_nil, e₁, e₂, bind,
    Except.bind, pure, Except.pure]
  rw [appendData_ok _ _ _ (by simp [toldRows])]
  simp only
  rw [appendData_ok _ _ _ (by simp [toldRows])]
  simp only [pairRows]
  congr 1
  apply List.map_congr_left
  intro el hel
  rw [List.mem_range] at hel
  simp [toldRows, hel, hk]

theorem pieces_points (degree elements : Nat) (hd : 0 < degree) (x : List Rat)
    (hx : x.length = elements * degree) :
    perElement degree x = (List.range elements).map fun el => (List.range degree).map fun j =>
      [pointValue degree x el j] := by
  have hn : (x.length + degree - 1) / degree = elements := by
    rw [hx, show elements * degree + degree - 1 = (degree - 1) + degree * elements by
      rw [Nat.mul_comm]; omega, Nat.add_mul_div_left _ _ hd, Nat.div_eq_of_lt (by omega)]
    omega
  unfold perElement pieces
  rw [hn, List.map_map]
  apply List.map_congr_left
  intro el hel
  rw [List.mem_range] at hel
  have hle : el * degree + degree ≤ x.length := by
    rw [hx]
    have := Nat.mul_le_mul_right degree (show el + 1 ≤ elements from hel)
    rw [Nat.add_mul] at this
    omega
  apply List.ext_getElem
  · simp; omega
  · intro j h₁ h₂
    have hj : j < degree := by simpa using h₂
    simp [pointValue, List.getD_eq_getElem?_getD, List.getElem?_eq_getElem (show el * degree + j < x.length by omega)]

theorem told_intermediary (o : Opts Rat) (names : Labels) (hd : 0 < o.degree) (x : List Rat)
    (hx : x.length = o.elements * o.degree) (v : Sym) (n : Neighbour)
    (h : KnowsIntermediary (Intermediary.result o names x) v n) :
    CoupledTo n ∧ ReportsAt o.elements o.degree n ∧
      ∀ el < o.elements, ∀ j < o.degree, told n (n.vector.idxOf v) el j = pointValue o.degree x el j := by
  have hrows : reportedRows n.kind (Intermediary.result o names x) = perElement o.degree x := by
    unfold reportedRows Intermediary.result
    split <;> rfl
  refine ⟨⟨h.kind, by simp [h.vector], by simp [h.vars, h.vector], fun g hg => ?_⟩, ?_, ?_⟩
  · rw [h.guess g hg, h.vector]; rfl
  · intro r hr
    rw [h.last] at hr
    cases hr
    rw [hrows, pieces_points _ _ hd _ hx]
    refine ⟨by simp, fun e he => ?_⟩
    obtain ⟨el, -, rfl⟩ := List.mem_map.1 he
    refine ⟨by simp, fun c hc => ?_⟩
    obtain ⟨j, -, rfl⟩ := List.mem_map.1 hc
    simp [h.vector]
  · intro el hel j hj
    unfold told
    simp only [h.last, hrows, pieces_points _ _ hd _ hx, h.vector]
    simp [hel, hj]

/-- The constraint of an output when the node is updated. -/
theorem output_violation {po : DistPrepare.Opts} {elements : Nat} {a : NodeSolution}
    (h : SolvedNeighbour po elements a) {j k : Nat} {e : Edge} {y v : Sym} {x : Neighbour}
    (he : a.outs[j]? = some e) (hy : e.y[k]? = some y) (hyy : y ∈ a.y)
    (hx : a.neighbours[a.ins.length + j]? = some x) (hv : x.vars[k]? = some v) (p : List Rat)
    (nu : List (List Rat)) (hn : nu.length = elements) :
    ∃ va, UpdatedWith po.degree elements a p nu va ∧ Violations a.o va ∧
      ∀ el < elements, ∀ pt < po.degree, violation va el pt (outputPosition a j k) =
        some (told x (x.vector.idxOf v) el pt -
          ((a.b.y.getD el []).getD pt []).getD (a.y.idxOf y) 0) := by
  obtain ⟨⟨next, ops, ρ, ha⟩, hsa, hta⟩ := h
  obtain ⟨tha, h₁, -⟩ := thetaData_nodeTheta po.degree elements a.neighbours hta.coupled hta.reported
  obtain ⟨va, hva₁, hva₂, hva₃⟩ := violations_at hsa
    (fun el pt => by rw [hsa.relaxed]; exact relaxed_length ha el pt) p (List.zipWith (· ++ ·) tha nu)
  refine ⟨va, ⟨tha, h₁, hva₁⟩, hva₂, fun el hel pt hpt => ?_⟩
  obtain ⟨hlt, hval⟩ := output_value ha he hy el
    (pointAt a.m a.b p (List.zipWith (· ++ ·) tha nu) el (a.m.roots[pt]?.getD 0))
  have hg := hsa.collocatable.toCollocationGrid
  have hpt' : pt < a.m.roots.length := by rw [hg.points, hsa.sameDegree]; exact hpt
  rw [hva₃ el hel pt hpt _ (by rw [hsa.relaxed]; omega), hval,
    approx_at po next ops ρ a ha hg hsa.sameDegree _ _ el _ pt hpt hlt, ha.algebraic _ _ y hyy]
  have hth := theta_entry po.degree elements a.neighbours hta.coupled hta.reported tha h₁ el hel
    (a.ins.length + j) k pt x v hx hv hpt
  rw [before_output hta] at hth
  rw [zipWith_entry hth (by omega),
    List.getElem?_eq_getElem hpt', Option.getD_some,
    algebraic_at_node a.m a.b _ _ hsa.collocatable hsa.data el (by rw [hsa.sameElements]; exact hel) pt
      hpt']

/-- The constraint of an input when the node is updated. -/
theorem input_violation {po : DistPrepare.Opts} {elements : Nat} {b : NodeSolution}
    (h : SolvedNeighbour po elements b) (hc : ControlsAtPoints b) {i k : Nat} {e : Edge} {u v : Sym}
    {x : Neighbour} (he : b.ins[i]? = some e) (hu : e.u[k]? = some u) (huu : u ∈ b.u)
    (hx : b.neighbours[i]? = some x) (hv : x.vars[k]? = some v) (p : List Rat)
    (nu : List (List Rat)) (hn : nu.length = elements) :
    ∃ vb, UpdatedWith po.degree elements b p nu vb ∧ Violations b.o vb ∧
      ∀ el < elements, ∀ pt < po.degree, violation vb el pt (inputPosition b i k) =
        some (((b.b.u.getD el []).getD pt []).getD (b.u.idxOf u) 0 -
          told x (x.vector.idxOf v) el pt) := by
  obtain ⟨⟨next, ops, ρ, hb⟩, hsb, htb⟩ := h
  obtain ⟨thb, h₂, -⟩ := thetaData_nodeTheta po.degree elements b.neighbours htb.coupled htb.reported
  obtain ⟨vb, hvb₁, hvb₂, hvb₃⟩ := violations_at hsb
    (fun el pt => by rw [hsb.relaxed]; exact relaxed_length hb el pt) p (List.zipWith (· ++ ·) thb nu)
  refine ⟨vb, ⟨thb, h₂, hvb₁⟩, hvb₂, fun el hel pt hpt => ?_⟩
  obtain ⟨hlt, hval⟩ := input_value hb he hu el
    (pointAt b.m b.b p (List.zipWith (· ++ ·) thb nu) el (b.m.roots[pt]?.getD 0))
  rw [hvb₃ el hel pt hpt _ (by rw [hsb.relaxed]; omega), hval,
    approx_at po next ops ρ b hb hsb.collocatable.toCollocationGrid hsb.sameDegree _ _ el _ pt hpt
      (by omega), hb.control _ _ u huu, control_at hsb hc _ _ el pt hel hpt]
  have hth := theta_entry po.degree elements b.neighbours htb.coupled htb.reported thb h₂ el hel i k pt
    x v hx hv hpt
  rw [before_input htb (List.getElem?_eq_some_iff.1 he).1] at hth
  rw [zipWith_entry hth (by omega)]

end IntermediaryResult

open IntermediaryResult

/-- C176: the result of an intermediary node has the value found as its control and as its algebraic
variable, at the collocation points of all elements; and every neighbour is told this value. -/
theorem C176_reported (o : Opts Rat) (names : Labels) (hd : 0 < o.degree) (x : List Rat)
    (hx : x.length = o.elements * o.degree) :
    IsTrajectory o.degree o.elements (pointValue o.degree x) o.timeNu (Intermediary.result o names x).u ∧
    IsTrajectory o.degree o.elements (pointValue o.degree x) o.timeNu (Intermediary.result o names x).y ∧
    ∀ v n, KnowsIntermediary (Intermediary.result o names x) v n →
      CoupledTo n ∧ ReportsAt o.elements o.degree n ∧
      ∀ el < o.elements, ∀ j < o.degree,
        told n (n.vector.idxOf v) el j = pointValue o.degree x el j :=
  ⟨⟨pieces_points _ _ hd _ hx, rfl⟩, ⟨pieces_points _ _ hd _ hx, rfl⟩,
    fun v n h => told_intermediary o names hd x hx v n h⟩

/-- C176: a solve by the distributed method finds at every point the only minimiser of the augmented
Lagrangian of the node for the last output of the predecessor and the last input of the successor. For
connections of one variable and equal penalties. -/
theorem C176_solved_partial (o : Opts Rat) (names : Labels) (hd : 0 < o.degree) (pred succ : Neighbour)
    (y u : Sym) (h : CoupledBetween o.degree o.elements pred succ y u) (s : St Rat)
    (nu1 nu2 : Nat → Nat → Rat) (mu : Rat) (hm : 0 < mu)
    (hnu : s.nu = pairRows o.elements o.degree nu1 nu2) (hmu : s.mu = [mu, mu]) :
    ∃ x, solveNode o names [pred, succ] s = .ok (x, Intermediary.result o names x) ∧
      x.length = o.elements * o.degree ∧
      ∀ el < o.elements, ∀ j < o.degree, UniqueMinimiser
        (intermediaryCost mu mu (told pred (pred.vector.idxOf y) el j)
          (told succ (succ.vector.idxOf u) el j) (nu1 el j) (nu2 el j)) (pointValue o.degree x el j) := by
  obtain ⟨x, h₁, h₂, h₃⟩ := C69_minimiser_partial o hd s (told pred (pred.vector.idxOf y))
    (told succ (succ.vector.idxOf u)) nu1 nu2 mu hm hnu hmu
  refine ⟨x, ?_, h₂, fun el hel j hj => ?_⟩
  · unfold solveNode
    rw [told_pair _ _ _ _ _ _ h]
    simp only [bind, Except.bind, h₁]
  · obtain ⟨z, hz, hu⟩ := h₃ el j hel hj
    unfold pointValue
    rw [List.getD_eq_getElem?_getD, hz]
    exact hu

/-- An update stores the multipliers computed for the values of the neighbours. -/
theorem IntermediaryResult.updateNode_stored (o : Opts Rat) (ns : List Neighbour) (theta : List (List Rat))
    (x : List Rat) (s : St Rat) (h : thetaData o.degree o.elements ns = .ok theta) :
    (updateNode o ns x s).2.nuTilde = (Intermediary.computeNu o theta none x s).2.nuTilde := by
  unfold updateNode
  simp only [Py.bind_eq, h]
  rw [Py.lift_ok_bind]
  simp only [Intermediary.updateParameters, Py.bind_eq]
  cases h₁ : Intermediary.computeNu o theta none x s with
  | mk r s₁ =>
  cases r with
  | error e => rw [Py.bind_error h₁]
  | ok e =>
    rw [Py.bind_ok h₁, Py.get_bind]
    have hk := (updateMu_keeps o e s₁.lastError s₁).1
    cases h₂ : updateMu o e s₁.lastError s₁ with
    | mk r₂ s₂ =>
    rw [h₂] at hk
    cases r₂ with
    | error e => rw [Py.bind_error h₂]; exact hk
    | ok _ => rw [Py.bind_ok h₂]; exact hk

/-- C176: when the nodes are updated, the new multipliers of the intermediary node are its multipliers
plus the penalty times the values of the constraints that its two neighbours compute for their ends of
the connections, at all points. For connections of one variable, and neighbours solved by collocation as
in C175. -/
theorem C176_same_partial (po : DistPrepare.Opts) (o : Opts Rat) (names : Labels) (hd : 0 < o.degree)
    (hpo : po.degree = o.degree) (a b : NodeSolution) (j i : Nat) (pred succ : Neighbour) (y u : Sym)
    (x : List Rat) (hx : x.length = o.elements * o.degree)
    (h : InBetween po o.elements a b j i pred succ (Intermediary.result o names x) y u)
    (p p' : List Rat) (nuA nuB : List (List Rat)) (hnA : nuA.length = o.elements)
    (hnB : nuB.length = o.elements) (hc : o.skipCompute = false) (hs : o.skipUpdateNu = false)
    (hi : o.onlyImprove = false) (s : St Rat) (nu1 nu2 : Nat → Nat → Rat) (mu : Rat) (rest : List Rat)
    (hnu : s.nu = pairRows o.elements o.degree nu1 nu2) (hmu : s.mu = mu :: rest) :
    ∃ va vb, UpdatedWith po.degree o.elements a p nuA va ∧
      UpdatedWith po.degree o.elements b p' nuB vb ∧
      (∀ el < o.elements, ∀ pt < o.degree,
        violation va el pt (outputPosition a j 0) = some (pointValue o.degree x el pt -
          ((a.b.y.getD el []).getD pt []).getD (a.y.idxOf y) 0) ∧
        violation vb el pt (inputPosition b i 0) =
          some (((b.b.u.getD el []).getD pt []).getD (b.u.idxOf u) 0 - pointValue o.degree x el pt)) ∧
      (updateNode o [pred, succ] x s).2.nuTilde =
        some ((List.range o.elements).map fun el => (List.range o.degree).flatMap fun pt =>
          [nu1 el pt + mu * (violation va el pt (outputPosition a j 0)).getD 0,
           nu2 el pt + mu * (violation vb el pt (inputPosition b i 0)).getD 0]) := by
  obtain ⟨e, xa, v, he, hey, hxa, hka⟩ := h.outgoing
  obtain ⟨e', xb, v', he', heu, hxb, hkb⟩ := h.incoming
  have hyy : y ∈ a.y := by
    have := (h.between.coupled pred (by simp)).found y (by simp [h.between.output])
    rwa [h.ofA.vector] at this
  have huu : u ∈ b.u := by
    have := (h.between.coupled succ (by simp)).found u (by simp [h.between.input])
    rwa [h.ofB.vector] at this
  obtain ⟨va, hva, -, ha⟩ := output_violation h.nodeA he (k := 0) (by rw [hey]; rfl) hyy hxa
    (by rw [hka.vars]; rfl) p nuA hnA
  obtain ⟨vb, hvb, -, hb⟩ := input_violation h.nodeB h.controls he' (k := 0) (by rw [heu]; rfl) huu hxb
    (by rw [hkb.vars]; rfl) p' nuB hnB
  obtain ⟨-, -, ta⟩ := told_intermediary o names hd x hx v xa hka
  obtain ⟨-, -, tb⟩ := told_intermediary o names hd x hx v' xb hkb
  rw [hpo] at ha hb
  have ha' : ∀ el < o.elements, ∀ pt < o.degree,
      violation va el pt (outputPosition a j 0) = some (pointValue o.degree x el pt -
        ((a.b.y.getD el []).getD pt []).getD (a.y.idxOf y) 0) := by
    intro el hel pt hpt
    rw [ha el hel pt hpt, ta el hel pt hpt]
  have hb' : ∀ el < o.elements, ∀ pt < o.degree, violation vb el pt (inputPosition b i 0) =
      some (((b.b.u.getD el []).getD pt []).getD (b.u.idxOf u) 0 - pointValue o.degree x el pt) := by
    intro el hel pt hpt
    rw [hb el hel pt hpt, tb el hel pt hpt]
  have hbt := h.between
  rw [hpo] at hbt
  refine ⟨va, vb, hva, hvb, fun el hel pt hpt => ⟨ha' el hel pt hpt, hb' el hel pt hpt⟩, ?_⟩
  rw [IntermediaryResult.updateNode_stored o _ _ x s (told_pair _ _ _ _ _ _ hbt)]
  have hpts : x = (List.range o.elements).flatMap fun el =>
      (List.range o.degree).map (pointValue o.degree x el) := by
    apply List.ext_getElem?
    intro n
    by_cases hn : n < o.elements * o.degree
    · obtain ⟨el, pt, hel, hpt, rfl⟩ := point_of_index o.elements o.degree n hn
      rw [getElem?_points o.elements o.degree _ el pt hel hpt]
      unfold pointValue
      rw [List.getD_eq_getElem?_getD, List.getElem?_eq_getElem (by omega)]
      rfl
    · rw [List.getElem?_eq_none (by omega), List.getElem?_eq_none (by rw [length_points]; omega)]
  have hst := C70_stored_partial o hd s hc hs hi (told pred (pred.vector.idxOf y))
    (told succ (succ.vector.idxOf u)) nu1 nu2 (pointValue o.degree x) mu rest hnu hmu
  rw [← hpts] at hst
  rw [hst]
  simp only [Option.some.injEq]
  apply List.map_congr_left
  intro el hel
  rw [List.mem_range] at hel
  apply List.flatMap_congr
  intro pt hpt
  rw [List.mem_range] at hpt
  rw [ha' el hel pt hpt, hb' el hel pt hpt, told_y h.ofA, told_u h.ofB,
    reported_y h.nodeA.solved el pt hel (by rw [hpo]; exact hpt),
    reported_u h.nodeB.solved h.controls el pt hel (by rw [hpo]; exact hpt), h.ofA.vector, h.ofB.vector]
  rfl

section
variable {K : Type} [Field K] [LinearOrder K] [IsStrictOrderedRing K]

/-- With equal multipliers the minimiser is the mean of the values of the neighbours. -/
theorem IntermediaryResult.middle {mu y1 u2 n z : K} (hm : 0 < mu)
    (h : UniqueMinimiser (intermediaryCost mu mu y1 u2 n n) z) : z - y1 = u2 - z := by
  by_contra hne
  have hw : (y1 + u2) / 2 ≠ z := by
    intro he
    apply hne
    rw [← he]
    ring
  have := h _ hw
  have hk : intermediaryCost mu mu y1 u2 n n z - intermediaryCost mu mu y1 u2 n n ((y1 + u2) / 2) =
      mu * (z - (y1 + u2) / 2) ^ 2 := by
    unfold intermediaryCost
    ring
  have h0 : 0 ≤ mu * (z - (y1 + u2) / 2) ^ 2 := by positivity
  linarith

theorem IntermediaryResult.equal {n1 n2 m1 m2 : Nat → Nat → K} {xs : List (Exchange K)}
    (h : FirstOrder n1 n2 xs m1 m2) (hn : ∀ el j, n1 el j = n2 el j) (hm : ∀ x ∈ xs, 0 < x.mu) :
    ∀ el j, m1 el j = m2 el j := by
  induction h with
  | nil => exact hn
  | cons n1 n2 x xs m1 m2 hz h ih =>
    refine ih (fun el j => ?_) fun y hy => hm y (by simp [hy])
    have hz' := hz el j
    rw [hn el j] at hz'
    show n1 el j + _ = n2 el j + _
    rw [hn el j, IntermediaryResult.middle (hm x (by simp)) hz']

/-- C70: although the updated multipliers are never used, the value found is the one they would give,
whenever each update took place with the intermediary value that is best for the values of both
neighbours (the intermediary node was solved after them): then both multipliers stay equal, and only
their difference matters. Starting with equal multipliers, as the method does, with equal penalties, and
for connections of one variable. -/
theorem C70_harmless_partial (o : Opts K) (hd : 0 < o.degree) (s : St K) (n m1 m2 : Nat → Nat → K)
    (hnu : s.nu = pairRows o.elements o.degree n n) (xs : List (Exchange K)) (hx : ∀ x ∈ xs, 0 < x.mu)
    (hf : FirstOrder n n xs m1 m2) (ops : List (Intermediary.Op K)) (mu : K) (hm : 0 < mu)
    (hmu : (after o ops s).mu = [mu, mu]) (y1 u2 : Nat → Nat → K) :
    ∃ r, Intermediary.solve o (pairRows o.elements o.degree y1 u2) none (after o ops s) = .ok r ∧
      r.length = o.elements * o.degree ∧
      ∀ el j, el < o.elements → j < o.degree → ∃ z, r[el * o.degree + j]? = some z ∧
        UniqueMinimiser (intermediaryCost mu mu (y1 el j) (u2 el j) (m1 el j) (m2 el j)) z := by
  obtain ⟨r, h₁, h₂, h₃⟩ := C69_minimiser_partial o hd (after o ops s) y1 u2 n n mu hm
    (by rw [after_nu, hnu]) hmu
  refine ⟨r, h₁, h₂, fun el j hel hj => ?_⟩
  obtain ⟨z, hz, hu⟩ := h₃ el j hel hj
  refine ⟨z, hz, fun w hw => ?_⟩
  have := hu w hw
  rw [IntermediaryResult.equal hf (fun _ _ => rfl) hx el j]
  unfold intermediaryCost at this ⊢
  have e : ∀ c v : K, c * (v - y1 el j) + mu / 2 * (v - y1 el j) ^ 2 + c * (u2 el j - v) +
      mu / 2 * (u2 el j - v) ^ 2 = c * (u2 el j - y1 el j) + mu / 2 * (v - y1 el j) ^ 2 +
      mu / 2 * (u2 el j - v) ^ 2 := fun c v => by ring
  rw [e, e] at this ⊢
  linarith

end

namespace Example

/-- The mean of the output of `upstream` and the input of `downstream` at all points. -/
def between : List Rat := [3 / 2, 2, 4, 4]

def dummyResult : OptResult := Intermediary.result dummyOpts ⟨[], ["y"], ["u"], []⟩ between

/-- `upstream` connected to an intermediary node with input 30. -/
def beforeDummy : NodeSolution :=
  { upstream with
    outs := [⟨[10], [30]⟩]
    neighbours := [{ vars := [30], vector := [30], kind := "u", block := 2, last := some dummyResult }] }

/-- `downstream` connected to the intermediary node with output 31. -/
def afterDummy : NodeSolution :=
  { downstream with
    ins := [⟨[31], [21]⟩]
    neighbours := [{ vars := [31], vector := [31], kind := "y", block := 2, last := some dummyResult }] }

def dummyPred : Neighbour :=
  { vars := [10], vector := [10], kind := "y", block := 0, last := some (pipeResult upstreamBlocks) }

def dummySucc : Neighbour :=
  { vars := [21], vector := [21], kind := "u", block := 1, last := some (pipeResult downstreamBlocks) }

theorem dummy_between : CoupledBetween 2 2 dummyPred dummySucc 10 21 where
  output := rfl
  input := rfl
  coupled n hn := by
    simp only [List.mem_cons, List.not_mem_nil, or_false] at hn
    rcases hn with rfl | rfl
    · exact ⟨Or.inl rfl, by decide, by decide, fun g hg => by cases hg⟩
    · exact ⟨Or.inr rfl, by decide, by decide, fun g hg => by cases hg⟩
  reported n hn := by
    simp only [List.mem_cons, List.not_mem_nil, or_false] at hn
    rcases hn with rfl | rfl <;> intro r hr <;> cases hr <;> decide +kernel

theorem before_solved : SolvedNeighbour pipeOpts 2 beforeDummy where
  constraints := ⟨100, pipeOps, pipeValue 10 11, upstream_evaluates.inputs, upstream_evaluates.outputs,
    upstream_evaluates.control, upstream_evaluates.algebraic, upstream_evaluates.parameter,
    upstream_evaluates.approx⟩
  solved :=
    { collocatable := pipe_grid
      data := upstream_data
      sameDegree := rfl
      sameElements := rfl
      grid := ⟨rfl, rfl, rfl, rfl, rfl⟩
      points := rfl
      direct := rfl
      controls := Or.inl ⟨by decide, pipe_parametrised⟩
      relaxed := rfl
      sizes := ⟨rfl, rfl⟩
      result := pipe_reports _ upstream_data }
  told :=
    { vars := rfl
      sized := by decide
      coupled := fun x hx => by
        simp only [beforeDummy, List.mem_singleton] at hx
        subst hx
        exact ⟨Or.inr rfl, by decide, by decide, fun g hg => by cases hg⟩
      reported := fun x hx => by
        simp only [beforeDummy, List.mem_singleton] at hx
        subst hx
        intro r hr
        cases hr
        decide +kernel }

theorem after_solved : SolvedNeighbour pipeOpts 2 afterDummy where
  constraints := ⟨100, pipeOps, pipeValue 20 21, downstream_evaluates.inputs, downstream_evaluates.outputs,
    downstream_evaluates.control, downstream_evaluates.algebraic, downstream_evaluates.parameter,
    downstream_evaluates.approx⟩
  solved :=
    { collocatable := pipe_grid
      data := downstream_data
      sameDegree := rfl
      sameElements := rfl
      grid := ⟨rfl, rfl, rfl, rfl, rfl⟩
      points := rfl
      direct := rfl
      controls := Or.inl ⟨by decide, pipe_parametrised⟩
      relaxed := rfl
      sizes := ⟨rfl, rfl⟩
      result := pipe_reports _ downstream_data }
  told :=
    { vars := rfl
      sized := by decide
      coupled := fun x hx => by
        simp only [afterDummy, List.mem_singleton] at hx
        subst hx
        exact ⟨Or.inl rfl, by decide, by decide, fun g hg => by cases hg⟩
      reported := fun x hx => by
        simp only [afterDummy, List.mem_singleton] at hx
        subst hx
        intro r hr
        cases hr
        decide +kernel }

theorem dummy_in_between :
    InBetween pipeOpts 2 beforeDummy afterDummy 0 0 dummyPred dummySucc dummyResult 10 21 where
  nodeA := before_solved
  nodeB := after_solved
  controls := ⟨by decide, pipe_parametrised, rfl, rfl⟩
  between := dummy_between
  ofA := ⟨rfl, rfl, rfl⟩
  ofB := ⟨rfl, rfl, rfl⟩
  outgoing := ⟨_, _, 30, rfl, rfl, rfl, Or.inr rfl, rfl, rfl, rfl, fun g hg => by cases hg⟩
  incoming := ⟨_, _, 31, rfl, rfl, rfl, Or.inl rfl, rfl, rfl, rfl, fun g hg => by cases hg⟩

/-- The intermediary node is solved with the values of `upstream` and `downstream`. -/
example : (solveNode dummyOpts ⟨[], ["y"], ["u"], []⟩ [dummyPred, dummySucc]
    (AugLag.start dummyOpts 1)).toOption.map Prod.fst = some between := by decide +kernel

/-- At the first point of the second element both neighbours compute the error 1, and so does the
intermediary node. -/
example : ∃ va vb, UpdatedWith 2 2 beforeDummy [] [[0, 0], [0, 0]] va ∧
    UpdatedWith 2 2 afterDummy [] [[0, 0], [0, 0]] vb ∧ violation va 1 0 0 = some 1 ∧
    violation vb 1 0 0 = some 1 ∧
    (updateNode dummyOpts [dummyPred, dummySucc] between (AugLag.start dummyOpts 1)).2.nuTilde =
      some [[1 / 2, 1 / 2, 0, 0], [1, 1, 0, 0]] := by
  obtain ⟨va, vb, h₁, h₂, h₄, h₅⟩ := C176_same_partial pipeOpts dummyOpts ⟨[], ["y"], ["u"], []⟩
    (by decide) rfl beforeDummy afterDummy 0 0 dummyPred dummySucc 10 21 between rfl dummy_in_between
    [] [] [[0, 0], [0, 0]] [[0, 0], [0, 0]] rfl rfl rfl rfl rfl (AugLag.start dummyOpts 1)
    (fun _ _ => 0) (fun _ _ => 0) 1 [1] (by decide +kernel) (by decide +kernel)
  refine ⟨va, vb, h₁, h₂, (h₄ 1 (by decide) 0 (by decide)).1.trans (by decide +kernel),
    (h₄ 1 (by decide) 0 (by decide)).2.trans (by decide +kernel), h₅.trans ?_⟩
  have e : ∀ el < 2, ∀ pt < 2, (violation va el pt (outputPosition beforeDummy 0 0)).getD 0 =
      pointValue 2 between el pt - ((upstreamBlocks.y.getD el []).getD pt []).getD 0 0 := by
    intro el hel pt hpt
    rw [(h₄ el hel pt hpt).1]
    rfl
  have e' : ∀ el < 2, ∀ pt < 2, (violation vb el pt (inputPosition afterDummy 0 0)).getD 0 =
      ((downstreamBlocks.u.getD el []).getD pt []).getD 0 0 - pointValue 2 between el pt := by
    intro el hel pt hpt
    rw [(h₄ el hel pt hpt).2]
    rfl
  simp only [dummyOpts, List.range_succ, List.range_zero, List.nil_append, List.cons_append, List.map_cons,
    List.map_nil, List.flatMap_cons, List.flatMap_nil, List.append_nil]
  rw [e 0 (by decide) 0 (by decide), e 0 (by decide) 1 (by decide), e 1 (by decide) 0 (by decide),
    e 1 (by decide) 1 (by decide), e' 0 (by decide) 0 (by decide), e' 0 (by decide) 1 (by decide),
    e' 1 (by decide) 0 (by decide), e' 1 (by decide) 1 (by decide)]
  decide +kernel

/-- One update with the neighbours at 1 and 4 and the intermediary value 5 / 2: the multipliers would
become 3 / 2 and 3 / 2. -/
example : FirstOrder (fun _ _ => (0 : Rat)) (fun _ _ => 0)
    [⟨1, fun _ _ => 1, fun _ _ => 4, fun _ _ => 5 / 2⟩] (fun _ _ => 3 / 2) (fun _ _ => 3 / 2) := by
  have e : FirstOrder (fun _ _ => (0 : Rat) + 1 * (5 / 2 - 1)) (fun _ _ => 0 + 1 * (4 - 5 / 2)) []
      (fun _ _ => 3 / 2) (fun _ _ => 3 / 2) := by
    rw [show (0 : Rat) + 1 * (5 / 2 - 1) = 3 / 2 by norm_num,
      show (0 : Rat) + 1 * (4 - 5 / 2) = 3 / 2 by norm_num]
    exact .nil _ _
  refine .cons _ _ _ _ _ _ (fun _ _ w hw => ?_) e
  unfold intermediaryCost
  simp only
  have : 0 < (w - 5 / 2) ^ 2 := by
    have := sub_ne_zero.2 hw
    positivity
  nlinarith

end Example
end Verif
