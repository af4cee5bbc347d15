import Verif.Spec.CouplingError
import Verif.Lemmas.NodeData
import Verif.Props.NuUpdate
import Verif.Props.NetEnds
import Mathlib.Tactic.IntervalCases
/-!
# The coupling errors of the two ends of a connection
-/
namespace Verif
open Spec Net DistAL Transcription

namespace CouplingError

/-- A value told about a neighbour is in its place among the parameters. -/
theorem theta_entry (degree elements : Nat) (ns : List Neighbour) (h : ∀ n ∈ ns, CoupledTo n)
    (hr : ∀ n ∈ ns, ReportsAt elements degree n) (theta : List (List Rat))
    (ht : thetaData degree elements ns = .ok theta) (el : Nat) (hel : el < elements) (a k j : Nat)
    (x : Neighbour) (v : Sym) (ha : ns[a]? = some x) (hk : x.vars[k]? = some v) (hj : j < degree) :
    (theta[el]?.getD [])[(((ns.take a).map fun n => n.vars.length).sum + k) * degree + j]? =
      some (told x (x.vector.idxOf v) el j) := by
  obtain ⟨theta', h₁, h₂⟩ := thetaData_nodeTheta degree elements ns h hr
  rw [ht] at h₁
  cases h₁
  rw [h₂ el hel, ← slot_offset]
  exact nodeTheta_getElem degree el (ns.map Neighbour.link) (fun l hl => by
      obtain ⟨n, hn, rfl⟩ := List.mem_map.1 hl
      exact ⟨(h n hn).distinct, (h n hn).found⟩) a k j x.link v (by simp [ha]) hk hj

theorem position_at (m : Transcription Rat) (h : CollocationGrid m) (b : Blocks Rat) (p : List Rat)
    (theta : List (List Rat)) (el : Nat) (tau : Rat) :
    positionIn m el (pointAt m b p theta el tau).t = tau := by
  have hd : elementLength m ≠ 0 := (deltaT_pos m h).ne'
  unfold positionIn
  show (elementLength m * ((el : Rat) + tau) - elementLength m * el) / elementLength m = tau
  rw [show elementLength m * ((el : Rat) + tau) - elementLength m * el = elementLength m * tau by ring]
  field_simp

/-- The value of an approximation at a collocation point. -/
theorem approx_at (po : DistPrepare.Opts) (next : Sym) (ops : Expr.Ops Rat)
    (ρ : Nat → Point Rat → Sym → Rat) (n : NodeSolution) (h : EvaluatesCouplings po next ops ρ n)
    (hg : CollocationGrid n.m) (hd : n.m.dims.degree = po.degree) (p : List Rat)
    (theta : List (List Rat)) (el k j : Nat) (hj : j < po.degree)
    (hk : k < (inputsOf n.ins).length + (outputsOf n.outs).length) :
    (po.approx (couplingParams po.degree next k)).eval ops
        (ρ el (pointAt n.m n.b p theta el (n.m.roots[j]?.getD 0))) =
      (theta.getD el []).getD (k * po.degree + j) 0 := by
  rw [h.approx _ _ _ (by simp [couplingParams]), position_at _ hg,
    poly_at_root _ _ _ (by rw [hg.points, hd])
      ((List.pairwise_cons.1 hg.increasing).2.imp fun h => ne_of_lt h) _ _ hj]
  have : (couplingParams po.degree next k).getD j 0 = next + (k * po.degree + j) := by
    unfold couplingParams
    rw [List.getD_eq_getElem?_getD, List.getElem?_range' hj]
    simp [Nat.add_assoc]
  simp only [List.range_one, List.map_cons, List.map_nil, List.getD_cons_zero, this]
  rw [h.parameter]
  · rfl
  · have := Nat.mul_le_mul_right po.degree (show k + 1 ≤ _ from hk)
    rw [Nat.add_mul] at this
    omega

/-- The relaxed constraints are evaluated at the collocation points. -/
theorem violations_at {degree elements : Nat} {n : NodeSolution} (h : SolvedByCollocation degree elements n)
    (hl : ∀ el pt, (relaxedAt n.r el pt).length = n.o.nRelax) (p : List Rat) (theta : List (List Rat)) :
    ∃ viol, AugLag.violationsCollocation n.m n.o n.r p theta (Layout.stacked n.b) = .ok viol ∧
      Violations n.o viol ∧
      ∀ el < elements, ∀ j < degree, ∀ i < n.o.nRelax, violation viol el j i =
        some ((relaxedAt n.r el (pointAt n.m n.b p theta el (n.m.roots[j]?.getD 0))).getD i 0) := by
  have hc := h.collocatable
  have hinc : IncreasingPoints n.o := by unfold IncreasingPoints; rw [h.points]; exact hc.increasing
  have hblocks : Layout.collocationBlocks n.m.dims (Layout.stacked n.b) = .ok (withFinal n.b) :=
    Layout.collocationBlocks_stacked hc.elements h.data.toSharedShape h.data.x h.data.y
  refine ⟨(List.range n.o.elements).map fun el => (n.o.roots n.o.degree).map fun tau =>
    n.r.value el (pointAt n.m n.b p theta el tau), ?_, ?_, fun el hel j hj i hi => ?_⟩
  · unfold AugLag.violationsCollocation
    rw [hblocks]
    show AugLag.collect n.o n.r _ = _
    refine AugLag.collect_ok n.o n.r _ (pointAt n.m n.b p theta) _ h.grid.points fun el hel => ?_
    exact AugLag.pointsCollocation_ok p theta hc.toCollocationGrid h.data h.grid hinc (Or.inl h.direct)
      (by rw [← h.grid.elements]; exact hel)
  · exact AugLag.violations_of _ _ _ h.grid.points hl
  · have hj' : j < (n.o.roots n.o.degree).length := by
      rw [h.grid.points, h.grid.degree, h.sameDegree]; exact hj
    rw [AugLag.violation_of n.r.value _ _ hl (by rw [h.grid.elements, h.sameElements]; exact hel) hj' hi]
    have : (n.o.roots n.o.degree)[j] = n.m.roots[j]?.getD 0 := by
      rw [← h.points, List.getElem?_eq_getElem hj']; rfl
    rw [this]
    rfl

theorem relaxed_length {po : DistPrepare.Opts} {next : Sym} {ops : Expr.Ops Rat}
    {ρ : Nat → Point Rat → Sym → Rat} {n : NodeSolution} (h : EvaluatesCouplings po next ops ρ n)
    (el : Nat) (pt : Point Rat) :
    (relaxedAt n.r el pt).length = (inputsOf n.ins).length + (outputsOf n.outs).length := by
  simp [relaxedAt, h.inputs, h.outputs, inputEquations, outputEquations]

/-- The reported values are the decision values. -/
theorem reported_y {degree elements : Nat} {n : NodeSolution} (h : SolvedByCollocation degree elements n)
    (el j : Nat) (hel : el < elements) (hj : j < degree) :
    ((n.result.y.values[el]?.getD [])[j]?.getD []) = (n.b.y.getD el []).getD j [] := by
  obtain ⟨p, theta, s, rep, hs, hr, hy, -⟩ := h.result
  obtain ⟨rep', hr', -, hy', -⟩ := C138_collocation n.m n.c n.b p theta s h.collocatable h.data h.controls hs
  rw [hr] at hr'
  cases hr'
  have hg := h.collocatable.toCollocationGrid
  have hj' : j < n.m.roots.length := by rw [hg.points, h.sameDegree]; exact hj
  have hel' : el < n.m.dims.elements := by rw [h.sameElements]; exact hel
  rw [hy, hy'.values]
  simp only [List.getElem?_map, List.getElem?_range hel', Option.map_some, Option.getD_some,
    List.getElem?_eq_getElem hj']
  exact algebraic_at_node n.m n.b _ _ h.collocatable h.data el hel' j hj'

/-- The value of the control at a collocation point is a decision value. -/
theorem control_at {degree elements : Nat} {n : NodeSolution} (h : SolvedByCollocation degree elements n)
    (hc : ControlsAtPoints n) (p : List Rat) (theta : List (List Rat))
    (el j : Nat) (hel : el < elements) (hj : j < degree) :
    n.c.value el (pointAt n.m n.b p theta el (n.m.roots[j]?.getD 0)) = (n.b.u.getD el []).getD j [] := by
  have hg := h.collocatable.toCollocationGrid
  have hj' : j < n.m.roots.length := by rw [hg.points, h.sameDegree]; exact hj
  have hel' : el < n.m.dims.elements := by rw [h.sameElements]; exact hel
  have hu := h.data.u
  have hk : controlPoints n.m.dims = n.m.dims.degreeControl := by
    unfold controlPoints; rw [if_pos hc.some]
  rw [hk] at hu
  have := controls_sampled n.m n.b n.c (deltaT_pos n.m hg).ne' hc.parametrised hu
    (pointAt n.m n.b p theta) (fun _ _ => rfl) (fun _ _ => rfl)
  have hd := hg.degree
  rw [controlPositions, if_neg (by rw [hc.degree]; omega), hc.points] at this
  conv_rhs => rw [this]
  simp [List.getD_eq_getElem?_getD, hel', hj']

theorem reported_u {degree elements : Nat} {n : NodeSolution} (h : SolvedByCollocation degree elements n)
    (hc : ControlsAtPoints n) (el j : Nat) (hel : el < elements) (hj : j < degree) :
    ((n.result.u.values[el]?.getD [])[j]?.getD []) = (n.b.u.getD el []).getD j [] := by
  obtain ⟨p, theta, s, rep, hs, hr, -, hu⟩ := h.result
  obtain ⟨rep', hr', -, -, hu', -⟩ :=
    C138_collocation n.m n.c n.b p theta s h.collocatable h.data h.controls hs
  rw [hr] at hr'
  cases hr'
  have hg := h.collocatable.toCollocationGrid
  have hj' : j < n.m.roots.length := by rw [hg.points, h.sameDegree]; exact hj
  have hel' : el < n.m.dims.elements := by rw [h.sameElements]; exact hel
  have hd := hg.degree
  rw [hu, hu'.values, controlPositions, if_neg (by rw [hc.degree]; omega), hc.points]
  simp only [List.getElem?_map, List.getElem?_range hel', Option.map_some, Option.getD_some,
    List.getElem?_eq_getElem hj']
  rw [← control_at h hc rep.p rep.theta el j hel hj, List.getElem?_eq_getElem hj']
  rfl

theorem zipWith_entry {theta nu : List (List Rat)} {el i : Nat} {x : Rat}
    (h : (theta[el]?.getD [])[i]? = some x) (hn : el < nu.length) :
    ((List.zipWith (· ++ ·) theta nu).getD el []).getD i 0 = x := by
  cases ht : theta[el]? with
  | none => simp [ht] at h
  | some row =>
    rw [ht, Option.getD_some] at h
    have hi := (List.getElem?_eq_some_iff.1 h).1
    have : (List.zipWith (· ++ ·) theta nu).getD el [] = row ++ nu[el] := by
      rw [List.getD_eq_getElem?_getD, List.getElem?_zipWith, ht, List.getElem?_eq_getElem hn]
      rfl
    rw [this, List.getD_eq_getElem?_getD, List.getElem?_append_left hi, h]
    rfl

/-- The constraint of an input. -/
theorem input_value {po : DistPrepare.Opts} {next : Sym} {ops : Expr.Ops Rat}
    {ρ : Nat → Point Rat → Sym → Rat} {n : NodeSolution} (h : EvaluatesCouplings po next ops ρ n)
    {a k : Nat} {e : Edge} {v : Sym} (he : n.ins[a]? = some e) (hv : e.u[k]? = some v) (el : Nat)
    (pt : Point Rat) :
    inputPosition n a k < (inputsOf n.ins).length ∧
    (relaxedAt n.r el pt).getD (inputPosition n a k) 0 = ρ el pt v -
      (po.approx (couplingParams po.degree next (inputPosition n a k))).eval ops (ρ el pt) := by
  have hi : (inputsOf n.ins)[inputPosition n a k]? = some v := by
    rw [← hv]
    exact getElem?_flatMap_offset n.ins (fun e => e.u) a k e he (List.getElem?_eq_some_iff.1 hv).1
  have hlt := (List.getElem?_eq_some_iff.1 hi).1
  refine ⟨hlt, ?_⟩
  unfold relaxedAt
  rw [List.getD_eq_getElem?_getD, List.getElem?_append_left (by
    rw [h.inputs]; simpa [inputEquations] using hlt), h.inputs]
  simp [inputEquations, List.getElem?_zipIdx, hi, Expr.eval]

/-- The constraint of an output. -/
theorem output_value {po : DistPrepare.Opts} {next : Sym} {ops : Expr.Ops Rat}
    {ρ : Nat → Point Rat → Sym → Rat} {n : NodeSolution} (h : EvaluatesCouplings po next ops ρ n)
    {a k : Nat} {e : Edge} {v : Sym} (he : n.outs[a]? = some e) (hv : e.y[k]? = some v) (el : Nat)
    (pt : Point Rat) :
    outputPosition n a k < (inputsOf n.ins).length + (outputsOf n.outs).length ∧
    (relaxedAt n.r el pt).getD (outputPosition n a k) 0 =
      (po.approx (couplingParams po.degree next (outputPosition n a k))).eval ops (ρ el pt) -
        ρ el pt v := by
  have hi : (outputsOf n.outs)[((n.outs.take a).map fun e => e.y.length).sum + k]? = some v := by
    rw [← hv]
    exact getElem?_flatMap_offset n.outs (fun e => e.y) a k e he (List.getElem?_eq_some_iff.1 hv).1
  have hlt := (List.getElem?_eq_some_iff.1 hi).1
  refine ⟨by unfold outputPosition; omega, ?_⟩
  unfold relaxedAt outputPosition
  generalize ((n.outs.take a).map fun e => e.y.length).sum + k = i at hi hlt ⊢
  rw [List.getD_eq_getElem?_getD, List.getElem?_append_right (by rw [h.inputs]; simp [inputEquations]),
    h.outputs, h.inputs]
  simp [inputEquations, outputEquations, List.getElem?_zipIdx, hi, Expr.eval]

/-- The number of variables before an entry of what a node is told. -/
theorem before_input {degree elements : Nat} {n : NodeSolution} (h : ToldByAll degree elements n)
    {a k : Nat} (ha : a < n.ins.length) :
    ((n.neighbours.take a).map fun x => x.vars.length).sum + k = inputPosition n a k := by
  have h₁ : (n.neighbours.take a).map (fun x => x.vars.length) =
      ((n.neighbours.map Neighbour.vars).take a).map List.length := by
    rw [← List.map_take, List.map_map]; rfl
  rw [h₁, h.vars, List.take_append_of_le_length (by simp; omega), ← List.map_take, List.map_map]
  unfold inputPosition
  congr 2
  exact List.map_congr_left fun e he => (h.sized e (by simp [List.mem_of_mem_take he])).symm

theorem before_output {degree elements : Nat} {n : NodeSolution} (h : ToldByAll degree elements n)
    {a k : Nat} :
    ((n.neighbours.take (n.ins.length + a)).map fun x => x.vars.length).sum + k = outputPosition n a k := by
  have h₁ : (n.neighbours.take (n.ins.length + a)).map (fun x => x.vars.length) =
      ((n.neighbours.map Neighbour.vars).take (n.ins.length + a)).map List.length := by
    rw [← List.map_take, List.map_map]; rfl
  have h₂ : n.ins.length + a = (n.ins.map fun e => e.y).length + a := by simp
  rw [h₁, h.vars, h₂, List.take_length_add_append, List.map_append, List.sum_append, ← List.map_take]
  simp only [List.map_map]
  unfold outputPosition inputsOf
  rw [List.length_flatMap, Nat.add_assoc]
  have e₁ : n.ins.map (List.length ∘ fun e => e.y) = n.ins.map fun e => e.u.length :=
    List.map_congr_left fun e he => (h.sized e (by simp [he])).symm
  have e₂ : (n.outs.take a).map (List.length ∘ fun e => e.u) = (n.outs.take a).map fun e => e.y.length :=
    List.map_congr_left fun e he => h.sized e (by simp [List.mem_of_mem_take he])
  rw [e₁, e₂]

theorem told_y {n : NodeSolution} {x : Neighbour} {vector : List Sym} (h : IsAbout n "y" vector x)
    (index el j : Nat) :
    told x index el j = ((n.result.y.values[el]?.getD [])[j]?.getD []).getD index 0 := by
  unfold told reportedRows
  rw [h.last, h.kind]
  simp [List.getD_eq_getElem?_getD]

theorem told_u {n : NodeSolution} {x : Neighbour} {vector : List Sym} (h : IsAbout n "u" vector x)
    (index el j : Nat) :
    told x index el j = ((n.result.u.values[el]?.getD [])[j]?.getD []).getD index 0 := by
  unfold told reportedRows
  rw [h.last, h.kind]
  simp [List.getD_eq_getElem?_getD]

end CouplingError

open CouplingError

/-- C175: when the nodes are updated, the constraint of an input and the one of the output it is connected
to have the same value at every collocation point, the input minus the output of the last results. For
nodes solved by collocation with as many control values as collocation points, without time-varying
parameters of their own. -/
theorem C175_same_partial (po : DistPrepare.Opts) (elements : Nat) (a b : NodeSolution) (i j : Nat)
    (e : Edge) (hp : ConnectedPair po elements a b j i e) (p p' : List Rat) (nu nu' : List (List Rat))
    (hn : nu.length = elements) (hn' : nu'.length = elements) :
    ∃ va vb, UpdatedWith po.degree elements a p nu va ∧ UpdatedWith po.degree elements b p' nu' vb ∧
      Violations a.o va ∧ Violations b.o vb ∧
      ∀ (k : Nat) (u y : Sym), e.u[k]? = some u → e.y[k]? = some y →
        SameViolations b.o (inputPosition b i k) (outputPosition a j k) vb va ∧
        ∀ el < elements, ∀ pt < po.degree, violation vb el pt (inputPosition b i k) =
          some (((b.b.u.getD el []).getD pt []).getD (b.u.idxOf u) 0 -
            ((a.b.y.getD el []).getD pt []).getD (a.y.idxOf y) 0) := by
  obtain ⟨⟨next, ops, ρ, ha⟩, ⟨next', ops', ρ', hb⟩, hsa, hsb, hta, htb, hc, h⟩ := hp
  obtain ⟨xa, hxa, haa⟩ := h.ofA
  obtain ⟨xb, hxb, hbb⟩ := h.ofB
  have hva : xa.vars = e.y := by
    have := congrArg (fun l => l[i]?) htb.vars
    simp only [List.getElem?_map, hxa] at this
    rw [List.getElem?_append_left (by
      rw [List.length_map]; exact (List.getElem?_eq_some_iff.1 h.incoming).1),
      List.getElem?_map, h.incoming] at this
    simpa using this
  have hvb : xb.vars = e.u := by
    have := congrArg (fun l => l[a.ins.length + j]?) hta.vars
    simp only [List.getElem?_map, hxb] at this
    rw [List.getElem?_append_right (by simp)] at this
    simpa [h.outgoing] using this
  obtain ⟨tha, h₁, -⟩ := thetaData_nodeTheta po.degree elements a.neighbours hta.coupled hta.reported
  obtain ⟨thb, h₂, -⟩ := thetaData_nodeTheta po.degree elements b.neighbours htb.coupled htb.reported
  obtain ⟨va, hva₁, hva₂, hva₃⟩ := violations_at hsa
    (fun el pt => by rw [hsa.relaxed]; exact relaxed_length ha el pt) p (List.zipWith (· ++ ·) tha nu)
  obtain ⟨vb, hvb₁, hvb₂, hvb₃⟩ := violations_at hsb
    (fun el pt => by rw [hsb.relaxed]; exact relaxed_length hb el pt) p' (List.zipWith (· ++ ·) thb nu')
  refine ⟨va, vb, ⟨tha, h₁, hva₁⟩, ⟨thb, h₂, hvb₁⟩, hva₂, hvb₂, fun k u y hu hy => ?_⟩
  have huu : u ∈ b.u := by
    have := (hta.coupled xb (List.mem_of_getElem? hxb)).found u (by
      rw [hvb]; exact List.mem_of_getElem? hu)
    rwa [hbb.vector] at this
  have hyy : y ∈ a.y := by
    have := (htb.coupled xa (List.mem_of_getElem? hxa)).found y (by
      rw [hva]; exact List.mem_of_getElem? hy)
    rwa [haa.vector] at this
  have hb' : ∀ el < elements, ∀ pt < po.degree, violation vb el pt (inputPosition b i k) =
      some (((b.b.u.getD el []).getD pt []).getD (b.u.idxOf u) 0 -
        ((a.b.y.getD el []).getD pt []).getD (a.y.idxOf y) 0) := by
    intro el hel pt hpt
    obtain ⟨hlt, hval⟩ := input_value hb h.incoming hu el
      (pointAt b.m b.b p' (List.zipWith (· ++ ·) thb nu') el (b.m.roots[pt]?.getD 0))
    rw [hvb₃ el hel pt hpt _ (by rw [hsb.relaxed]; omega), hval,
      approx_at po next' ops' ρ' b hb hsb.collocatable.toCollocationGrid hsb.sameDegree _ _ el _ pt hpt
        (by omega), hb.control _ _ u huu, control_at hsb hc _ _ el pt hel hpt]
    have hth := theta_entry po.degree elements b.neighbours htb.coupled htb.reported thb h₂ el hel i k pt
      xa y hxa (by rw [hva]; exact hy) hpt
    rw [before_input htb (List.getElem?_eq_some_iff.1 h.incoming).1] at hth
    rw [zipWith_entry hth (by omega), told_y haa, reported_y hsa el pt hel hpt, haa.vector]
  have ha' : ∀ el < elements, ∀ pt < po.degree, violation va el pt (outputPosition a j k) =
      some (((b.b.u.getD el []).getD pt []).getD (b.u.idxOf u) 0 -
        ((a.b.y.getD el []).getD pt []).getD (a.y.idxOf y) 0) := by
    intro el hel pt hpt
    obtain ⟨hlt, hval⟩ := output_value ha h.outgoing hy el
      (pointAt a.m a.b p (List.zipWith (· ++ ·) tha nu) el (a.m.roots[pt]?.getD 0))
    have hg := hsa.collocatable.toCollocationGrid
    have hpt' : pt < a.m.roots.length := by rw [hg.points, hsa.sameDegree]; exact hpt
    rw [hva₃ el hel pt hpt _ (by rw [hsa.relaxed]; omega), hval,
      approx_at po next ops ρ a ha hg hsa.sameDegree _ _ el _ pt hpt hlt, ha.algebraic _ _ y hyy]
    have hth := theta_entry po.degree elements a.neighbours hta.coupled hta.reported tha h₁ el hel
      (a.ins.length + j) k pt xb u hxb (by rw [hvb]; exact hu) hpt
    rw [before_output hta] at hth
    rw [zipWith_entry hth (by omega), told_u hbb, reported_u hsb hc el pt hel hpt, hbb.vector,
      List.getElem?_eq_getElem hpt', Option.getD_some,
      algebraic_at_node a.m a.b _ _ hsa.collocatable hsa.data el (by rw [hsa.sameElements]; exact hel) pt
        hpt']
  refine ⟨fun el hel pt hpt => ?_, hb'⟩
  rw [hsb.grid.elements, hsb.sameElements] at hel
  rw [hsb.grid.degree, hsb.sameDegree] at hpt
  rw [hb' el hel pt hpt, ha' el hel pt hpt]

/-- C175: so in every outer iteration both ends of a connection use the same multipliers and the same
penalty for their coupling, under the same conditions and when both nodes are solved in every outer
iteration. -/
theorem C175_multipliers_partial (po : DistPrepare.Opts) (elements i j k : Nat) (e : Edge)
    (o o' : AugLag.Opts Rat) (ho : SameOptions o o') (hd : Discretised o) (hd' : Discretised o')
    (hp : PlainUpdates o) (hp' : PlainUpdates o') (hmax : 0 < o.maxIter) (hmax' : 0 < o'.maxIter)
    (c c' : Nat) (hc : c < o.nRelax) (hc' : c' < o'.nRelax) (hk : k < e.u.length) (hk' : k < e.y.length)
    (mu0 : Rat) (rounds : List (NodeRound Rat × NodeRound Rat))
    (hr : ∀ r ∈ rounds, ∃ a b, PairRound po elements j i e k o o' c c' a b r) :
    SameEnds o o' c c' ((rounds.map Prod.fst).foldl (afterRound o) (AugLag.start o mu0))
      ((rounds.map Prod.snd).foldl (afterRound o') (AugLag.start o' mu0)) := by
  refine C174_same o o' ho hd hd' hp hp' hmax hmax' c c' hc hc' mu0 rounds fun r hr' => ?_
  obtain ⟨a, b, h⟩ := hr r hr'
  obtain ⟨p', nu', hn', theta', ht', hu'⟩ := h.updatedB
  obtain ⟨p, nu, hn, theta, ht, hu⟩ := h.updatedA
  obtain ⟨va, vb, ⟨ta, ta₁, ta₂⟩, ⟨tb, tb₁, tb₂⟩, h₁, h₂, h₃⟩ :=
    C175_same_partial po elements a b i j e h.pair p p' nu nu' hn hn'
  rw [ta₁] at ht
  cases ht
  rw [ta₂] at hu
  cases hu
  rw [tb₁] at ht'
  cases ht'
  rw [tb₂] at hu'
  cases hu'
  have hs := (h₃ k e.u[k] e.y[k] (List.getElem?_eq_getElem hk) (List.getElem?_eq_getElem hk')).1
  rw [h.inputB, h.outputA] at hs
  rw [h.optionsB] at hs h₂
  rw [h.optionsA] at h₁
  exact ⟨h.solvedB, h.solvedA, h₂, h₁, hs, h.common⟩

namespace Example

/-- The output 10 of the first node is the input 21 of the second one. -/
def pipe : Edge := ⟨[10], [21]⟩

/-- Two elements of degree two with two control values in each. -/
def pipeMethod : Transcription Rat := { exampleTranscription with dims := ⟨2, 2, 2, 1, 1, 1, 1, 0, 0, 0⟩ }

def pipeLaw : ControlLaw Rat where
  direct := true
  roots := [1 / 3, 1]
  value el pt := (List.range 1).map (polyRow (lagrangeBasisMethod [1 / 3, 1] 1
    ((pt.t - pipeMethod.breakpoint el) / (pipeMethod.breakpoint (el + 1) - pipeMethod.breakpoint el)))
    (matOf 1 pt.uPar))

/-- The line through two values at 1/3 and 1; symbol 1 is the position in the element. -/
def pipeApprox (par : List Sym) : Expr :=
  .add
    (.mul (.sym (par.getD 0 0)) (.div (.sub (.sym 1) (.const 1)) (.const (1 / 3 - 1))))
    (.mul (.sym (par.getD 1 0)) (.div (.sub (.sym 1) (.const (1 / 3))) (.const (1 - 1 / 3))))

def pipeOpts : DistPrepare.Opts := { degree := 2, approx := pipeApprox }

def pipeValue (y u : Sym) (el : Nat) (pt : Point Rat) (s : Sym) : Rat :=
  if s = 1 then positionIn pipeMethod el pt.t
  else if s = y then pt.y.getD 0 0
  else if s = u then (pipeLaw.value el pt).getD 0 0
  else pt.theta.getD (s - 100) 0

def pipeOps : Expr.Ops Rat := ⟨fun _ x => x, fun _ x _ => x⟩

def upstreamBlocks : Blocks Rat :=
  { exampleBlocks with y := [[[1], [2]], [[3], [4]]], u := [[[0], [0]], [[0], [0]]] }

def downstreamBlocks : Blocks Rat := { exampleBlocks with u := [[[2], [2]], [[5], [4]]] }

def pipeResult (b : Blocks Rat) : OptResult where
  finiteElements := 2
  degreeControl := 2
  tf := 4
  breakpoints := [0, 2, 4]
  xNames := ["x"]
  yNames := ["y"]
  uNames := ["u"]
  thetaOptNames := []
  x := ⟨b.x, []⟩
  y := ⟨b.y, []⟩
  u := ⟨b.u, []⟩
  thetaOpt := []
  other := []

def pipeMethodOpts : AugLag.Opts Rat := { AugLag.relaxedOpts with rule := "primal" }

def upstream : NodeSolution where
  m := pipeMethod
  o := pipeMethodOpts
  r :=
    { direct := true
      alg := fun _ _ => []
      eq := fun el pt => (outputEquations pipeOpts 100 0 [10]).map fun e =>
        e.eval pipeOps (pipeValue 10 11 el pt) }
  c := pipeLaw
  b := upstreamBlocks
  y := [10]
  u := [11]
  ins := []
  outs := [pipe]
  result := pipeResult upstreamBlocks
  neighbours := [
    { vars := [21], vector := [21], kind := "u", block := 1, last := some (pipeResult downstreamBlocks) }]

def downstream : NodeSolution where
  m := pipeMethod
  o := pipeMethodOpts
  r :=
    { direct := true
      alg := fun el pt => (inputEquations pipeOpts 100 [21]).map fun e =>
        e.eval pipeOps (pipeValue 20 21 el pt)
      eq := fun _ _ => [] }
  c := pipeLaw
  b := downstreamBlocks
  y := [20]
  u := [21]
  ins := [pipe]
  outs := []
  result := pipeResult downstreamBlocks
  neighbours := [
    { vars := [10], vector := [10], kind := "y", block := 0, last := some (pipeResult upstreamBlocks) }]

theorem pipe_grid : Collocatable pipeMethod where
  horizon := exampleTranscription_grid.horizon
  elements := by decide
  degree := by decide
  points := rfl
  increasing := exampleTranscription_grid.increasing
  last := rfl
  states := by decide
  ode _ _ _ := rfl
  tags := exampleTranscription_grid.tags

theorem pipe_parametrised : Parametrised pipeMethod pipeLaw where
  degree := by decide
  points _ := ⟨rfl, by decide +kernel⟩
  law _ _ := rfl

theorem upstream_data : CollocationData pipeMethod.dims upstreamBlocks where
  u := by simp [Grid, Columns, upstreamBlocks, pipeMethod, controlPoints]
  eta := rfl
  pOpt := rfl
  thetaOpt := exampleBlocks_data.thetaOpt
  x := exampleBlocks_data.x
  y := by simp [Grid, Columns, upstreamBlocks, pipeMethod]

theorem downstream_data : CollocationData pipeMethod.dims downstreamBlocks where
  u := by simp [Grid, Columns, downstreamBlocks, pipeMethod, controlPoints]
  eta := rfl
  pOpt := rfl
  thetaOpt := exampleBlocks_data.thetaOpt
  x := exampleBlocks_data.x
  y := exampleBlocks_data.y

theorem pipeApprox_value (y u : Sym) (el : Nat) (pt : Point Rat) (par : List Sym) :
    (pipeApprox par).eval pipeOps (pipeValue y u el pt) =
      (polyApproxUtil pipeMethod.roots 1 2 false (fun _ j => pipeValue y u el pt (par.getD j 0))
        (positionIn pipeMethod el pt.t)).getD 0 0 := by
  have h1 : pipeValue y u el pt 1 = positionIn pipeMethod el pt.t := if_pos rfl
  simp only [pipeApprox, Expr.eval, h1]
  generalize positionIn pipeMethod el pt.t = t
  simp [polyApproxUtil, pipeMethod, exampleTranscription, polyRow, lagrangeBasisUtil, lagrangeFactor]
  ring

theorem upstream_evaluates : EvaluatesCouplings pipeOpts 100 pipeOps (pipeValue 10 11) upstream where
  inputs _ _ := rfl
  outputs _ _ := rfl
  control el pt v hv := by
    simp only [upstream, List.mem_singleton] at hv ⊢
    subst hv
    rfl
  algebraic el pt v hv := by
    simp only [upstream, List.mem_singleton] at hv ⊢
    subst hv
    rfl
  parameter el pt i hi := by
    have h : i < 2 := hi
    interval_cases i <;> rfl
  approx el pt par _ := pipeApprox_value 10 11 el pt par

theorem downstream_evaluates : EvaluatesCouplings pipeOpts 100 pipeOps (pipeValue 20 21) downstream where
  inputs _ _ := rfl
  outputs _ _ := rfl
  control el pt v hv := by
    simp only [downstream, List.mem_singleton] at hv ⊢
    subst hv
    rfl
  algebraic el pt v hv := by
    simp only [downstream, List.mem_singleton] at hv ⊢
    subst hv
    rfl
  parameter el pt i hi := by
    have h : i < 2 := hi
    interval_cases i <;> rfl
  approx el pt par _ := pipeApprox_value 20 21 el pt par

theorem pipe_reports (b : Blocks Rat) (hb : CollocationData pipeMethod.dims b) :
    ∃ p theta s rep, s.x = Layout.stacked b ∧ pipeMethod.report pipeLaw p theta s = .ok rep ∧
      (pipeResult b).y.values = rep.yValues ∧ (pipeResult b).u.values = rep.uValues := by
  obtain ⟨rep, hr, -, hy, hu, -⟩ := C138_collocation pipeMethod pipeLaw b [] [] ⟨Layout.stacked b, 0, [], true⟩
    pipe_grid hb (Or.inl ⟨by decide, pipe_parametrised⟩) rfl
  refine ⟨[], [], _, rep, rfl, hr, ?_, ?_⟩
  · rw [hy.values]
    exact algebraics_sampled pipeMethod b _ _ pipe_grid hb
  · rw [hu.values]
    exact controls_sampled pipeMethod b pipeLaw (deltaT_pos _ pipe_grid.toCollocationGrid).ne'
      pipe_parametrised hb.u _ (fun _ _ => rfl) fun _ _ => rfl

theorem upstream_solved : SolvedByCollocation 2 2 upstream where
  collocatable := pipe_grid
  data := upstream_data
  sameDegree := rfl
  sameElements := rfl
  grid := ⟨rfl, rfl, rfl, rfl, rfl⟩
  points := rfl
  direct := rfl
  controls := Or.inl ⟨by decide, pipe_parametrised⟩
  relaxed := rfl
  sizes := ⟨rfl, rfl⟩
  result := pipe_reports _ upstream_data

theorem downstream_solved : SolvedByCollocation 2 2 downstream where
  collocatable := pipe_grid
  data := downstream_data
  sameDegree := rfl
  sameElements := rfl
  grid := ⟨rfl, rfl, rfl, rfl, rfl⟩
  points := rfl
  direct := rfl
  controls := Or.inl ⟨by decide, pipe_parametrised⟩
  relaxed := rfl
  sizes := ⟨rfl, rfl⟩
  result := pipe_reports _ downstream_data

theorem upstream_told : ToldByAll 2 2 upstream where
  vars := rfl
  sized := by decide
  coupled x hx := by
    simp only [upstream, List.mem_singleton] at hx
    subst hx
    exact ⟨Or.inr rfl, by decide, by decide, fun g hg => by cases hg⟩
  reported x hx := by
    simp only [upstream, List.mem_singleton] at hx
    subst hx
    intro r hr
    cases hr
    decide +kernel

theorem downstream_told : ToldByAll 2 2 downstream where
  vars := rfl
  sized := by decide
  coupled x hx := by
    simp only [downstream, List.mem_singleton] at hx
    subst hx
    exact ⟨Or.inl rfl, by decide, by decide, fun g hg => by cases hg⟩
  reported x hx := by
    simp only [downstream, List.mem_singleton] at hx
    subst hx
    intro r hr
    cases hr
    decide +kernel

theorem pipe_pair : ConnectedPair pipeOpts 2 upstream downstream 0 0 pipe where
  constraintsA := ⟨100, pipeOps, _, upstream_evaluates⟩
  constraintsB := ⟨100, pipeOps, _, downstream_evaluates⟩
  solvedA := upstream_solved
  solvedB := downstream_solved
  toldA := upstream_told
  toldB := downstream_told
  controls := ⟨by decide, pipe_parametrised, rfl, rfl⟩
  connected :=
    { incoming := rfl
      outgoing := rfl
      ofA := ⟨_, rfl, rfl, rfl, rfl⟩
      ofB := ⟨_, rfl, rfl, rfl, rfl⟩ }

/-- At the first point of the second element the input is 5 and the output 3: both nodes see the error 2. -/
example : ∃ va vb, UpdatedWith 2 2 upstream [] [[0, 0], [0, 0]] va ∧
    UpdatedWith 2 2 downstream [] [[0, 0], [0, 0]] vb ∧ violation va 1 0 0 = some 2 ∧
    violation vb 1 0 0 = some 2 := by
  obtain ⟨va, vb, h₁, h₂, -, -, h₃⟩ := C175_same_partial pipeOpts 2 upstream downstream 0 0 pipe pipe_pair
    [] [] [[0, 0], [0, 0]] [[0, 0], [0, 0]] rfl rfl
  obtain ⟨h₄, h₅⟩ := h₃ 0 21 10 rfl rfl
  have e : violation vb 1 0 0 = some 2 := by
    refine (h₅ 1 (by decide) 0 (by decide)).trans ?_
    decide +kernel
  exact ⟨va, vb, h₁, h₂, (h₄ 1 (by decide) 0 (by decide)).symm.trans e, e⟩

/-- Three outer iterations of the two nodes. -/
example (solver : AugLag.Solver Rat) : ∃ r : NodeRound Rat × NodeRound Rat,
    SameEnds pipeMethodOpts pipeMethodOpts 0 0
      (([r, r, r].map Prod.fst).foldl (afterRound pipeMethodOpts) (AugLag.start pipeMethodOpts 1))
      (([r, r, r].map Prod.snd).foldl (afterRound pipeMethodOpts) (AugLag.start pipeMethodOpts 1)) := by
  obtain ⟨va, vb, h₁, h₂, -⟩ := C175_same_partial pipeOpts 2 upstream downstream 0 0 pipe pipe_pair
    [] [] [[0, 0], [0, 0]] [[0, 0], [0, 0]] rfl rfl
  have hd : Discretised pipeMethodOpts := ⟨rfl, rfl, by decide +kernel, by decide, by decide +kernel⟩
  have hp : PlainUpdates pipeMethodOpts := ⟨rfl, rfl, rfl, Or.inr (Or.inl rfl)⟩
  refine ⟨(⟨[solver], vb, none⟩, ⟨[solver], va, none⟩), ?_⟩
  refine C175_multipliers_partial pipeOpts 2 0 0 0 pipe pipeMethodOpts pipeMethodOpts
    ⟨rfl, rfl, rfl, rfl, rfl, rfl, rfl, rfl, rfl, rfl, rfl⟩ hd hd hp hp (by decide) (by decide) 0 0
    (by decide) (by decide) (by decide) (by decide) 1 _ fun r hr => ⟨upstream, downstream, ?_⟩
  simp only [List.mem_cons, List.not_mem_nil, or_false, or_self] at hr
  subst hr
  exact ⟨pipe_pair, by simp, by simp, ⟨_, _, rfl, h₂⟩, ⟨_, _, rfl, h₁⟩, rfl, rfl, rfl, rfl, rfl⟩

end Example

end Verif
