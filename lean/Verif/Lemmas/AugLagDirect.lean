import Verif.Spec.AugLagDirect
import Verif.Lemmas.AugLagConvex
import Verif.Lemmas.ConvexDirect
import Verif.Lemmas.SolveAugLag
/-! # The augmented Lagrangian around a direct method, for convex problems -/
namespace Verif.AugLagDirect
open Spec SolveDirect RelaxDirect PolyDecision Polynomial
open AugLag (Opts St)
open Relax (Args)

variable {K : Type} [Field K] [LinearOrder K] [IsStrictOrderedRing K]

omit [LinearOrder K] [IsStrictOrderedRing K] in
theorem total_eq (o : Opts K) (F : Nat → Nat → Nat → K) : total o F =
    ∑ el ∈ Finset.range o.elements, ∑ j ∈ Finset.range o.degree, ∑ i ∈ Finset.range o.nRelax, F el j i := by
  unfold total
  rw [Finset.sum_product]
  refine Finset.sum_congr rfl fun el _ => ?_
  rw [Finset.sum_product]

omit [LinearOrder K] [IsStrictOrderedRing K] in
theorem augmentedTerms_range (n : Nat) (f g r : Nat → K) :
    augmentedTerms ((List.range n).map f) ((List.range n).map g) ((List.range n).map r) =
      ∑ i ∈ Finset.range n, (f i * r i + g i * r i ^ 2 / 2) := by
  unfold augmentedTerms
  rw [List.zip_map', List.zip_map', List.map_map]
  induction n with
  | zero => simp
  | succ n ih =>
    rw [List.range_succ, List.map_append, List.sum_append, ih, Finset.sum_range_succ]
    simp only [List.map_cons, List.map_nil, List.sum_cons, List.sum_nil, add_zero, Function.comp]
    congr 1
    ring

omit [IsStrictOrderedRing K] in
theorem bounded (l : List K) : ∃ B, ∀ v ∈ l, v ≤ B := by
  induction l with
  | nil => exact ⟨0, by simp⟩
  | cons v l ih =>
    obtain ⟨B, hB⟩ := ih
    refine ⟨max v B, fun w hw => ?_⟩
    rcases List.mem_cons.1 hw with rfl | hw
    · exact le_max_left _ _
    · exact (hB w hw).trans (le_max_right _ _)

omit [LinearOrder K] [IsStrictOrderedRing K] in
/-- A polynomial in every element, with given derivatives at the collocation points. -/
theorem integral {M : Mesh} {w : Nat → K} (hw : QuadratureWeights M w) (D : Nat → K[X]) (g : Nat → Nat → K)
    (hd : ∀ el, (D el).natDegree ≤ M.roots.length) (h0 : (D 0).eval 0 = 0)
    (hcont : ∀ el, el + 1 < M.elements → (D el).eval 1 = (D (el + 1)).eval 0)
    (hder : ∀ el < M.elements, ∀ j < M.roots.length,
      (D el).derivative.eval ((inField M.roots).getD j 0) = g el j) :
    ∀ el < M.elements, (D el).eval 1 =
      ∑ k ∈ Finset.range (el + 1), ∑ j ∈ Finset.range M.roots.length, w j * g k j := by
  have step : ∀ el < M.elements, (D el).eval 1 = (D el).eval 0 +
      ∑ j ∈ Finset.range M.roots.length, w j * g el j := by
    intro el hel
    rw [hw (D el) (hd el)]
    congr 1
    refine Finset.sum_congr rfl fun j hj => ?_
    rw [hder el hel j (Finset.mem_range.1 hj)]
  intro el
  induction el with
  | zero =>
    intro hel
    rw [step 0 hel, h0]
    simp
  | succ n ih =>
    intro hel
    rw [step _ hel, ← hcont n hel, ih (by omega), Finset.sum_range_succ _ (n + 1)]

variable {opts : Options} {names : NewNames} {next : Sym} {o q : Ocp} {a : Args}
variable {x0 p mu : List K} {theta theta' nu : List (List K)}

/-- A decision of the relaxed problem without the terms for the equations. -/
theorem lower (ops : Expr.Ops K) (h : RelaxDeclared K opts names next o a)
    (hc : Constructed opts.roots opts.roots.length (a.alg o) (a.algVar o) next o q)
    (hm : ControlsMatch (mesh opts)) (hpos : o.positiveObjective = false)
    (hd : DataFits o (mesh opts) x0 p theta)
    (hθ : ∀ el < opts.elements, theta'.getD el [] = theta.getD el [] ++ nu.getD el [])
    {b' : Blocks K} {ρ : Nat → K → Sym → K}
    (hD : Decision ops q (mesh opts) x0 (p ++ mu) theta' none b' ρ) :
    ∃ b, SameTrajectory o (mesh opts) (a.algVar o) b b' ∧
      Decision ops (withoutEquations o (a.alg o)) (mesh opts) x0 p theta none b ρ ∧
      ControlLike (mesh opts) (a.algVar o) b := by
  obtain ⟨B, hB⟩ := bounded ((List.range opts.elements).flatMap fun el => (inField opts.roots : List K).flatMap
    fun tau => (entriesAt o.model.alg (a.alg o)).map fun e => |e.eval ops (ρ el tau)|)
  obtain ⟨b, hS, hN, -⟩ := near_decision ops h hc hm hpos hd hθ hD B (by
    intro el hel tau ht e he
    refine hB _ ?_
    simp only [List.mem_flatMap, List.mem_range, List.mem_map]
    exact ⟨el, hel, tau, ht, e, he, rfl⟩)
  refine ⟨b, hS, hN.decision, ?_⟩
  intro el hel i hi
  obtain ⟨k, hk⟩ := List.getElem?_of_mem hi
  rw [← hS.freed el hel k i hk]
  exact control_degree h.controlRoots h.mesh.controls b' el _

/-- A decision of the user's problem without the equations, for the relaxed problem. -/
theorem raise (ops : Expr.Ops K) (h : RelaxDeclared K opts names next o a)
    (hc : Constructed opts.roots opts.roots.length (a.alg o) (a.algVar o) next o q)
    (hm : ControlsMatch (mesh opts)) (hpos : o.positiveObjective = false)
    (hd : DataFits o (mesh opts) x0 p theta)
    (hθ : ∀ el < opts.elements, theta'.getD el [] = theta.getD el [] ++ nu.getD el [])
    {b : Blocks K} {ρ : Nat → K → Sym → K}
    (hD : Decision ops (withoutEquations o (a.alg o)) (mesh opts) x0 p theta none b ρ)
    (hl : ControlLike (mesh opts) (a.algVar o) b) :
    ∃ b' ρ', Decision ops q (mesh opts) x0 (p ++ mu) theta' none b' ρ' ∧
      ∀ el < opts.elements, ∀ tau, ∀ e ∈ allExprs o, e.eval ops (ρ' el tau) = e.eval ops (ρ el tau) := by
  have hW := wellPosed h hc
  have hM : GoodMesh (mesh opts) := h.mesh
  set M := mesh opts with hMe
  have hn : M.controlRoots.Nodup := h.controlRoots
  have hR := hc.relaxed
  have hU := hc.untouched
  have hlen : (entriesAt o.model.y (a.algVar o)).length = (a.algVar o).length :=
    entriesAt_length _ _ h.relaxable.chosen.2
  have hqu : q.model.u.length = o.model.u.length + (a.algVar o).length := by
    rw [hR.u, List.length_append, hlen]
  -- values of the symbols, with any cost state
  let Y : Nat → Nat → K[X] := fun el k =>
    algebraicPoly M b el ((otherPositions o.model.y.length (a.algVar o)).getD k 0)
  let U : Nat → Nat → K[X] := fun el j => if j < o.model.u.length then controlPoly M b el j
    else algebraicPoly M b el ((a.algVar o).getD (j - o.model.u.length) 0)
  have hqy : q.model.y.length = (otherPositions o.model.y.length (a.algVar o)).length := by
    rw [hR.y]
    exact entriesAt_length o.model.y (otherPositions o.model.y.length (a.algVar o))
      fun i hi => (mem_otherPositions.1 hi).1
  have hfit : ∀ C : Nat → K[X], (∀ el, (C el).natDegree ≤ M.roots.length) →
      Fits q M (fun el i => if i < o.model.x.length then statePoly M b el i else C el) Y U b := by
    intro C hC
    refine ⟨fun el i => ?_, fun el i => algebraic_degree hM b el _, ?_, ?_, ?_, ?_⟩
    · show (if i < o.model.x.length then statePoly M b el i else C el).natDegree ≤ _
      split
      · exact state_degree hM b el i
      · exact hC el
    · intro el he j hj
      show (if j < o.model.u.length then controlPoly M b el j else
        algebraicPoly M b el ((a.algVar o).getD (j - o.model.u.length) 0)).natDegree < _
      split
      · exact control_degree hn hM.controls b el j
      · rename_i hge
        refine hl el he _ ?_
        have hk : j - o.model.u.length < (a.algVar o).length := by omega
        rw [List.getD_eq_getElem?_getD, List.getElem?_eq_getElem hk]
        exact List.getElem_mem hk
    · rw [hU.eta]; exact hD.data.eta
    · rw [hU.pOpt.1]; exact hD.data.pOpt
    · rw [hU.thetaOpt.1]; exact hD.data.thetaOpt
  have hS : ∀ C : Nat → K[X], (∀ el, (C el).natDegree ≤ M.roots.length) →
      SameTrajectory o M (a.algVar o) b
        (polyBlocks q M (fun el i => if i < o.model.x.length then statePoly M b el i else C el) Y U b) := by
    intro C hC
    have hf := hfit C hC
    refine ⟨?_, ?_, ?_, ?_, rfl, rfl, rfl⟩
    · intro el he i hi
      rw [hf.state hM el he i (by rw [hR.x]; exact hi.le)]
      exact if_pos hi
    · intro el he i hi
      rw [hf.control hn el he i (by omega)]
      exact if_pos hi
    · intro el he k i hk
      have hk' := (List.getElem?_eq_some_iff.1 hk).1
      rw [hf.control hn el he _ (by omega)]
      refine (if_neg (by omega)).trans ?_
      rw [Nat.add_sub_cancel_left, List.getD_eq_getElem?_getD, hk, Option.getD_some]
    · intro el he k i hk
      have hk' := (List.getElem?_eq_some_iff.1 hk).1
      rw [hf.algebraic hM el he k (by rw [hqy]; exact hk')]
      show algebraicPoly M b el ((otherPositions o.model.y.length (a.algVar o)).getD k 0) = _
      rw [List.getD_eq_getElem?_getD, hk, Option.getD_some]
  -- the values do not depend on the cost state
  let B0 := polyBlocks q M (fun el i => if i < o.model.x.length then statePoly M b el i else 0) Y U b
  have hvals := fun el tau => C159_values q M B0 x0 (p ++ mu) theta' hW.symbols
    ⟨hW.problem.parameters.2.1, hW.problem.parameters.2.2⟩ ⟨hW.problem.thetas.2.1, hW.problem.thetas.2.2⟩ el tau
  choose ρ' hρ' using hvals
  obtain ⟨C, hCd, hC0, hCc, hCr⟩ := exists_costState (K := K) hM
    fun el tau => stepLength o M * q.L.eval ops (ρ' el tau)
  have hS0 := hS (fun _ => 0) (fun _ => by simp)
  have hSC := hS C hCd
  have hfC := hfit C hCd
  set B' := polyBlocks q M (fun el i => if i < o.model.x.length then statePoly M b el i else C el) Y U b with hB'
  have hf0 := hfit (fun _ => 0) (fun _ => by simp)
  have hreadq : ∀ el < M.elements, ∀ tau, Reads q M B' x0 (p ++ mu) theta' el tau (ρ' el tau) := by
    intro el he tau
    have r := hρ' el tau
    refine ⟨⟨r.time, r.position, ?_, r.parameters, r.optimised, r.thetas, r.optimisedThetas, r.starts, r.etas⟩,
      ?_, ?_⟩
    · intro i s hi
      rw [r.controls i s hi]
      have hi' := (List.getElem?_eq_some_iff.1 hi).1
      rw [hfC.control hn el he i hi', hf0.control hn el he i hi']
    · intro i s hi
      rw [r.states i s hi]
      have hi' := (List.getElem?_eq_some_iff.1 hi).1
      rw [hfC.state hM el he i hi'.le, hf0.state hM el he i hi'.le]
      rw [hR.x] at hi'
      rw [if_pos hi', if_pos hi']
    · intro i s hi
      rw [r.algebraics i s hi]
      have hi' := (List.getElem?_eq_some_iff.1 hi).1
      rw [hfC.algebraic hM el he i hi', hf0.algebraic hM el he i hi']
  have hread : ∀ el < M.elements, ∀ tau, Reads o M b x0 p theta el tau (ρ' el tau) := fun el he tau =>
    reads_user hc h.relaxable hSC he hd.p (hd.theta el he) (hθ el he) (hreadq el he tau)
  have hread₀ : ∀ el < M.elements, ∀ tau, Reads o M b x0 p theta el tau (ρ el tau) := by
    intro el he tau
    have r := hD.reads el he tau
    exact ⟨⟨r.time, r.position, r.controls, r.parameters, r.optimised, r.thetas, r.optimisedThetas, r.starts,
      r.etas⟩, r.states, r.algebraics⟩
  have heval : ∀ el < M.elements, ∀ tau, ∀ e ∈ allExprs o,
      e.eval ops (ρ' el tau) = e.eval ops (ρ el tau) := by
    intro el he tau e hm
    refine Expr.eval_congr ops _ _ e fun s hs => ?_
    exact reads_agree (hread₀ el he tau) (hread el he tau) s (scope_symbols h.scope e hm s hs)
  have hE := hM.elements
  have hlast : M.elements - 1 < M.elements := by omega
  have hpath : ∀ e ∈ alongPath o, e ∈ allExprs o := by
    intro e he
    unfold allExprs
    simp only [List.mem_append]
    tauto
  have hdata : CollocationData (directDims q M) B' := hfC.data hM.controls
  have hcost : ∀ el < M.elements, statePoly M B' el o.model.x.length = C el := by
    intro el he
    rw [hfC.state hM el he _ (by rw [hR.x])]
    exact if_neg (by omega)
  have hdata₀ : CollocationData (directDims o M) b := hD.data
  obtain ⟨hcore, hcs, halg⟩ := (solution_iff (o := withoutEquations o (a.alg o)) ops hM hD.data h.last.2.1 none ρ).1
    hD.solution
  have hcore' : Core ops o M b ρ' := by
    refine ⟨?_, hcore.continuous, ?_, ?_, ?_, ?_, ?_⟩
    · intro e he
      rw [heval 0 hE 0 e (by unfold allExprs; simp [he])]
      exact hcore.initial e he
    · intro el he tau ht i s e hs hode
      rw [heval el he tau e (hpath e ?_)]
      · exact hcore.dynamics el he tau ht i s e hs hode
      · simp only [alongPath, List.mem_append]
        exact .inl (.inl (.inl (.inl ((mem_odeVec _ _).2 ⟨s, ExactTraj.mem_ode hode⟩))))
    · intro el he i e tag hi htag taus htaus tau ht
      rw [heval el he tau e (hpath e (by simp [alongPath, List.mem_of_getElem? hi]))]
      exact hcore.inequalities el he i e tag hi htag taus htaus tau ht
    · intro el he i e tag hi htag taus htaus tau ht
      rw [heval el he tau e (hpath e (by simp [alongPath, List.mem_of_getElem? hi]))]
      exact hcore.equalities el he i e tag hi htag taus htaus tau ht
    · intro e he
      rw [heval _ hlast 1 e (by unfold allExprs; simp [he])]
      exact hcore.final e he
    · intro e he
      rw [heval _ hlast 1 e (by unfold allExprs; simp [he])]
      exact hcore.timeless e he
  refine ⟨B', ρ', ⟨hdata, hreadq, ?_, ?_⟩, heval⟩
  · rw [within_iff hM hn hdata hW.bounds]
    rw [within_same hc h.relaxable hM hn hm h.bounds hSC (.inl hpos)]
    refine (within_iff hM hn hdata₀ h.bounds).1 ?_
    exact ⟨hD.bounds.x, hD.bounds.y, hD.bounds.u, hD.bounds.pOpt, hD.bounds.thetaOpt⟩
  · rw [solution_iff ops hM hdata (relaxed_rates h hc) none ρ']
    refine ⟨(core_iff ops hc hSC ρ').2 hcore', ⟨?_, ?_, ?_⟩, ?_⟩
    · rw [hR.x, hcost 0 hE]; exact hC0
    · intro el he
      rw [hR.x, hcost el (by omega), hcost (el + 1) he]
      exact hCc el
    · intro el he tau ht
      rw [hR.x, hcost el he, step_eq hc]
      exact hCr el tau ht
    · intro el he tau ht e hm
      rw [hR.alg] at hm
      have hm' := mem_of_otherEntries hm
      rw [heval el he tau e (hpath _ (by simp [alongPath, hm']))]
      exact halg el he tau ht e hm

omit [LinearOrder K] [IsStrictOrderedRing K] in
theorem list_range (l : List K) : l = (List.range l.length).map fun i => l.getD i 0 := by
  refine List.ext_getElem (by simp) fun i h₁ h₂ => ?_
  simp [List.getD_eq_getElem?_getD, h₁]

/-- The terms for the equations at a collocation point. -/
theorem terms_eq (ops : Expr.Ops K) {al : Opts K} (h : RelaxDeclared K opts names next o a)
    (hc : Constructed opts.roots opts.roots.length (a.alg o) (a.algVar o) next o q)
    (hdis : Discretised al) (hdeg : al.degree = opts.roots.length) (hcount : al.nRelax = (a.alg o).length)
    (hd : DataFits o (mesh opts) x0 p theta)
    (hθ : ∀ el < opts.elements, theta'.getD el [] = theta.getD el [] ++ nu.getD el [])
    {b' : Blocks K} {el : Nat} (hel : el < opts.elements) {j : Nat} (hj : j < opts.roots.length) {ρ : Sym → K}
    (hread : Reads q (mesh opts) b' x0 (p ++ mu) theta' el ((inField opts.roots).getD j 0) ρ) :
    q.L.eval ops ρ = o.L.eval ops ρ + ∑ i ∈ Finset.range al.nRelax, (multiplierAt al nu el j i *
      ((entriesAt o.model.alg (a.alg o)).map (Expr.eval ops ρ)).getD i 0 + mu.getD i 0 *
      ((entriesAt o.model.alg (a.alg o)).map (Expr.eval ops ρ)).getD i 0 ^ 2 / 2) := by
  have hM : GoodMesh (mesh opts) := h.mesh
  obtain ⟨hmus, hnus⟩ := reads_multipliers hc hd.p (hd.theta el hel) (hθ el hel) (below_opt h).1 (below_opt h).2
    hread
  rw [hc.cost K ops ρ]
  congr 1
  have hnd : (inField opts.roots : List K).Nodup := (List.nodup_cons.1 (ExactTraj.nodes_nodup (K := K) hM)).2
  have hjl : j < (interpolationNodes (inField opts.roots : List K) false).length := by
    simpa [inField, interpolationNodes] using hj
  have h₁ := Direct.polynomials_eval ops opts.roots o.model.tau (next + (a.alg o).length + (a.alg o).length)
    (a.alg o).length opts.roots.length ρ
  have hr : 1 < opts.roots.length := hM.points
  have h₂ := C06_method_interpolates (inField opts.roots : List K) (a.alg o).length opts.roots.length false
    (fun i j => ρ (Direct.point (next + (a.alg o).length + (a.alg o).length) (a.alg o).length i j)) (by omega)
    (.inr rfl) hnd j hjl
  have htau : ρ o.model.tau = (inField opts.roots : List K).getD j 0 := by
    rw [← hc.untouched.clock.2]
    exact hread.position
  have e : (interpolationNodes (inField opts.roots : List K) false)[j]'hjl = ρ o.model.tau := by
    rw [htau, List.getD_eq_getElem?_getD]
    have : (inField opts.roots : List K)[j]? = some ((inField opts.roots : List K)[j]'hjl) :=
      List.getElem?_eq_getElem hjl
    rw [this, Option.getD_some]
    rfl
  rw [e] at h₂
  have h₃ := Except.ok.inj (h₂.symm.trans h₁)
  rw [← h₃]
  have hlen : ((entriesAt o.model.alg (a.alg o)).map (Expr.eval ops ρ)).length = (a.alg o).length := by
    rw [List.length_map, entriesAt_length _ _ h.relaxable.equations.2]
  have hres : (entriesAt o.model.alg (a.alg o)).map (Expr.eval ops ρ) = (List.range (a.alg o).length).map
      fun i => ((entriesAt o.model.alg (a.alg o)).map (Expr.eval ops ρ)).getD i 0 := by
    rw [← hlen]
    exact list_range _
  have hmu' : (newSyms (next + (a.alg o).length) (a.alg o).length).map ρ = (List.range (a.alg o).length).map
      fun i => mu.getD i 0 := by
    unfold newSyms
    rw [List.map_map]
    exact List.map_congr_left fun i hi => hmus i (List.mem_range.1 hi)
  rw [hmu', hres, augmentedTerms_range, hcount]
  refine Finset.sum_congr rfl fun i hi => ?_
  have hi := Finset.mem_range.1 hi
  have hν : ρ (Direct.point (next + (a.alg o).length + (a.alg o).length) (a.alg o).length i j) =
      multiplierAt al nu el j i := by
    unfold multiplierAt multiplier pointTime
    rw [AugLag.nuAt_timeNu al hdis _ el j (by rw [hdeg]; exact hj), hcount, List.getElem?_map,
      List.getElem?_range hi]
    have hk : j * (a.alg o).length + i < (a.alg o).length * opts.roots.length := by
      calc j * (a.alg o).length + i < j * (a.alg o).length + (a.alg o).length := by omega
        _ = (j + 1) * (a.alg o).length := by ring
        _ ≤ opts.roots.length * (a.alg o).length := Nat.mul_le_mul_right _ hj
        _ = (a.alg o).length * opts.roots.length := Nat.mul_comm _ _
    have := hnus _ hk
    unfold Direct.point
    rw [this]
    simp [AugLag.entryOf, List.getD_eq_getElem?_getD]
  rw [hν, ← hres]

/-- The cost of the relaxed problem. -/
theorem cost_eq (ops : Expr.Ops K) {al : Opts K} (h : RelaxDeclared K opts names next o a)
    (hc : Constructed opts.roots opts.roots.length (a.alg o) (a.algVar o) next o q)
    (hdis : Discretised al) (hdeg : al.degree = opts.roots.length) (hcount : al.nRelax = (a.alg o).length)
    (hels : al.elements = opts.elements) {w : Nat → K} (hw : QuadratureWeights (mesh opts) w)
    (hd : DataFits o (mesh opts) x0 p theta)
    (hθ : ∀ el < opts.elements, theta'.getD el [] = theta.getD el [] ++ nu.getD el [])
    {b b' : Blocks K} {ρ ρ' : Nat → K → Sym → K}
    (hD' : Decision ops q (mesh opts) x0 (p ++ mu) theta' none b' ρ')
    (hD : Decision ops (withoutEquations o (a.alg o)) (mesh opts) x0 p theta none b ρ)
    (heval : ∀ el < opts.elements, ∀ tau, ∀ e ∈ allExprs o, e.eval ops (ρ' el tau) = e.eval ops (ρ el tau)) :
    directCost ops q (mesh opts) b' ρ' = augmentedCost (relaxedProgram ops o a (mesh opts) x0 p theta) al
      (fun j => stepLength o (mesh opts) * w j) nu mu (b, ρ) := by
  have hM : GoodMesh (mesh opts) := h.mesh
  set M := mesh opts with hMe
  have hR := hc.relaxed
  have hE := hM.elements
  have hlast : M.elements - 1 < M.elements := by omega
  have hpath : ∀ e ∈ alongPath o, e ∈ allExprs o := by
    intro e he
    unfold allExprs
    simp only [List.mem_append]
    tauto
  obtain ⟨-, hcs', -⟩ := (solution_iff ops hM hD'.data (relaxed_rates h hc) none ρ').1 hD'.solution
  obtain ⟨-, hcs, -⟩ := (solution_iff (o := withoutEquations o (a.alg o)) ops hM hD.data h.last.2.1 none ρ).1
    hD.solution
  let r : Nat → Nat → Nat → K := fun el j i => ((entriesAt o.model.alg (a.alg o)).map
    (Expr.eval ops (ρ el ((inField M.roots).getD j 0)))).getD i 0
  have hint := integral hw (fun el => statePoly M b' el o.model.x.length - statePoly M b el o.model.x.length)
    (fun el j => stepLength o M * ∑ i ∈ Finset.range al.nRelax, (multiplierAt al nu el j i * r el j i +
      mu.getD i 0 * r el j i ^ 2 / 2)) ?_ ?_ ?_ ?_ (M.elements - 1) hlast
  · rw [eval_sub] at hint
    unfold directCost augmentedCost
    rw [hR.x, hR.V, hR.S, total_eq, hels, hdeg]
    have e₁ : o.V.eval ops (ρ' (M.elements - 1) 1) = o.V.eval ops (ρ (M.elements - 1) 1) :=
      heval _ hlast 1 o.V (by unfold allExprs; simp)
    have e₂ : ((List.range M.elements).map fun el => o.S.eval ops (ρ' el 1)).sum =
        ((List.range M.elements).map fun el => o.S.eval ops (ρ el 1)).sum := by
      congr 1
      refine List.map_congr_left fun el he => ?_
      exact heval el (List.mem_range.1 he) 1 o.S (hpath _ (by simp [alongPath]))
    have e₃ : ∀ (F : Nat → K), ∑ k ∈ Finset.range (M.elements - 1 + 1), F k = ∑ k ∈ Finset.range opts.elements, F k := by
      intro F
      rw [show M.elements - 1 + 1 = opts.elements by
        show M.elements - 1 + 1 = M.elements
        omega]
    rw [e₃] at hint
    rw [e₁, e₂]
    show _ = directCost ops o M b ρ + (∑ el ∈ Finset.range opts.elements, ∑ j ∈ Finset.range opts.roots.length,
        ∑ i ∈ Finset.range al.nRelax, stepLength o M * w j * (multiplierAt al nu el j i * r el j i +
          mu.getD i 0 * r el j i ^ 2 / 2))
    unfold directCost
    have e₄ : (∑ el ∈ Finset.range opts.elements, ∑ j ∈ Finset.range opts.roots.length,
        ∑ i ∈ Finset.range al.nRelax, stepLength o M * w j * (multiplierAt al nu el j i * r el j i +
          mu.getD i 0 * r el j i ^ 2 / 2)) =
        eval 1 (statePoly M b' (M.elements - 1) o.model.x.length) -
          eval 1 (statePoly M b (M.elements - 1) o.model.x.length) := by
      rw [hint]
      refine Finset.sum_congr rfl fun el _ => Finset.sum_congr rfl fun j _ => ?_
      rw [Finset.mul_sum, Finset.mul_sum]
      refine Finset.sum_congr rfl fun i _ => ?_
      ring
    rw [e₄]
    ring
  · intro el
    refine (Polynomial.natDegree_sub_le _ _).trans ?_
    exact max_le (state_degree hM b' el _) (state_degree hM b el _)
  · rw [eval_sub]
    have g₁ := hcs'.start
    rw [hR.x] at g₁
    have g₂ : (statePoly M b 0 o.model.x.length).eval 0 = 0 := hcs.start
    rw [g₁, g₂, sub_zero]
  · intro el he
    rw [eval_sub, eval_sub]
    have g₁ := hcs'.continuous el he
    rw [hR.x] at g₁
    have g₂ : (statePoly M b el o.model.x.length).eval 1 = (statePoly M b (el + 1) o.model.x.length).eval 0 :=
      hcs.continuous el he
    rw [g₁, g₂]
  · intro el he j hj
    have ht : (inField M.roots : List K).getD j 0 ∈ (inField M.roots : List K) := by
      have hj' : j < (inField M.roots : List K).length := by simpa [inField] using hj
      rw [List.getD_eq_getElem?_getD, List.getElem?_eq_getElem hj']
      exact List.getElem_mem _
    rw [derivative_sub, eval_sub]
    have g₁ := hcs'.running el he _ ht
    rw [hR.x, step_eq hc] at g₁
    have g₂ : (statePoly M b el o.model.x.length).derivative.eval ((inField M.roots).getD j 0) =
        stepLength o M * o.L.eval ops (ρ el ((inField M.roots).getD j 0)) := hcs.running el he _ ht
    have hres : ∀ i, ((entriesAt o.model.alg (a.alg o)).map
        (Expr.eval ops (ρ' el ((inField opts.roots).getD j 0)))).getD i 0 = r el j i := by
      intro i
      show _ = ((entriesAt o.model.alg (a.alg o)).map
        (Expr.eval ops (ρ el ((inField M.roots).getD j 0)))).getD i 0
      congr 1
      refine List.map_congr_left fun e he' => ?_
      refine heval el he _ e (hpath e ?_)
      have := mem_of_entriesAt he'
      simp only [alongPath, List.mem_append]
      tauto
    have g₃ := terms_eq (nu := nu) ops h hc hdis hdeg hcount hd hθ he hj (hD'.reads el he _)
    simp only [hres] at g₃
    have g₄ : q.L.eval ops (ρ' el ((inField M.roots).getD j 0)) =
      o.L.eval ops (ρ' el ((inField M.roots).getD j 0)) + _ := g₃
    rw [g₁, g₂, g₄, heval el he _ o.L (hpath _ (by simp [alongPath]))]
    ring

section Loop
open SolveAugLag (Ctx)
open SolveAugLag.Ctx (Inv Outcome value point)
variable {M : SolveAugLag.Method K} {m : Direct.Method} {S : Expr → Expr} {P : Program K}
variable {ops : Expr.Ops K} {w : Nat → K}

/-- The relaxed problem has a solution. -/
theorem best_decision (C : Ctx ops M next o a q m S P) (hm : ControlsMatch (mesh M.opts))
    (hpos : o.positiveObjective = false) (hw : QuadratureWeights (mesh M.opts) w)
    (hd : DataFits o (mesh M.opts) x0 p theta)
    {x : Blocks K × (Nat → K → Sym → K)}
    (hx : (relaxedProgram ops o a (mesh M.opts) x0 p theta).feasible x)
    (hbest : ∀ y, (relaxedProgram ops o a (mesh M.opts) x0 p theta).feasible y →
      augmentedCost (relaxedProgram ops o a (mesh M.opts) x0 p theta) M.al
          (fun j => stepLength o (mesh M.opts) * w j) nu mu x ≤
        augmentedCost (relaxedProgram ops o a (mesh M.opts) x0 p theta) M.al
          (fun j => stepLength o (mesh M.opts) * w j) nu mu y) :
    ∃ b ρ, BestDecision ops q (mesh M.opts) x0 (p ++ mu) (elementData M.opts.elements theta nu) none b ρ := by
  have hθ : ∀ el < M.opts.elements, (elementData M.opts.elements theta nu).getD el [] =
      theta.getD el [] ++ nu.getD el [] := fun el hel => SolveAugLag.elementData_getD _ _ hel
  obtain ⟨b', ρ', hD', he⟩ := raise (mu := mu) ops C.declared C.constructed hm hpos hd hθ hx.1 hx.2
  refine ⟨b', ρ', hD', fun b₂ ρ₂ hD₂ => ?_⟩
  obtain ⟨b, -, hD, hl⟩ := lower ops C.declared C.constructed hm hpos hd hθ hD₂
  rw [cost_eq ops C.declared C.constructed C.discretised C.config.degree.1 C.config.count C.config.elements hw
      hd hθ hD' hx.1 he,
    cost_eq ops C.declared C.constructed C.discretised C.config.degree.1 C.config.count C.config.elements hw
      hd hθ hD₂ hD fun _ _ _ _ _ => rfl]
  exact hbest (b, ρ₂) ⟨hD, hl⟩

/-- What the direct method returns solves the relaxed problem. -/
theorem solves (C : Ctx ops M next o a q m S P) (hm : ControlsMatch (mesh M.opts))
    (hpos : o.positiveObjective = false) (hopt : o.pOpt = [] ∧ o.thetaOpt = [])
    (hw : QuadratureWeights (mesh M.opts) w) (hd : DataFits o (mesh M.opts) x0 p theta)
    {solver : SolverCall K → Except Err (RawSolution K)} {r : SolveDirect.Result K} {al : St K} {b' : Blocks K}
    (O : Outcome ops M o a q m S x0 p theta solver r al mu b') (hsucc : r.report.success = true) :
    ∃ b ρ, SameTrajectory o (mesh M.opts) (a.algVar o) b b' ∧
      SolvesRelaxed (relaxedProgram ops o a (mesh M.opts) x0 p theta) M.al
        (fun j => stepLength o (mesh M.opts) * w j) al.nu mu ((List.range M.al.elements).map fun el =>
          (M.al.roots M.al.degree).map fun tau => value ops M S m (entriesAt o.model.alg (a.alg o)) el
            (point ops M m b' (p ++ mu) (elementData M.opts.elements theta al.nu) el tau)) (b, ρ) := by
  have hθ : ∀ el < M.opts.elements, (elementData M.opts.elements theta al.nu).getD el [] =
      theta.getD el [] ++ al.nu.getD el [] := fun el hel => SolveAugLag.elementData_getD _ _ hel
  obtain ⟨⟨ρ, hρ⟩, hall, hmin⟩ := O.optimal hsucc
  obtain ⟨hD', hobj⟩ := hall ρ hρ
  obtain ⟨b, hS, hD, hl⟩ := lower ops C.declared C.constructed hm hpos hd hθ hD'
  have hdq := SolveAugLag.dataFits C.constructed hd O.count O.rows
  refine ⟨b, ρ, hS, ⟨hD, hl⟩, ?_, ?_, ?_⟩
  · refine AugLag.violations_of (o := M.al) _ _ (M.al.roots M.al.degree) C.discretised.points fun el pt => ?_
    rw [SolveAugLag.Ctx.value_length, entriesAt_length _ _ C.declared.relaxable.equations.2, C.config.count]
  · intro el hel j hj i hi
    have hel' : el < M.opts.elements := by rw [← C.config.elements]; exact hel
    have hr : M.al.roots M.al.degree = inField M.opts.roots := by
      rw [C.config.degree.1, C.config.points]
    have hj' : j < (inField M.opts.roots : List K).length := by
      rw [← hr, C.discretised.points]; exact hj
    have hlen : i < ((entriesAt o.model.alg (a.alg o)).map
        (Expr.eval ops (ρ el ((inField M.opts.roots : List K)[j])))).length := by
      rw [List.length_map, entriesAt_length _ _ C.declared.relaxable.equations.2, ← C.config.count]; exact hi
    show _ = some (((entriesAt o.model.alg (a.alg o)).map
      (Expr.eval ops (ρ el ((inField M.opts.roots).getD j 0)))).getD i 0)
    have hg : (inField M.opts.roots : List K).getD j 0 = (inField M.opts.roots : List K)[j] := by
      rw [List.getD_eq_getElem?_getD, List.getElem?_eq_getElem hj', Option.getD_some]
    unfold violation
    rw [List.getElem?_map, List.getElem?_range hel]
    simp only [Option.map_some, Option.bind_some]
    rw [List.getElem?_map, hr, List.getElem?_eq_getElem hj']
    simp only [Option.map_some, Option.bind_some]
    rw [C.value_eq hopt O.data hdq hρ el hel', hg, List.getD_eq_getElem?_getD, List.getElem?_eq_getElem hlen]
    rfl
  · intro y hy
    obtain ⟨b₂, ρ₂, hD₂, he⟩ := raise (mu := mu) ops C.declared C.constructed hm hpos hd hθ hy.1 hy.2
    have := hmin b₂ ρ₂ hD₂
    rw [hobj, cost_eq ops C.declared C.constructed C.discretised C.config.degree.1 C.config.count
      C.config.elements hw hd hθ hD' hD fun _ _ _ _ _ => rfl,
      cost_eq ops C.declared C.constructed C.discretised C.config.degree.1 C.config.count
      C.config.elements hw hd hθ hD₂ hy.1 he] at this
    exact this

/-- What `solve` leaves when the tolerance is met. -/
structure Done (ops : Expr.Ops K) (M : SolveAugLag.Method K) (o : Ocp) (a : Args) (q : Ocp) (x0 p : List K)
    (theta : List (List K)) (Q : RelaxedProgram K) (w : Nat → K) (lam : Nat → Nat → Nat → K) (V : K)
    (x : Q.Point) (r : SolveDirect.Result K) (st' : SolveAugLag.State K) : Prop where
  success : r.report.success = true
  met : ∃ e, st'.al.lastError = some e ∧ Met M.al e
  solved : ∃ mu viol, mu.length = M.al.nRelax ∧ (∀ v ∈ mu, 0 < v ∧ v ≤ M.al.muMax) ∧
    SolvesRelaxed Q M.al w st'.al.nu mu viol x ∧ multiplierGap M.al w lam st'.al.nu mu ≤ V ∧
    Met M.al (AugLag.rowErrors M.al viol)

theorem loop (C : Ctx ops M next o a q m S P) (hm : ControlsMatch (mesh M.opts))
    (hpos : o.positiveObjective = false) (hopt : o.pOpt = [] ∧ o.thetaOpt = [])
    (hw : QuadratureWeights (mesh M.opts) w) (hd : DataFits o (mesh M.opts) x0 p theta)
    {sim info : List K → Theta K → Except Err (List K)}
    {solver : SolverCall K → Except Err (RawSolution K)} (hs : GoodSolver ops solver)
    (hcs : CompleteSolver ops solver) (dual : Report K → List K × List K) (hno : M.noUpdate = false)
    (hcv : Converging M.al) (hc : (relaxedProgram ops o a (mesh M.opts) x0 p theta).Convex M.al)
    (hsol : RelaxedSolvable (relaxedProgram ops o a (mesh M.opts) x0 p theta) M.al
      fun j => stepLength o (mesh M.opts) * w j)
    {lam : Nat → Nat → Nat → K} {best : Blocks K × (Nat → K → Sym → K)} {w0 m0 : K}
    (hw0 : 0 < w0) (hm0 : 0 < m0) (hww : ∀ j < M.al.degree, w0 ≤ stepLength o (mesh M.opts) * w j)
    (hb : SolutionWith (relaxedProgram ops o a (mesh M.opts) x0 p theta) M.al
      (fun j => stepLength o (mesh M.opts) * w j) lam best) (n : Nat) :
    ∀ {st : SolveAugLag.State K} {args : SolveArgs K} (last : Option (SolveDirect.Result K)) (V : K),
      Inv M o a q m P st → RelaxArgsFit o M.opts args sim info x0 p theta → AugLag.Going M.al m0 st.al →
      multiplierGap M.al (fun j => stepLength o (mesh M.opts) * w j) lam (st.al.nuTilde.getD st.al.nu) st.al.mu ≤ V →
      V < n * (w0 * (m0 * M.al.tol ^ 2)) →
      ∃ r st' b b' ρ, SolveAugLag.iterations ops M sim info solver dual n args last st = (.ok (some r), st') ∧
        r.report.raw = Layout.stacked b' ∧ Shows q (mesh M.opts) b' r.report ∧
        SameTrajectory o (mesh M.opts) (a.algVar o) b b' ∧
        Done ops M o a q x0 p theta (relaxedProgram ops o a (mesh M.opts) x0 p theta)
          (fun j => stepLength o (mesh M.opts) * w j) lam V (b, ρ) r st' := by
  have hw' : ∀ j < M.al.degree, 0 < stepLength o (mesh M.opts) * w j := fun j hj => hw0.trans_le (hww j hj)
  induction n with
  | zero =>
    intro st args last V hi ha hg hV hn
    exfalso
    have : 0 ≤ multiplierGap M.al (fun j => stepLength o (mesh M.opts) * w j) lam (st.al.nuTilde.getD st.al.nu)
        st.al.mu := by
      refine AugLag.total_nonneg fun el _ j hj i hi => ?_
      have h₁ := hw' j hj
      have h₂ := AugLag.getD_pos hg.count hg.range i hi
      positivity
    simp only [Nat.cast_zero, zero_mul] at hn
    linarith
  | succ n ih =>
    intro st args last V hi ha hg hV hn
    obtain ⟨r, flag, st', h₁, h₂, -, ⟨mu, b', O⟩, h₅, h₄⟩ := C.iteration_run hi hd ha hs
    obtain ⟨hnu, rfl⟩ : st'.al.nu = st.al.nuTilde.getD st.al.nu ∧ mu = st.al.mu := by
      have := O.solved
      rw [h₄, List.getLast?_concat, Option.some.injEq, Prod.mk.injEq] at this
      exact ⟨this.1.symm, this.2.symm⟩
    have hsucc : r.report.success = true := by
      obtain ⟨x, hx, hbest⟩ := hsol st'.al.nu st.al.mu hg.count fun v hv => (hg.range v hv).1
      obtain ⟨b₁, ρ₁, hB⟩ := best_decision C hm hpos hw hd hx hbest
      exact O.succeeds hcs b₁ ρ₁ hB
    obtain ⟨b, ρ, hS, hsv⟩ := solves C hm hpos hopt hw hd O hsucc
    obtain ⟨before, e, q₁, q₂, q₃⟩ := O.step hno
    generalize hviol : ((List.range M.al.elements).map fun el => (M.al.roots M.al.degree).map fun tau =>
      value ops M S m (entriesAt o.model.alg (a.alg o)) el
        (point ops M m b' (p ++ st.al.mu) (elementData M.opts.elements theta st'.al.nu) el tau)) = viol
      at hsv q₃
    obtain ⟨mu', hup, g₁, g₂, g₃⟩ := AugLag.updateParameters_run hcv viol before (by rw [q₂]; exact hg.range)
    rw [q₁, q₂] at hup
    rw [q₂] at g₁ g₃
    have hal : st'.al.nuTilde = some (AugLag.newNu M.al st.al.mu st'.al.nu viol) ∧ st'.al.mu = mu' ∧
        st'.al.lastError = some (AugLag.rowErrors M.al viol) := by
      unfold AugLag.iterationError at q₃
      simp only [Py.bind_eq, Bool.false_eq_true, if_false] at q₃
      rw [Py.bind_ok hup] at q₃
      exact ⟨(congrArg (fun z => z.2.nuTilde) q₃).symm, (congrArg (fun z => z.2.mu) q₃).symm,
        (congrArg (fun z => z.2.lastError) q₃).symm⟩
    obtain ⟨ht, hmu, hl⟩ := hal
    have hgap := AugLag.step_gap hcv.discretised hc hw' hg.count hg.range hsv hb g₃
    rw [← hnu] at hV
    unfold SolveAugLag.iterations
    rw [Py.bind_ok h₁]
    by_cases hmet : Met M.al (AugLag.rowErrors M.al viol)
    · obtain rfl : flag = true := h₅.2 ⟨hno, _, hl, hmet⟩
      exact ⟨r, st', b, b', ρ, rfl, O.raw, O.shows, hS, hsucc, ⟨_, hl, hmet⟩, st.al.mu, viol, hg.count, hg.range,
        hsv, hV, hmet⟩
    · have hflag : flag = false := by
        rw [Bool.eq_false_iff]
        intro hf
        obtain ⟨-, e', he, hme⟩ := h₅.1 hf
        rw [hl] at he
        obtain rfl := Option.some.inj he
        exact hmet hme
      subst hflag
      have hcost := AugLag.step_cost hw0 hm0 hcv.tol hww hg.least hsv hmet
      obtain ⟨r', st'', b₁, b₁', ρ₁, k₁, k₂, k₃, k₄, k₅⟩ := ih (st := st')
        (args := { args with guessDict := some (r.report.raw, dual r.report) }) (some r)
        (V - w0 * (m0 * M.al.tol ^ 2)) h₂ ⟨ha.x0, ha.p, ha.theta, .inl (by simp)⟩
        ⟨by rw [hmu, g₁]; exact hg.count, by rw [hmu]; exact g₂, fun i hi => by
          rw [hmu]; exact (hg.least i hi).trans (g₃ i)⟩
        (by rw [ht, hmu, Option.getD_some]; linarith) (by push_cast at hn; linarith)
      refine ⟨r', st'', b₁, b₁', ρ₁, k₁, k₂, k₃, k₄, k₅.success, k₅.met, ?_⟩
      obtain ⟨mu₂, viol₂, p₁, p₂, p₃, p₄, p₅⟩ := k₅.solved
      have : 0 < w0 * (m0 * M.al.tol ^ 2) := by have := hcv.tol; positivity
      exact ⟨mu₂, viol₂, p₁, p₂, p₃, by linarith, p₅⟩

end Loop

omit [LinearOrder K] [IsStrictOrderedRing K] in
theorem mem_entries_getD {es : List Expr} {ops : Expr.Ops K} {ρ : Sym → K} {i : Nat} (hi : i < es.length) :
    (es.map (Expr.eval ops ρ)).getD i 0 = (es[i]).eval ops ρ := by
  simp [List.getD_eq_getElem?_getD, hi]

/-- The relaxed program of a convex problem is convex. -/
theorem relaxed_convex (ops : Expr.Ops K) {al : Opts K} (h : RelaxDeclared K opts names next o a)
    (hels : al.elements = opts.elements) (hcount : al.nRelax = (a.alg o).length)
    (hpos : o.positiveObjective = false)
    (hopt : o.pOpt = [] ∧ o.thetaOpt = []) (hq : PositiveQuadrature K (mesh opts)) (hx : ConvexExprs ops o) :
    (relaxedProgram ops o a (mesh opts) x0 p theta).Convex al := by
  rintro t ⟨b₁, ρ₁⟩ ⟨b₂, ρ₂⟩ h0 h1 ⟨hD₁, hl₁⟩ ⟨hD₂, hl₂⟩
  have hx' : ConvexExprs ops (withoutEquations o (a.alg o)) := by
    refine ⟨fun e he => hx.affine e ?_, fun e he => hx.convex e he⟩
    simp only [List.mem_append] at he ⊢
    rcases he with ((((he | he) | he) | he) | he) | he
    · exact .inl (.inl (.inl (.inl (.inl he))))
    · exact .inl (.inl (.inl (.inl (.inr (mem_of_otherEntries he)))))
    · exact .inl (.inl (.inl (.inr he)))
    · exact .inl (.inl (.inr he))
    · exact .inl (.inr he)
    · exact .inr he
  obtain ⟨b, hD, hcost, hY, -⟩ := ConvexDirect.mixed_decision (o := withoutEquations o (a.alg o)) ops h.mesh
    h.controlRoots ⟨h.bounds.x, h.bounds.y, h.bounds.u, h.bounds.pOpt, h.bounds.thetaOpt⟩ hpos hopt hq
    h.problem.horizon hx' h0 h1 hD₁ hD₂
  refine ⟨(b, fun el tau => partWay t (ρ₁ el tau) (ρ₂ el tau)), ⟨hD, ?_⟩, hcost, ?_⟩
  · intro el hel i hi
    have hi' : i < o.model.y.length := h.relaxable.chosen.2 i hi
    have g₁ := hl₁ el hel i hi
    have g₂ := hl₂ el hel i hi
    have : (C (1 - t) * algebraicPoly (mesh opts) b₁ el i + C t * algebraicPoly (mesh opts) b₂ el i).natDegree ≤
        (mesh opts).controlRoots.length - 1 := by
      refine (natDegree_add_le _ _).trans (max_le ?_ ?_)
      · exact (natDegree_C_mul_le _ _).trans (Nat.le_sub_one_of_lt g₁)
      · exact (natDegree_C_mul_le _ _).trans (Nat.le_sub_one_of_lt g₂)
    rw [← hY el hel i hi'] at this
    exact lt_of_le_of_lt this (Nat.sub_lt h.mesh.controls Nat.one_pos)
  · intro el hel j _ i hi
    have hi' : i < (entriesAt o.model.alg (a.alg o)).length := by
      rw [entriesAt_length _ _ h.relaxable.equations.2, ← hcount]; exact hi
    have hel' : el < (mesh opts).elements := by
      show el < opts.elements
      rw [← hels]; exact hel
    show ((entriesAt o.model.alg (a.alg o)).map (Expr.eval ops (partWay t
        (ρ₁ el ((inField (mesh opts).roots).getD j 0)) (ρ₂ el ((inField (mesh opts).roots).getD j 0))))).getD i 0 =
      (1 - t) * ((entriesAt o.model.alg (a.alg o)).map
          (Expr.eval ops (ρ₁ el ((inField (mesh opts).roots).getD j 0)))).getD i 0 +
        t * ((entriesAt o.model.alg (a.alg o)).map
          (Expr.eval ops (ρ₂ el ((inField (mesh opts).roots).getD j 0)))).getD i 0
    rw [mem_entries_getD hi', mem_entries_getD hi', mem_entries_getD hi']
    refine hx.affine _ ?_ t _ _ h0 h1 ?_
    · have := mem_of_entriesAt (List.getElem_mem hi')
      simp [this]
    · exact ConvexDirect.same_given (o := withoutEquations o (a.alg o)) hopt (hD₁.reads el hel' _)
        (hD₂.reads el hel' _)

end Verif.AugLagDirect
