import Verif.Lemmas.RelaxDecision
import Verif.Props.Transcribe
import Verif.Props.Poly
/-! # From decisions of the user's problem to decisions of the relaxed problem, and back -/
namespace Verif.RelaxDirect
open Spec SolveDirect PolyDecision Polynomial
open Relax hiding newSyms

variable {K : Type} [Field K] [LinearOrder K] [IsStrictOrderedRing K]

theorem state_degree {M : Mesh} (hM : GoodMesh M) (b : Blocks K) (el i : Nat) :
    (statePoly M b el i).natDegree ≤ M.roots.length := by
  have := Transcription.through_degree (ExactTraj.nodes_nodup (K := K) hM) (b.x.getD el []) i
  by_cases h0 : statePoly M b el i = 0
  · rw [h0, natDegree_zero]
    exact Nat.zero_le _
  · have := (Polynomial.natDegree_lt_iff_degree_lt h0).2 this
    simp only [List.length_cons, inField, List.length_map] at this
    exact Nat.le_of_lt_succ this

theorem algebraic_degree {M : Mesh} (hM : GoodMesh M) (b : Blocks K) (el i : Nat) :
    (algebraicPoly M b el i).natDegree < M.roots.length := by
  have := Transcription.through_degree (List.nodup_cons.1 (ExactTraj.nodes_nodup (K := K) hM)).2
    (b.y.getD el []) i
  by_cases h0 : algebraicPoly M b el i = 0
  · rw [h0, natDegree_zero]
    have := hM.points
    omega
  · have := (Polynomial.natDegree_lt_iff_degree_lt h0).2 this
    simpa only [inField, List.length_map] using this

variable {opts : Options} {names : NewNames} {next : Sym} {o q : Ocp} {a : Args}
variable {x0 p mu : List K} {theta theta' nu : List (List K)}

omit [IsStrictOrderedRing K] in
theorem relaxed_rates (h : RelaxDeclared K opts names next o a)
    (hc : Constructed opts.roots opts.roots.length (a.alg o) (a.algVar o) next o q) : NoRateLimits q := by
  have hn := h.last.2.1
  constructor
  · intro x hx
    rw [hc.relaxed.duMin] at hx
    rcases List.mem_append.1 hx with hx | hx
    · exact hn.1 x hx
    · exact List.eq_of_mem_replicate hx
  · intro x hx
    rw [hc.relaxed.duMax] at hx
    rcases List.mem_append.1 hx with hx | hx
    · exact hn.2 x hx
    · exact List.eq_of_mem_replicate hx

omit [IsStrictOrderedRing K] in
theorem below_opt (h : RelaxDeclared K opts names next o a) :
    (∀ s ∈ o.pOpt, s < next) ∧ ∀ s ∈ o.thetaOpt, s < next := by
  constructor
  · intro s hs
    refine h.below s ?_
    have := h.problem.parameters.2.2 s hs
    unfold problemSymbols
    simp only [List.mem_append]
    tauto
  · intro s hs
    refine h.below s ?_
    have := h.problem.thetas.2.2 s hs
    unfold problemSymbols
    simp only [List.mem_append]
    tauto

/-- A decision of the user's problem, for the relaxed problem: the same trajectories, the same cost. -/
theorem relaxed_decision (ops : Expr.Ops K) (h : RelaxDeclared K opts names next o a)
    (hc : Constructed opts.roots opts.roots.length (a.alg o) (a.algVar o) next o q)
    (hm : ControlsMatch (mesh opts)) (hd : DataFits o (mesh opts) x0 p theta)
    (hθ : ∀ el < opts.elements, theta'.getD el [] = theta.getD el [] ++ nu.getD el [])
    {b : Blocks K} {ρ : Nat → K → Sym → K} (hD : Decision ops o (mesh opts) x0 p theta none b ρ)
    (hl : ControlLike (mesh opts) (a.algVar o) b) :
    ∃ b' ρ', SameTrajectory o (mesh opts) (a.algVar o) b b' ∧
      Decision ops q (mesh opts) x0 (p ++ mu) theta' none b' ρ' ∧
      directCost ops q (mesh opts) b' ρ' = directCost ops o (mesh opts) b ρ := by
  have hW := wellPosed h hc
  have hM : GoodMesh (mesh opts) := h.mesh
  set M := mesh opts with hMe
  have hn : M.controlRoots.Nodup := h.controlRoots
  have hR := hc.relaxed
  have hU := hc.untouched
  have hlen : (entriesAt o.model.y (a.algVar o)).length = (a.algVar o).length :=
    entriesAt_length _ _ h.relaxable.chosen.2
  have hqu : q.model.u.length = o.model.u.length + (a.algVar o).length := by
    rw [hR.u, List.length_append, hlen]
  let X : Nat → Nat → K[X] := statePoly M b
  let Y : Nat → Nat → K[X] := fun el k =>
    algebraicPoly M b el ((otherPositions o.model.y.length (a.algVar o)).getD k 0)
  let U : Nat → Nat → K[X] := fun el j => if j < o.model.u.length then controlPoly M b el j
    else algebraicPoly M b el ((a.algVar o).getD (j - o.model.u.length) 0)
  have hfit : Fits q M X Y U b := by
    refine ⟨fun el i => state_degree hM b el i, fun el i => algebraic_degree hM b el _, ?_, ?_, ?_, ?_⟩
    · intro el he j hj
      show (if j < o.model.u.length then controlPoly M b el j else
        algebraicPoly M b el ((a.algVar o).getD (j - o.model.u.length) 0)).natDegree < _
      split
      · exact control_degree hn hM.controls b el j
      · rename_i hge
        refine hl el he _ ?_
        have hk : j - o.model.u.length < (a.algVar o).length := by omega
        rw [List.getD_eq_getElem?_getD, List.getElem?_eq_getElem hk]
        exact List.getElem_mem hk
    · rw [hU.eta]; exact hD.data.eta
    · rw [hU.pOpt.1]; exact hD.data.pOpt
    · rw [hU.thetaOpt.1]; exact hD.data.thetaOpt
  have hqy : q.model.y.length = (otherPositions o.model.y.length (a.algVar o)).length := by
    rw [hR.y]
    exact entriesAt_length o.model.y (otherPositions o.model.y.length (a.algVar o))
      fun i hi => (mem_otherPositions.1 hi).1
  have hS : SameTrajectory o M (a.algVar o) b (polyBlocks q M X Y U b) := by
    refine ⟨?_, ?_, ?_, ?_, rfl, rfl, rfl⟩
    · intro el he i hi
      exact hfit.state hM el he i (by rw [hR.x]; exact hi.le)
    · intro el he i hi
      rw [hfit.control hn el he i (by omega)]
      exact if_pos hi
    · intro el he k i hk
      have hk' := (List.getElem?_eq_some_iff.1 hk).1
      rw [hfit.control hn el he _ (by omega)]
      refine (if_neg (by omega)).trans ?_
      rw [Nat.add_sub_cancel_left, List.getD_eq_getElem?_getD, hk, Option.getD_some]
    · intro el he k i hk
      have hk' := (List.getElem?_eq_some_iff.1 hk).1
      rw [hfit.algebraic hM el he k (by rw [hqy]; exact hk')]
      show algebraicPoly M b el ((otherPositions o.model.y.length (a.algVar o)).getD k 0) = _
      rw [List.getD_eq_getElem?_getD, hk, Option.getD_some]
  have hdata : CollocationData (directDims q M) (polyBlocks q M X Y U b) := hfit.data hM.controls
  have hcost : ∀ el < M.elements, statePoly M (polyBlocks q M X Y U b) el o.model.x.length =
      statePoly M b el o.model.x.length := fun el he =>
    hfit.state hM el he _ (by rw [hR.x])
  have hvals := fun el tau => C159_values q M (polyBlocks q M X Y U b) x0 (p ++ mu) theta' hW.symbols
    ⟨hW.problem.parameters.2.1, hW.problem.parameters.2.2⟩ ⟨hW.problem.thetas.2.1, hW.problem.thetas.2.2⟩ el tau
  choose ρ' hρ' using hvals
  have hread : ∀ el < M.elements, ∀ tau, Reads o M b x0 p theta el tau (ρ' el tau) := fun el he tau =>
    reads_user hc h.relaxable hS he hd.p (hd.theta el he) (hθ el he) (hρ' el tau)
  have heval : ∀ el < M.elements, ∀ tau, ∀ e ∈ allExprs o,
      e.eval ops (ρ' el tau) = e.eval ops (ρ el tau) := by
    intro el he tau e hm
    refine Expr.eval_congr ops _ _ e fun s hs => ?_
    exact reads_agree (hD.reads el he tau) (hread el he tau) s (scope_symbols h.scope e hm s hs)
  have hE := hM.elements
  have hlast : M.elements - 1 < M.elements := by omega
  have hpath : ∀ e ∈ alongPath o, e ∈ allExprs o := by
    intro e he
    unfold allExprs
    simp only [List.mem_append]
    tauto
  obtain ⟨hcore, hcs, halg⟩ := (solution_iff ops hM hD.data h.last.2.1 none ρ).1 hD.solution
  have hcore' : Core ops o M b ρ' := by
    refine ⟨?_, hcore.continuous, ?_, ?_, ?_, ?_, ?_⟩
    · intro e he
      rw [heval 0 hE 0 e (by unfold allExprs; simp [he])]
      exact hcore.initial e he
    · intro el he tau ht i s e hs hode
      rw [heval el he tau e (hpath e ?_)]
      · exact hcore.dynamics el he tau ht i s e hs hode
      · simp only [alongPath, List.mem_append]
        exact .inl (.inl (.inl (.inl ((mem_odeVec _ _).2 ⟨s, ExactTraj.mem_ode hode⟩))))
    · intro el he i e tag hi htag taus htaus tau ht
      rw [heval el he tau e (hpath e (by simp [alongPath, List.mem_of_getElem? hi]))]
      exact hcore.inequalities el he i e tag hi htag taus htaus tau ht
    · intro el he i e tag hi htag taus htaus tau ht
      rw [heval el he tau e (hpath e (by simp [alongPath, List.mem_of_getElem? hi]))]
      exact hcore.equalities el he i e tag hi htag taus htaus tau ht
    · intro e he
      rw [heval _ hlast 1 e (by unfold allExprs; simp [he])]
      exact hcore.final e he
    · intro e he
      rw [heval _ hlast 1 e (by unfold allExprs; simp [he])]
      exact hcore.timeless e he
  refine ⟨polyBlocks q M X Y U b, ρ', hS, ⟨hdata, fun el he tau => hρ' el tau, ?_, ?_⟩, ?_⟩
  · rw [within_iff hM hn hdata hW.bounds]
    rw [within_same hc h.relaxable hM hn hm h.bounds hS (.inr hcost)]
    exact (within_iff hM hn hD.data h.bounds).1 hD.bounds
  · rw [solution_iff ops hM hdata (relaxed_rates h hc) none ρ']
    refine ⟨(core_iff ops hc hS ρ').2 hcore', ⟨?_, ?_, ?_⟩, ?_⟩
    · rw [hR.x, hcost 0 hE]; exact hcs.start
    · intro el he
      rw [hR.x, hcost el (by omega), hcost (el + 1) he]
      exact hcs.continuous el he
    · intro el he tau ht
      rw [hR.x, hcost el he, step_eq hc, hc.cost K ops (ρ' el tau), augmentedTerms_zero, add_zero,
        heval el he tau o.L (hpath _ (by simp [alongPath]))]
      · exact hcs.running el he tau ht
      · intro v hv
        obtain ⟨e, hm, rfl⟩ := List.mem_map.1 hv
        have hm' := mem_of_entriesAt hm
        rw [heval el he tau e (hpath _ (by simp [alongPath, hm']))]
        exact halg el he tau ht e hm'
    · intro el he tau ht e hm
      rw [hR.alg] at hm
      have hm' := mem_of_otherEntries hm
      rw [heval el he tau e (hpath _ (by simp [alongPath, hm']))]
      exact halg el he tau ht e hm'
  · unfold directCost
    rw [hR.x, hR.V, hR.S, hcost _ hlast, heval _ hlast 1 o.V (by unfold allExprs; simp)]
    congr 2
    refine List.map_congr_left fun el he => ?_
    exact heval el (List.mem_range.1 he) 1 o.S (hpath _ (by simp [alongPath]))

/-! ## The cost of the user -/

omit [LinearOrder K] [IsStrictOrderedRing K] in
theorem antiderivative [CharZero K] (f : K[X]) : ∃ F : K[X], F.derivative = f ∧ F.eval 0 = 0 ∧
    F.natDegree ≤ f.natDegree + 1 := by
  refine ⟨∑ i ∈ Finset.range (f.natDegree + 1), Polynomial.monomial (i + 1) (f.coeff i / ((i : K) + 1)), ?_, ?_, ?_⟩
  · rw [Polynomial.derivative_sum]
    conv_rhs => rw [f.as_sum_range]
    refine Finset.sum_congr rfl fun i _ => ?_
    rw [Polynomial.derivative_monomial, Nat.add_sub_cancel]
    congr 1
    have : ((i : K) + 1) ≠ 0 := by exact_mod_cast Nat.succ_ne_zero i
    push_cast
    field_simp
  · rw [Polynomial.eval_finsetSum]
    refine Finset.sum_eq_zero fun i _ => ?_
    rw [Polynomial.eval_monomial]
    simp
  · refine Polynomial.natDegree_sum_le_of_forall_le _ _ fun i hi => ?_
    refine (Polynomial.natDegree_monomial_le _).trans ?_
    have := Finset.mem_range.1 hi
    omega

/-- A cost state with given derivatives at the collocation points. -/
theorem exists_costState {M : Mesh} (hM : GoodMesh M) (f : Nat → K → K) :
    ∃ C : Nat → K[X], (∀ el, (C el).natDegree ≤ M.roots.length) ∧ (C 0).eval 0 = 0 ∧
      (∀ el, (C el).eval 1 = (C (el + 1)).eval 0) ∧
      ∀ el, ∀ tau ∈ (inField M.roots : List K), (C el).derivative.eval tau = f el tau := by
  have hnd : (inField M.roots : List K).Nodup := (List.nodup_cons.1 (ExactTraj.nodes_nodup (K := K) hM)).2
  let G : Nat → K[X] := fun el => Lagrange.interpolate Finset.univ (inField M.roots : List K).get
    fun j => f el ((inField M.roots : List K).get j)
  have hG : ∀ el, ∀ tau ∈ (inField M.roots : List K), (G el).eval tau = f el tau := by
    intro el tau ht
    obtain ⟨j, hj, rfl⟩ := List.getElem_of_mem ht
    exact Lagrange.eval_interpolate_at_node (s := Finset.univ) (v := (inField M.roots : List K).get)
      (fun j => f el ((inField M.roots : List K).get j)) (nodes_injOn hnd)
      (Finset.mem_univ (⟨j, hj⟩ : Fin (inField M.roots : List K).length))
  have hGd : ∀ el, (G el).natDegree + 1 ≤ M.roots.length := by
    intro el
    have := Lagrange.degree_interpolate_lt (s := Finset.univ)
      (fun j : Fin (inField M.roots : List K).length => f el ((inField M.roots : List K).get j))
      (nodes_injOn hnd)
    rw [Finset.card_univ, Fintype.card_fin] at this
    by_cases h0 : G el = 0
    · rw [h0, natDegree_zero]
      have := hM.points
      omega
    · have := (Polynomial.natDegree_lt_iff_degree_lt h0).2 this
      rw [show (inField M.roots : List K).length = M.roots.length by simp [inField]] at this
      exact this
  choose F hF using fun el => antiderivative (G el)
  refine ⟨fun el => Polynomial.C (((List.range el).map fun k => (F k).eval 1).sum) + F el, ?_, ?_, ?_, ?_⟩
  · intro el
    refine (Polynomial.natDegree_add_le _ _).trans ?_
    rw [Polynomial.natDegree_C]
    have := (hF el).2.2
    have := hGd el
    omega
  · simp [(hF 0).2.1]
  · intro el
    simp [(hF (el + 1)).2.1, List.range_succ]
  · intro el tau ht
    rw [Polynomial.derivative_add, Polynomial.derivative_C, zero_add, (hF el).1]
    exact hG el tau ht

omit [LinearOrder K] [IsStrictOrderedRing K] in
/-- The multipliers at a collocation point. -/
theorem multipliers_at (ops : Expr.Ops K) {roots : List Rat} (hr : 1 < roots.length)
    (hn : (inField roots : List K).Nodup) (tau base : Sym) (n : Nat) (ρ : Sym → K)
    (ht : ρ tau ∈ (inField roots : List K)) (v : K)
    (hv : v ∈ (Direct.polynomials roots tau base n roots.length).map (Expr.eval ops ρ)) :
    ∃ k < n * roots.length, v = ρ (base + k) := by
  obtain ⟨j, hj, hj'⟩ := List.getElem_of_mem ht
  have h₁ := Direct.polynomials_eval ops roots tau base n roots.length ρ
  have h₂ := C06_method_interpolates (inField roots : List K) n roots.length false
    (fun i j => ρ (Direct.point base n i j)) (by omega) (.inr rfl) hn j hj
  have e : (interpolationNodes (inField roots : List K) false)[j]'hj = ρ tau := hj'
  rw [e] at h₂
  have h₃ := Except.ok.inj (h₂.symm.trans h₁)
  rw [← h₃] at hv
  obtain ⟨i, hi, rfl⟩ := List.mem_map.1 hv
  have hi := List.mem_range.1 hi
  have hj : j < roots.length := by simpa [inField, interpolationNodes] using hj
  refine ⟨j * n + i, ?_, rfl⟩
  calc j * n + i < j * n + n := by omega
    _ = (j + 1) * n := by ring
    _ ≤ roots.length * n := Nat.mul_le_mul_right _ hj
    _ = n * roots.length := Nat.mul_comm _ _

/-- How much a cost can fall over the horizon. -/
theorem fall_bound {M : Mesh} (hM : GoodMesh M) (hq : PositiveQuadrature K M) (D : Nat → K[X]) (c : K)
    (hd : ∀ el, (D el).natDegree ≤ M.roots.length) (h0 : (D 0).eval 0 = 0)
    (hcont : ∀ el, el + 1 < M.elements → (D el).eval 1 = (D (el + 1)).eval 0)
    (hder : ∀ el < M.elements, ∀ tau ∈ (inField M.roots : List K), -c ≤ (D el).derivative.eval tau) :
    ∀ el < M.elements, -(c * ((el : K) + 1)) ≤ (D el).eval 1 := by
  have step : ∀ el < M.elements, (D el).eval 0 - c ≤ (D el).eval 1 := by
    intro el he
    have := hq (D el + Polynomial.C c * Polynomial.X) ?_ ?_
    · simp only [eval_add, eval_mul, eval_C, eval_X, mul_zero, add_zero, mul_one] at this
      linarith
    · refine (Polynomial.natDegree_add_le _ _).trans ?_
      have h₁ := Polynomial.natDegree_C_mul_le c (Polynomial.X : K[X])
      rw [Polynomial.natDegree_X] at h₁
      have h₂ := hM.points
      have h₃ := hd el
      omega
    · intro tau ht
      have := hder el he tau ht
      simp only [derivative_add, derivative_C_mul, derivative_X, mul_one, eval_add, eval_C]
      linarith
  intro el
  induction el with
  | zero =>
    intro he
    have := step 0 he
    rw [h0] at this
    simp only [Nat.cast_zero, zero_add, mul_one]
    linarith
  | succ n ih =>
    intro he
    have h₁ := ih (by omega)
    have h₂ := step (n + 1) he
    rw [← hcont n he] at h₂
    push_cast
    linarith

/-- A decision of the relaxed problem in which the relaxed equations hold up to `tol`, for the user's
problem: the same trajectories, and a cost that is not much larger. -/
theorem near_decision (ops : Expr.Ops K) (h : RelaxDeclared K opts names next o a)
    (hc : Constructed opts.roots opts.roots.length (a.alg o) (a.algVar o) next o q)
    (hm : ControlsMatch (mesh opts)) (hpos : o.positiveObjective = false)
    (hd : DataFits o (mesh opts) x0 p theta)
    (hθ : ∀ el < opts.elements, theta'.getD el [] = theta.getD el [] ++ nu.getD el [])
    {b' : Blocks K} {ρ : Nat → K → Sym → K} {lastU : Option (List K)}
    (hD : Decision ops q (mesh opts) x0 (p ++ mu) theta' lastU b' ρ) (tol : K)
    (hnear : ∀ el < opts.elements, ∀ tau ∈ (inField opts.roots : List K),
      ∀ e ∈ entriesAt o.model.alg (a.alg o), |e.eval ops (ρ el tau)| ≤ tol) :
    ∃ b, SameTrajectory o (mesh opts) (a.algVar o) b b' ∧
      NearDecision ops o (mesh opts) (a.alg o) tol x0 p theta b ρ ∧
      ∀ N : K, PositiveQuadrature K (mesh opts) → 0 ≤ N → 0 ≤ tol → (∀ v ∈ mu, 0 ≤ v) →
        (∀ col ∈ nu, ∀ v ∈ col, |v| ≤ N) →
        directCost ops o (mesh opts) b ρ ≤ directCost ops q (mesh opts) b' ρ +
          ((o.tf : K) - (o.t0 : K)) * (N * tol * (a.alg o).length) := by
  have hW := wellPosed h hc
  have hM : GoodMesh (mesh opts) := h.mesh
  set M := mesh opts with hMe
  have hn : M.controlRoots.Nodup := h.controlRoots
  have hR := hc.relaxed
  have hU := hc.untouched
  have hE := hM.elements
  have hlast : M.elements - 1 < M.elements := by omega
  obtain ⟨C, hCd, hC0, hCc, hCr⟩ := exists_costState (K := K) hM
    fun el tau => stepLength o M * o.L.eval ops (ρ el tau)
  have hcr : M.controlRoots.length ≤ M.roots.length := by
    rcases hm with hm | hm
    · rw [hm]
    · have := hM.points
      omega
  let X : Nat → Nat → K[X] := fun el i => if i < o.model.x.length then statePoly M b' el i else C el
  let Y : Nat → Nat → K[X] := fun el i => if i ∈ a.algVar o then
    controlPoly M b' el (o.model.u.length + (a.algVar o).idxOf i)
    else algebraicPoly M b' el ((otherPositions o.model.y.length (a.algVar o)).idxOf i)
  let U : Nat → Nat → K[X] := controlPoly M b'
  have hfit : Fits o M X Y U b' := by
    refine ⟨?_, ?_, fun el he i hi => control_degree hn hM.controls b' el i, ?_, ?_, ?_⟩
    · intro el i
      show (if i < o.model.x.length then statePoly M b' el i else C el).natDegree ≤ _
      split
      · exact state_degree hM b' el i
      · exact hCd el
    · intro el i
      show (if i ∈ a.algVar o then controlPoly M b' el (o.model.u.length + (a.algVar o).idxOf i)
        else algebraicPoly M b' el ((otherPositions o.model.y.length (a.algVar o)).idxOf i)).natDegree < _
      split
      · exact lt_of_lt_of_le (control_degree hn hM.controls b' el _) hcr
      · exact algebraic_degree hM b' el _
    · have := hD.data.eta
      rw [← hU.eta]; exact this
    · have := hD.data.pOpt
      rw [← hU.pOpt.1]; exact this
    · have := hD.data.thetaOpt
      rw [← hU.thetaOpt.1]; exact this
  have idx_of : ∀ {l : List Nat}, l.Nodup → ∀ {k i : Nat}, l[k]? = some i → l.idxOf i = k := by
    intro l hl k i hk
    obtain ⟨hk', rfl⟩ := List.getElem?_eq_some_iff.1 hk
    exact hl.idxOf_getElem k hk'
  have hS : SameTrajectory o M (a.algVar o) (polyBlocks o M X Y U b') b' := by
    refine ⟨?_, ?_, ?_, ?_, rfl, rfl, rfl⟩
    · intro el he i hi
      rw [hfit.state hM el he i hi.le]
      exact (if_pos hi).symm
    · intro el he i hi
      exact (hfit.control hn el he i hi).symm
    · intro el he k i hk
      have hi := List.mem_of_getElem? hk
      rw [hfit.algebraic hM el he i (h.relaxable.chosen.2 i hi)]
      show _ = if i ∈ a.algVar o then controlPoly M b' el (o.model.u.length + (a.algVar o).idxOf i)
        else algebraicPoly M b' el ((otherPositions o.model.y.length (a.algVar o)).idxOf i)
      rw [if_pos hi, idx_of h.relaxable.chosen.1 hk]
    · intro el he k i hk
      have hi := mem_otherPositions.1 (List.mem_of_getElem? hk)
      rw [hfit.algebraic hM el he i hi.1]
      show _ = if i ∈ a.algVar o then controlPoly M b' el (o.model.u.length + (a.algVar o).idxOf i)
        else algebraicPoly M b' el ((otherPositions o.model.y.length (a.algVar o)).idxOf i)
      rw [if_neg hi.2, idx_of (l := otherPositions o.model.y.length (a.algVar o)) (List.nodup_range.filter _) hk]
  have hcost : ∀ el < M.elements, statePoly M (polyBlocks o M X Y U b') el o.model.x.length = C el := by
    intro el he
    rw [hfit.state hM el he _ le_rfl]
    exact if_neg (by omega)
  have hdata : CollocationData (directDims o M) (polyBlocks o M X Y U b') := hfit.data hM.controls
  have hread : ∀ el < M.elements, ∀ tau, Reads o M (polyBlocks o M X Y U b') x0 p theta el tau (ρ el tau) :=
    fun el he tau => reads_user hc h.relaxable hS he hd.p (hd.theta el he) (hθ el he) (hD.reads el he tau)
  obtain ⟨hcore, hcs, halg⟩ := (solution_iff ops hM hD.data (relaxed_rates h hc) lastU ρ).1 hD.solution
  have hcore' := (core_iff ops hc hS ρ).1 hcore
  have hcs' : CostState ops o M (polyBlocks o M X Y U b') ρ := by
    refine ⟨?_, ?_, ?_⟩
    · rw [hcost 0 hE]; exact hC0
    · intro el he
      rw [hcost el (by omega), hcost (el + 1) he]
      exact hCc el
    · intro el he tau ht
      rw [hcost el he]
      exact hCr el tau ht
  have hwithin : WithinBounds o (polyBlocks o M X Y U b') := by
    rw [within_iff hM hn hdata h.bounds]
    rw [← within_same hc h.relaxable hM hn hm h.bounds hS (.inl hpos)]
    exact (within_iff hM hn hD.data hW.bounds).1 hD.bounds
  refine ⟨polyBlocks o M X Y U b', hS, ⟨⟨hdata, fun el he tau => ?_, ?_, ?_⟩, hnear⟩, ?_⟩
  · have := hread el he tau
    exact ⟨⟨this.time, this.position, this.controls, this.parameters, this.optimised, this.thetas,
      this.optimisedThetas, this.starts, this.etas⟩, this.states, this.algebraics⟩
  · exact ⟨hwithin.x, hwithin.y, hwithin.u, hwithin.pOpt, hwithin.thetaOpt⟩
  · refine (solution_iff (o := withoutEquations o (a.alg o)) ops hM hdata h.last.2.1 none ρ).2 ⟨?_, ?_, ?_⟩
    · exact ⟨hcore'.initial, hcore'.continuous, hcore'.dynamics, hcore'.inequalities, hcore'.equalities,
        hcore'.final, hcore'.timeless⟩
    · exact ⟨hcs'.start, hcs'.continuous, hcs'.running⟩
    · have := halg
      rw [hR.alg] at this
      exact this
  · intro N hq hN htol hmu hnu
    have hstep : (0 : K) < stepLength o M := by
      unfold stepLength
      refine div_pos (sub_pos.2 (by exact_mod_cast h.problem.horizon)) (by exact_mod_cast hE)
    have hfall := fall_bound hM hq (fun el => statePoly M b' el o.model.x.length - C el)
      (stepLength o M * (N * tol * (a.alg o).length)) ?_ ?_ ?_ ?_ (M.elements - 1) hlast
    · unfold directCost
      rw [hR.x, hR.V, hR.S, hcost _ hlast]
      rw [eval_sub] at hfall
      have e₁ : stepLength o M * (N * tol * ((a.alg o).length : K)) * (((M.elements - 1 : Nat) : K) + 1) =
          ((o.tf : K) - (o.t0 : K)) * (N * tol * (a.alg o).length) := by
        have : (((M.elements - 1 : Nat) : K) + 1) = (M.elements : K) := by
          have : M.elements - 1 + 1 = M.elements := by omega
          exact_mod_cast this
        rw [this]
        unfold stepLength
        have : (M.elements : K) ≠ 0 := by exact_mod_cast hE.ne'
        field_simp
      rw [e₁] at hfall
      linarith
    · intro el
      refine (Polynomial.natDegree_sub_le _ _).trans ?_
      exact max_le (state_degree hM b' el _) (hCd el)
    · rw [eval_sub, hC0, sub_zero]
      have := hcs.start
      rw [hR.x] at this
      exact this
    · intro el he
      rw [eval_sub, eval_sub, hCc el]
      have := hcs.continuous el he
      rw [hR.x] at this
      rw [this]
    · intro el he tau ht
      rw [derivative_sub, eval_sub, hCr el tau ht]
      have hrun := hcs.running el he tau ht
      rw [hR.x, step_eq hc, hc.cost K ops (ρ el tau)] at hrun
      rw [hrun]
      obtain ⟨hmus, hnus⟩ := reads_multipliers hc hd.p (hd.theta el he) (hθ el he) (below_opt h).1 (below_opt h).2
        (hD.reads el he tau)
      have hge := augmentedTerms_ge (K := K) hN htol
        ((Direct.polynomials opts.roots o.model.tau (next + (a.alg o).length + (a.alg o).length)
          (a.alg o).length opts.roots.length).map (Expr.eval ops (ρ el tau)))
        ((newSyms (next + (a.alg o).length) (a.alg o).length).map (ρ el tau))
        ((entriesAt o.model.alg (a.alg o)).map (Expr.eval ops (ρ el tau))) ?_ ?_ ?_
      · rw [List.length_map, entriesAt_length _ _ h.relaxable.equations.2] at hge
        have := mul_le_mul_of_nonneg_left hge hstep.le
        linarith
      · intro v hv
        have htau : ρ el tau o.model.tau = tau := (hread el he tau).position
        obtain ⟨k, hk, rfl⟩ := multipliers_at ops hM.points
          (List.nodup_cons.1 (ExactTraj.nodes_nodup (K := K) hM)).2 _ _ _ (ρ el tau) (by rw [htau]; exact ht) v hv
        rw [hnus k hk, List.getD_eq_getElem?_getD]
        cases hg : (nu.getD el [])[k]? with
        | none => simpa using hN
        | some v =>
          refine hnu (nu.getD el []) ?_ v (List.mem_of_getElem? hg)
          rw [List.getD_eq_getElem?_getD] at hg ⊢
          cases hg' : nu[el]? with
          | none => rw [hg'] at hg; simp at hg
          | some col => exact List.mem_of_getElem? hg'
      · intro v hv
        obtain ⟨s, hs, rfl⟩ := List.mem_map.1 hv
        unfold newSyms at hs
        obtain ⟨k, hk, rfl⟩ := List.mem_map.1 hs
        rw [hmus k (List.mem_range.1 hk), List.getD_eq_getElem?_getD]
        cases hg : mu[k]? with
        | none => simp
        | some v => exact hmu v (List.mem_of_getElem? hg)
      · intro v hv
        obtain ⟨e, hm, rfl⟩ := List.mem_map.1 hv
        exact hnear el he tau ht e hm

end Verif.RelaxDirect
