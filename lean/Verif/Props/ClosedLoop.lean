import Verif.Lemmas.ClosedLoop
import Verif.Props.DirectScheme
import Verif.Props.MpcDirect
/-!
# C181 and C182: a controller with a direct method and its plant
-/
namespace Verif
open Spec SolveDirect Direct Mpc MpcDirect DirectScheme ClosedLoop Polynomial

section
variable {K : Type} [Field K] [LinearOrder K] [IsStrictOrderedRing K]

/-- C182: if one can go on at the end of the horizon, then the problem still has an allowed trajectory one
element later, and one that costs less by at least the cost of the first element. -/
theorem C182_tail (ops : Expr.Ops K) (o : Ocp) (M : Mesh) (hM : GoodMesh M) (hP : DirectProblem o)
    (hd : (problemSymbols o).Nodup) (p : List K) (theta : List (List K)) (par : List Sym)
    (val : GridValues K M.size) (hg : GivenAt o M p theta par val) (ha : Autonomous ops o M par val)
    (hgo : CanGoOn ops o M hM par val) (x : List K) (tr : GridValues K M.size)
    (h : AllowedFrom ops o M hM par val x tr) :
    ∃ tr', AllowedFrom ops o M hM par val (endOfFirst o M hM tr) tr' ∧
      horizonCost ops o M hM par val tr' + firstCost ops o M hM par val tr ≤
        horizonCost ops o M hM par val tr := by
  obtain ⟨start, hst, hs⟩ := h
  have hfx : ∀ s ∈ o.model.x, s ∉ par := fun s h => hg.free s (by simp [h])
  have hk : ∀ r ∈ o.model.ode, r.1 ∈ o.model.x := fun r hr => by
    rw [← hP.complete.1]
    exact List.mem_map.2 ⟨r, hr, rfl⟩
  have hb := hs.boundary.1
  obtain ⟨q, hq, hqa, hqf, hqc⟩ := hgo (withValues par val tr (M.lastPoint hM))
    (fun s hp => if_pos hp) (hs.x _) hb
  have hwx : ∀ s ∈ o.model.x, withValues par val tr (M.point (M.firstElement hM) (M.lastRoot hM)) s =
      tr (M.point (M.firstElement hM) (M.lastRoot hM)) s := fun s h => if_neg (hfx s h)
  obtain ⟨start', hst', hse⟩ := exists_start hd
    (withValues par val tr (M.point (M.firstElement hM) (M.lastRoot hM))) (hs.x _)
  have he : o.model.x.map (withValues par val tr (M.point (M.firstElement hM) (M.lastRoot hM))) =
      endOfFirst o M hM tr := List.map_congr_left hwx
  rw [he] at hst'
  refine ⟨continued M tr q, ⟨start', hst', continued_allowed hM ha hg.time.1 hg.free hk hst'
    (fun s h => (hse s h).trans (hwx s h)) hs hq hqa hqf⟩, ?_⟩
  have := continued_cost (o := o) (step := stepLength o M) (tr := tr) hM ha (start := fun _ => 0)
    (start' := fun _ => 0) hq
  unfold horizonCost firstCost
  linarith

/-- C182: so the optimal cost decreases from one cycle to the next by at least the cost of the first
element. -/
theorem C182_decrease (ops : Expr.Ops K) (o : Ocp) (M : Mesh) (hM : GoodMesh M) (hP : DirectProblem o)
    (hd : (problemSymbols o).Nodup) (p : List K) (theta : List (List K)) (par : List Sym)
    (val : GridValues K M.size) (hg : GivenAt o M p theta par val) (ha : Autonomous ops o M par val)
    (hgo : CanGoOn ops o M hM par val) (x : List K) (tr tr' : GridValues K M.size)
    (h : SolvesFrom ops o M hM par val x tr)
    (h' : SolvesFrom ops o M hM par val (endOfFirst o M hM tr) tr') :
    horizonCost ops o M hM par val tr' + firstCost ops o M hM par val tr ≤
      horizonCost ops o M hM par val tr := by
  obtain ⟨start, hst, hs⟩ := h
  obtain ⟨start', hst', hs'⟩ := h'
  obtain ⟨w, ⟨start₁, hst₁, hw⟩, hc⟩ := C182_tail ops o M hM hP hd p theta par val hg ha hgo x tr
    ⟨start, hst, hs.1⟩
  refine le_trans (add_le_add_left ?_ _) hc
  refine hs'.2 w ?_
  have hk : ∀ r ∈ o.model.ode, r.1 ∈ o.model.x := fun r hr => by
    rw [← hP.complete.1]
    exact List.mem_map.2 ⟨r, hr, rfl⟩
  obtain ⟨h1, h2, h3⟩ := (satisfies_iff hM _).1 hw
  refine (satisfies_iff hM _).2 ⟨fun el => ?_, h2, ?_⟩
  · refine allowed_congr ha.timeless (fun s h he => hg.free s h (he ▸ hg.time.1)) hk (fun j s _ => rfl)
      (fun s hx => ?_) (h1 el)
    unfold valueBefore
    split
    · obtain ⟨i, hi, rfl⟩ := List.getElem_of_mem hx
      have hi' : o.model.x[i]? = some o.model.x[i] := List.getElem?_eq_getElem hi
      rw [hst'.states i _ hi', hst₁.states i _ hi']
    · rfl
  · refine ha.initial start' fun i s s' hi hi' => ?_
    rw [hst'.states i s hi, hst'.symbols i s' hi']

/-- C182: in a closed loop the costs of the cycles and the optimal cost at the end are together not more
than the optimal cost at the beginning. -/
theorem C182_costs (ops : Expr.Ops K) (o : Ocp) (M : Mesh) (hM : GoodMesh M) (hP : DirectProblem o)
    (hd : (problemSymbols o).Nodup) (p : List K) (theta : List (List K)) (par : List Sym)
    (val : GridValues K M.size) (hg : GivenAt o M p theta par val) (ha : Autonomous ops o M par val)
    (hgo : CanGoOn ops o M hM par val) (x x' : List K) (tr tr' : GridValues K M.size)
    (trs : List (GridValues K M.size)) (h : Spec.ClosedLoop ops o M hM par val x (tr :: trs) x')
    (h' : SolvesFrom ops o M hM par val x' tr') :
    ((tr :: trs).map (firstCost ops o M hM par val)).sum + horizonCost ops o M hM par val tr' ≤
      horizonCost ops o M hM par val tr := by
  induction trs generalizing x tr with
  | nil =>
    obtain ⟨⟩ | ⟨hs, hn⟩ := h
    cases hn
    have := C182_decrease ops o M hM hP hd p theta par val hg ha hgo x tr tr' hs h'
    simpa [add_comm] using this
  | cons tr₁ trs ih =>
    obtain ⟨⟩ | ⟨hs, hn⟩ := h
    have h₁ := ih _ tr₁ hn
    have hs₁ : SolvesFrom ops o M hM par val (endOfFirst o M hM tr) tr₁ := by
      obtain ⟨⟩ | ⟨hs₁, -⟩ := hn
      exact hs₁
    have h₂ := C182_decrease ops o M hM hP hd p theta par val hg ha hgo x tr tr₁ hs hs₁
    rw [List.map_cons, List.sum_cons]
    linarith

/-- C182: so if costs are not negative, only so many cycles can cost at least `ε`, however long the loop
is. -/
theorem C182_settles (ops : Expr.Ops K) (o : Ocp) (M : Mesh) (hM : GoodMesh M) (hP : DirectProblem o)
    (hd : (problemSymbols o).Nodup) (p : List K) (theta : List (List K)) (par : List Sym)
    (val : GridValues K M.size) (hg : GivenAt o M p theta par val) (ha : Autonomous ops o M par val)
    (hgo : CanGoOn ops o M hM par val) (x x' : List K) (tr tr' : GridValues K M.size)
    (trs : List (GridValues K M.size)) (h : Spec.ClosedLoop ops o M hM par val x (tr :: trs) x')
    (h' : SolvesFrom ops o M hM par val x' tr')
    (hpos : ∀ w ∈ tr :: trs, 0 ≤ firstCost ops o M hM par val w)
    (hpos' : 0 ≤ horizonCost ops o M hM par val tr') (ε : K) :
    (((tr :: trs).countP fun w => decide (ε ≤ firstCost ops o M hM par val w) : Nat) : K) * ε ≤
      horizonCost ops o M hM par val tr := by
  refine le_trans ?_ ((le_add_of_nonneg_right hpos').trans
    (C182_costs ops o M hM hP hd p theta par val hg ha hgo x x' tr tr' trs h h'))
  generalize tr :: trs = l at hpos
  induction l with
  | nil => simp
  | cons a l ih =>
    have h₁ := ih fun w hw => hpos w (List.mem_cons_of_mem _ hw)
    have h₂ := hpos a List.mem_cons_self
    rw [List.countP_cons, List.map_cons, List.sum_cons]
    split
    · rename_i hc
      have := of_decide_eq_true hc
      push_cast
      linarith
    · push_cast
      linarith

/-- C182: cycles in which the plant goes as predicted are a closed loop if the first problem has an allowed
trajectory, one can go on at the end of the horizon, and problems with allowed trajectories have solutions:
then there is a solution in every cycle and also afterwards. -/
theorem C182_loop {S : Type} (ops : Expr.Ops K) (o : Ocp) (M : Mesh) (hM : GoodMesh M) (hP : DirectProblem o)
    (hd : (problemSymbols o).Nodup) (p : List K) (theta : List (List K)) (par : List Sym)
    (val : GridValues K M.size) (hg : GivenAt o M p theta par val) (ha : Autonomous ops o M par val)
    (hgo : CanGoOn ops o M hM par val) (hat : Attained ops o M hM par val) (at_ : S → List K) (n : Nat)
    (s s' : S) (h : Repeated (fun a b => AsPredicted ops o M hM par val (at_ a) (at_ b)) n s s')
    (hf : ∃ tr, AllowedFrom ops o M hM par val (at_ s) tr) :
    ∃ trs, trs.length = n ∧ Spec.ClosedLoop ops o M hM par val (at_ s) trs (at_ s') ∧
      ∃ tr', SolvesFrom ops o M hM par val (at_ s') tr' := by
  induction h with
  | zero a => exact ⟨[], rfl, .stop _, hat _ hf⟩
  | succ hab _ ih =>
    obtain ⟨tr, hs, hx⟩ := hab (hat _ hf)
    obtain ⟨start, hst, hs'⟩ := hs
    obtain ⟨w, hw, -⟩ := C182_tail ops o M hM hP hd p theta par val hg ha hgo _ tr ⟨start, hst, hs'.1⟩
    obtain ⟨trs, hl, hc, htr⟩ := ih ⟨w, by rw [hx]; exact hw⟩
    rw [hx] at hc
    exact ⟨tr :: trs, by rw [List.length_cons, hl], .next ⟨start, hst, hs'⟩ hc, htr⟩

end

/-! ## The controller -/

variable {E : Type}

theorem ClosedLoop.repeated_imp {α : Type} {R Q : α → α → Prop} (h : ∀ a b, R a b → Q a b) {n : Nat} {a b : α}
    (hr : Repeated R n a b) : Repeated Q n a b := by
  induction hr with
  | zero a => exact .zero a
  | succ hab _ ih => exact .succ (h _ _ hab) ih

/-- The parameters in use stay the same. -/
theorem ClosedLoop.parameters_same {W : Type} {c : Config W} {o : Ocp} {p : Option (List Rat)}
    {x cov q : List Rat} (hm : c.meanAsParameter = false) (hv : c.covarianceAsParameter = false)
    (hr : p = none → o.model.p = []) (h : ParametersUsed c o p x cov q)
    (hl : ∀ p0, p = some p0 → p0.length = o.model.p.length) : q = p.getD [] := by
  obtain ⟨h1, h2, h3⟩ := h
  cases p with
  | none =>
    rw [h3 rfl, hr rfl]
    rfl
  | some p0 =>
    refine List.ext_getElem? fun i => ?_
    by_cases hi : i < o.model.p.length
    · rw [h2 p0 rfl i hi]
      simp [assigned, assignments, hm, hv]
    · rw [List.getElem?_eq_none (by omega), List.getElem?_eq_none (by
        have := hl p0 rfl
        show p0.length ≤ i
        omega)]

/-- C181: one cycle. -/
theorem C181_cycle (plant : Plant.Env) (ops : Expr.Ops Rat) (opts : Options) (names : NewNames)
    (sim info : List Rat → Theta Rat → Except Err (List Rat))
    (solver : SolverCall Rat → Except Err (RawSolution Rat))
    (estimator : Rat → List Rat → List Rat → Py E (List Rat × List Rat)) (s : Method)
    (S S' : Mpc.State (E × SolveDirect.State Rat)) (c : Config (E × SolveDirect.State Rat)) (par : List Sym)
    (val : GridValues Rat (mesh opts).size)
    (hcon : c = controller plant (directDims s.problem (mesh opts)) ops opts names sim info solver
      estimator true)
    (hc : s.hasCostState = false) (hp : s.prepared = false)
    (h : (prepare opts.controlRoots opts.controlRoots.length names.xc names.fresh names.base s).1 = .ok ())
    (hw : WellPosed Rat opts names s.problem) (hs : GoodSolver ops solver) (hcs : CompleteSolver ops solver)
    (hlast : s.problem.lastU = none) (hopt : opts.lastControlAsParameter = false)
    (htheta : s.problem.model.theta = []) (hn : 2 ≤ opts.elements)
    (hone : s.problem.model.u.length = 1) (hconst : opts.controlRoots.length = 1)
    (hpp : PointProblem ops s.problem) (hplain : PlainPlant s.problem (mesh opts) plant)
    (hplant : CollocatedPlant ops s.problem (mesh opts) hw.mesh par val plant)
    (hpar : ∀ p0, S.p = some p0 → p0.length = s.problem.model.p.length)
    (hpar' : S.p = none → s.problem.model.p = [])
    (hg : GivenAt s.problem (mesh opts) (S.p.getD []) (List.replicate opts.elements []) par val)
    (hguess : S.initialGuess ≠ none ∨
      (opts.heuristic = "simulation" ∧ ∀ p th, ∃ g, sim p th = .ok g) ∨
      (opts.heuristic = "problem_info" ∧ ∀ p th, ∃ g, info p th = .ok g))
    (hused : Used ops opts names s S.world.2)
    (hest : ∀ t y u e, ∃ cov e', estimator t y u e = (.ok (y.take s.problem.model.x.length, cov), e'))
    (hmeas : S.plant.measurement.take s.problem.model.x.length = S.plant.x)
    (hx : S.plant.x.length = s.problem.model.x.length)
    (hcyc : cycle c S = (.ok (), S')) :
    AsPredicted ops s.problem (mesh opts) hw.mesh par val S.plant.x S'.plant.x ∧
      S'.plant.t = S.plant.t + plant.tS ∧ S'.p = S.p ∧ Used ops opts names s S'.world.2 ∧
      S'.initialGuess ≠ none ∧ S'.plant.x.length = s.problem.model.x.length ∧
      ∃ y, S'.plant.measurement = S'.plant.x ++ y := by
  have hM := hw.mesh
  obtain ⟨cov, e', he⟩ := hest S.plant.t S.plant.measurement S.plant.u S.world.1
  rw [hmeas] at he
  have htS : plant.tS ≠ 0 := by
    rw [hplain.interval]
    have h1 : (s.problem.t0 : Rat) < s.problem.tf := hw.problem.horizon
    have h2 : (0 : Rat) < ((mesh opts).elements : Rat) := by exact_mod_cast hM.elements
    refine ne_of_gt (div_pos ?_ h2)
    simpa using h1
  have hready : ParametersReady c s.problem S.p (S.plant.x ++ [0]) cov := by
    subst hcon
    cases hp0 : S.p with
    | none => exact .inr ⟨rfl, by rw [hpp.pOpt, hpar' hp0], rfl, rfl⟩
    | some p0 => exact .inl ⟨p0, rfl, hpar p0 hp0, ⟨by rintro ⟨⟩, by rintro ⟨⟩⟩⟩
  obtain ⟨p, q, b, success, f, guess, uValues, st, hsol, hq, hpl, hpk, hst, hstep, heq, hv⟩ :=
    C162_cycle plant ops opts names sim info solver estimator false false [] [] s S S.plant.x cov e' c hcon
      hc hp h hw hs hlast hopt (by rw [hpp.thetaOpt, htheta]) hn (.inr ⟨hone, hconst⟩) hplain.controls htS
      hguess hused he hx hready
  rw [heq] at hcyc
  unfold onPlant at hcyc
  simp only [Prod.mk.injEq] at hcyc
  obtain ⟨hok, rfl⟩ := hcyc
  have hq' : q = S.p.getD [] := ClosedLoop.parameters_same (by subst hcon; rfl) (by subst hcon; rfl) hpar' hq hpar
  obtain ⟨r, hsim, hrx, hrt, hrm⟩ := function_goes hplain.points hplain.matrix hplain.noise
    (s' := (Plant.setControlFunction plant f S.plant).2) (Prod.ext hok rfl)
  refine ⟨fun ⟨tr₀, start, hst₀, hsol₀⟩ => ?_, hrt, hpk (by subst hcon; rfl) (by subst hcon; rfl), hst,
    by simp, ?_, r.2.1, ?_⟩
  rotate_left
  · show (Plant.setControlFunction plant f S.plant).2.x.length = _
    rw [hrx, hplain.sizes _ _ _ _ _ hsim, hplain.states]
  · show _ = (Plant.setControlFunction plant f S.plant).2.x ++ _
    rw [hrx]
    exact hrm
  rw [hq', htheta] at hsol
  have hth : List.replicate opts.elements (List.replicate ([] : List Sym).length (0 : Rat)) =
      List.replicate opts.elements [] := by simp
  rw [hth] at hsol
  have best := C180_best ops s.problem (mesh opts) hM hw.controlRoots (.inr hconst) hw.problem hw.scope hw.symbols
    hw.bounds hpp S.plant.x (S.p.getD []) (List.replicate opts.elements []) (lastOf s.problem) start par val
    hg hst₀
  obtain ⟨b', ρ', hb', -⟩ := (best tr₀).1 hsol₀
  have hsucc := hsol.found hcs ⟨b', ρ', hb'⟩
  obtain ⟨ρ, hρ⟩ := hsol.readable
  have hbest := hsol.best hsucc ρ hρ
  obtain ⟨tr, hS⟩ := exists_sampled (M := mesh opts) hw.symbols b
  have hT := (best tr).2 ⟨b, ρ, hbest, hS⟩
  refine ⟨tr, ⟨start, hst₀, hT⟩, ?_⟩
  have hfree : ∀ s' ∈ s.problem.model.x ++ s.problem.model.y ++ s.problem.model.u, ∀ k,
      withValues par val tr k s' = tr k s' := fun s' hs' k => if_neg (hg.free s' hs')
  have hel := ((satisfies_iff hM _).1 hT.1).1 ((mesh opts).firstElement hM)
  have hres := hplant S.plant.x S.plant.t (f S.plant.t) r hsim start
    (elementOf (mesh opts) (withValues par val tr) ((mesh opts).firstElement hM)) hst₀.states
    (fun j s' hs' => if_pos hs') (fun j i s' hi => ?_) (by
      rw [hplain.interval]
      have : (fun s' => valueBefore (mesh opts) hM start (withValues par val tr) s'
          ((mesh opts).firstElement hM)) = start := by
        funext s'
        exact if_pos rfl
      rw [this] at hel
      exact hel.toElementSolution)
  · show (Plant.setControlFunction plant f S.plant).2.x = _
    rw [hrx, hres]
    exact List.map_congr_left fun s' hs' => hfree s' (by simp [hs']) _
  · show withValues par val tr _ s' = _
    have hiu := (List.getElem?_eq_some_iff.1 hi).1
    rw [hfree s' (by simp [List.mem_of_getElem? hi]), hS.u _ j i s' hi]
    have h0 := hv 0
    rw [zero_mul, add_zero] at h0
    rw [h0]
    have hd := RelaxDirect.control_degree (M := mesh opts) hw.controlRoots (by show 0 < opts.controlRoots.length; omega) b 0 i
    have hd' : (controlPoly (mesh opts) b 0 i).natDegree = 0 := by
      have : (controlPoly (mesh opts) b 0 i).natDegree < opts.controlRoots.length := hd
      omega
    have hi' : i < plant.nU := by rw [hplain.controls]; exact hiu
    obtain ⟨a, ha⟩ : ∃ a, controlPoly (mesh opts) b 0 i = C a := ⟨_, Polynomial.eq_C_of_natDegree_eq_zero hd'⟩
    show (controlPoly (mesh opts) b 0 i).eval _ = _
    rw [List.getD_eq_getElem?_getD, List.getElem?_map, List.getElem?_range hi']
    simp only [Option.map_some, Option.getD_some, ha, eval_C]

/-- C181: with a model like the plant, measured states and controls that are constant in the elements, the
plant goes in every cycle of a run where the controller predicted: to the end of the first element of a
solution of the user's problem from its state, if there is a solution. -/
theorem C181_run_partial (plant : Plant.Env) (ops : Expr.Ops Rat) (opts : Options) (names : NewNames)
    (sim info : List Rat → Theta Rat → Except Err (List Rat))
    (solver : SolverCall Rat → Except Err (RawSolution Rat))
    (estimator : Rat → List Rat → List Rat → Py E (List Rat × List Rat)) (s : Method)
    (S S' : Mpc.State (E × SolveDirect.State Rat)) (c : Config (E × SolveDirect.State Rat)) (par : List Sym)
    (val : GridValues Rat (mesh opts).size) (n : Nat)
    (hcon : c = controller plant (directDims s.problem (mesh opts)) ops opts names sim info solver
      estimator true)
    (hc : s.hasCostState = false) (hp : s.prepared = false)
    (h : (prepare opts.controlRoots opts.controlRoots.length names.xc names.fresh names.base s).1 = .ok ())
    (hw : WellPosed Rat opts names s.problem) (hs : GoodSolver ops solver) (hcs : CompleteSolver ops solver)
    (hlast : s.problem.lastU = none) (hopt : opts.lastControlAsParameter = false)
    (htheta : s.problem.model.theta = []) (hn : 2 ≤ opts.elements)
    (hone : s.problem.model.u.length = 1) (hconst : opts.controlRoots.length = 1)
    (hpp : PointProblem ops s.problem) (hplain : PlainPlant s.problem (mesh opts) plant)
    (hplant : CollocatedPlant ops s.problem (mesh opts) hw.mesh par val plant)
    (hpar : ∀ p0, S.p = some p0 → p0.length = s.problem.model.p.length)
    (hpar' : S.p = none → s.problem.model.p = [])
    (hg : GivenAt s.problem (mesh opts) (S.p.getD []) (List.replicate opts.elements []) par val)
    (hguess : S.initialGuess ≠ none ∨
      (opts.heuristic = "simulation" ∧ ∀ p th, ∃ g, sim p th = .ok g) ∨
      (opts.heuristic = "problem_info" ∧ ∀ p th, ∃ g, info p th = .ok g))
    (hused : Used ops opts names s S.world.2)
    (hest : ∀ t y u e, ∃ cov e', estimator t y u e = (.ok (y.take s.problem.model.x.length, cov), e'))
    (hmeas : S.plant.measurement.take s.problem.model.x.length = S.plant.x)
    (hx : S.plant.x.length = s.problem.model.x.length)
    (h1 : 1 ≤ n) (hrun : run c n S = (.ok (), S')) :
    Repeated (fun S S' => AsPredicted ops s.problem (mesh opts) hw.mesh par val S.plant.x S'.plant.x ∧
      S'.plant.t = S.plant.t + plant.tS) n S S' := by
  rw [C56_run c n h1] at hrun
  clear h1
  induction n generalizing S with
  | zero =>
    simp only [times, Py.pure_apply, Prod.mk.injEq] at hrun
    rw [← hrun.2]
    exact .zero _
  | succ n ih =>
    obtain ⟨⟨⟩, S₁, hcyc, hrest⟩ := Py.bind_eq_ok.mp hrun
    obtain ⟨ha, ht, hp₁, hu₁, hg₁, hx₁, y, hy⟩ := C181_cycle plant ops opts names sim info solver estimator s S
      S₁ c par val hcon hc hp h hw hs hcs hlast hopt htheta hn hone hconst hpp hplain hplant hpar hpar' hg
      hguess hused hest hmeas hx hcyc
    refine .succ ⟨ha, ht⟩ (ih S₁ ?_ ?_ ?_ (.inl hg₁) hu₁ ?_ hx₁ hrest)
    · rw [hp₁]; exact hpar
    · rw [hp₁]; exact hpar'
    · rw [hp₁]; exact hg
    · rw [hy, ← hx₁, List.take_left]

/-- A cycle raises nothing. -/
theorem ClosedLoop.cycle_runs (plant : Plant.Env) (ops : Expr.Ops Rat) (opts : Options) (names : NewNames)
    (sim info : List Rat → Theta Rat → Except Err (List Rat))
    (solver : SolverCall Rat → Except Err (RawSolution Rat))
    (estimator : Rat → List Rat → List Rat → Py E (List Rat × List Rat)) (s : Method)
    (S : Mpc.State (E × SolveDirect.State Rat)) (c : Config (E × SolveDirect.State Rat))
    (hcon : c = controller plant (directDims s.problem (mesh opts)) ops opts names sim info solver
      estimator true)
    (hc : s.hasCostState = false) (hp : s.prepared = false)
    (h : (prepare opts.controlRoots opts.controlRoots.length names.xc names.fresh names.base s).1 = .ok ())
    (hw : WellPosed Rat opts names s.problem) (hs : GoodSolver ops solver)
    (hlast : s.problem.lastU = none) (hopt : opts.lastControlAsParameter = false)
    (htheta : s.problem.model.theta = []) (hn : 2 ≤ opts.elements)
    (hone : s.problem.model.u.length = 1) (hconst : opts.controlRoots.length = 1)
    (hpp : PointProblem ops s.problem) (hplain : PlainPlant s.problem (mesh opts) plant)
    (hpar : ∀ p0, S.p = some p0 → p0.length = s.problem.model.p.length)
    (hpar' : S.p = none → s.problem.model.p = [])
    (hguess : S.initialGuess ≠ none ∨
      (opts.heuristic = "simulation" ∧ ∀ p th, ∃ g, sim p th = .ok g) ∨
      (opts.heuristic = "problem_info" ∧ ∀ p th, ∃ g, info p th = .ok g))
    (hused : Used ops opts names s S.world.2)
    (hest : ∀ t y u e, ∃ cov e', estimator t y u e = (.ok (y.take s.problem.model.x.length, cov), e'))
    (hmeas : S.plant.measurement.take s.problem.model.x.length = S.plant.x)
    (hx : S.plant.x.length = s.problem.model.x.length)
    (hfits : PlantFits plant) (hnu : plant.nUPar = plant.nU) (lx ly lu lm lc : List (Rat × List Rat))
    (hr : Plant.Running plant S.plant lx ly lu lm lc) :
    ∃ lx' ly' lu' lm' lc', (cycle c S).1 = .ok () ∧ Plant.Running plant (cycle c S).2.plant lx' ly' lu' lm' lc' := by
  have hM := hw.mesh
  obtain ⟨cov, e', he⟩ := hest S.plant.t S.plant.measurement S.plant.u S.world.1
  rw [hmeas] at he
  have htS : plant.tS ≠ 0 := by
    rw [hplain.interval]
    have h1 : (s.problem.t0 : Rat) < s.problem.tf := hw.problem.horizon
    have h2 : (0 : Rat) < ((mesh opts).elements : Rat) := by exact_mod_cast hM.elements
    refine ne_of_gt (div_pos ?_ h2)
    simpa using h1
  have hready : ParametersReady c s.problem S.p (S.plant.x ++ [0]) cov := by
    subst hcon
    cases hp0 : S.p with
    | none => exact .inr ⟨rfl, by rw [hpp.pOpt, hpar' hp0], rfl, rfl⟩
    | some p0 => exact .inl ⟨p0, rfl, hpar p0 hp0, ⟨by rintro ⟨⟩, by rintro ⟨⟩⟩⟩
  obtain ⟨p, q, b, success, f, guess, uValues, st, hsol, hq, hpl, hpk, hst, hstep, heq, hv⟩ :=
    C162_cycle plant ops opts names sim info solver estimator false false [] [] s S S.plant.x cov e' c hcon
      hc hp h hw hs hlast hopt (by rw [hpp.thetaOpt, htheta]) hn (.inr ⟨hone, hconst⟩) hplain.controls htS
      hguess hused he hx hready
  have hff : FunctionFits plant f := by
    intro t
    have := hv ((t - S.plant.t) / plant.tS)
    rw [div_mul_cancel₀ _ htS, add_sub_cancel] at this
    rw [this, hnu]
    simp
  obtain ⟨s', kx, ky, ku, y, v, w, hrun, hr', -⟩ := Plant.advance_run hfits
    (s := { S.plant with uFunction := some f }) ⟨hr.logs, hr.size, hr.current, by
      intro g hg
      simp only [Option.some.injEq] at hg
      exact hg ▸ hff⟩ (by simp) (by rw [hplain.points]; simp)
  have hset : Plant.setControlFunction plant f S.plant = (.ok (), s') := by
    simp only [Plant.setControlFunction, Py.bind_eq]
    simpa using hrun
  rw [heq]
  unfold onPlant
  simp only [hset]
  exact ⟨_, _, _, _, _, trivial, hr'⟩

/-- C181: such a run never raises, if the plant has just been created and its simulations do not raise. -/
theorem C181_runs (plant : Plant.Env) (ops : Expr.Ops Rat) (opts : Options) (names : NewNames)
    (sim info : List Rat → Theta Rat → Except Err (List Rat))
    (solver : SolverCall Rat → Except Err (RawSolution Rat))
    (estimator : Rat → List Rat → List Rat → Py E (List Rat × List Rat)) (s : Method)
    (S : Mpc.State (E × SolveDirect.State Rat)) (c : Config (E × SolveDirect.State Rat)) (par : List Sym)
    (val : GridValues Rat (mesh opts).size) (n : Nat)
    (hcon : c = controller plant (directDims s.problem (mesh opts)) ops opts names sim info solver
      estimator true)
    (hc : s.hasCostState = false) (hp : s.prepared = false)
    (h : (prepare opts.controlRoots opts.controlRoots.length names.xc names.fresh names.base s).1 = .ok ())
    (hw : WellPosed Rat opts names s.problem) (hs : GoodSolver ops solver) (hcs : CompleteSolver ops solver)
    (hlast : s.problem.lastU = none) (hopt : opts.lastControlAsParameter = false)
    (htheta : s.problem.model.theta = []) (hn : 2 ≤ opts.elements)
    (hone : s.problem.model.u.length = 1) (hconst : opts.controlRoots.length = 1)
    (hpp : PointProblem ops s.problem) (hplain : PlainPlant s.problem (mesh opts) plant)
    (hplant : CollocatedPlant ops s.problem (mesh opts) hw.mesh par val plant)
    (hpar : ∀ p0, S.p = some p0 → p0.length = s.problem.model.p.length)
    (hpar' : S.p = none → s.problem.model.p = [])
    (hg : GivenAt s.problem (mesh opts) (S.p.getD []) (List.replicate opts.elements []) par val)
    (hguess : S.initialGuess ≠ none ∨
      (opts.heuristic = "simulation" ∧ ∀ p th, ∃ g, sim p th = .ok g) ∨
      (opts.heuristic = "problem_info" ∧ ∀ p th, ∃ g, info p th = .ok g))
    (hused : Used ops opts names s S.world.2)
    (hest : ∀ t y u e, ∃ cov e', estimator t y u e = (.ok (y.take s.problem.model.x.length, cov), e'))
    (labels : String → List String) (t0 : Rat) (x0 u0 : List Rat)
    (hnew : Plant.new plant labels t0 x0 u0 none = .ok S.plant) (hx0 : x0.length = plant.nX)
    (hu0 : u0.length = plant.nU) (hfits : PlantFits plant) (hy0 : plant.yGuess.length = plant.nY)
    (hnu : plant.nUPar = plant.nU) (h1 : 1 ≤ n) : ∃ S', run c n S = (.ok (), S') := by
  obtain ⟨s₀, w, hs₀, -, hsx, hsm, -, -, -, hr⟩ := Plant.fillData_run hfits labels t0 (f := none) hx0 hy0 hu0
    (by rintro g ⟨⟩)
  rw [hnew] at hs₀
  cases hs₀
  have hmeas : S.plant.measurement.take s.problem.model.x.length = S.plant.x := by
    rw [hsm, hsx, ← hplain.states, ← hx0, List.take_length]
  have hx : S.plant.x.length = s.problem.model.x.length := by rw [hsx, hx0, hplain.states]
  rw [C56_run c n h1]
  clear h1 hsm hsx hnew
  suffices hgen : ∀ lx ly lu lm lc, Plant.Running plant S.plant lx ly lu lm lc →
      ∃ S', times n (cycle c) S = (.ok (), S') from hgen _ _ _ _ _ hr
  clear hr
  induction n generalizing S with
  | zero => exact fun _ _ _ _ _ _ => ⟨S, rfl⟩
  | succ n ih =>
    intro lx ly lu lm lc hr
    obtain ⟨lx', ly', lu', lm', lc', hok, hr'⟩ := ClosedLoop.cycle_runs plant ops opts names sim info solver estimator s S
      c hcon hc hp h hw hs hlast hopt htheta hn hone hconst hpp hplain hpar hpar' hguess hused hest
      hmeas hx hfits hnu lx ly lu lm lc hr
    obtain ⟨ha, ht, hp₁, hu₁, hg₁, hx₁, y, hy⟩ := C181_cycle plant ops opts names sim info solver estimator s S
      (cycle c S).2 c par val hcon hc hp h hw hs hcs hlast hopt htheta hn hone hconst hpp hplain hplant hpar hpar'
      hg hguess hused hest hmeas hx (Prod.ext hok rfl)
    obtain ⟨S', hS'⟩ := ih (cycle c S).2 (by rw [hp₁]; exact hpar) (by rw [hp₁]; exact hpar')
      (by rw [hp₁]; exact hg) (.inl hg₁) hu₁ (by rw [hy, ← hx₁, List.take_left]) hx₁ _ _ _ _ _ hr'
    refine ⟨S', ?_⟩
    show Py.bind (cycle c) (fun _ => times n (cycle c)) S = _
    rw [Py.bind_ok (Prod.ext hok rfl : cycle c S = (.ok (), (cycle c S).2))]
    exact hS'

/-- C182: a run of such a controller is a closed loop, with a solution in every cycle and afterwards, if
the first problem has an allowed trajectory, nothing depends on the time, one can go on at the end of the
horizon, and problems with allowed trajectories have solutions. The costs are those of `C182_costs`. -/
theorem C182_run_partial (plant : Plant.Env) (ops : Expr.Ops Rat) (opts : Options) (names : NewNames)
    (sim info : List Rat → Theta Rat → Except Err (List Rat))
    (solver : SolverCall Rat → Except Err (RawSolution Rat))
    (estimator : Rat → List Rat → List Rat → Py E (List Rat × List Rat)) (s : Method)
    (S S' : Mpc.State (E × SolveDirect.State Rat)) (c : Config (E × SolveDirect.State Rat)) (par : List Sym)
    (val : GridValues Rat (mesh opts).size) (n : Nat)
    (hcon : c = controller plant (directDims s.problem (mesh opts)) ops opts names sim info solver
      estimator true)
    (hc : s.hasCostState = false) (hp : s.prepared = false)
    (h : (prepare opts.controlRoots opts.controlRoots.length names.xc names.fresh names.base s).1 = .ok ())
    (hw : WellPosed Rat opts names s.problem) (hs : GoodSolver ops solver) (hcs : CompleteSolver ops solver)
    (hlast : s.problem.lastU = none) (hopt : opts.lastControlAsParameter = false)
    (htheta : s.problem.model.theta = []) (hn : 2 ≤ opts.elements)
    (hone : s.problem.model.u.length = 1) (hconst : opts.controlRoots.length = 1)
    (hpp : PointProblem ops s.problem) (hplain : PlainPlant s.problem (mesh opts) plant)
    (hplant : CollocatedPlant ops s.problem (mesh opts) hw.mesh par val plant)
    (hpar : ∀ p0, S.p = some p0 → p0.length = s.problem.model.p.length)
    (hpar' : S.p = none → s.problem.model.p = [])
    (hg : GivenAt s.problem (mesh opts) (S.p.getD []) (List.replicate opts.elements []) par val)
    (hguess : S.initialGuess ≠ none ∨
      (opts.heuristic = "simulation" ∧ ∀ p th, ∃ g, sim p th = .ok g) ∨
      (opts.heuristic = "problem_info" ∧ ∀ p th, ∃ g, info p th = .ok g))
    (hused : Used ops opts names s S.world.2)
    (hest : ∀ t y u e, ∃ cov e', estimator t y u e = (.ok (y.take s.problem.model.x.length, cov), e'))
    (hmeas : S.plant.measurement.take s.problem.model.x.length = S.plant.x)
    (hx : S.plant.x.length = s.problem.model.x.length)
    (ha : Autonomous ops s.problem (mesh opts) par val)
    (hgo : CanGoOn ops s.problem (mesh opts) hw.mesh par val)
    (hat : Attained ops s.problem (mesh opts) hw.mesh par val)
    (hf : ∃ tr, AllowedFrom ops s.problem (mesh opts) hw.mesh par val S.plant.x tr)
    (h1 : 1 ≤ n) (hrun : run c n S = (.ok (), S')) :
    ∃ trs, trs.length = n ∧ Spec.ClosedLoop ops s.problem (mesh opts) hw.mesh par val S.plant.x trs S'.plant.x ∧
      ∃ tr', SolvesFrom ops s.problem (mesh opts) hw.mesh par val S'.plant.x tr' := by
  have hr := C181_run_partial plant ops opts names sim info solver estimator s S S' c par val n hcon hc hp h hw hs
    hcs hlast hopt htheta hn hone hconst hpp hplain hplant hpar hpar' hg hguess hused hest hmeas hx h1 hrun
  refine C182_loop ops s.problem (mesh opts) hw.mesh hw.problem hw.symbols _ _ par val hg ha hgo hat
    (fun S : Mpc.State (E × SolveDirect.State Rat) => S.plant.x) n S S' ?_ hf
  exact ClosedLoop.repeated_imp (fun _ _ h => h.1) hr

/-- C181: a plant holds the value of the control function at the start of a sampling interval: two functions
with the same value there take it to the same state, whatever they do later in the interval. -/
theorem C181_hold (env : Plant.Env) (o : Ocp) (M : Mesh) (hp : PlainPlant o M env) (f g : Rat → List Rat)
    (s s₁ s₂ : Plant.State) (h : f s.t = g s.t) (h₁ : Plant.setControlFunction env f s = (.ok (), s₁))
    (h₂ : Plant.setControlFunction env g s = (.ok (), s₂)) :
    s₁.x = s₂.x ∧ s₁.t = s₂.t ∧ s₁.measurement = s₂.measurement := by
  obtain ⟨r, hs, hx, ht, hm⟩ := function_goes hp.points hp.matrix hp.noise h₁
  obtain ⟨r', hs', hx', ht', hm'⟩ := function_goes hp.points hp.matrix hp.noise h₂
  rw [h, hs'] at hs
  cases hs
  exact ⟨hx.trans hx'.symm, ht.trans ht'.symm, hm.trans hm'.symm⟩

/-! ## Example: pull a state to zero -/

namespace Example

/-- One state with the control as derivative; controls and the final state are penalised. -/
def pullProblem : Ocp := { calmProblem with
  V := .mul (.sym 2) (.sym 2)
  uMax := [⊤] }

theorem pull_posed : WellPosed Rat restOptions restNames pullProblem where
  mesh := calm_posed.mesh
  controlRoots := by decide
  problem := {
    horizon := by decide +kernel
    complete := by unfold Complete; decide +kernel
    starts := rfl
    controls := by decide
    apart := by unfold ControlsApart; decide +kernel
    parameters := by decide
    thetas := by decide
    tags := by decide
    tagged := by decide
    equations := fun _ => rfl }
  scope := ⟨by decide +kernel, by decide +kernel, by decide, by decide, by decide +kernel⟩
  symbols := by decide
  controls := by decide
  bounds := ⟨pairFits_free 1, pairFits_free 0, pairFits_free 1, pairFits_free 0, pairFits_free 0⟩
  limits := ⟨rfl, rfl, (pairFits_free 1).uncrossed, by rintro u ⟨⟩⟩
  new := ⟨by decide, by decide, by decide, by decide⟩
  newVars := calm_posed.newVars
  initial := rfl
  last := ⟨by decide, .inr (by unfold NoRateLimits; decide)⟩

theorem pull_points (ops : Expr.Ops Rat) : PointProblem ops pullProblem where
  eta := rfl
  pOpt := rfl
  thetaOpt := rfl
  rates := by unfold NoRateLimits; decide
  positive := rfl
  tags := by decide
  pinned := (calm_points ops).pinned

theorem pull_step : stepLength pullProblem (mesh restOptions) = (1 : Rat) := by decide +kernel

theorem pull_given : GivenAt pullProblem (mesh restOptions) ([] : List Rat) [[], []] [0, 1] calmTimes :=
  ⟨calm_given.time, calm_given.position, calm_given.parameters, calm_given.thetas, calm_given.free⟩

theorem pull_autonomous (ops : Expr.Ops Rat) : Autonomous ops pullProblem (mesh restOptions) [0, 1] calmTimes where
  timeless := by decide +kernel
  steady := by
    intro s hs h0 el el' j
    have h0' : s ≠ 0 := h0
    unfold calmTimes
    rw [if_neg h0', if_neg h0', point_mod, point_mod]
  initial := by
    intro ρ h e he
    have : e = .sub (.sym 2) (.sym 3) := List.mem_singleton.1 he
    subst this
    exact sub_eq_zero.2 (h 0 2 3 rfl rfl)

/-- In an element with a constant control the state grows by the control, and the element costs its
square. -/
theorem integrator_element {M : Mesh} (hM : GoodMesh M) (ops : Expr.Ops Rat) {m : SysModel}
    (hm : m.ode = [(2, some (.sym 4))]) {start : Sym → Rat} {q : ElementValues Rat M} (u : Rat)
    (hu : ∀ j, q j 4 = u) (h : ElementSolution ops m M 1 start q) : q (M.lastRoot hM) 2 = start 2 + u := by
  obtain ⟨P, h1, h2, h3⟩ := h.dynamics (2, some (.sym 4)) (by rw [hm]; exact List.mem_singleton.2 rfl) _ rfl
  have hq := quadrature_derivative (K := Rat) hM P h1
  have hone := quadrature_exact (K := Rat) hM (1 : Rat[X]) (by rw [natDegree_one]; have := hM.points; omega)
  have hint : unitIntegral (1 : Rat[X]) = 1 := by simp [unitIntegral]
  rw [hint] at hone
  simp only [eval_one, mul_one] at hone
  have hs : ∑ j, quadratureWeight M j * P.derivative.eval (M.root j) = u := by
    have : ∀ j, P.derivative.eval (M.root j) = u := fun j => by
      rw [(h3 j).2]
      simp [Expr.eval, hu j]
    simp only [this]
    rw [← Finset.sum_mul, ← hone, one_mul]
  have hl := (h3 (M.lastRoot hM)).1
  rw [root_last hM] at hl
  rw [← hl, ← h2]
  linarith

theorem weights_one {M : Mesh} (hM : GoodMesh M) : ∑ j, (quadratureWeight M j : Rat) = 1 := by
  have hone := quadrature_exact (K := Rat) hM (1 : Rat[X]) (by rw [natDegree_one]; have := hM.points; omega)
  have hint : unitIntegral (1 : Rat[X]) = 1 := by simp [unitIntegral]
  rw [hint] at hone
  simpa using hone.symm

theorem pull_element (ops : Expr.Ops Rat) {start : Sym → Rat} {q : ElementValues Rat (mesh restOptions)}
    (h : ElementAllowed ops pullProblem (mesh restOptions) (stepLength pullProblem (mesh restOptions)) start q) :
    ∃ u : Rat, q ((mesh restOptions).lastRoot pull_posed.mesh) 2 = start 2 + u ∧
      Spec.elementCost ops pullProblem (mesh restOptions) pull_posed.mesh
        (stepLength pullProblem (mesh restOptions)) q = u * u := by
  obtain ⟨P, h1, h2⟩ := h.control 4 (List.mem_singleton.2 rfl)
  have hd : P.natDegree = 0 := by
    have : P.natDegree < 1 := h1
    omega
  obtain ⟨u, rfl⟩ : ∃ u, P = C u := ⟨_, eq_C_of_natDegree_eq_zero hd⟩
  have hu : ∀ j, q j 4 = u := fun j => by rw [← h2 j, eval_C]
  refine ⟨u, ?_, ?_⟩
  · rw [pull_step] at h
    exact integrator_element pull_posed.mesh ops (m := pullProblem.model) rfl u hu h.toElementSolution
  · unfold Spec.elementCost
    have hL : ∀ j, pullProblem.L.eval ops (q j) = u * u := fun j => by
      show q j 4 * q j 4 = _
      rw [hu j]
    have hS : pullProblem.S.eval ops (q ((mesh restOptions).lastRoot pull_posed.mesh)) = 0 := by
      simp [pullProblem, calmProblem, restProblem, Ocp.new, Expr.eval]
    rw [hS, pull_step, one_mul, add_zero]
    simp only [hL]
    rw [← Finset.sum_mul, weights_one pull_posed.mesh, one_mul]

/-- The cost of an allowed trajectory. -/
theorem pull_cost (ops : Expr.Ops Rat) {start : Sym → Rat} {w : GridValues Rat (mesh restOptions).size}
    (h : SatisfiesAll ops (directScheme ops (mesh restOptions) pull_posed.mesh
      (stepLength pullProblem (mesh restOptions)) start) pullProblem w) :
    ∃ u v : Rat, costOf ops (directScheme ops (mesh restOptions) pull_posed.mesh
      (stepLength pullProblem (mesh restOptions)) start) pullProblem w =
        u * u + v * v + (start 2 + u + v) * (start 2 + u + v) := by
  obtain ⟨h1, -, -⟩ := (satisfies_iff pull_posed.mesh _).1 h
  obtain ⟨u, hu, hu'⟩ := pull_element ops (h1 (0 : Fin 2))
  obtain ⟨v, hv, hv'⟩ := pull_element ops (h1 (1 : Fin 2))
  refine ⟨u, v, ?_⟩
  rw [cost_elements]
  have hsum : ∀ f : Fin (mesh restOptions).elements → Rat, ∑ el, f el = f (0 : Fin 2) + f (1 : Fin 2) := fun f =>
    Fin.sum_univ_two f
  rw [hsum, hu', hv']
  have hl : w ((mesh restOptions).lastPoint pull_posed.mesh) 2 = start 2 + u + v := by
    have e1 : w ((mesh restOptions).lastPoint pull_posed.mesh) 2 = _ := hv
    rw [e1]
    have e2 : valueBefore (mesh restOptions) pull_posed.mesh start w 2 (1 : Fin 2) = _ := hu
    rw [e2]
    rfl
  show _ + w ((mesh restOptions).lastPoint pull_posed.mesh) 2 * w ((mesh restOptions).lastPoint pull_posed.mesh) 2 = _
  rw [hl]

/-- An element from the state `a` with the control `u`. -/
def pullElement (a u : Rat) (el : Fin 2) : ElementValues Rat (mesh restOptions) := fun j s =>
  if s ∈ ([0, 1] : List Sym) then calmTimes ((mesh restOptions).point el j) s
  else if s = 4 then u else a + u * (mesh restOptions).root j

theorem pullElement_allowed (ops : Expr.Ops Rat) (a u : Rat) (el : Fin 2) {start : Sym → Rat} (hs : start 2 = a) :
    ElementAllowed ops pullProblem (mesh restOptions) (stepLength pullProblem (mesh restOptions)) start
      (pullElement a u el) where
  alg := by intro j e he; cases he
  dynamics := by
    intro r hr e he
    have : r = (2, some (.sym 4)) := List.mem_singleton.1 hr
    subst this
    cases he
    refine ⟨C a + C u * X, ?_, by simp [hs], fun j => ⟨?_, ?_⟩⟩
    · refine le_trans (natDegree_add_le _ _) (max_le (by simp) (le_trans (natDegree_C_mul_le u X) (natDegree_X_le.trans (by decide))))
    · simp [pullElement]
    · rw [pull_step]
      simp [pullElement, Expr.eval]
  x := fun j => allWithin_free (a := 1) (b := 1)
  y := fun j r hr => (by cases hr)
  u := fun j => allWithin_free (a := 1) (b := 1)
  control := by
    intro v hv
    have : v = 4 := List.mem_singleton.1 hv
    subst this
    exact ⟨C u, by simp; decide, fun j => by simp [pullElement]⟩
  eq := by intro r hr; cases hr
  ineq := by intro r hr; cases hr

/-- Two elements with the controls `u` and `v`. -/
def pullPath (a u v : Rat) : GridValues Rat (mesh restOptions).size := fun k =>
  if k.divNat.val = 0 then pullElement a u 0 k.modNat else pullElement (a + u) v 1 k.modNat

theorem pullPath_first (a u v : Rat) : elementOf (mesh restOptions)
    (withValues [0, 1] calmTimes (pullPath a u v)) (0 : Fin 2) = pullElement a u 0 := by
  funext j s
  have hd : ((mesh restOptions).point (0 : Fin 2) j).divNat.val = 0 := congrArg Fin.val (point_div _ j)
  have hj : ((mesh restOptions).point (0 : Fin 2) j).modNat = j := point_mod _ j
  simp only [elementOf, withValues, pullPath, if_pos hd]
  split
  · rename_i h
    rw [pullElement, if_pos h]
  · rw [hj]

theorem pullPath_second (a u v : Rat) : elementOf (mesh restOptions)
    (withValues [0, 1] calmTimes (pullPath a u v)) (1 : Fin 2) = pullElement (a + u) v 1 := by
  funext j s
  have hd : ((mesh restOptions).point (1 : Fin 2) j).divNat.val = 1 := congrArg Fin.val (point_div _ j)
  have hj : ((mesh restOptions).point (1 : Fin 2) j).modNat = j := point_mod _ j
  have hd' : ¬ ((mesh restOptions).point (1 : Fin 2) j).divNat.val = 0 := by rw [hd]; decide
  simp only [elementOf, withValues, pullPath, if_neg hd']
  split
  · rename_i h
    rw [pullElement, if_pos h]
  · rw [hj]

theorem pullElement_end (a u : Rat) (el : Fin 2) :
    pullElement a u el ((mesh restOptions).lastRoot pull_posed.mesh) 2 = a + u := by
  unfold pullElement
  rw [if_neg (by decide), if_neg (by decide), root_last, mul_one]

theorem pullPath_allowed (ops : Expr.Ops Rat) (a u v : Rat) {start : Sym → Rat} {x : List Rat}
    (hs : StartsAt pullProblem x start) (ha : start 2 = a) :
    SatisfiesAll ops (directScheme ops (mesh restOptions) pull_posed.mesh
      (stepLength pullProblem (mesh restOptions)) start) pullProblem
      (withValues [0, 1] calmTimes (pullPath a u v)) := by
  refine (satisfies_iff pull_posed.mesh _).2 ⟨fun el => ?_, fun e he => (by cases he), ?_⟩
  · match el with
    | ⟨0, _⟩ =>
      have := pullElement_allowed ops a u 0 (start := fun s => valueBefore (mesh restOptions) pull_posed.mesh start
        (withValues [0, 1] calmTimes (pullPath a u v)) s (0 : Fin 2)) ha
      rw [← pullPath_first a u v] at this
      exact this
    | ⟨1, _⟩ =>
      have hb : valueBefore (mesh restOptions) pull_posed.mesh start
          (withValues [0, 1] calmTimes (pullPath a u v)) 2 (1 : Fin 2) = a + u := by
        have : elementOf (mesh restOptions) (withValues [0, 1] calmTimes (pullPath a u v)) (0 : Fin 2)
            ((mesh restOptions).lastRoot pull_posed.mesh) 2 = a + u := by
          rw [pullPath_first, pullElement_end]
        exact this
      have := pullElement_allowed ops (a + u) v 1 (start := fun s => valueBefore (mesh restOptions) pull_posed.mesh
        start (withValues [0, 1] calmTimes (pullPath a u v)) s (1 : Fin 2)) hb
      rw [← pullPath_second a u v] at this
      exact this
  · refine (pull_autonomous ops).initial start fun i s s' hi hi' => ?_
    rw [hs.states i s hi, hs.symbols i s' hi']

theorem pullElement_cost (ops : Expr.Ops Rat) (a u : Rat) (el : Fin 2) :
    Spec.elementCost ops pullProblem (mesh restOptions) pull_posed.mesh
      (stepLength pullProblem (mesh restOptions)) (pullElement a u el) = u * u := by
  unfold Spec.elementCost
  have hL : ∀ j, pullProblem.L.eval ops (pullElement a u el j) = u * u := fun j => rfl
  have hS : pullProblem.S.eval ops (pullElement a u el ((mesh restOptions).lastRoot pull_posed.mesh)) = 0 := by
    simp [pullProblem, calmProblem, restProblem, Ocp.new, Expr.eval]
  rw [hS, pull_step, one_mul, add_zero]
  simp only [hL]
  rw [← Finset.sum_mul, weights_one pull_posed.mesh, one_mul]

theorem pullPath_cost (ops : Expr.Ops Rat) (a u v : Rat) (start : Sym → Rat) :
    costOf ops (directScheme ops (mesh restOptions) pull_posed.mesh
      (stepLength pullProblem (mesh restOptions)) start) pullProblem
      (withValues [0, 1] calmTimes (pullPath a u v)) = u * u + v * v + (a + u + v) * (a + u + v) := by
  rw [cost_elements]
  have hsum : ∀ f : Fin (mesh restOptions).elements → Rat, ∑ el, f el = f (0 : Fin 2) + f (1 : Fin 2) := fun f =>
    Fin.sum_univ_two f
  rw [hsum, pullPath_first, pullPath_second, pullElement_cost, pullElement_cost]
  have hl : withValues [0, 1] calmTimes (pullPath a u v) ((mesh restOptions).lastPoint pull_posed.mesh) 2 =
      a + u + v := by
    have : elementOf (mesh restOptions) (withValues [0, 1] calmTimes (pullPath a u v)) (1 : Fin 2)
        ((mesh restOptions).lastRoot pull_posed.mesh) 2 = a + u + v := by
      rw [pullPath_second, pullElement_end]
    exact this
  show _ + withValues [0, 1] calmTimes (pullPath a u v) ((mesh restOptions).lastPoint pull_posed.mesh) 2 *
    withValues [0, 1] calmTimes (pullPath a u v) ((mesh restOptions).lastPoint pull_posed.mesh) 2 = _
  rw [hl]

/-- The solution from the state `a`: a third of the way in each element. -/
theorem pull_solution (ops : Expr.Ops Rat) {start : Sym → Rat} {x : List Rat} (hs : StartsAt pullProblem x start) :
    SolutionFor ops (directScheme ops (mesh restOptions) pull_posed.mesh
      (stepLength pullProblem (mesh restOptions)) start) pullProblem [0, 1] calmTimes
      (pullPath (start 2) (-start 2 / 3) (-start 2 / 3)) := by
  refine ⟨pullPath_allowed ops _ _ _ hs rfl, fun tr' h' => ?_⟩
  obtain ⟨u, v, hc⟩ := pull_cost ops h'
  rw [hc, pullPath_cost]
  nlinarith [sq_nonneg (u - v), sq_nonneg (2 * start 2 + 3 * (u + v))]

theorem pull_attained (ops : Expr.Ops Rat) :
    Attained ops pullProblem (mesh restOptions) pull_posed.mesh [0, 1] calmTimes :=
  fun _ ⟨_, start, hs, _⟩ => ⟨_, start, hs, pull_solution ops hs⟩

theorem pull_goesOn (ops : Expr.Ops Rat) :
    CanGoOn ops pullProblem (mesh restOptions) pull_posed.mesh [0, 1] calmTimes := by
  intro a _ _ _
  refine ⟨pullElement (a 2) (-a 2 / 2) 1, fun j s hs => if_pos hs, pullElement_allowed ops _ _ 1 rfl,
    fun e he => (by cases he), ?_⟩
  rw [pullElement_cost]
  show _ + pullElement (a 2) (-a 2 / 2) 1 ((mesh restOptions).lastRoot pull_posed.mesh) 2 *
    pullElement (a 2) (-a 2 / 2) 1 ((mesh restOptions).lastRoot pull_posed.mesh) 2 ≤ a 2 * a 2
  rw [pullElement_end]
  nlinarith [sq_nonneg (a 2)]

/-- The plant: the state grows by the control. -/
def pullPlant : Plant.Env := { restPlant with
  simulate := fun x t t' u => .ok ([x.getD 0 0 + (t' - t) * u.getD 0 0], [], u)
  processNoise := fun _ => [0]
  measurementNoise := fun _ => [0] }

theorem pullPlant_plain : PlainPlant pullProblem (mesh restOptions) pullPlant where
  points := rfl
  matrix := by decide +kernel
  noise := rfl
  states := rfl
  controls := rfl
  interval := pull_step.symm
  sizes := by
    rintro x t t' u r ⟨⟩
    rfl

theorem pullPlant_collocated (ops : Expr.Ops Rat) :
    CollocatedPlant ops pullProblem (mesh restOptions) pull_posed.mesh [0, 1] calmTimes pullPlant := by
  rintro x t u r hr start q hx - hu hq
  have hr' : r = ([x.getD 0 0 + (t + 1 - t) * u.getD 0 0], [], u) := (Except.ok.inj hr).symm
  have := integrator_element pull_posed.mesh ops (m := pullProblem.model) rfl (u.getD 0 0)
    (fun j => hu j 0 4 rfl) hq
  show r.1 = [q ((mesh restOptions).lastRoot pull_posed.mesh) 2]
  rw [this, hx 0 2 rfl, hr']
  simp

/-- The ideal estimator. -/
def pullEstimator (_ : Rat) (y _ : List Rat) : Py Unit (List Rat × List Rat) := Py.pure (y.take 1, [0])

/-- A controller for the plant. -/
noncomputable def pullController (ops : Expr.Ops Rat)
    (sim info : List Rat → Theta Rat → Except Err (List Rat)) : Config (Unit × SolveDirect.State Rat) :=
  controller pullPlant (directDims pullProblem (mesh restOptions)) ops restOptions restNames sim info
    (bestSolver ops) pullEstimator true

/-- Before the first cycle, from the state 1. -/
def pullStart : Mpc.State (Unit × SolveDirect.State Rat) := { restStart { problem := pullProblem } with
  plant := (Plant.fillData pullPlant (fun n => if n = "y" then [] else ["a"])
    (Plant.blank 0 [1] [0] none)).2 }

theorem pullPlant_fits : PlantFits pullPlant where
  simulate := fun _ _ _ _ _ hu => ⟨_, rfl, rfl, rfl, hu⟩
  matrix := rfl
  processNoise := fun _ => rfl
  measurementNoise := fun _ => rfl

theorem pull_starts : StartsAt pullProblem ([1] : List Rat) fun _ => 1 :=
  ⟨calm_starts.states, calm_starts.symbols, calm_starts.within⟩

theorem pull_prepares : (prepare restOptions.controlRoots restOptions.controlRoots.length restNames.xc
    restNames.fresh restNames.base { problem := pullProblem }).1 = .ok () := by decide +kernel

end Example

open Example in
/-- The hypotheses of the theorems are met: every run of the controller is a closed loop, and the costs of
the cycles are together at most a third, the optimal cost of the first problem. -/
example (ops : Expr.Ops Rat) (sim info : List Rat → Theta Rat → Except Err (List Rat)) (n : Nat) :
    ∃ S' trs tr', run (pullController ops sim info) ((n + 1 : Nat) : Int) pullStart = (.ok (), S') ∧ trs.length = n + 1 ∧
      Spec.ClosedLoop ops pullProblem (mesh restOptions) pull_posed.mesh [0, 1] calmTimes [1] trs S'.plant.x ∧
      (trs.map (firstCost ops pullProblem (mesh restOptions) pull_posed.mesh [0, 1] calmTimes)).sum +
        horizonCost ops pullProblem (mesh restOptions) pull_posed.mesh [0, 1] calmTimes tr' ≤ 1 / 3 := by
  obtain ⟨S', hrun⟩ := C181_runs pullPlant ops restOptions restNames sim info (bestSolver ops) pullEstimator
    { problem := pullProblem } pullStart (pullController ops sim info) [0, 1] calmTimes (n + 1) rfl rfl rfl
    pull_prepares pull_posed (bestSolver_good ops) (bestSolver_complete ops) rfl rfl rfl (by decide) rfl rfl
    (pull_points ops) pullPlant_plain (pullPlant_collocated ops) (by rintro p0 ⟨⟩) (fun _ => rfl) pull_given
    (.inl (by simp [pullStart, restStart])) .new (fun t y u e => ⟨[0], e, rfl⟩)
    (fun n => if n = "y" then [] else ["a"]) 0 [1] [0] rfl rfl rfl pullPlant_fits rfl rfl (by omega)
  obtain ⟨trs, hl, hcl, tr', htr'⟩ := C182_run_partial pullPlant ops restOptions restNames sim info (bestSolver ops)
    pullEstimator { problem := pullProblem } pullStart S' (pullController ops sim info) [0, 1] calmTimes (n + 1) rfl
    rfl rfl pull_prepares pull_posed (bestSolver_good ops) (bestSolver_complete ops) rfl rfl rfl (by decide) rfl rfl
    (pull_points ops) pullPlant_plain (pullPlant_collocated ops) (by rintro p0 ⟨⟩) (fun _ => rfl) pull_given
    (.inl (by simp [pullStart, restStart])) .new (fun t y u e => ⟨[0], e, rfl⟩) rfl rfl (pull_autonomous ops)
    (pull_goesOn ops) (pull_attained ops) ⟨_, _, pull_starts, (pull_solution ops pull_starts).1⟩ (by omega) hrun
  refine ⟨S', trs, tr', hrun, hl, hcl, ?_⟩
  match trs, hl with
  | tr :: trs, _ =>
    refine (C182_costs ops pullProblem (mesh restOptions) pull_posed.mesh pull_posed.problem pull_posed.symbols [] [[], []]
      [0, 1] calmTimes pull_given (pull_autonomous ops) (pull_goesOn ops) _ _ tr tr' trs hcl htr').trans ?_
    obtain ⟨⟩ | ⟨⟨start, hst, hs⟩, -⟩ := hcl
    have hv : start 2 = 1 := hst.states 0 2 rfl
    have h₁ := hs.2 _ (pull_solution ops hst).1
    rw [pullPath_cost, hv] at h₁
    refine le_trans h₁ ?_
    norm_num

/-! ## A control that is not constant in the elements -/

namespace Example

/-- The control should follow the time. -/
def rampProblem : Ocp := { calmProblem with
  L := .mul (.sub (.sym 4) (.sym 0)) (.sub (.sym 4) (.sym 0))
  uMax := [⊤] }

/-- Controls are linear in the elements. -/
def rampOptions : Options := { elements := 2, roots := [1 / 3, 1], controlRoots := [1 / 3, 1] }

/-- The new symbols. -/
def rampNames : NewNames where
  xc := 5
  fresh := 6
  base := 10
  var := fun kind el k => match kind with
    | .x => [20 + 10 * el + 2 * k, 21 + 10 * el + 2 * k]
    | .u => [60 + 2 * el + k]
    | _ => []

theorem ramp_posed : WellPosed Rat rampOptions rampNames rampProblem where
  mesh := {
    elements := by decide
    points := by decide
    increasing := by decide +kernel
    last := rfl
    controls := by decide }
  controlRoots := by decide +kernel
  problem := {
    horizon := by decide +kernel
    complete := by unfold Complete; decide +kernel
    starts := rfl
    controls := by decide
    apart := by unfold ControlsApart; decide +kernel
    parameters := by decide
    thetas := by decide
    tags := by decide
    tagged := by decide
    equations := fun _ => rfl }
  scope := ⟨by decide +kernel, by decide +kernel, by decide, by decide, by decide +kernel⟩
  symbols := by decide
  controls := by decide
  bounds := ⟨pairFits_free 1, pairFits_free 0, pairFits_free 1, pairFits_free 0, pairFits_free 0⟩
  limits := ⟨rfl, rfl, (pairFits_free 1).uncrossed, by rintro u ⟨⟩⟩
  new := ⟨by decide, by decide, by decide, by decide⟩
  newVars := ⟨⟨fun _ _ => rfl, fun _ _ => rfl, fun _ _ => rfl, rfl, rfl, fun _ => rfl⟩, by decide⟩
  initial := rfl
  last := ⟨by decide, .inr (by unfold NoRateLimits; decide)⟩

theorem ramp_points (ops : Expr.Ops Rat) : PointProblem ops rampProblem where
  eta := rfl
  pOpt := rfl
  thetaOpt := rfl
  rates := by unfold NoRateLimits; decide
  positive := rfl
  tags := by decide
  pinned := (calm_points ops).pinned

theorem ramp_step : stepLength rampProblem (mesh rampOptions) = (1 : Rat) := by decide +kernel

/-- The times of the points. -/
def rampTimes (k : Fin (mesh rampOptions).size) (s : Sym) : Rat :=
  if s = 0 then (k.divNat.val : Rat) + (mesh rampOptions).root k.modNat else (mesh rampOptions).root k.modNat

theorem ramp_given : GivenAt rampProblem (mesh rampOptions) ([] : List Rat) [[], []] [0, 1] rampTimes where
  time := by
    refine ⟨by decide, fun el j => ?_⟩
    rw [ramp_step, one_mul]
    show (if (0 : Nat) = 0 then _ else _) = _
    rw [if_pos rfl, point_div, point_mod]
  position := by
    refine ⟨by decide, fun el j => ?_⟩
    show (if (1 : Nat) = 0 then _ else _) = _
    rw [if_neg (by decide), point_mod]
  parameters := by rintro i s ⟨⟩
  thetas := by rintro i s ⟨⟩
  free := by decide

theorem ramp_starts : StartsAt rampProblem ([0] : List Rat) fun _ => 0 where
  states := by
    intro i s hs
    match i, hs with
    | 0, hs => rfl
  symbols := by
    intro i s hs
    match i, hs with
    | 0, hs => rfl
  within := allWithin_free (a := 1) (b := 1)

/-- The weights of the points 1/3 and 1 are 3/4 and 1/4. -/
theorem ramp_sum (f : Fin (mesh rampOptions).roots.length → Rat) :
    ∑ j, quadratureWeight (mesh rampOptions) j * f j = 3 / 4 * f (0 : Fin 2) + 1 / 4 * f (1 : Fin 2) := by
  have hsum : ∀ g : Fin (mesh rampOptions).roots.length → Rat, ∑ j, g j = g (0 : Fin 2) + g (1 : Fin 2) :=
    fun g => Fin.sum_univ_two g
  have r0 : ((mesh rampOptions).root (0 : Fin 2) : Rat) = 1 / 3 := by decide +kernel
  have r1 : ((mesh rampOptions).root (1 : Fin 2) : Rat) = 1 := by decide +kernel
  have h₁ := weights_one ramp_posed.mesh
  have h₂ := quadrature_exact (K := Rat) ramp_posed.mesh (X : Rat[X]) (by
    rw [natDegree_X]
    exact ramp_posed.mesh.points)
  have hint : unitIntegral (X : Rat[X]) = 1 / 2 := by
    simp [unitIntegral, Finset.sum_range_succ, coeff_X]
    norm_num
  rw [hint, hsum] at h₂
  rw [hsum] at h₁
  rw [hsum]
  simp only [eval_X] at h₂
  rw [r0, r1] at h₂
  have w1 : (quadratureWeight (mesh rampOptions) (1 : Fin 2) : Rat) = 1 / 4 := by linarith
  have w0 : (quadratureWeight (mesh rampOptions) (0 : Fin 2) : Rat) = 3 / 4 := by linarith
  rw [w0, w1]

theorem ramp_elementCost (ops : Expr.Ops Rat) (q : ElementValues Rat (mesh rampOptions)) :
    Spec.elementCost ops rampProblem (mesh rampOptions) ramp_posed.mesh
      (stepLength rampProblem (mesh rampOptions)) q =
      3 / 4 * ((q (0 : Fin 2) 4 - q (0 : Fin 2) 0) * (q (0 : Fin 2) 4 - q (0 : Fin 2) 0)) +
      1 / 4 * ((q (1 : Fin 2) 4 - q (1 : Fin 2) 0) * (q (1 : Fin 2) 4 - q (1 : Fin 2) 0)) := by
  unfold Spec.elementCost
  have hS : rampProblem.S.eval ops (q ((mesh rampOptions).lastRoot ramp_posed.mesh)) = 0 := by
    simp [rampProblem, calmProblem, restProblem, Ocp.new, Expr.eval]
  rw [hS, ramp_step, one_mul, add_zero, ramp_sum]
  rfl

/-- The cost. -/
theorem ramp_cost (ops : Expr.Ops Rat) (start : Sym → Rat) (w : GridValues Rat (mesh rampOptions).size) :
    costOf ops (directScheme ops (mesh rampOptions) ramp_posed.mesh
      (stepLength rampProblem (mesh rampOptions)) start) rampProblem w =
      Spec.elementCost ops rampProblem (mesh rampOptions) ramp_posed.mesh
        (stepLength rampProblem (mesh rampOptions)) (elementOf (mesh rampOptions) w (0 : Fin 2)) +
      Spec.elementCost ops rampProblem (mesh rampOptions) ramp_posed.mesh
        (stepLength rampProblem (mesh rampOptions)) (elementOf (mesh rampOptions) w (1 : Fin 2)) := by
  rw [cost_elements]
  have hsum : ∀ f : Fin (mesh rampOptions).elements → Rat, ∑ el, f el = f (0 : Fin 2) + f (1 : Fin 2) := fun f =>
    Fin.sum_univ_two f
  have hV : ∀ a : Sym → Rat, rampProblem.V.eval ops a = 0 := fun a => by
    simp [rampProblem, calmProblem, restProblem, Ocp.new, Expr.eval]
  rw [hsum, hV, add_zero]

/-- The control is the time. -/
def rampPath : GridValues Rat (mesh rampOptions).size := fun k s =>
  if s = 4 then (k.divNat.val : Rat) + (mesh rampOptions).root k.modNat
  else ((k.divNat.val : Rat) + (mesh rampOptions).root k.modNat) ^ 2 / 2

theorem ramp_allowed (ops : Expr.Ops Rat) {start : Sym → Rat} (hs : StartsAt rampProblem [0] start) :
    SatisfiesAll ops (directScheme ops (mesh rampOptions) ramp_posed.mesh
      (stepLength rampProblem (mesh rampOptions)) start) rampProblem (withValues [0, 1] rampTimes rampPath) := by
  have hx : ∀ k, withValues [0, 1] rampTimes rampPath k 2 =
      ((k.divNat.val : Rat) + (mesh rampOptions).root k.modNat) ^ 2 / 2 := fun k => by
    simp [withValues, rampPath]
  have hu : ∀ k, withValues [0, 1] rampTimes rampPath k 4 =
      (k.divNat.val : Rat) + (mesh rampOptions).root k.modNat := fun k => by
    simp [withValues, rampPath]
  refine ⟨fun k => allWithin_free (a := 1) (b := 1), fun k p hp => (by cases hp),
    fun k => allWithin_free (a := 1) (b := 1), ?_, fun s hs => (by cases hs), fun k e he => (by cases he),
    fun p hp => (by cases hp), fun p hp => (by cases hp), ?_, fun e he => (by cases he), ?_⟩
  · intro v hv el
    have : v = 4 := List.mem_singleton.1 hv
    subst this
    refine ⟨C (el.val : Rat) + X, ?_, fun j => ?_⟩
    · have : (C (el.val : Rat) + X).natDegree ≤ 1 :=
        (natDegree_add_le _ _).trans (max_le (by simp) natDegree_X_le)
      exact Nat.lt_succ_of_le this
    · simp only [hu, point_div, point_mod, eval_add, eval_C, eval_X]
  · intro q hq e he el
    have : q = (2, some (.sym 4)) := List.mem_singleton.1 hq
    subst this
    cases he
    refine ⟨C (1 / 2) * (C (el.val : Rat) + X) ^ 2, ?_, ?_, fun j => ⟨?_, ?_⟩⟩
    · have h₁ : (C (el.val : Rat) + X).natDegree ≤ 1 :=
        (natDegree_add_le _ _).trans (max_le (by simp) natDegree_X_le)
      have h₂ := natDegree_C_mul_le (1 / 2 : Rat) ((C (el.val : Rat) + X) ^ 2)
      have h₃ := natDegree_pow_le (p := C (el.val : Rat) + X) (n := 2)
      show _ ≤ 2
      omega
    · unfold valueBefore
      split
      · rename_i h0
        rw [hs.states 0 2 rfl]
        simp [h0]
      · rename_i h0
        rw [hx, point_div, point_mod, root_last]
        have h1 : el.val = 1 := by
          have : el.val < 2 := el.isLt
          omega
        simp [h1]
    · rw [hx, point_div, point_mod]
      simp
      ring
    · rw [ramp_step, one_mul]
      show _ = withValues [0, 1] rampTimes rampPath _ 4
      rw [hu, point_div, point_mod]
      simp [derivative_pow]
  · intro e he
    have : e = .sub (.sym 2) (.sym 3) := List.mem_singleton.1 he
    subst this
    refine sub_eq_zero.2 ?_
    show start 2 = start 3
    rw [hs.states 0 2 rfl, hs.symbols 0 3 rfl]

theorem ramp_path_cost (ops : Expr.Ops Rat) (start : Sym → Rat) :
    costOf ops (directScheme ops (mesh rampOptions) ramp_posed.mesh
      (stepLength rampProblem (mesh rampOptions)) start) rampProblem (withValues [0, 1] rampTimes rampPath) = 0 := by
  have h0 : ∀ el j, elementOf (mesh rampOptions) (withValues [0, 1] rampTimes rampPath) el j 4 -
      elementOf (mesh rampOptions) (withValues [0, 1] rampTimes rampPath) el j 0 = 0 := fun el j => by
    simp [elementOf, withValues, rampPath, rampTimes]
  have hz : ∀ el, Spec.elementCost ops rampProblem (mesh rampOptions) ramp_posed.mesh
      (stepLength rampProblem (mesh rampOptions))
      (elementOf (mesh rampOptions) (withValues [0, 1] rampTimes rampPath) el) = 0 := fun el => by
    rw [ramp_elementCost, h0 el (0 : Fin 2), h0 el (1 : Fin 2)]
    norm_num
  have e0 := hz (0 : Fin 2)
  have e1 := hz (1 : Fin 2)
  rw [ramp_cost, e0, e1, add_zero]

theorem ramp_nonneg (ops : Expr.Ops Rat) (q : ElementValues Rat (mesh rampOptions)) :
    0 ≤ Spec.elementCost ops rampProblem (mesh rampOptions) ramp_posed.mesh
      (stepLength rampProblem (mesh rampOptions)) q := by
  rw [ramp_elementCost]
  exact add_nonneg (mul_nonneg (by norm_num) (mul_self_nonneg _)) (mul_nonneg (by norm_num) (mul_self_nonneg _))

theorem ramp_solution (ops : Expr.Ops Rat) {start : Sym → Rat} (hs : StartsAt rampProblem [0] start) :
    SolutionFor ops (directScheme ops (mesh rampOptions) ramp_posed.mesh
      (stepLength rampProblem (mesh rampOptions)) start) rampProblem [0, 1] rampTimes rampPath := by
  refine ⟨ramp_allowed ops hs, fun tr' _ => ?_⟩
  rw [ramp_path_cost, ramp_cost]
  exact add_nonneg (ramp_nonneg ops _) (ramp_nonneg ops _)

/-- In a solution the control of the first element is the time, and the state goes to 1/2. -/
theorem ramp_unique (ops : Expr.Ops Rat) {start : Sym → Rat} (hs : StartsAt rampProblem [0] start)
    {tr : GridValues Rat (mesh rampOptions).size}
    (h : SolutionFor ops (directScheme ops (mesh rampOptions) ramp_posed.mesh
      (stepLength rampProblem (mesh rampOptions)) start) rampProblem [0, 1] rampTimes tr) :
    (∀ j, tr ((mesh rampOptions).point (0 : Fin 2) j) 4 = (mesh rampOptions).root j) ∧
      tr ((mesh rampOptions).point (0 : Fin 2) ((mesh rampOptions).lastRoot ramp_posed.mesh)) 2 = 1 / 2 := by
  have h₁ := h.2 rampPath (ramp_allowed ops hs)
  rw [ramp_path_cost, ramp_cost] at h₁
  have h₂ := ramp_nonneg ops (elementOf (mesh rampOptions) (withValues [0, 1] rampTimes tr) (0 : Fin 2))
  have h₃ := ramp_nonneg ops (elementOf (mesh rampOptions) (withValues [0, 1] rampTimes tr) (1 : Fin 2))
  have h₄ := (ramp_elementCost ops (elementOf (mesh rampOptions) (withValues [0, 1] rampTimes tr) (0 : Fin 2))).symm.trans
    (le_antisymm (by linarith) h₂)
  have hg : ∀ el j, elementOf (mesh rampOptions) (withValues [0, 1] rampTimes tr) el j 4 -
      elementOf (mesh rampOptions) (withValues [0, 1] rampTimes tr) el j 0 =
      tr ((mesh rampOptions).point el j) 4 - ((el.val : Rat) + (mesh rampOptions).root j) := fun el j => by
    simp [elementOf, withValues, rampTimes, point_div, point_mod]
  have hd : ∀ j, elementOf (mesh rampOptions) (withValues [0, 1] rampTimes tr) (0 : Fin 2) j 4 -
      elementOf (mesh rampOptions) (withValues [0, 1] rampTimes tr) (0 : Fin 2) j 0 =
      tr ((mesh rampOptions).point (0 : Fin 2) j) 4 - (mesh rampOptions).root j := fun j => by
    refine (hg (0 : Fin 2) j).trans ?_
    have : (((0 : Fin 2).val : Nat) : Rat) + (mesh rampOptions).root j = (mesh rampOptions).root j := by
      rw [Fin.val_zero, Nat.cast_zero, zero_add]
    exact congrArg (fun a => _ - a) this
  have hu : ∀ j, tr ((mesh rampOptions).point (0 : Fin 2) j) 4 = (mesh rampOptions).root j := by
    intro j
    refine sub_eq_zero.1 ?_
    rw [← hd j]
    refine mul_self_eq_zero.1 (le_antisymm ?_ (mul_self_nonneg _))
    generalize elementOf (mesh rampOptions) (withValues [0, 1] rampTimes tr) (0 : Fin 2) = q at h₄
    have a0 := mul_self_nonneg (q (0 : Fin 2) 4 - q (0 : Fin 2) 0)
    have a1 := mul_self_nonneg (q (1 : Fin 2) 4 - q (1 : Fin 2) 0)
    have b0 : (q (0 : Fin 2) 4 - q (0 : Fin 2) 0) * (q (0 : Fin 2) 4 - q (0 : Fin 2) 0) ≤ 0 := by linarith
    have b1 : (q (1 : Fin 2) 4 - q (1 : Fin 2) 0) * (q (1 : Fin 2) 4 - q (1 : Fin 2) 0) ≤ 0 := by linarith
    match j with
    | ⟨0, _⟩ => exact b0
    | ⟨1, _⟩ => exact b1
  refine ⟨hu, ?_⟩
  obtain ⟨P, p1, p2, p3⟩ := h.1.dynamics (2, some (.sym 4)) (List.mem_singleton.2 rfl) _ rfl (0 : Fin 2)
  have hq := quadrature_derivative (K := Rat) ramp_posed.mesh P p1
  rw [ramp_sum] at hq
  have hv : ∀ j, P.derivative.eval ((mesh rampOptions).root j) = (mesh rampOptions).root j := fun j => by
    rw [(p3 j).2, ramp_step, one_mul]
    exact hu j
  have r0 : ((mesh rampOptions).root (0 : Fin 2) : Rat) = 1 / 3 := by decide +kernel
  have r1 : ((mesh rampOptions).root (1 : Fin 2) : Rat) = 1 := by decide +kernel
  have v0 := hv (0 : Fin 2)
  have v1 := hv (1 : Fin 2)
  rw [v0, v1, r0, r1] at hq
  have hl := (p3 ((mesh rampOptions).lastRoot ramp_posed.mesh)).1
  rw [root_last] at hl
  have hb : P.eval 0 = 0 := by
    rw [p2]
    exact hs.states 0 2 rfl
  have : tr ((mesh rampOptions).point (0 : Fin 2) ((mesh rampOptions).lastRoot ramp_posed.mesh)) 2 = P.eval 1 := hl.symm
  rw [this]
  linarith

theorem rampPlant_plain : PlainPlant rampProblem (mesh rampOptions) pullPlant where
  points := rfl
  matrix := by decide +kernel
  noise := rfl
  states := rfl
  controls := rfl
  interval := ramp_step.symm
  sizes := pullPlant_plain.sizes

theorem rampPlant_collocated (ops : Expr.Ops Rat) :
    CollocatedPlant ops rampProblem (mesh rampOptions) ramp_posed.mesh [0, 1] rampTimes pullPlant := by
  rintro x t u r hr start q hx - hu hq
  have hr' : r = ([x.getD 0 0 + (t + 1 - t) * u.getD 0 0], [], u) := (Except.ok.inj hr).symm
  have := integrator_element ramp_posed.mesh ops (m := rampProblem.model) rfl (u.getD 0 0)
    (fun j => hu j 0 4 rfl) hq
  show r.1 = [q ((mesh rampOptions).lastRoot ramp_posed.mesh) 2]
  rw [this, hx 0 2 rfl, hr']
  simp

/-- A controller with linear controls. -/
noncomputable def rampController (ops : Expr.Ops Rat)
    (sim info : List Rat → Theta Rat → Except Err (List Rat)) : Config (Unit × SolveDirect.State Rat) :=
  controller pullPlant (directDims rampProblem (mesh rampOptions)) ops rampOptions rampNames sim info
    (bestSolver ops) pullEstimator true

/-- Before the first cycle, from the state 0. -/
def rampStart : Mpc.State (Unit × SolveDirect.State Rat) := { restStart { problem := rampProblem } with
  plant := (Plant.fillData pullPlant (fun n => if n = "y" then [] else ["a"])
    (Plant.blank 0 [0] [0] none)).2 }

theorem ramp_prepares : (prepare rampOptions.controlRoots rampOptions.controlRoots.length rampNames.xc
    rampNames.fresh rampNames.base { problem := rampProblem }).1 = .ok () := by decide +kernel

theorem rampPlant_goes (f : Rat → List Rat) (hf : FunctionFits pullPlant f) :
    (Plant.setControlFunction pullPlant f rampStart.plant).1 = .ok () := by
  obtain ⟨s₀, w, hs₀, -, -, -, -, -, -, hr⟩ := Plant.fillData_run pullPlant_fits
    (fun n => if n = "y" then [] else ["a"]) 0 (x0 := [0]) (u0 := [0]) (f := none) rfl rfl rfl (by rintro g ⟨⟩)
  have hnew : Plant.new pullPlant (fun n => if n = "y" then [] else ["a"]) 0 [0] [0] none = .ok rampStart.plant := rfl
  rw [hnew] at hs₀
  cases hs₀
  obtain ⟨s', kx, ky, ku, y, v, w, hrun, -⟩ := Plant.advance_run pullPlant_fits
    (s := { rampStart.plant with uFunction := some f }) ⟨hr.logs, hr.size, hr.current, by
      intro g hg
      simp only [Option.some.injEq] at hg
      exact hg ▸ hf⟩ (by simp) (by decide)
  have hset : Plant.setControlFunction pullPlant f rampStart.plant = (.ok (), s') := by
    simp only [Plant.setControlFunction, Py.bind_eq]
    simpa using hrun
  rw [hset]

end Example

open Example in
/-- C181 does not hold for controls that vary in the elements: here the plant and the controller have the same
model, the control of every solution is the time, and the state goes to 1/2 in the first element of every
solution, but the plant holds the control at the start of the interval and stays at 0. -/
theorem C181_ramp_fails (ops : Expr.Ops Rat) (sim info : List Rat → Theta Rat → Except Err (List Rat)) :
    PlainPlant rampProblem (mesh rampOptions) pullPlant ∧
    CollocatedPlant ops rampProblem (mesh rampOptions) ramp_posed.mesh [0, 1] rampTimes pullPlant ∧
    ∃ S', cycle (rampController ops sim info) rampStart = (.ok (), S') ∧ rampStart.plant.x = [0] ∧
      S'.plant.x = [0] ∧
      (∃ tr, SolvesFrom ops rampProblem (mesh rampOptions) ramp_posed.mesh [0, 1] rampTimes [0] tr) ∧
      (∀ tr, SolvesFrom ops rampProblem (mesh rampOptions) ramp_posed.mesh [0, 1] rampTimes [0] tr →
        endOfFirst rampProblem (mesh rampOptions) ramp_posed.mesh tr = [1 / 2]) ∧
      ¬ AsPredicted ops rampProblem (mesh rampOptions) ramp_posed.mesh [0, 1] rampTimes rampStart.plant.x
        S'.plant.x := by
  have hends : ∀ tr, SolvesFrom ops rampProblem (mesh rampOptions) ramp_posed.mesh [0, 1] rampTimes [0] tr →
      endOfFirst rampProblem (mesh rampOptions) ramp_posed.mesh tr = [1 / 2] := by
    rintro tr ⟨start, hst, hs⟩
    exact congrArg (fun a => [a]) (ramp_unique ops hst hs).2
  obtain ⟨p, q, b, success, f, guess, uValues, st, hsol, hq, -, -, -, -, heq, hv⟩ :=
    C162_cycle pullPlant ops rampOptions rampNames sim info (bestSolver ops) pullEstimator false false [] []
      { problem := rampProblem } rampStart [0] [0] () (rampController ops sim info) rfl rfl rfl
      ramp_prepares ramp_posed (bestSolver_good ops) rfl rfl rfl (by decide) (.inl rfl)
      rfl (by decide) (.inl (by simp [rampStart, restStart])) .new rfl rfl (.inr ⟨rfl, rfl, rfl, rfl⟩)
  have hq0 : q = [] := hq.2.2 rfl
  subst hq0
  have best := C180_best ops rampProblem (mesh rampOptions) ramp_posed.mesh ramp_posed.controlRoots (.inl rfl)
    ramp_posed.problem ramp_posed.scope ramp_posed.symbols ramp_posed.bounds (ramp_points ops) [0] []
    [[], []] (lastOf rampProblem) (fun _ => 0) [0, 1] rampTimes ramp_given ramp_starts
  obtain ⟨b', ρ', hb', -⟩ := (best rampPath).1 (ramp_solution ops ramp_starts)
  have hsucc := hsol.found (bestSolver_complete ops) ⟨b', ρ', hb'⟩
  obtain ⟨ρ, hρ⟩ := hsol.readable
  obtain ⟨tr, hS⟩ := exists_sampled (M := mesh rampOptions) ramp_posed.symbols b
  have hT := (best tr).2 ⟨b, ρ, hsol.best hsucc ρ hρ, hS⟩
  have hu := (ramp_unique ops ramp_starts hT).1
  have hP : (controlPoly (mesh rampOptions) b 0 0).eval 0 = 0 := by
    have hdeg := RelaxDirect.control_degree (M := mesh rampOptions) ramp_posed.controlRoots (by decide) b 0 0
    have e0 := hS.u (0 : Fin 2) (0 : Fin 2) 0 4 rfl
    have e1 := hS.u (0 : Fin 2) (1 : Fin 2) 0 4 rfl
    have e0 := (hu (0 : Fin 2)).symm.trans e0
    have e1 := (hu (1 : Fin 2)).symm.trans e1
    have r0 : ((mesh rampOptions).root (0 : Fin 2) : Rat) = 1 / 3 := by decide +kernel
    have r1 : ((mesh rampOptions).root (1 : Fin 2) : Rat) = 1 := by decide +kernel
    rw [r0] at e0
    rw [r1] at e1
    have hd2 : (controlPoly (mesh rampOptions) b 0 0).natDegree < 2 := hdeg
    have e0' : (1 / 3 : Rat) = (controlPoly (mesh rampOptions) b 0 0).eval (1 / 3) := e0
    have e1' : (1 : Rat) = (controlPoly (mesh rampOptions) b 0 0).eval 1 := e1
    generalize controlPoly (mesh rampOptions) b 0 0 = P at hd2 e0' e1'
    rw [P.as_sum_range_C_mul_X_pow' hd2] at e0' e1' ⊢
    simp [Finset.sum_range_succ] at e0' e1' ⊢
    linarith
  have hok := rampPlant_goes f (by
    intro t
    have := hv ((t - rampStart.plant.t) / pullPlant.tS)
    rw [div_mul_cancel₀ _ (by decide), add_sub_cancel] at this
    rw [this]
    rfl)
  obtain ⟨r, hsim, hrx, -, -⟩ := function_goes rampPlant_plain.points rampPlant_plain.matrix rampPlant_plain.noise
    (s' := (Plant.setControlFunction pullPlant f rampStart.plant).2) (Prod.ext hok rfl)
  have hf : f 0 = [0] := by
    have := hv 0
    rw [zero_mul, add_zero] at this
    have h' : f 0 = [(controlPoly (mesh rampOptions) b 0 0).eval 0] := this
    rw [h', hP]
  have hx : (Plant.setControlFunction pullPlant f rampStart.plant).2.x = [0] := by
    have hsim' : (.ok ([(0 : Rat) + (0 + 1 - 0) * (f 0).getD 0 0], [], f 0) : Except Err _) = .ok r := hsim
    rw [hrx, ← Except.ok.inj hsim', hf]
    simp
  refine ⟨rampPlant_plain, rampPlant_collocated ops,
    (onPlant (Plant.setControlFunction pullPlant f) { rampStart with
        iteration := rampStart.iteration + 1
        debuggerStops := rampStart.debuggerStops + 1
        p := p
        world := ((), st)
        initialGuess := some guess
        lastSolutions := some [⟨Layout.stacked b, uValues⟩] }).2, ?_, rfl, hx,
    ⟨rampPath, _, ramp_starts, ramp_solution ops ramp_starts⟩, hends, fun hpred => ?_⟩
  · rw [heq]
    exact Prod.ext hok rfl
  · obtain ⟨w, hw, he⟩ := hpred ⟨rampPath, _, ramp_starts, ramp_solution ops ramp_starts⟩
    have h₁ := hends w hw
    rw [← he] at h₁
    have h₂ : ([0] : List Rat) = [1 / 2] := hx.symm.trans h₁
    norm_num at h₂

end Verif
