import Verif.Spec.SolveShootIndirect
import Verif.Lemmas.SolveIndirect
import Verif.Lemmas.SolveShootingRun
import Verif.Props.ShootIndirect
/-! Lemmas on a run of `solve` of an indirect method with multiple shooting. -/
namespace Verif
namespace SolveShootIndirect
open Spec Layout Indirect
open SolveDirect hiding Program solve build program createProgram result State controlLaw NewNames Options thetaOf
open SolveIndirect (Options NewNames controlLaw Base Kept thetaOf data_thetaOf fits_free within_free)
open SolveShooting (Program shotVars shape_readVars stacked_readShots stacked_shape_length
  readShots_stacked)

variable {B : Backend} {ops : Expr.Ops ℝ} {integ : DaeIntegrator ℝ} {opts : Options} {names : NewNames}
  {o q : Ocp} {m : ShootingMethod ℝ}

/-- The problem of the user, the prepared one and what is discretised. -/
structure Run (B : Backend) (ops : Expr.Ops ℝ) (integ : DaeIntegrator ℝ) (opts : Options)
    (names : NewNames) (o q : Ocp) (m : ShootingMethod ℝ) : Prop where
  posed : IndirectShotPosed B ops integ opts names o q
  prepare : Indirect.prepare B false false names.base names.xc names.fresh o = (.ok (), q)
  shooting : q.indirectShooting ops integ opts.elements opts.roots.length = .ok m

namespace Run
variable (R : Run B ops integ opts names o q m)
include R

theorem base : Base B ops opts names o q := ⟨R.posed.toIndirectDeclared, R.prepare⟩

theorem built : ShotScope { q with V := .const 0 } false ∧
    m = Own.Shots.built ops integ (indirectMesh opts) { q with V := .const 0 } ∧
    ∃ laws, (List.range opts.elements).mapM (q.lawFunction opts.elements) = .ok laws :=
  shooting_built (M := indirectMesh opts) R.posed.elements ops integ R.shooting

theorem dims : m.dims = indirectDims o (indirectMesh opts) := by
  obtain ⟨H, us, hp⟩ := Indirect.prepared_of R.prepare
  obtain ⟨-, rfl, -⟩ := R.built
  exact dims_own hp R.posed.problem (indirectMesh opts)

theorem step : elementLength m.toTranscription = stepLength o (indirectMesh opts) := by
  obtain ⟨H, us, hp⟩ := Indirect.prepared_of R.prepare
  obtain ⟨-, rfl, -⟩ := R.built
  exact step_own hp (indirectMesh opts)

theorem break_eq (k : Nat) (hk : k ≤ opts.elements) :
    m.toTranscription.breakpoint k = nodeTime o (indirectMesh opts) k := by
  have h : k ≤ m.toTranscription.dims.elements := by
    have := congrArg Dims.elements R.dims
    exact hk.trans_eq this.symm
  rw [Transcription.breakpoint_eq _ k h]
  unfold nodeTime
  rw [← R.step]
  rfl

theorem shootable : Shootable m := by
  obtain ⟨H, us, hp⟩ := Indirect.prepared_of R.prepare
  obtain ⟨hf, rfl, -⟩ := R.built
  have ho := R.posed.problem
  have hpos : ∀ el, nodeTime o (indirectMesh opts) el < nodeTime o (indirectMesh opts) (el + 1) := by
    intro el
    have h₁ : (o.t0 : ℝ) < (o.tf : ℝ) := by exact_mod_cast ho.horizon
    have h₂ : (0 : ℝ) < ((indirectMesh opts).elements : ℝ) := by exact_mod_cast R.posed.elements
    unfold nodeTime
    refine mul_lt_mul_of_pos_left (by push_cast; linarith) (div_pos (sub_pos.mpr h₁) h₂)
  refine Own.Shots.shootable_of (fun el hel d hd => ?_) R.posed.elements ?_ ?_ hf ?_
  · rw [node_own hp, node_own hp]
    exact R.posed.exact el hel d hd _ _ le_rfl (hpos el) le_rfl
  · simp only [hp.times.1, hp.times.2]; exact ho.horizon
  · show q.model.x ≠ []
    rw [hp.x]
    simp [hp.states]
  · simp only [hp.tags.1, hp.tags.2]; exact R.posed.ends

theorem value_ok {b : Blocks ℝ} (hb : ShootingShape (indirectDims o (indirectMesh opts)) b)
    (x0 p : List ℝ) (theta : List (List ℝ)) (lastU : Option (List ℝ)) :
    ∃ cons, m.discretize b x0 p theta lastU = .ok (cons, 0) := by
  obtain ⟨H, us, hp⟩ := Indirect.prepared_of R.prepare
  have hs := R.shootable
  have hd := R.dims
  obtain ⟨hf, rfl, -⟩ := R.built
  obtain ⟨cons, h, -⟩ := C94_feasible_iff _ b x0 p theta lastU hs (by rw [hd]; exact hb) (fun h => by
    rw [Own.Shots.no_limits_of (q := { q with V := .const 0 }) (by
      simp only [hp.limits.1, hp.limits.2, hp.known.2.2.2.2]
      exact R.posed.problem.unlimited)] at h
    cases h)
  refine ⟨cons, ?_⟩
  rw [h]
  simp [shootingCost, Own.Shots.built, Ocp.shootingOf]

theorem hamiltonian_ok : ∃ H, o.hamiltonian (addedTo o q).lamb (addedTo o q).nu = .ok H := by
  obtain ⟨H, us, hp⟩ := Indirect.prepared_of R.prepare
  refine ⟨H, ?_⟩
  simp only [addedTo, hp.x, hp.y, List.drop_left]
  exact hp.hamiltonian

theorem value_iff (hops : MinMax ops opFmin opFmax) {b : Blocks ℝ}
    (hb : ShootingShape (indirectDims o (indirectMesh opts)) b) {x0 p : List ℝ} {theta : List (List ℝ)}
    (hd : IndirectData o (indirectMesh opts) x0 p theta) (lastU : Option (List ℝ))
    {X : Nat → ℝ → Sym → ℝ}
    (hX : ExtremalPaths B ops o (addedTo o q) (indirectMesh opts) x0 p theta b X) :
    ∃ cons, m.discretize b x0 p theta lastU = .ok (cons, 0) ∧
      ((∀ c ∈ cons, c.Holds) ↔ ShotExtremal ops o (addedTo o q) (indirectMesh opts) b X) := by
  obtain ⟨H, hH⟩ := R.hamiltonian_ok
  have ho := R.posed.problem
  exact C185_partial B ops hops integ false names.base names.xc names.fresh o q R.prepare ho R.posed.ends
    (indirectMesh opts) R.posed.elements m R.shooting (fun el hel d hd => by
      refine R.posed.exact el hel d hd _ _ le_rfl ?_ le_rfl
      have h₁ : (o.t0 : ℝ) < (o.tf : ℝ) := by exact_mod_cast ho.horizon
      have h₂ : (0 : ℝ) < ((indirectMesh opts).elements : ℝ) := by exact_mod_cast R.posed.elements
      unfold nodeTime
      exact mul_lt_mul_of_pos_left (by push_cast; linarith) (div_pos (sub_pos.mpr h₁) h₂))
    b hb x0 p theta hd lastU H hH X hX.paths (fun el _ t _ => R.posed.solvable H hH _) hX.known

/-- The program that is built. -/
structure Builds (opts : Options) (names : NewNames) (o q : Ocp) (m : ShootingMethod ℝ)
    (P : Program ℝ) : Prop where
  shots : P.shots = m
  vars : P.vars = shotVars (indirectDims o (indirectMesh opts)) names.var
  x : P.nlp.x = stacked (shotVars (indirectDims o (indirectMesh opts)) names.var)
  lb : P.nlp.xLb = stacked (lowerBlocks (indirectDims o (indirectMesh opts)) (opts.elements + 1) 1 1
    (varBounds q))
  ub : P.nlp.xUb = stacked (upperBlocks (indirectDims o (indirectMesh opts)) (opts.elements + 1) 1 1
    (varBounds q))
  setup : P.setup = setup opts.common q

theorem build_ok : ∃ P, build ops integ opts names q = .ok P ∧ Builds opts names o q m P := by
  have hbd := R.posed.bounds
  obtain ⟨vars, nlp, hc⟩ := succeeds_createVariables (indirectDims o (indirectMesh opts))
    (opts.elements + 1) 1 1 names.var R.posed.newVars.toSymSizes (varBounds q) R.base.varBounds_eq
    (fits_free _ hbd.x) (fits_free _ hbd.y) hbd.u hbd.pOpt hbd.thetaOpt {}
  obtain ⟨rfl, hx, hlb, hub⟩ := creates_variables _ _ _ _ names.var R.posed.newVars.toSymSizes
    (varBounds q) _ _ _ hc
  let P : Program ℝ := ⟨m, shotVars (indirectDims o (indirectMesh opts)) names.var, nlp,
    setup opts.common q⟩
  refine ⟨P, ?_, ⟨rfl, rfl, hx, hlb, hub, rfl⟩⟩
  have hb : ShootingShape (indirectDims o (indirectMesh opts))
      (readVars (valueIn P.nlp.x ([] : List ℝ)) P.vars) := shape_readVars R.posed.newVars.toSymSizes _
  obtain ⟨cons, he⟩ := R.value_ok hb ((List.range P.setup.nX).map fun i => P.parameter [] (.x0 i))
    ((List.range P.setup.nP).map fun i => P.parameter [] (.p i))
    ((List.range P.setup.elements).map fun el =>
      (List.range P.setup.nTheta).map fun i => P.parameter [] (.theta el i))
    (Transcription.lastControlArgument P.setup.lastControlAsParameter
      ((List.range P.setup.nU).map fun i => P.parameter [] (.lastU i)))
  have hc' : createShooting (indirectDims o (indirectMesh opts)) names.var (varBounds q) {} =
      (.ok (shotVars (indirectDims o (indirectMesh opts)) names.var), nlp) := hc
  have he' : Program.evaluate ⟨m, shotVars (indirectDims o (indirectMesh opts)) names.var, nlp,
      setup opts.common q⟩ [] [] = .ok (cons, 0) := he
  unfold build
  rw [R.base.dims_eq, hc']
  simp only [R.shooting, bind, Except.bind]
  rw [he']

/-! ### The call of the solver -/

/-- The call of the solver: constraints and objective are those of the prepared problem with the data
of the user. -/
theorem call_ok {P : Program ℝ} (hP : Builds opts names o q m P) {x0 p l : List ℝ}
    {theta : List (List ℝ)} (hd : IndirectData o (indirectMesh opts) x0 p theta)
    (hl : l.length =
      if (setup (K := ℝ) opts.common q).lastControlAsParameter then o.model.u.length else 0)
    (c : CallArgs ℝ) (hc : c.par = p ++ (thetaOf opts theta).flatten ++ x0 ++ l) :
    ∃ call lastU, P.call c = .ok call ∧ call.lb = P.nlp.xLb ∧ call.ub = P.nlp.xUb ∧
      ∀ v, call.value v = m.discretize (readVars (valueIn P.nlp.x v) P.vars) x0 p
        (thetaOf opts theta) lastU := by
  obtain ⟨H, us, hpr⟩ := Indirect.prepared_of R.prepare
  have hx : q.model.x.length = o.model.x.length + o.model.x.length := congrArg Dims.nX R.base.dims_eq
  obtain ⟨h₁, h₂, h₃, h₄, h₅⟩ := SolveDirect.parameters_read (setup (K := ℝ) opts.common q)
    R.base.hasParameters p x0 l (thetaOf opts theta) (by rw [hd.p, ← hpr.known.2.2.1]; rfl)
    ⟨by simp [thetaOf, setup, Options.common], fun col hcol => by
      obtain ⟨el, hel, rfl⟩ := List.mem_map.mp hcol
      rw [hd.theta el (List.mem_range.mp hel), ← hpr.known.2.2.2.1]
      rfl⟩
    (by rw [hd.x0]; exact hx.symm) (by rw [hl, ← hpr.known.2.2.2.2]; rfl)
  refine ⟨⟨P.evaluate c.par, P.nlp.xLb, P.nlp.xUb, c.initialGuess, c.lamX, c.lamG⟩,
    Transcription.lastControlArgument (setup (K := ℝ) opts.common q).lastControlAsParameter
      ((List.range (setup (K := ℝ) opts.common q).nU).map fun i =>
        valueIn (setup (K := ℝ) opts.common q).nlpParameters (p ++ (thetaOf opts theta).flatten ++ x0 ++ l)
          (.lastU i)), ?_, rfl, rfl, fun v => ?_⟩
  · unfold SolveShooting.Program.call
    rw [if_neg (by rw [not_not, hc, hP.setup]; exact h₁), if_neg (by
      rw [not_not, hP.setup]
      unfold MethodSetup.freeSymbols
      rw [if_pos R.base.hasParameters])]
  · show P.evaluate c.par v = _
    unfold SolveShooting.Program.evaluate SolveShooting.Program.parameter
    rw [hP.setup, hP.shots, hc, h₂, h₃, h₄]

omit R in
theorem paths_thetaOf {a : Added} {b : Blocks ℝ} {x0 p : List ℝ} {theta : List (List ℝ)}
    {X : Nat → ℝ → Sym → ℝ} (h : ExtremalPaths B ops o a (indirectMesh opts) x0 p theta b X) :
    ExtremalPaths B ops o a (indirectMesh opts) x0 p (thetaOf opts theta) b X := by
  refine ⟨fun el hel => ?_, h.known⟩
  have hel' : el < opts.elements := hel
  have P := h.paths el hel
  refine ⟨fun t ht => ?_, P.start, P.controls, P.ode, P.costate, P.alg, P.stationary⟩
  have hr := P.known t ht
  refine ⟨hr.time, hr.position, hr.parameters, hr.optimised, fun i s hi hs => ?_, hr.optimisedThetas,
    hr.starts, hr.etas⟩
  rw [hr.thetas i s hi hs]
  simp [thetaOf, hel']

theorem shaped {b : Blocks ℝ} (hb : ShootingShape (indirectDims o (indirectMesh opts)) b) :
    Shaped (indirectDims o (indirectMesh opts)) (opts.elements + 1) 1 1 b :=
  ⟨hb.toSharedShape, hb.x, hb.y⟩

theorem no_controls {b : Blocks ℝ} (hb : ShootingShape (indirectDims o (indirectMesh opts)) b) :
    ∀ el ∈ b.u, el = [] := by
  intro el hel
  have hc : controlPoints (indirectDims o (indirectMesh opts)) = 0 := by
    simp [controlPoints, indirectDims]
  have := hb.u
  rw [hc] at this
  simpa using (this.2 el hel).1

/-- A decision vector is feasible exactly when it fits together to an extremal within the bounds. -/
theorem feasible_iff (hops : MinMax ops opFmin opFmax) {P : Program ℝ}
    (hP : Builds opts names o q m P) {x0 p : List ℝ} {theta : List (List ℝ)}
    (hd : IndirectData o (indirectMesh opts) x0 p theta) {call : SolverCall ℝ}
    (hlb : call.lb = P.nlp.xLb) (hub : call.ub = P.nlp.xUb) {lastU : Option (List ℝ)}
    (hval : ∀ v, call.value v = m.discretize (readVars (valueIn P.nlp.x v) P.vars) x0 p
      (thetaOf opts theta) lastU) {b : Blocks ℝ}
    (hb : ShootingShape (indirectDims o (indirectMesh opts)) b) {X : Nat → ℝ → Sym → ℝ}
    (hX : ExtremalPaths B ops o (addedTo o q) (indirectMesh opts) x0 p theta b X) :
    CallFeasible ops call (stacked b) ↔ WithinIndirect o b ∧
      ShotExtremal ops o (addedTo o q) (indirectMesh opts) b X := by
  have hbd := R.posed.bounds
  have hread : readVars (valueIn P.nlp.x (stacked b)) P.vars = b := by
    rw [hP.x, hP.vars]
    exact readShots_stacked R.posed.newVars hb
  obtain ⟨cons, h₁, h₂⟩ := R.value_iff hops hb (data_thetaOf hd) lastU (paths_thetaOf hX)
  have hv : call.value (stacked b) = .ok (cons, 0) := by rw [hval, hread, h₁]
  have hbounds := shaped_bounds ops (R.shaped hb) R.base.varBounds_eq (fits_free _ hbd.x)
    (fits_free _ hbd.y) hbd.u hbd.pOpt hbd.thetaOpt
  have hsize : (stacked b).length = call.lb.length := by
    rw [hlb, hP.lb]
    exact (shaped_length (R.shaped hb) R.base.varBounds_eq (fits_free _ hbd.x) (fits_free _ hbd.y) hbd.u
      hbd.pOpt hbd.thetaOpt).symm
  have hu := R.no_controls hb
  refine ⟨fun h => ?_, fun h => ?_⟩
  · obtain ⟨hx, hy, -, hp, ht⟩ := hbounds.mp (fun i a l u hi hl hu => h.bounds i a l u hi
      (by rw [hlb, hP.lb]; exact hl) (by rw [hub, hP.ub]; exact hu))
    refine ⟨⟨fun el hel col hcol => (within_free _ hbd.x col).mp (hx el hel col hcol),
      fun el hel col hcol => (within_free _ hbd.y col).mp (hy el hel col hcol), hp, ht⟩, h₂.mp ?_⟩
    obtain ⟨cons', f, hc, hh⟩ := h.constraints
    rw [hv] at hc
    simp only [Except.ok.injEq, Prod.mk.injEq] at hc
    rw [hc.1]
    exact hh
  · refine ⟨hsize, fun i a l u hi hl hu' => ?_, cons, _, hv, h₂.mpr h.2⟩
    refine hbounds.mpr ⟨fun el hel col hcol => (within_free _ hbd.x col).mpr (h.1.x el hel col hcol),
      fun el hel col hcol => (within_free _ hbd.y col).mpr (h.1.y el hel col hcol), ?_, h.1.pOpt,
      h.1.thetaOpt⟩ i a l u hi (by rw [hlb, hP.lb] at hl; exact hl) (by rw [hub, hP.ub] at hu'; exact hu')
    intro el hel col hcol
    rw [hu el hel] at hcol
    cases hcol

/-! ### The result -/

omit R in
theorem simulate_law (law : Fun) (value : Point ℝ → List ℝ)
    (hv : ∀ pt, value pt = law.callAt ops pt) (d : Dae) (b : Blocks ℝ) (p theta : List ℝ) (el : Nat)
    (hu : b.u.getD el [] = [])
    (hs : ∀ t t' x, m.simulate el t t' x p theta [] = integ d t t' x (p ++ theta)) :
    ∀ (ts : List ℝ) (t : ℝ) (x : List ℝ), (m.simulateAll b p theta el t x ts).map value =
      Ocp.lawAlong ops integ d law p theta t x ts := by
  intro ts
  induction ts with
  | nil => intro t x; rfl
  | cons t' ts ih =>
    intro t x
    have hvec : Transcription.vectorize (b.u.getD el []) = [] := by rw [hu]; rfl
    unfold ShootingMethod.simulateAll Ocp.lawAlong
    simp only [hvec, hs, List.map_cons, hv, ih]

/-- The controls are computed as in `Ocp.elementControls`. -/
theorem controls_eq {b : Blocks ℝ} (hb : ShootingShape (indirectDims o (indirectMesh opts)) b)
    (p : List ℝ) (theta : List (List ℝ)) (el : Nat) (hel : el < opts.elements) :
    m.controlValues (controlLaw ops opts q) b p theta el =
      q.elementControls ops integ opts.roots opts.elements b p theta el := by
  obtain ⟨H, us, hp⟩ := Indirect.prepared_of R.prepare
  obtain ⟨hf, hm, laws, hlaws⟩ := R.built
  obtain ⟨hu, hlaw⟩ := law_ok hlaws R.posed.elements
  have hdae : q.elementDae opts.elements el = .ok (Ocp.daeOf { q with V := .const 0 } opts.elements el) :=
    (Ocp.elementDae_ok (o := { q with V := .const 0 }) el _).mpr ⟨hf.dynamics, rfl⟩
  have hbreak : ((q.timeBreakpoint opts.elements el : Rat) : ℝ) = m.toTranscription.breakpoint el := by
    rw [R.break_eq el hel.le]
    simp [Ocp.timeBreakpoint, nodeTime, stepLength, hp.times.1, hp.times.2, indirectMesh]
  have htimes : m.toTranscription.controlTimes (controlLaw ops opts q) el =
      q.controlTimes opts.roots opts.elements el := by
    have hc : m.toTranscription.dims.degreeControl = opts.roots.length :=
      congrArg Dims.degreeControl R.dims
    have hdt : m.toTranscription.deltaT = ((q.tf : ℝ) - (q.t0 : ℝ)) / (opts.elements : ℝ) := by
      rw [hm]; rfl
    unfold Transcription.controlTimes Ocp.controlTimes Ocp.controlPositions
    rw [hc, hbreak, hdt]
    rfl
  have hu0 : b.u.getD el [] = [] := by
    rw [List.getD_eq_getElem?_getD]
    cases h : b.u[el]? with
    | none => rfl
    | some l => exact R.no_controls hb l (List.mem_of_getElem? h)
  have hsim : ∀ t t' x, m.simulate el t t' x p (theta.getD el []) [] =
      integ (Ocp.daeOf { q with V := .const 0 } opts.elements el) t t' x (p ++ theta.getD el []) := by
    intro t t' x
    rw [hm]
    show integ (Ocp.daeAt _ el) t t' x _ = _
    rw [Direct.ShotBase.dae_at el hel, List.append_nil]
    rfl
  have hmem : ∀ (t : ℝ) (ts : List ℝ), t ∈ ts.dedup.insertionSort (fun a b => a ≤ b) ↔ t ∈ ts := by
    intro t ts
    rw [(List.perm_insertionSort _ _).mem_iff, List.mem_dedup]
  unfold ShootingMethod.controlValues Ocp.elementControls
  cases h₁ : itemAt b.x el with
  | error e => rfl
  | ok xs =>
    simp only [bind, Except.bind]
    cases h₂ : itemAt xs 0 with
    | error e => rfl
    | ok x =>
      simp only [hdae, hlaw el hel, hbreak]
      unfold ShootingMethod.startControl Transcription.sortedTimes
      rw [htimes]
      by_cases h : m.toTranscription.breakpoint el ∈ q.controlTimes opts.roots opts.elements el
      · rw [if_pos h, if_pos ((hmem _ _).mpr h)]
        rfl
      · rw [if_neg h, if_neg (fun hh => h ((hmem _ _).mp hh))]
        show Except.ok _ = _
        rw [List.nil_append, simulate_law ⟨q.model.allSym, q.model.uExpr.map (q.inTime opts.elements el)⟩
          ((controlLaw ops opts q).value el) (fun _ => rfl) _ b p _ el hu0 hsim]

theorem reported_eq {b : Blocks ℝ} (hb : ShootingShape (indirectDims o (indirectMesh opts)) b)
    (p : List ℝ) (theta : List (List ℝ)) :
    m.reportedControls b (m.controlValues (controlLaw ops opts q) b p theta) =
      q.reportedControls ops integ opts.roots opts.elements b p theta := by
  have hel : m.dims.elements = opts.elements := congrArg Dims.elements R.dims
  have hlen : b.u.length = opts.elements := hb.u.1
  have hfirst : itemAt b.u 0 = .ok [] := by
    have h := R.posed.elements
    have : b.u[0]? = some [] := by
      rw [List.getElem?_eq_getElem (by omega)]
      exact congrArg some (R.no_controls hb _ (List.getElem_mem _))
    unfold itemAt
    rw [this]
  unfold Transcription.reportedControls Ocp.reportedControls
  rw [hfirst]
  simp only [bind, Except.bind]
  rw [if_pos (show ([] : List (List ℝ)).length = 0 from rfl), hel]
  have key : ∀ l : List Nat, (∀ el ∈ l, el < opts.elements) →
      l.mapM (m.controlValues (controlLaw ops opts q) b p theta) =
      l.mapM (q.elementControls ops integ opts.roots opts.elements b p theta) := by
    intro l hl
    induction l with
    | nil => rfl
    | cons el l ih =>
      rw [List.mapM_cons, List.mapM_cons, R.controls_eq hb p theta el (hl el (by simp)),
        ih fun e he => hl e (by simp [he])]
  exact key _ fun el h => List.mem_range.mp h

/-- With more than one collocation point the controls can be computed. -/
theorem reported_ok (hM : GoodMesh (indirectMesh opts)) {b : Blocks ℝ}
    (hb : ShootingShape (indirectDims o (indirectMesh opts)) b) (p : List ℝ) (theta : List (List ℝ)) :
    ∃ us, q.reportedControls ops integ opts.roots opts.elements b p theta = .ok us := by
  obtain ⟨H, us, hp⟩ := Indirect.prepared_of R.prepare
  obtain ⟨hf, -, laws, hlaws⟩ := R.built
  obtain ⟨hu, hlaw⟩ := law_ok hlaws R.posed.elements
  have hpos : (0 : ℝ) < ((q.tf : ℝ) - (q.t0 : ℝ)) / (opts.elements : ℝ) := by
    rw [hp.times.1, hp.times.2]
    have h₁ : (o.t0 : ℝ) < (o.tf : ℝ) := by exact_mod_cast R.posed.problem.horizon
    have h₂ : (0 : ℝ) < (opts.elements : ℝ) := by exact_mod_cast R.posed.elements
    exact div_pos (sub_pos.mpr h₁) h₂
  have hel : ∀ el < opts.elements, ∃ u,
      q.elementControls ops integ opts.roots opts.elements b p theta el = .ok u := by
    intro el hel
    have hdae : q.elementDae opts.elements el =
        .ok (Ocp.daeOf { q with V := .const 0 } opts.elements el) :=
      (Ocp.elementDae_ok (o := { q with V := .const 0 }) el _).mpr ⟨hf.dynamics, rfl⟩
    have hx := Transcription.grid_columns hb.x (show el < opts.elements + 1 by omega)
    have hx1 : itemAt b.x el = .ok (b.x.getD el []) := by
      have : b.x[el]? = some (b.x.getD el []) :=
        Transcription.getElem?_getD [] (by rw [hb.x.1]; exact Nat.lt_succ_of_lt hel)
      unfold itemAt
      rw [this]
    have hx0 : itemAt (b.x.getD el []) 0 = .ok ((b.x.getD el []).getD 0 []) := by
      have : (b.x.getD el [])[0]? = some ((b.x.getD el []).getD 0 []) :=
        Transcription.getElem?_getD [] (by rw [hx.1]; omega)
      unfold itemAt
      rw [this]
    unfold Ocp.elementControls
    simp only [bind, Except.bind, hx1, hx0, hlaw el hel, hdae]
    rw [if_neg]
    · exact ⟨_, rfl⟩
    · rw [(List.perm_insertionSort _ _).mem_iff, List.mem_dedup]
      intro h
      have h1 : opts.roots.length ≠ 1 := by
        have : 1 < opts.roots.length := hM.points
        omega
      simp only [Ocp.controlTimes, Ocp.controlPositions, if_neg h1, List.map_map, List.mem_map,
        Function.comp] at h
      obtain ⟨r, hr, h⟩ := h
      have hr0 : (0 : ℝ) < (r : ℝ) := by
        exact_mod_cast (List.pairwise_cons.mp hM.increasing).1 r hr
      have := mul_pos hpos hr0
      linarith
  choose! u hu' using hel
  exact ⟨_, mapM_ok _ u _ fun el h => hu' el (List.mem_range.mp h)⟩

/-- With one collocation point there is no result. -/
theorem report_fails (h1 : opts.roots.length = 1) {b : Blocks ℝ}
    (hb : ShootingShape (indirectDims o (indirectMesh opts)) b) (p : List ℝ) (theta : List (List ℝ))
    (raw : RawSolution ℝ) (hraw : raw.x = stacked b) :
    m.report (controlLaw ops opts q) p theta raw = .error .notImplementedError := by
  have hblocks : Layout.shootingBlocks m.dims raw.x = .ok b := by
    rw [hraw, R.dims]
    exact Layout.shootingBlocks_stacked hb
  unfold ShootingMethod.report
  rw [hblocks]
  simp only [bind, Except.bind]
  have h : q.reportedControls ops integ opts.roots opts.elements b (m.fullP b p) (m.fullTheta b theta) =
      .error .notImplementedError :=
    C185_degree_fails ops integ q (indirectMesh opts) R.posed.elements h1 m R.shooting b
      (by rw [R.dims]; exact hb) _ _
  rw [R.reported_eq hb, h]

/-- The result shows the decision vector and the controls. -/
theorem report_shows (hops : MinMax ops opFmin opFmax) (hM : GoodMesh (indirectMesh opts)) {b : Blocks ℝ}
    (hb : ShootingShape (indirectDims o (indirectMesh opts)) b) {x0 p : List ℝ}
    {theta : List (List ℝ)} (hd : IndirectData o (indirectMesh opts) x0 p theta) (raw : RawSolution ℝ)
    (hraw : raw.x = stacked b) :
    ∃ r, m.report (controlLaw ops opts q) p (thetaOf opts theta) raw = .ok r ∧
      ShowsNodes o (indirectMesh opts) b r ∧
      (∀ X, ExtremalPaths B ops o (addedTo o q) (indirectMesh opts) x0 p theta b X →
        ShowsControls o (indirectMesh opts) X r) ∧
      r.raw = raw.x ∧ r.objective = raw.f ∧ r.success = raw.success := by
  have hblocks : Layout.shootingBlocks m.dims raw.x = .ok b := by
    rw [hraw, R.dims]
    exact Layout.shootingBlocks_stacked hb
  have hel : m.dims.elements = opts.elements := congrArg Dims.elements R.dims
  have hdc : m.dims.degreeControl = opts.roots.length := congrArg Dims.degreeControl R.dims
  obtain ⟨us, hus⟩ := R.reported_ok hM hb (m.fullP b p) (m.fullTheta b (thetaOf opts theta))
  refine ⟨{
    xValues := b.x
    xTime := (List.range (m.dims.elements + 1)).map fun k => [m.breakpoint k]
    yValues := b.y
    yTime := (List.range m.dims.elements).map fun el => [m.breakpoint (el + 1)]
    uValues := us
    uTime := m.reportedControlTimes (controlLaw ops opts q)
    eta := b.eta
    pOpt := b.pOpt
    thetaOpt := b.thetaOpt
    p := m.fullP b p
    theta := m.fullTheta b (thetaOf opts theta)
    objective := raw.f
    constraints := raw.g
    raw := raw.x
    success := raw.success }, ?_, ⟨?_, SolveShooting.ShotRun.grid_one hb.x, ?_,
    SolveShooting.ShotRun.grid_one hb.y, ?_, rfl, rfl, rfl⟩, fun X hX => ?_, rfl, rfl, rfl⟩
  · unfold ShootingMethod.report
    rw [hblocks]
    simp only [bind, Except.bind]
    rw [R.reported_eq hb, hus]
    rfl
  · show (List.range (m.dims.elements + 1)).map _ = _
    rw [hel]
    refine List.map_congr_left fun k hk => ?_
    have : k < opts.elements + 1 := List.mem_range.1 hk
    rw [R.break_eq k (by omega)]
  · show (List.range m.dims.elements).map _ = _
    rw [hel]
    refine List.map_congr_left fun el hel => ?_
    have : el < opts.elements := List.mem_range.1 hel
    rw [R.break_eq (el + 1) this]
  · show m.reportedControlTimes (controlLaw ops opts q) = _
    unfold ShootingMethod.reportedControlTimes
    rw [hel, hdc]
    refine List.map_congr_left fun el hel => ?_
    have hlt : el < opts.elements := List.mem_range.1 hel
    rw [if_neg (by
      have : 1 < opts.roots.length := hM.points
      omega), R.break_eq el hlt.le]
    show ((opts.roots.map (Rat.cast : Rat → ℝ))).map _ = _
    rw [List.map_map]
    refine List.map_congr_left fun r _ => ?_
    have hdt : m.toTranscription.deltaT = stepLength o (indirectMesh opts) := R.step
    simp only [Function.comp, hdt]
  · obtain ⟨H, hH⟩ := R.hamiltonian_ok
    have hX' := paths_thetaOf hX
    have := C185_controls_partial B ops hops integ false names.base names.xc names.fresh o q R.prepare
      R.posed.problem R.posed.ends (indirectMesh opts) hM m R.shooting R.posed.exact b hb x0 p
      (thetaOf opts theta) (data_thetaOf hd) H hH X hX'.paths (fun el _ t _ => R.posed.solvable H hH _)
      hX'.known
    exact Except.ok.inj (hus.symm.trans this)

end Run

section Solve

/-- The first call creates the program. -/
theorem created (R : Run B ops integ opts names o q m) :
    ∃ P, Run.Builds opts names o q m P ∧
      createProgram B ops integ opts names ⟨o, false, none⟩ =
        (.ok P, (⟨q, true, some P⟩ : State ℝ)) := by
  obtain ⟨P, hP, hB⟩ := R.build_ok
  refine ⟨P, hB, ?_⟩
  have h₁ : preparation (K := ℝ) B opts names ⟨o, false, none⟩ = (.ok (), ⟨q, true, none⟩) := by
    have h₀ : prepareProblem (K := ℝ) B opts names ⟨o, false, none⟩ = (.ok (), ⟨q, false, none⟩) := by
      unfold prepareProblem
      simp only [R.posed.cost.1, R.prepare]
    unfold preparation
    simp only [Py.bind_eq, Py.get_bind, Bool.false_eq_true, if_false]
    rw [Py.bind_ok h₀]
    rfl
  unfold createProgram
  simp only [Py.bind_eq]
  rw [Py.bind_ok h₁]
  simp only [Py.get_bind]
  rw [hP]
  rfl

/-- What `solve` does once there is a program. -/
theorem solve_eq {sim info : List ℝ → Theta ℝ → Except Err (List ℝ)}
    {solver : SolverCall ℝ → Except Err (RawSolution ℝ)} {a : SolveArgs ℝ} {st st' : State ℝ}
    {P : Program ℝ} (h : program B ops integ opts names st = (.ok P, st')) :
    solve B ops integ opts names sim info solver a st =
      ((do
        let c ← (setup opts.common st'.problem).callArgs sim info a
        let call ← P.call c
        let raw ← solver call
        result ops opts st'.problem P c raw), st') := by
  unfold solve
  simp only [Py.bind_eq]
  rw [Py.bind_ok h]
  simp only [Py.get_bind]
  cases h₁ : (setup opts.common st'.problem).callArgs sim info a with
  | error e => rfl
  | ok c =>
    rw [Py.lift_ok_bind]
    simp only [bind, Except.bind]
    cases h₂ : P.call c with
    | error e => rfl
    | ok call =>
      rw [Py.lift_ok_bind]
      simp only
      cases h₃ : solver call with
      | error e => rfl
      | ok raw => rfl

/-- A call of `solve` up to the result. -/
theorem solve_call (R : Run B ops integ opts names o q m)
    (hops : MinMax ops opFmin opFmax)
    (sim info : List ℝ → Theta ℝ → Except Err (List ℝ))
    (solver : SolverCall ℝ → Except Err (RawSolution ℝ)) (a : SolveArgs ℝ) (x0 p : List ℝ)
    (theta : List (List ℝ)) (hd : IndirectData o (indirectMesh opts) x0 p theta)
    (ha : IndirectArgs o opts a info x0 p theta) (hs : GoodSolver ops solver) :
    ∃ b call raw, ShootingShape (indirectDims o (indirectMesh opts)) b ∧
      solver call = .ok raw ∧ raw.x = stacked b ∧
      (solve B ops integ opts names sim info solver a ⟨o, false, none⟩).1 =
        (m.report (controlLaw ops opts q) p (thetaOf opts theta) raw).map (fun r => ⟨r, none, x0⟩) ∧
      (∀ b', ShootingShape (indirectDims o (indirectMesh opts)) b' → ∀ X,
        ExtremalPaths B ops o (addedTo o q) (indirectMesh opts) x0 p theta b' X →
        (CallFeasible ops call (stacked b') ↔ WithinIndirect o b' ∧
          ShotExtremal ops o (addedTo o q) (indirectMesh opts) b' X)) ∧
      (∀ b', ShootingShape (indirectDims o (indirectMesh opts)) b' →
        ∃ cons, call.value (stacked b') = .ok (cons, 0)) ∧
      ∀ v : List ℝ, v.length = call.lb.length → ∃ b' : Blocks ℝ,
        ShootingShape (indirectDims o (indirectMesh opts)) b' ∧ stacked b' = v := by
  obtain ⟨P, hP, hcr⟩ := created R
  obtain ⟨c, l, hca, hcx, hcp, hcpar, hl, hcth⟩ := R.base.args_ok (sim := sim) hd ha
  obtain ⟨call, lastU, hcall, hlb, hub, hval⟩ := R.call_ok hP hd hl c hcpar
  obtain ⟨raw, hraw, hsize, hmin⟩ := hs call
  have hbd := R.posed.bounds
  have hshape : ∀ v : List ℝ, ShootingShape (indirectDims o (indirectMesh opts))
      (readVars (valueIn P.nlp.x v) P.vars) := by
    intro v
    rw [hP.vars]
    exact shape_readVars R.posed.newVars.toSymSizes _
  have hread : ∀ v : List ℝ, v.length = call.lb.length →
      stacked (readVars (valueIn P.nlp.x v) P.vars) = v := by
    intro v hv
    have hdv := hshape v
    rw [hP.vars, hP.x]
    refine stacked_readShots R.posed.newVars _ ?_
    rw [hv, hlb, hP.lb, ← stacked_shape_length R.posed.newVars.toSymSizes hdv]
    exact shaped_length (R.shaped hdv) R.base.varBounds_eq (fits_free _ hbd.x) (fits_free _ hbd.y) hbd.u
      hbd.pOpt hbd.thetaOpt
  refine ⟨_, call, raw, hshape raw.x, hraw, (hread _ hsize).symm, ?_,
    fun b' hb' X hX => R.feasible_iff hops hP hd hlb hub hval hb' hX, fun b' hb' => ?_,
    fun v hv => ⟨_, hshape v, hread v hv⟩⟩
  · rw [solve_eq (st' := ⟨q, true, some P⟩) (P := P) (by unfold program; exact hcr)]
    simp only [hca, hcall, hraw, bind, Except.bind]
    unfold result
    rw [hP.shots, hcp, hcth, hcx]
    cases m.report (controlLaw ops opts q) p (thetaOf opts theta) raw with
    | error e => rfl
    | ok r =>
      simp only [bind, Except.bind]
      rw [R.base.kept.xCost, R.posed.cost.2]
      rfl
  · obtain ⟨cons, h⟩ := R.value_ok hb' x0 p (thetaOf opts theta) lastU
    refine ⟨cons, ?_⟩
    rw [hval, hP.x, hP.vars, readShots_stacked R.posed.newVars hb', h]

/-- A call of `solve` with more than one collocation point. -/
theorem solve_core (R : Run B ops integ opts names o q m)
    (hops : MinMax ops opFmin opFmax) (hM : GoodMesh (indirectMesh opts))
    (sim info : List ℝ → Theta ℝ → Except Err (List ℝ))
    (solver : SolverCall ℝ → Except Err (RawSolution ℝ)) (a : SolveArgs ℝ) (x0 p : List ℝ)
    (theta : List (List ℝ)) (hd : IndirectData o (indirectMesh opts) x0 p theta)
    (ha : IndirectArgs o opts a info x0 p theta) (hs : GoodSolver ops solver) :
    ∃ r b call raw, (solve B ops integ opts names sim info solver a ⟨o, false, none⟩).1 = .ok r ∧
      ShootingShape (indirectDims o (indirectMesh opts)) b ∧ r.report.raw = stacked b ∧
      ShowsNodes o (indirectMesh opts) b r.report ∧
      (∀ X, ExtremalPaths B ops o (addedTo o q) (indirectMesh opts) x0 p theta b X →
        ShowsControls o (indirectMesh opts) X r.report) ∧ r.x0 = x0 ∧ r.xCFinal = none ∧
      solver call = .ok raw ∧ raw.x = stacked b ∧ r.report.success = raw.success ∧
      r.report.objective = raw.f ∧
      (∀ b', ShootingShape (indirectDims o (indirectMesh opts)) b' → ∀ X,
        ExtremalPaths B ops o (addedTo o q) (indirectMesh opts) x0 p theta b' X →
        (CallFeasible ops call (stacked b') ↔ WithinIndirect o b' ∧
          ShotExtremal ops o (addedTo o q) (indirectMesh opts) b' X)) ∧
      (∀ b', ShootingShape (indirectDims o (indirectMesh opts)) b' →
        ∃ cons, call.value (stacked b') = .ok (cons, 0)) ∧
      ∀ v : List ℝ, v.length = call.lb.length → ∃ b' : Blocks ℝ,
        ShootingShape (indirectDims o (indirectMesh opts)) b' ∧ stacked b' = v := by
  obtain ⟨b, call, raw, hb, hraw, hrx, hsol, h₁, h₂, h₃⟩ :=
    solve_call R hops sim info solver a x0 p theta hd ha hs
  obtain ⟨rep, hrep, hshow, hcon, hrr, hro, hrs⟩ := R.report_shows hops hM hb hd raw hrx
  refine ⟨⟨rep, none, x0⟩, b, call, raw, ?_, hb, by rw [hrr, hrx], hshow, hcon, rfl, rfl, hraw, hrx, hrs,
    hro, h₁, h₂, h₃⟩
  rw [hsol, hrep]
  rfl

end Solve
end SolveShootIndirect
end Verif
