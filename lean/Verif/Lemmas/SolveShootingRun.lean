import Verif.Lemmas.SolveDirectRun
import Verif.Lemmas.ShotSolution
import Verif.Props.Shooting
import Verif.Spec.SolveShooting
/-! Lemmas on a run of `solve` of a direct method with multiple shooting. -/
namespace Verif

namespace ShootingMethod
open Spec Transcription

variable {K : Type} [Field K] [LinearOrder K]

/-- Without limits on the changes of the controls the last control does not matter. -/
theorem discretize_unlimited (m : ShootingMethod K) (h : m.hasDeltaU = false)
    (b : Blocks K) (x0 p : List K) (theta : List (List K)) (l l' : Option (List K)) :
    m.discretize b x0 p theta l = m.discretize b x0 p theta l' := by
  have : ∀ l el, m.toTranscription.rates b l el = .ok [] := by
    intro l el
    unfold Transcription.rates
    rw [if_neg (by simp [h])]
    rfl
  have hc : ∀ r el, m.consOf b l r el = m.consOf b l' r el := by
    intro r el
    unfold consOf elementCons
    rw [this l, this l']
  unfold discretize
  simp only [funext (hc _)]

/-- An empty last control with a limit. -/
theorem discretize_without_last [IsStrictOrderedRing K] (m : ShootingMethod K) (b : Blocks K)
    (x0 p : List K) (theta : List (List K)) (lastU : List K) (h : Shootable m)
    (hb : ShootingShape m.dims b) (hr : RatesFit m.toTranscription none) (hd : m.hasDeltaU = true) :
    m.discretize b x0 p theta (lastControlArgument false lastU) = .error .runtimeError := by
  have hn := h.elements
  obtain ⟨n, hn'⟩ : ∃ n, m.dims.elements = n + 1 := ⟨m.dims.elements - 1, by omega⟩
  have h0 := grid_columns hb.x (show 0 < m.dims.elements + 1 by omega)
  have hx0 : b.x[0]? = some (b.x.getD 0 []) := getElem?_getD [] (by rw [hb.x.1]; omega)
  have hx00 : (b.x.getD 0 [])[0]? = some ((b.x.getD 0 []).getD 0 []) :=
    getElem?_getD [] (by rw [h0.1]; omega)
  have hrates := rates_without_last m.toTranscription b hb.toSharedShape hn hr hd
  have hres : resultOf ((List.range m.dims.elements).map
      (resultAt m b (m.fullP b p) (m.fullTheta b theta))) 0 =
        resultAt m b (m.fullP b p) (m.fullTheta b theta) 0 := by
    simp [resultOf, hn]
  have hx := grid_columns hb.x (show 0 + 1 < m.dims.elements + 1 by omega)
  have hxe : b.x[0 + 1]? = some (b.x.getD (0 + 1) []) := getElem?_getD [] (by rw [hb.x.1]; omega)
  have hxe0 : (b.x.getD (0 + 1) [])[0]? = some ((b.x.getD (0 + 1) []).getD 0 []) :=
    getElem?_getD [] (by rw [hx.1]; omega)
  have hy := grid_columns hb.y hn
  have hye : b.y[0]? = some (b.y.getD 0 []) := getElem?_getD [] (by rw [hb.y.1]; omega)
  have hy0 : (b.y.getD 0 [])[0]? = some ((b.y.getD 0 []).getD 0 []) :=
    getElem?_getD [] (by rw [hy.1]; omega)
  have hxl : ((b.x.getD (0 + 1) []).getD 0 []).length = m.dims.nX :=
    hx.2 _ (List.mem_of_getElem? hxe0)
  have hyl : ((b.y.getD 0 []).getD 0 []).length = m.dims.nY := hy.2 _ (List.mem_of_getElem? hy0)
  have hcons : m.consOf b (some []) ((List.range m.dims.elements).map
      (resultAt m b (m.fullP b p) (m.fullTheta b theta))) 0 = .error .runtimeError := by
    unfold consOf elementCons
    rw [hres, resultAt_key m b _ _ h 0 hn .x (by simp), resultAt_key m b _ _ h 0 hn .y (by simp),
      itemAt_ok (a := (shotEnd m b (m.fullP b p) (m.fullTheta b theta) 0).x) rfl, ok_bind,
      itemAt_ok (a := (shotEnd m b (m.fullP b p) (m.fullTheta b theta) 0).y) rfl, ok_bind,
      itemAt_ok hxe, ok_bind, itemAt_ok hxe0, ok_bind,
      show m.restartCost (shotEnd m b (m.fullP b p) (m.fullTheta b theta) 0).x =
        nextState m (shotEnd m b (m.fullP b p) (m.fullTheta b theta) 0).x from rfl,
      subColumns_eq (by rw [shot_x m b _ _ h 0 hn, hxl]), ok_bind, itemAt_ok hye, ok_bind,
      itemAt_ok hy0, ok_bind, subColumns_eq (by rw [shot_y m b _ _ h 0 hn, hyl]), ok_bind, hrates]
    rfl
  simp only [discretize, lastControlArgument]
  rw [itemAt_ok hx0, ok_bind, itemAt_ok hx00, ok_bind, mapM_ok _ _ _ fun el hel =>
      element_ok m b (m.fullP b p) (m.fullTheta b theta) h hb el (List.mem_range.mp hel), ok_bind]
  have : List.mapM (m.consOf b (some []) ((List.range m.dims.elements).map
      (resultAt m b (m.fullP b p) (m.fullTheta b theta)))) (List.range m.dims.elements) =
      .error .runtimeError := by
    conv_lhs => rw [hn', List.range_succ_eq_map]
    rw [hn'] at hcons
    exact mapM_error _ _ 0 _ (by rw [← List.range_succ_eq_map]; exact hcons)
  simp only [Bool.false_eq_true, if_false]
  rw [this]
  rfl

end ShootingMethod

namespace SolveShooting
open Spec Layout Direct SolveDirect
open ShotSetting (built)

/-! ## Decision vectors and blocks -/

section Vars
variable {d : Dims} {var : Kind → Nat → Nat → List Sym}

/-- The blocks of variables. -/
abbrev shotVars (d : Dims) (var : Kind → Nat → Nat → List Sym) : Blocks Sym :=
  variableBlocks d (d.elements + 1) 1 1 var

theorem shape_readVars {K : Type} (hv : SymSizes d var) (ρ : Sym → K) :
    ShootingShape d (readVars ρ (shotVars d var)) :=
  ⟨sharedShape_map ρ (variableBlocks_shared hv _ _ _), grid_map ρ (grid_table _ _ _ _ hv.x),
    grid_map ρ (grid_table _ _ _ _ hv.y)⟩

theorem stacked_readShots (hv : NewShots d var) (v : List ℝ)
    (hl : v.length = (stacked (shotVars d var)).length) :
    stacked (readVars (valueIn (stacked (shotVars d var)) v) (shotVars d var)) = v := by
  rw [readVars_eq, stacked_map]
  exact map_valueIn _ _ hv.different hl

theorem stacked_shape_length {K : Type} (hv : SymSizes d var) {b : Blocks K} (hb : ShootingShape d b) :
    (stacked b).length = (stacked (shotVars d var)).length := by
  have hs : ShootingShape d (shotVars d var) :=
    ⟨variableBlocks_shared hv _ _ _, grid_table _ _ _ _ hv.x, grid_table _ _ _ _ hv.y⟩
  rw [stacked_length hb, stacked_length hs]

theorem readShots_stacked (hv : NewShots d var) {b : Blocks ℝ} (hb : ShootingShape d b) :
    readVars (valueIn (stacked (shotVars d var)) (stacked b)) (shotVars d var) = b :=
  stacked_inj (shape_readVars hv.toSymSizes _) hb
    (stacked_readShots hv _ (stacked_shape_length hv.toSymSizes hb))

end Vars

/-! ## The program -/

variable {ops : Expr.Ops ℝ} {integ : DaeIntegrator ℝ} {opts : Options} {names : NewNames} {o q : Ocp}
  {S : Expr → Expr}

/-- The problem of the user and the prepared one, with an exact integrator. -/
structure ShotRun (ops : Expr.Ops ℝ) (integ : DaeIntegrator ℝ) (opts : Options) (names : NewNames)
    (o q : Ocp) (S : Expr → Expr) : Prop extends BaseRun opts names o q S where
  shot : ShotProblem o
  newVars : NewShots (directDims o (Spec.mesh opts)) names.var
  exact : ExactElements ops integ o q (Spec.mesh opts)

namespace ShotRun
variable (R : ShotRun ops integ opts names o q S)
include R

theorem base {b : Blocks ℝ} (hb : ShootingShape (directDims o (Spec.mesh opts)) b)
    {x0 p : List ℝ} {theta : List (List ℝ)} (hd : DataFits o (Spec.mesh opts) x0 p theta) :
    ShotBase ops integ (Spec.mesh opts) o q names.xc names.fresh names.base S b x0 p theta :=
  ⟨⟨R.controlMesh, R.problem, R.scope, R.new, R.prepared, hb.toSharedShape, hd⟩, R.shot, hb, R.exact⟩

omit R in
theorem zeroData (o : Ocp) (opts : Options) :
    DataFits o (Spec.mesh opts) (List.replicate o.model.x.length (0 : ℝ))
      (List.replicate o.model.p.length 0)
      (List.replicate opts.elements (List.replicate o.model.theta.length 0)) :=
  ⟨by simp, by simp, fun el hel => by
    have : el < opts.elements := hel
    simp [this]⟩

/-- What is discretised. -/
theorem shooting_ok (sum : Bool) :
    q.shooting ops integ opts.elements opts.roots.length opts.controlRoots.length sum =
      .ok (built ops integ (Spec.mesh opts) q sum) :=
  (Ocp.shooting_ok_iff ops integ _ _ _ _ _ R.controlMesh.elements _).mpr
    ⟨(R.base (shape_readVars R.newVars.toSymSizes fun _ => 0) (zeroData o opts)).scope_shot sum, rfl⟩

theorem built_dims (sum : Bool) : (built ops integ (Spec.mesh opts) q sum).dims =
    directDims o (Spec.mesh opts) := R.dims_eq

/-- The constraints can be built. -/
theorem value_ok (sum : Bool) {b : Blocks ℝ} (hb : ShootingShape (directDims o (Spec.mesh opts)) b)
    {x0 p : List ℝ} {theta : List (List ℝ)} (hd : DataFits o (Spec.mesh opts) x0 p theta)
    {L arg : Option (List ℝ)} (hl : LimitsFit o L) (ha : arg = L ∨ NoRateLimits o) :
    ∃ cons, (built ops integ (Spec.mesh opts) q sum).discretize b (x0 ++ [0]) p theta arg =
        .ok (cons, shootingCost (built ops integ (Spec.mesh opts) q sum) b
          ((built ops integ (Spec.mesh opts) q sum).fullP b p)
          ((built ops integ (Spec.mesh opts) q sum).fullTheta b theta)) ∧
      ((∀ c ∈ cons, c.Holds) ↔ Shoots (built ops integ (Spec.mesh opts) q sum) b (x0 ++ [0])
        ((built ops integ (Spec.mesh opts) q sum).fullP b p)
        ((built ops integ (Spec.mesh opts) q sum).fullTheta b theta) L) := by
  have C := R.base hb hd
  obtain ⟨cons, h₁, h₂⟩ := C94_feasible_iff (built ops integ (Spec.mesh opts) q sum) b (x0 ++ [0]) p theta L
    (C.shootable sum) (by rw [R.built_dims sum]; exact hb)
    (C.toCommon.limits_fit (m := (built ops integ (Spec.mesh opts) q sum).toTranscription)
      (R.built_dims sum) rfl rfl hl)
  refine ⟨cons, ?_, h₂⟩
  rw [← h₁]
  rcases ha with rfl | h
  · rfl
  · exact ShootingMethod.discretize_unlimited _
      (R.toBaseRun.unlimited (congrArg Dims.nU (R.built_dims sum)) rfl rfl hl h) _ _ _ _ _ _

/-- The constraints and the objective of the nonlinear program are those of the user. -/
theorem value_iff (sum : Bool) {b : Blocks ℝ} (hb : ShootingShape (directDims o (Spec.mesh opts)) b)
    {x0 p : List ℝ} {theta : List (List ℝ)} (hd : DataFits o (Spec.mesh opts) x0 p theta)
    {L arg : Option (List ℝ)} (hl : LimitsFit o L) (ha : arg = L ∨ NoRateLimits o) :
    ∃ cons cost, (built ops integ (Spec.mesh opts) q sum).discretize b (x0 ++ [0]) p theta arg =
        .ok (cons, cost) ∧
      ∀ X, Paths ops o (Spec.mesh opts) b x0 p theta X →
        ((∀ c ∈ cons, c.Holds) ↔ ShotSolution ops o (Spec.mesh opts) b L sum X) ∧
        (ShotSolution ops o (Spec.mesh opts) b L sum X → cost = shotCost ops o (Spec.mesh opts) sum X) := by
  obtain ⟨cons, h₁, h₂⟩ := R.value_ok sum hb hd hl ha
  refine ⟨cons, _, h₁, fun X hX => ?_⟩
  have C : ShotSetting ops integ (Spec.mesh opts) o q names.xc names.fresh names.base S b x0 p theta X :=
    ⟨R.base hb hd, hX⟩
  exact ⟨h₂.trans (C.shoots_iff sum L), fun h => C.cost_eq sum h⟩

/-- The program that is built. -/
structure Builds (ops : Expr.Ops ℝ) (integ : DaeIntegrator ℝ) (opts : Options) (sum : Bool)
    (names : NewNames) (o q : Ocp) (P : SolveShooting.Program ℝ) : Prop where
  shots : P.shots = built ops integ (Spec.mesh opts) q sum
  vars : P.vars = shotVars (directDims o (Spec.mesh opts)) names.var
  x : P.nlp.x = stacked (shotVars (directDims o (Spec.mesh opts)) names.var)
  lb : P.nlp.xLb = stacked (lowerBlocks (directDims o (Spec.mesh opts)) (opts.elements + 1) 1 1 (varBounds q))
  ub : P.nlp.xUb = stacked (upperBlocks (directDims o (Spec.mesh opts)) (opts.elements + 1) 1 1 (varBounds q))
  setup : P.setup = SolveDirect.setup opts q

/-- The variables. -/
theorem variables_ok : ∃ nlp, createShooting (directDims o (Spec.mesh opts)) names.var (varBounds q) {} =
      (.ok (shotVars (directDims o (Spec.mesh opts)) names.var), nlp) ∧
    nlp.x = stacked (shotVars (directDims o (Spec.mesh opts)) names.var) ∧
    nlp.xLb = stacked (lowerBlocks (directDims o (Spec.mesh opts)) (opts.elements + 1) 1 1 (varBounds q)) ∧
    nlp.xUb = stacked (upperBlocks (directDims o (Spec.mesh opts)) (opts.elements + 1) 1 1 (varBounds q)) := by
  obtain ⟨vars, nlp, hc⟩ := succeeds_createVariables (directDims o (Spec.mesh opts)) (opts.elements + 1) 1 1
    names.var R.newVars.toSymSizes (varBounds q) R.varBounds_eq (fits_cost _ R.bounds.x) R.bounds.y
    R.bounds.u R.bounds.pOpt R.bounds.thetaOpt {}
  obtain ⟨rfl, hx, hlb, hub⟩ := creates_variables _ _ _ _ names.var R.newVars.toSymSizes (varBounds q)
    _ _ _ hc
  exact ⟨nlp, hc, hx, hlb, hub⟩

theorem build_ok (sum : Bool) {L : Option (List ℝ)} (hl : LimitsFit o L) (hlast : LastFits o opts) :
    ∃ P, SolveShooting.build ops integ opts sum names q = .ok P ∧
      Builds ops integ opts sum names o q P := by
  obtain ⟨nlp, hc, hx, hlb, hub⟩ := R.variables_ok
  let P : SolveShooting.Program ℝ := ⟨built ops integ (Spec.mesh opts) q sum,
    shotVars (directDims o (Spec.mesh opts)) names.var, nlp, SolveDirect.setup opts q⟩
  refine ⟨P, ?_, ⟨rfl, rfl, hx, hlb, hub, rfl⟩⟩
  have hzero : ∀ slot, P.parameter [] slot = 0 := by
    intro slot
    unfold SolveShooting.Program.parameter valueIn
    rw [List.zip_nil_right]
    rfl
  have hx' : q.model.x.length = o.model.x.length + 1 := congrArg Dims.nX R.dims_eq
  have he : ∃ r, P.evaluate [] [] = .ok r := by
    have hb : ShootingShape (directDims o (Spec.mesh opts))
        (readVars (valueIn P.nlp.x ([] : List ℝ)) P.vars) := shape_readVars R.newVars.toSymSizes _
    have hd : DataFits o (Spec.mesh opts) (List.replicate o.model.x.length (0 : ℝ))
        ((List.range q.model.p.length).map fun _ => 0)
        ((List.range opts.elements).map fun _ => (List.range q.model.theta.length).map fun _ => 0) := by
      refine ⟨by simp, by simp [R.prepared.symbols.2.2.2.2.2.1], fun el hel => ?_⟩
      have : el < opts.elements := hel
      simp [this, R.prepared.symbols.2.2.2.2.2.2.1]
    have hx0 : (List.range P.setup.nX).map (fun i => P.parameter [] (.x0 i)) =
        List.replicate o.model.x.length (0 : ℝ) ++ [0] := by
      simp only [hzero]
      show (List.range q.model.x.length).map _ = _
      rw [hx', List.map_const', List.length_range, List.replicate_succ']
    have hl' : LimitsFit o (Transcription.lastControlArgument true
        ((List.range q.model.u.length).map fun _ => (0 : ℝ))) :=
      ⟨hl.min, hl.max, hl.uncrossed, fun u hu => by
        cases hu
        simp [R.prepared.symbols.2.2.2.2.2.2.2.1]⟩
    obtain ⟨cons, h, -⟩ := R.value_ok sum hb hd hl' (arg := Transcription.lastControlArgument
      (SolveDirect.setup (K := ℝ) opts q).lastControlAsParameter
        ((List.range q.model.u.length).map fun _ => (0 : ℝ))) (by
      rcases hlast.limited with h | h
      · left
        have : (SolveDirect.setup (K := ℝ) opts q).lastControlAsParameter = true := by
          unfold MethodSetup.lastControlAsParameter
          rw [Bool.or_eq_true]
          right
          show (q.lastU.map _).isSome = true
          rw [R.kept.lastU]
          cases ho : o.lastU with
          | none => exact absurd ho h
          | some _ => rfl
        rw [this]
      · exact .inr h)
    refine ⟨_, Eq.trans ?_ h⟩
    unfold SolveShooting.Program.evaluate
    rw [hx0]
    simp only [hzero]
    rfl
  obtain ⟨r, hr⟩ := he
  have hr' : SolveShooting.Program.evaluate ⟨built ops integ (Spec.mesh opts) q sum,
    shotVars (directDims o (Spec.mesh opts)) names.var, nlp, SolveDirect.setup opts q⟩ [] [] = .ok r := hr
  unfold SolveShooting.build
  rw [R.dims_eq, hc]
  simp only [R.shooting_ok sum, bind, Except.bind]
  rw [hr']

theorem build_limited (sum : Bool) {L : Option (List ℝ)} (hl : LimitsFit o L)
    (hlast : o.lastU = none) (hopt : opts.lastControlAsParameter = false) (hlim : ¬ NoRateLimits o) :
    SolveShooting.build ops integ opts sum names q = .error .runtimeError := by
  obtain ⟨nlp, hc, -, -, -⟩ := R.variables_ok
  have hb : ShootingShape (directDims o (Spec.mesh opts)) (readVars (valueIn nlp.x ([] : List ℝ))
      (shotVars (directDims o (Spec.mesh opts)) names.var)) := shape_readVars R.newVars.toSymSizes _
  have C := R.base hb (zeroData o opts)
  have hasPar : (SolveDirect.setup (K := ℝ) opts q).lastControlAsParameter = false := by
    unfold MethodSetup.lastControlAsParameter
    rw [Bool.or_eq_false_iff]
    refine ⟨hopt, ?_⟩
    show (q.lastU.map _).isSome = false
    rw [R.kept.lastU, hlast]
    rfl
  have hd' : (built ops integ (Spec.mesh opts) q sum).hasDeltaU = true :=
    R.toBaseRun.limited (congrArg Dims.nU (R.built_dims sum)) rfl rfl hl hlim
  have hr' : SolveShooting.Program.evaluate ⟨built ops integ (Spec.mesh opts) q sum,
      shotVars (directDims o (Spec.mesh opts)) names.var, nlp, SolveDirect.setup opts q⟩ [] [] =
      .error .runtimeError := by
    unfold SolveShooting.Program.evaluate
    simp only [hasPar]
    exact ShootingMethod.discretize_without_last _ _ _ _ _ _ (C.shootable sum)
      (by rw [R.built_dims sum]; exact hb)
      (C.toCommon.limits_fit (m := (built ops integ (Spec.mesh opts) q sum).toTranscription)
        (R.built_dims sum) rfl rfl ⟨hl.min, hl.max, hl.uncrossed, fun u hu => by cases hu⟩ hd') hd'
  unfold SolveShooting.build
  rw [R.dims_eq, hc]
  simp only [R.shooting_ok sum, bind, Except.bind]
  rw [hr']

/-! ### The result -/

omit R in
/-- A table of one column per element. -/
theorem grid_one {e n : Nat} {g : List (List (List ℝ))} (hg : Grid e 1 n g) :
    g = (List.range e).map fun el => [(List.range n).map fun i => ((g.getD el []).getD 0 []).getD i 0] := by
  refine Transcription.grid_eq_map hg fun el hel => ?_
  obtain ⟨c, hc⟩ := List.length_eq_one_iff.mp (Transcription.grid_columns hg hel).1
  have hlen : c.length = n := (Transcription.grid_columns hg hel).2 c (by rw [hc]; simp)
  rw [hc]
  congr 1
  refine List.ext_getElem (by simp [hlen]) fun i h₁ h₂ => ?_
  simp only [List.getElem_map, List.getElem_range, List.getD_cons_zero]
  rw [List.getD_eq_getElem?_getD, List.getElem?_eq_getElem h₁]
  rfl

/-- The result shows the decision vector. -/
theorem report_shows (sum : Bool) {b : Blocks ℝ} (hr : opts.controlRoots.Nodup)
    (hb : ShootingShape (directDims o (Spec.mesh opts)) b) (p : List ℝ) (theta : List (List ℝ))
    (raw : RawSolution ℝ) (hraw : raw.x = stacked b) :
    ∃ r, (built ops integ (Spec.mesh opts) q sum).report (controlLaw ops opts q) p theta raw = .ok r ∧
      ShowsShots o (Spec.mesh opts) b r ∧ r.raw = raw.x ∧ r.objective = raw.f ∧ r.success = raw.success ∧
      finalCostState q.xCost q.model.x r.xValues =
        .ok (some [shotState b opts.elements o.model.x.length]) := by
  have hdims := R.built_dims sum
  set m := built ops integ (Spec.mesh opts) q sum with hm
  have hn : 0 < opts.elements := R.controlMesh.elements
  have hstep : elementLength m.toTranscription = stepLength o (Spec.mesh opts) :=
    (R.base hb (zeroData o opts)).length_eq sum
  have hcp : controlPoints (directDims o (Spec.mesh opts)) = opts.controlRoots.length := by
    unfold controlPoints
    exact if_pos (Nat.mul_pos R.controls R.controlMesh.controls)
  have hblocks : Layout.shootingBlocks m.dims raw.x = .ok b := by
    rw [hraw, hdims]
    exact Layout.shootingBlocks_stacked hb
  have hu : m.reportedControls b (m.controlValues (controlLaw ops opts q) b
      (m.fullP b p) (m.fullTheta b theta)) = .ok b.u := by
    have hfirst : itemAt b.u 0 = .ok (b.u.getD 0 []) := by
      refine itemAt_ok ?_
      rw [List.getD_eq_getElem?_getD, List.getElem?_eq_getElem (by rw [hb.u.1]; exact hn)]
      rfl
    unfold Transcription.reportedControls
    rw [hfirst]
    simp only [bind, Except.bind]
    rw [if_neg (by
      rw [(Transcription.grid_columns hb.u hn).1, hcp]
      exact R.controlMesh.controls.ne')]
    rfl
  have hbp : ∀ k ≤ opts.elements, m.toTranscription.breakpoint k = nodeTime o (Spec.mesh opts) k := by
    intro k hk
    rw [Transcription.breakpoint_eq _ k hk]
    unfold nodeTime
    rw [← hstep]
    rfl
  have hlast : b.x.getLast? = some (b.x.getD opts.elements []) := by
    rw [List.getLast?_eq_getElem?, hb.x.1]
    show b.x[opts.elements + 1 - 1]? = _
    rw [Nat.add_sub_cancel]
    exact Transcription.getElem?_getD [] (by rw [hb.x.1]; exact Nat.lt_succ_self _)
  have hcol := Transcription.grid_columns hb.x (show opts.elements < opts.elements + 1 by omega)
  obtain ⟨col, hcol1⟩ := List.length_eq_one_iff.mp hcol.1
  have hcl : col.length = o.model.x.length + 1 := hcol.2 col (by rw [hcol1]; simp)
  refine ⟨{
    xValues := b.x
    xTime := (List.range (m.dims.elements + 1)).map fun k => [m.breakpoint k]
    yValues := b.y
    yTime := (List.range m.dims.elements).map fun el => [m.breakpoint (el + 1)]
    uValues := b.u
    uTime := m.reportedControlTimes (controlLaw ops opts q)
    eta := b.eta
    pOpt := b.pOpt
    thetaOpt := b.thetaOpt
    p := m.fullP b p
    theta := m.fullTheta b theta
    objective := raw.f
    constraints := raw.g
    raw := raw.x
    success := raw.success }, ?_, ⟨?_, grid_one hb.x, ?_, grid_one hb.y, ?_, ?_, rfl, rfl, rfl⟩, rfl, rfl,
    rfl, ?_⟩
  · unfold ShootingMethod.report
    rw [hblocks]
    simp only [bind, Except.bind]
    rw [hu]
    rfl
  · refine List.map_congr_left fun k hk => ?_
    have : k < opts.elements + 1 := List.mem_range.1 hk
    rw [hbp k (by omega)]
  · refine List.map_congr_left fun el hel => ?_
    have : el < opts.elements := List.mem_range.1 hel
    rw [hbp (el + 1) this]
  · refine List.map_congr_left fun el hel => ?_
    have hel : el < opts.elements := List.mem_range.1 hel
    show (if opts.controlRoots.length = 1 then _ else _) = _
    unfold reportedPositions
    show _ = List.map _ (if opts.controlRoots.length = 1 then _ else _)
    split
    · rw [hbp el hel.le]
      simp [nodeTime]
    · rw [← hstep]
      exact Transcription.grid_times m.toTranscription el hel _
  · exact R.controls_shown hr hb.toSharedShape
  · show finalCostState q.xCost q.model.x b.x = _
    rw [R.final_cost b.x _ col hlast (by rw [hcol1]; rfl) hcl]
    unfold shotState
    rw [hcol1]
    rfl

/-! ### The call of the solver -/

/-- The call of the solver: constraints and objective are those of the prepared problem with the data
of the user. -/
theorem call_ok {sum : Bool} {P : SolveShooting.Program ℝ} (hP : Builds ops integ opts sum names o q P)
    {x0 p l : List ℝ} {theta : List (List ℝ)} (hd : DataFits o (Spec.mesh opts) x0 p theta)
    (hic : opts.initialConditionAsParameter = true)
    (hl : l.length = if (setup (K := ℝ) opts q).lastControlAsParameter then o.model.u.length else 0)
    (c : CallArgs ℝ) (hc : c.par = p ++ (thetaOf opts theta).flatten ++ (x0 ++ [0]) ++ l) :
    ∃ call, P.call c = .ok call ∧ call.lb = P.nlp.xLb ∧ call.ub = P.nlp.xUb ∧
      ∀ v, call.value v = (built ops integ (Spec.mesh opts) q sum).discretize
        (readVars (valueIn P.nlp.x v) P.vars) (x0 ++ [0]) p (thetaOf opts theta)
        (some (if (setup (K := ℝ) opts q).lastControlAsParameter then l else [])) := by
  obtain ⟨h₁, h₂, h₃, h₄, h₅⟩ := R.parameters_ok hd hic hl
  refine ⟨⟨P.evaluate c.par, P.nlp.xLb, P.nlp.xUb, c.initialGuess, c.lamX, c.lamG⟩, ?_, ?_⟩
  · unfold SolveShooting.Program.call
    rw [if_neg (by rw [not_not, hc, hP.setup]; exact h₁), if_neg (by
      rw [not_not, hP.setup]
      unfold MethodSetup.freeSymbols
      rw [if_pos (R.hasParameters hic)])]
  · refine ⟨rfl, rfl, fun v => ?_⟩
    show P.evaluate c.par v = _
    unfold SolveShooting.Program.evaluate SolveShooting.Program.parameter
    rw [hP.setup, hP.shots, hc, h₂, h₃, h₄]
    congr 1
    unfold Transcription.lastControlArgument
    congr 1
    by_cases h : (setup (K := ℝ) opts q).lastControlAsParameter = true
    · rw [if_pos h, if_pos h, h₅ h]
    · rw [if_neg h, if_neg h]

omit R in
theorem paths_thetaOf {b : Blocks ℝ} {x0 p : List ℝ} {theta : List (List ℝ)} {X : Nat → ℝ → Sym → ℝ}
    (h : Paths ops o (Spec.mesh opts) b x0 p theta X) :
    Paths ops o (Spec.mesh opts) b x0 p (thetaOf opts theta) X := by
  intro el hel
  have hel' : el < opts.elements := hel
  have hr := h el hel
  refine ⟨fun t ht => ?_, hr.start, hr.ode, hr.alg, hr.running⟩
  have hr := hr.reads t ht
  refine ⟨hr.time, hr.position, hr.controls, hr.parameters, hr.optimised, fun i s hi hs => ?_,
    hr.optimisedThetas, hr.starts, hr.etas⟩
  rw [hr.thetas i s hi hs]
  simp [thetaOf, hel']

/-- A decision vector is feasible exactly when it is a decision of the user's problem; the objective is
the user's cost. -/
theorem feasible_iff {sum : Bool} {P : SolveShooting.Program ℝ}
    (hP : Builds ops integ opts sum names o q P) {x0 p : List ℝ}
    {theta : List (List ℝ)} (hd : DataFits o (Spec.mesh opts) x0 p theta) {call : SolverCall ℝ}
    (hlb : call.lb = P.nlp.xLb) (hub : call.ub = P.nlp.xUb) {arg L : Option (List ℝ)}
    (hval : ∀ v, call.value v = (built ops integ (Spec.mesh opts) q sum).discretize
      (readVars (valueIn P.nlp.x v) P.vars) (x0 ++ [0]) p (thetaOf opts theta) arg)
    (hl : LimitsFit o L) (ha : arg = L ∨ NoRateLimits o) {b : Blocks ℝ}
    (hb : ShootingShape (directDims o (Spec.mesh opts)) b) {X : Nat → ℝ → Sym → ℝ}
    (hX : Paths ops o (Spec.mesh opts) b x0 p theta X) :
    (CallFeasible ops call (stacked b) ↔ ShotDecision ops o (Spec.mesh opts) x0 p theta L sum b X) ∧
      ∀ cons f, CallFeasible ops call (stacked b) → call.value (stacked b) = .ok (cons, f) →
        f = shotCost ops o (Spec.mesh opts) sum X := by
  have hread : readVars (valueIn P.nlp.x (stacked b)) P.vars = b := by
    rw [hP.x, hP.vars]
    exact readShots_stacked R.newVars hb
  obtain ⟨cons, cost, h₁, h₂⟩ := R.value_iff sum hb (Run.dataFits_thetaOf hd) hl ha
  obtain ⟨h₂, h₃⟩ := h₂ X (paths_thetaOf hX)
  have hv : call.value (stacked b) = .ok (cons, cost) := by
    rw [hval, hread, h₁]
  have hshape : Shaped (directDims o (Spec.mesh opts)) (opts.elements + 1) 1 1 b :=
    ⟨hb.toSharedShape, hb.x, hb.y⟩
  have hbounds := shaped_bounds ops hshape R.varBounds_eq (fits_cost _ R.bounds.x) R.bounds.y R.bounds.u
    R.bounds.pOpt R.bounds.thetaOpt
  have hsize : (stacked b).length = call.lb.length := by
    rw [hlb, hP.lb]
    exact (shaped_length hshape R.varBounds_eq (fits_cost _ R.bounds.x) R.bounds.y R.bounds.u R.bounds.pOpt
      R.bounds.thetaOpt).symm
  have hsol : CallFeasible ops call (stacked b) → ShotSolution ops o (Spec.mesh opts) b L sum X := by
    intro h
    refine h₂.mp ?_
    obtain ⟨cons', f, hc, hh⟩ := h.constraints
    rw [hv] at hc
    simp only [Except.ok.injEq, Prod.mk.injEq] at hc
    rw [hc.1]
    exact hh
  refine ⟨⟨fun h => ?_, fun h => ?_⟩, fun cons' f h hc => ?_⟩
  · have hbd := hbounds.mp (fun i a l u hi hl hu => h.bounds i a l u hi (by rw [hlb, hP.lb]; exact hl)
      (by rw [hub, hP.ub]; exact hu))
    obtain ⟨hx, hy, hu, hp, ht⟩ := hbd
    exact ⟨hb, hX, ⟨hx, hy, hu, hp, ht⟩, hsol h⟩
  · refine ⟨hsize, fun i a l u hi hl hu => ?_, cons, _, hv, h₂.mpr h.solution⟩
    exact hbounds.mpr ⟨h.bounds.x, h.bounds.y, h.bounds.u, h.bounds.pOpt, h.bounds.thetaOpt⟩ i a l u hi
      (by rw [hlb, hP.lb] at hl; exact hl) (by rw [hub, hP.ub] at hu; exact hu)
  · rw [hv] at hc
    cases hc
    exact h₃ (hsol h)

end ShotRun

section Solve
variable {s : Method}

/-- The first call prepares the problem. -/
theorem prepares (hc : s.hasCostState = false) (hp : s.prepared = false)
    (h : (prepare opts.controlRoots opts.controlRoots.length names.xc names.fresh names.base s).1 = .ok ())
    (hw : ShotDeclared opts names s.problem)
    (hi : ExactElements ops integ s.problem (prepare opts.controlRoots opts.controlRoots.length names.xc
      names.fresh names.base s).2.problem (Spec.mesh opts)) :
    ∃ m S, ShotRun ops integ opts names s.problem m.problem S ∧ onMethod (K := ℝ) (solvePreparation
      opts.controlRoots opts.controlRoots.length names.xc names.fresh names.base) ⟨s, none⟩ =
        (.ok (), ⟨m, none⟩) := by
  have h' : prepare opts.controlRoots opts.controlRoots.length names.xc names.fresh names.base s =
      (.ok (), (prepare opts.controlRoots opts.controlRoots.length names.xc names.fresh names.base s).2) :=
    Prod.ext h rfl
  generalize (prepare opts.controlRoots opts.controlRoots.length names.xc names.fresh names.base s).2 = s'
    at h' hi
  obtain ⟨S, hS⟩ := prepared_of hc h' hw.new hw.problem.complete
  have hk := kept_of hc h'
  refine ⟨{ s' with prepared := true }, S, ⟨⟨hw.mesh, hw.problem.toDirectProblem, hw.scope, hw.new,
    hS, hk, hw.symbols, hw.bounds, hw.controls⟩, hw.problem, hw.newVars, hi⟩, ?_⟩
  unfold onMethod solvePreparation
  simp only [hp, Bool.false_eq_true, if_false]
  unfold prepareAndMark
  simp only [Py.bind_eq]
  rw [Py.bind_ok h']
  rfl

/-- The first call creates the program. -/
theorem created (sum : Bool) (hc : s.hasCostState = false) (hp : s.prepared = false)
    (h : (prepare opts.controlRoots opts.controlRoots.length names.xc names.fresh names.base s).1 = .ok ())
    (hw : ShotWellPosed opts names s.problem)
    (hi : ExactElements ops integ s.problem (prepare opts.controlRoots opts.controlRoots.length names.xc
      names.fresh names.base s).2.problem (Spec.mesh opts)) :
    ∃ m S P, ShotRun ops integ opts names s.problem m.problem S ∧
      ShotRun.Builds ops integ opts sum names s.problem m.problem P ∧
      createProgram ops integ opts sum names ⟨s, none⟩ = (.ok P, (⟨m, some P⟩ : SolveShooting.State ℝ)) := by
  obtain ⟨m, S, R, h₁⟩ := prepares hc hp h hw.toShotDeclared hi
  obtain ⟨P, hP, hB⟩ := R.build_ok sum hw.limits hw.last
  refine ⟨m, S, P, R, hB, ?_⟩
  unfold createProgram
  simp only [Py.bind_eq]
  rw [Py.bind_ok h₁]
  simp only [Py.get_bind]
  rw [hP]
  rfl

/-- What `solve` does once there is a program. -/
theorem solve_eq {sum : Bool} {sim info : List ℝ → Theta ℝ → Except Err (List ℝ)}
    {solver : SolverCall ℝ → Except Err (RawSolution ℝ)} {a : SolveArgs ℝ} {st : SolveShooting.State ℝ}
    {m : Method} {P : SolveShooting.Program ℝ}
    (h : program ops integ opts sum names st = (.ok P, ⟨m, some P⟩)) :
    solve ops integ opts sum names sim info solver a st =
      ((do
        let c ← (setup opts m.problem).callArgs sim info a
        let call ← P.call c
        let raw ← solver call
        result ops opts m.problem P c raw), ⟨m, some P⟩) := by
  unfold solve
  simp only [Py.bind_eq]
  rw [Py.bind_ok h]
  simp only [Py.get_bind]
  cases h₁ : (setup opts m.problem).callArgs sim info a with
  | error e => rfl
  | ok c =>
    rw [Py.lift_ok_bind]
    simp only [bind, Except.bind]
    cases h₂ : P.call c with
    | error e => rfl
    | ok call =>
      rw [Py.lift_ok_bind]
      simp only
      cases h₃ : solver call with
      | error e => rfl
      | ok raw => rfl

/-- A call of `solve`, with what the solver is called with. -/
theorem shots_answered (sum : Bool) (sim info : List ℝ → Theta ℝ → Except Err (List ℝ))
    (solver : SolverCall ℝ → Except Err (RawSolution ℝ)) (a : SolveArgs ℝ) (x0 p : List ℝ)
    (theta : List (List ℝ)) (hc : s.hasCostState = false) (hp : s.prepared = false)
    (h : (prepare opts.controlRoots opts.controlRoots.length names.xc names.fresh names.base s).1 = .ok ())
    (hw : ShotWellPosed opts names s.problem)
    (hi : ExactElements ops integ s.problem (prepare opts.controlRoots opts.controlRoots.length names.xc
      names.fresh names.base s).2.problem (Spec.mesh opts))
    (hd : DataFits s.problem (Spec.mesh opts) x0 p theta)
    (ha : ArgsFit s.problem opts a sim info x0 p theta)
    (hs : ∀ c, ∃ raw, solver c = .ok raw ∧ raw.x.length = c.lb.length) :
    ∃ r b call raw, (solve ops integ opts sum names sim info solver a ⟨s, none⟩).1 = .ok r ∧
      ShootingShape (directDims s.problem (Spec.mesh opts)) b ∧ r.report.raw = stacked b ∧
      ShowsShots s.problem (Spec.mesh opts) b r.report ∧ r.x0 = x0 ++ [0] ∧
      r.xCFinal = some [shotState b opts.elements s.problem.model.x.length] ∧
      solver call = .ok raw ∧ raw.x = stacked b ∧ r.report.success = raw.success ∧
      r.report.objective = raw.f ∧
      (∀ b', ShootingShape (directDims s.problem (Spec.mesh opts)) b' → ∀ X,
        Paths ops s.problem (Spec.mesh opts) b' x0 p theta X →
        (CallFeasible ops call (stacked b') ↔
          ShotDecision ops s.problem (Spec.mesh opts) x0 p theta (lastOf s.problem) sum b' X) ∧
        ∀ cons f, CallFeasible ops call (stacked b') → call.value (stacked b') = .ok (cons, f) →
          f = shotCost ops s.problem (Spec.mesh opts) sum X) ∧
      ∀ v : List ℝ, v.length = call.lb.length → ∃ b' : Blocks ℝ,
        ShootingShape (directDims s.problem (Spec.mesh opts)) b' ∧ stacked b' = v := by
  obtain ⟨m, S, P, R, hP, hcr⟩ := created sum hc hp h hw hi
  obtain ⟨l, lu, hl, hlast, hno⟩ := R.last_of (K := ℝ) hw.last ha.lastU
  obtain ⟨c, hca, hcx, hcp, hcpar, hcth⟩ := R.args_ok hd ha hl hw.initial
  rw [show { a with lastU := a.lastU } = a from rfl] at hca
  have hllen : (if (setup (K := ℝ) opts m.problem).lastControlAsParameter then l else []).length =
      if (setup (K := ℝ) opts m.problem).lastControlAsParameter then s.problem.model.u.length else 0 := by
    by_cases hb : (setup (K := ℝ) opts m.problem).lastControlAsParameter = true
    · rw [if_pos hb, if_pos hb]
      exact hw.limits.last l (by rw [hlast, if_pos hb])
    · rw [if_neg hb, if_neg hb]
      rfl
  obtain ⟨call, hcall, hlb, hub, hval⟩ := R.call_ok hP hd hw.initial hllen c hcpar
  obtain ⟨raw, hraw, hsize⟩ := hs call
  have hshape : ∀ v : List ℝ, ShootingShape (directDims s.problem (Spec.mesh opts))
      (readVars (valueIn P.nlp.x v) P.vars) := by
    intro v
    rw [hP.vars]
    exact shape_readVars R.newVars.toSymSizes _
  have hd₀ := hshape raw.x
  set b := readVars (valueIn P.nlp.x raw.x) P.vars with hb
  have hread : ∀ v : List ℝ, v.length = call.lb.length →
      stacked (readVars (valueIn P.nlp.x v) P.vars) = v := by
    intro v hv
    have hdv := hshape v
    rw [hP.vars, hP.x]
    refine stacked_readShots R.newVars _ ?_
    rw [hv, hlb, hP.lb, ← stacked_shape_length R.newVars.toSymSizes hdv]
    exact shaped_length ⟨hdv.toSharedShape, hdv.x, hdv.y⟩ R.varBounds_eq (fits_cost _ R.bounds.x)
      R.bounds.y R.bounds.u R.bounds.pOpt R.bounds.thetaOpt
  have hstack : stacked b = raw.x := hread _ hsize
  obtain ⟨rep, hrep, hshow, hrr, hro, hrs, hfin⟩ := R.report_shows sum hw.controlRoots hd₀ c.p
    ((List.range opts.elements).map fun el => (c.theta.get? el).getD []) raw hstack.symm
  have harg : (some (if (setup (K := ℝ) opts m.problem).lastControlAsParameter then
      (if (setup (K := ℝ) opts m.problem).lastControlAsParameter then l else []) else [])) =
      lastOf s.problem ∨ NoRateLimits s.problem := by
    by_cases hb : (setup (K := ℝ) opts m.problem).lastControlAsParameter = true
    · left
      rw [hlast, if_pos hb, if_pos hb, if_pos hb]
    · exact .inr (hno (by simpa using hb))
  refine ⟨⟨rep, _, c.x0⟩, b, call, raw, ?_, hd₀, by rw [hrr, hstack], hshow, hcx, rfl, hraw, hstack.symm, hrs,
    hro, fun b' hb' X hX => R.feasible_iff hP hd hlb hub hval hw.limits harg hb' hX, fun v hv =>
    ⟨_, hshape v, hread v hv⟩⟩
  rw [solve_eq (m := m) (P := P) (by unfold program; exact hcr)]
  simp only [hca, hcall, hraw, bind, Except.bind]
  unfold result
  rw [hP.shots]
  simp only [hrep, hfin, bind, Except.bind]

/-- The same for a solver that returns minimisers. -/
theorem solve_core (sum : Bool) (sim info : List ℝ → Theta ℝ → Except Err (List ℝ))
    (solver : SolverCall ℝ → Except Err (RawSolution ℝ)) (a : SolveArgs ℝ) (x0 p : List ℝ)
    (theta : List (List ℝ)) (hc : s.hasCostState = false) (hp : s.prepared = false)
    (h : (prepare opts.controlRoots opts.controlRoots.length names.xc names.fresh names.base s).1 = .ok ())
    (hw : ShotWellPosed opts names s.problem)
    (hi : ExactElements ops integ s.problem (prepare opts.controlRoots opts.controlRoots.length names.xc
      names.fresh names.base s).2.problem (Spec.mesh opts))
    (hd : DataFits s.problem (Spec.mesh opts) x0 p theta)
    (ha : ArgsFit s.problem opts a sim info x0 p theta) (hs : GoodSolver ops solver) :
    ∃ r b call raw, (solve ops integ opts sum names sim info solver a ⟨s, none⟩).1 = .ok r ∧
      ShootingShape (directDims s.problem (Spec.mesh opts)) b ∧ r.report.raw = stacked b ∧
      ShowsShots s.problem (Spec.mesh opts) b r.report ∧ r.x0 = x0 ++ [0] ∧
      r.xCFinal = some [shotState b opts.elements s.problem.model.x.length] ∧
      solver call = .ok raw ∧ raw.x = stacked b ∧ r.report.success = raw.success ∧
      r.report.objective = raw.f ∧
      (∀ b', ShootingShape (directDims s.problem (Spec.mesh opts)) b' → ∀ X,
        Paths ops s.problem (Spec.mesh opts) b' x0 p theta X →
        (CallFeasible ops call (stacked b') ↔
          ShotDecision ops s.problem (Spec.mesh opts) x0 p theta (lastOf s.problem) sum b' X) ∧
        ∀ cons f, CallFeasible ops call (stacked b') → call.value (stacked b') = .ok (cons, f) →
          f = shotCost ops s.problem (Spec.mesh opts) sum X) ∧
      ∀ v : List ℝ, v.length = call.lb.length → ∃ b' : Blocks ℝ,
        ShootingShape (directDims s.problem (Spec.mesh opts)) b' ∧ stacked b' = v :=
  shots_answered sum sim info solver a x0 p theta hc hp h hw hi hd ha fun c => (hs c).imp fun _ h => ⟨h.1, h.2.1⟩

end Solve
end SolveShooting
end Verif
