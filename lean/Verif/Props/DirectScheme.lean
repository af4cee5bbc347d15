import Verif.Lemmas.DirectScheme
import Verif.Props.SolveDirect
import Verif.Props.NetJoint
/-!
# C180: a direct method solves the problem at the collocation points
-/
namespace Verif
open Spec Net DistPrepare DistAL SolveDirect PolyDecision DirectScheme Polynomial

variable {K : Type} [Field K] [LinearOrder K] [IsStrictOrderedRing K]

/-- C180: values at the collocation points satisfy the constraints of the problem, discretised by
collocation, exactly when they are the values of the polynomials of a decision of the direct method, and
the decision costs the same. -/
theorem C180_points (ops : Expr.Ops K) (o : Ocp) (M : Mesh) (hM : GoodMesh M) (hn : M.controlRoots.Nodup)
    (hm : ControlsMatch M) (hP : DirectProblem o) (hsc : DirectScope o) (hd : (problemSymbols o).Nodup)
    (hB : BoundsFit o) (hpp : PointProblem ops o) (x0 p : List K) (theta : List (List K))
    (lastU : Option (List K)) (start : Sym → K) (par : List Sym) (val : GridValues K M.size)
    (hg : GivenAt o M p theta par val) (hst : StartsAt o x0 start) (tr : GridValues K M.size) :
    (SatisfiesAll ops (directScheme ops M hM (stepLength o M) start) o (withValues par val tr) ↔
      ∃ b ρ, Decision ops o M x0 p theta lastU b ρ ∧ SampledFrom o M b tr) ∧
    ∀ b ρ, Decision ops o M x0 p theta lastU b ρ → SampledFrom o M b tr →
      costOf ops (directScheme ops M hM (stepLength o M) start) o (withValues par val tr) =
        directCost ops o M b ρ :=
  ⟨⟨decision_of_satisfies hM hn hm hP hsc hd hB hpp hg hst lastU, fun ⟨_, _, hD, hS⟩ =>
    satisfies_of_decision hM hn hm hP hsc hB hpp hg hst hD hS⟩,
    fun _ _ hD hS => cost_of_decision hM hsc hpp hg hD hS⟩

/-- C180: so the solutions at the points are the best decisions. -/
theorem C180_best (ops : Expr.Ops K) (o : Ocp) (M : Mesh) (hM : GoodMesh M) (hn : M.controlRoots.Nodup)
    (hm : ControlsMatch M) (hP : DirectProblem o) (hsc : DirectScope o) (hd : (problemSymbols o).Nodup)
    (hB : BoundsFit o) (hpp : PointProblem ops o) (x0 p : List K) (theta : List (List K))
    (lastU : Option (List K)) (start : Sym → K) (par : List Sym) (val : GridValues K M.size)
    (hg : GivenAt o M p theta par val) (hst : StartsAt o x0 start) (tr : GridValues K M.size) :
    SolutionFor ops (directScheme ops M hM (stepLength o M) start) o par val tr ↔
      ∃ b ρ, BestDecision ops o M x0 p theta lastU b ρ ∧ SampledFrom o M b tr := by
  have key := C180_points ops o M hM hn hm hP hsc hd hB hpp x0 p theta lastU start par val hg hst
  constructor
  · rintro ⟨h₁, h₂⟩
    obtain ⟨b, ρ, hD, hS⟩ := (key tr).1.1 h₁
    refine ⟨b, ρ, ⟨hD, fun b' ρ' hD' => ?_⟩, hS⟩
    obtain ⟨tr', hS'⟩ := exists_sampled (o := o) hd b'
    rw [← (key tr).2 b ρ hD hS, ← (key tr').2 b' ρ' hD' hS']
    exact h₂ tr' ((key tr').1.2 ⟨b', ρ', hD', hS'⟩)
  · rintro ⟨b, ρ, hD, hS⟩
    refine ⟨(key tr).1.2 ⟨b, ρ, hD.toDecision, hS⟩, fun tr' h' => ?_⟩
    obtain ⟨b', ρ', hD', hS'⟩ := (key tr').1.1 h'
    rw [(key tr).2 b ρ hD.toDecision hS, (key tr').2 b' ρ' hD' hS']
    exact hD.best b' ρ' hD'

/-- C180: `solve` of a direct method returns, and if it reports success then the values in the tables of the
result are a solution of the problem at the collocation points with the objective as cost. -/
theorem C180_solve (ops : Expr.Ops K) (c : DirectCall K) (o : Ocp) (M : Mesh) (hM : GoodMesh M)
    (start : Sym → K) (par : List Sym) (val : GridValues K M.size) (h : c.Ready ops o M start par val) :
    ∃ r, c.result ops o = .ok r ∧ (r.report.success = true → ∀ tr, Reported o M r.report tr →
      SolutionFor ops (directScheme ops M hM (stepLength o M) start) o par val tr ∧
      r.report.objective =
        costOf ops (directScheme ops M hM (stepLength o M) start) o (withValues par val tr)) := by
  obtain ⟨hmesh, hprep, hw, hdata, hfits, hgood, hm, hpp, hg, hst⟩ := h
  subst hmesh
  obtain ⟨r, b, h₁, h₂, -, hsh, -, -, hsucc⟩ := C161_solve ops c.opts c.names { problem := o } c.simulated
    c.fromProblem c.solver c.args c.x0 c.p c.theta rfl rfl hprep hw hdata hfits hgood
  refine ⟨r, h₁, fun hs tr hr => ?_⟩
  obtain ⟨⟨ρ, hρ⟩, hD, hmin⟩ := hsucc hs
  obtain ⟨hD, hobj⟩ := hD ρ hρ
  have hS := sampled_of_reported hM hw.controlRoots hm hsh hr
  refine ⟨(C180_best ops o _ hM hw.controlRoots hm hw.problem hw.scope hw.symbols hw.bounds hpp c.x0 c.p
    c.theta (lastOf o) start par val hg hst tr).2 ⟨b, ρ, ⟨hD, fun b' ρ' hD' => ?_⟩, hS⟩, ?_⟩
  · rw [← hobj]
    exact hmin b' ρ' hD'
  · rw [hobj, cost_of_decision hM hw.scope hpp hg hD hS]

/-- C180: collocation treats the equations one by one, leaves controls of the degree of the collocation free,
and has no negative weights if its quadrature has none. -/
theorem C180_scheme (ops : Expr.Ops K) (M : Mesh) (hM : GoodMesh M) (step : K) (start : Sym → K) :
    (directScheme ops M hM step start).Modular ops ∧
      (M.controlRoots = M.roots → FreeControls (directScheme ops M hM step start)) ∧
      (0 ≤ step → PositiveQuadrature K M → ∀ k, 0 ≤ (directScheme ops M hM step start).weight k) := by
  refine ⟨?_, fun h w el => ?_, fun h hq k => mul_nonneg h (weight_nonneg hM hq _)⟩
  · exact scheme_modular ops M hM step start
  · obtain ⟨P, h₁, h₂⟩ := exists_through hM fun j => w (M.point el j)
    exact ⟨P, by rw [h]; exact h₁, h₂⟩

/-- C180: nodes that are solved with direct methods solve the problems of C177. -/
theorem C180_nodes {N : Type} [DecidableEq N] (ops : Expr.Ops K) (M : Mesh) (hM : GoodMesh M) (step : K)
    (start : Sym → K) (net : ProblemNetwork N K M.size) (o : Opts) (mu0 : Rat)
    (solver : NodeSolver N (GridValues K M.size))
    (h : ∀ m ∈ net.nodes, ∀ last z, AllSolved net.nodes last z → ∀ tr, solver m last = some tr →
      ∃ r val c res, prepare o mu0 ((net.into m).map (·.edge)) ((net.outOf m).map (·.edge)) (net.problem m)
          (net.next m) = .ok r ∧ net.Informed o ops r m z val ∧
        DirectCall.Ready c ops r.problem M start (net.exchanged o r m) val ∧
        stepLength r.problem M = step ∧ c.result ops r.problem = .ok res ∧ res.report.success = true ∧
        Reported r.problem M res.report tr) :
    net.Solves o mu0 ops (directScheme ops M hM step start) solver := by
  intro m hm last z hz tr htr
  obtain ⟨r, val, c, res, h₁, h₂, h₃, h₄, h₅, h₆, h₇⟩ := h m hm last z hz tr htr
  obtain ⟨res', h₅', hs⟩ := C180_solve ops c r.problem M hM start _ val h₃
  rw [h₅] at h₅'
  cases h₅'
  rw [h₄] at hs
  exact ⟨r, val, h₁, h₂, (hs h₆ tr h₇).1⟩

/-- C180: the optimal solutions of a network, discretised by collocation, are the best decisions of the
direct method for the problem that `get_problem` returns. -/
theorem C180_network (ops : Expr.Ops K) (M : Mesh) (hM : GoodMesh M) (hc : M.controlRoots = M.roots)
    (step : K) (start : Sym → K) (net : ProblemNetwork Nat K M.size) (s : Network) (t tau : Sym)
    (h : net.Joint s t tau) (own : Nat → Sym → Prop) (fixed : List Sym) (given : GridValues K M.size)
    (hs : net.Separate (directScheme ops M hM step start) t tau own fixed given) :
    ∃ o, getProblem s t tau = .ok o ∧ (DirectProblem o → DirectScope o → (problemSymbols o).Nodup →
      BoundsFit o → PointProblem ops o → stepLength o M = step → ∀ (x0 p : List K) (theta : List (List K)),
      GivenAt o M p theta fixed given → StartsAt o x0 start → ∀ z w, Joins net.nodes own fixed z w →
        (net.Optimum ops (directScheme ops M hM step start) z ↔
          ∃ b ρ, BestDecision ops o M x0 p theta none b ρ ∧ SampledFrom o M b w)) := by
  obtain ⟨hmod, hfree, -⟩ := C180_scheme ops M hM step start
  obtain ⟨o, ho, H⟩ := C178_solution_partial net s t tau h ops _ hmod (hfree hc) own fixed given hs
  refine ⟨o, ho, fun hP hsc hd hB hpp hst x0 p theta hg hs0 z w hj => ?_⟩
  rw [← H z w hj, ← hst]
  have hn : M.controlRoots.Nodup := by
    have := (List.nodup_cons.1 (ExactTraj.nodes_nodup (K := Rat) hM)).2
    rw [hc]
    simpa [inField] using this
  exact C180_best ops o M hM hn (.inl hc) hP hsc hd hB hpp x0 p theta none start fixed given hg hs0 w

/-! ## Example: a state at rest -/

namespace Example

/-- The problem of C161 without the declaration that the objective is positive. -/
def calmProblem : Ocp := { restProblem with positiveObjective := false }

theorem calm_posed : WellPosed Rat restOptions restNames calmProblem where
  mesh := restProblem_declared.mesh
  controlRoots := by decide
  problem := {
    horizon := by decide +kernel
    complete := by unfold Complete; decide +kernel
    starts := rfl
    controls := by decide
    apart := by unfold ControlsApart; decide +kernel
    parameters := by decide
    thetas := by decide
    tags := by decide
    tagged := by decide
    equations := fun _ => rfl }
  scope := ⟨by decide +kernel, by decide +kernel, by decide, by decide, by decide +kernel⟩
  symbols := by decide
  controls := by decide
  bounds := ⟨pairFits_free 1, pairFits_free 0, restProblem_declared.bounds.u, pairFits_free 0,
    pairFits_free 0⟩
  limits := ⟨rfl, rfl, (pairFits_free 1).uncrossed, by rintro u ⟨⟩⟩
  new := ⟨by decide, by decide, by decide, by decide⟩
  newVars := ⟨⟨fun _ _ => rfl, fun _ _ => rfl, fun _ _ => rfl, rfl, rfl, fun _ => rfl⟩, by decide⟩
  initial := rfl
  last := ⟨by decide, .inr (by unfold NoRateLimits; decide)⟩

theorem calm_points (ops : Expr.Ops Rat) : PointProblem ops calmProblem where
  eta := rfl
  pOpt := rfl
  thetaOpt := rfl
  rates := by unfold NoRateLimits; decide
  positive := rfl
  tags := by decide
  pinned := by
    intro ρ h i s s' hs hs'
    match i, hs with
    | 0, hs =>
      cases hs
      cases hs'
      exact sub_eq_zero.1 (h (.sub (.sym 2) (.sym 3)) (List.mem_singleton.2 rfl))

/-- The times of the points. -/
def calmTimes (k : Fin (mesh restOptions).size) (s : Sym) : Rat :=
  if s = 0 then (k.divNat.val : Rat) + (mesh restOptions).root k.modNat else (mesh restOptions).root k.modNat

theorem calm_given : GivenAt calmProblem (mesh restOptions) ([] : List Rat) [[], []] [0, 1] calmTimes where
  time := by
    refine ⟨by decide, fun el j => ?_⟩
    rw [show stepLength calmProblem (mesh restOptions) = (1 : Rat) by decide +kernel, one_mul]
    show (if (0 : Nat) = 0 then _ else _) = _
    rw [if_pos rfl, point_div, point_mod]
  position := by
    refine ⟨by decide, fun el j => ?_⟩
    show (if (1 : Nat) = 0 then _ else _) = _
    rw [if_neg (by decide), point_mod]
  parameters := by rintro i s ⟨⟩
  thetas := by rintro i s ⟨⟩
  free := by decide

theorem calm_starts : StartsAt calmProblem ([1] : List Rat) fun _ => 1 where
  states := by
    intro i s hs
    match i, hs with
    | 0, hs => rfl
  symbols := by
    intro i s hs
    match i, hs with
    | 0, hs => rfl
  within := allWithin_free (a := 1) (b := 1)

/-- The points 1/2 and 1 have the weights 1 and 0. -/
theorem rest_quadrature : PositiveQuadrature Rat (mesh restOptions) := by
  intro f hf hpos
  have h₁ := hpos (1 / 2) (by decide +kernel)
  have h₂ := hpos 1 (by decide +kernel)
  have hf' : f.natDegree < 3 := Nat.lt_succ_of_le hf
  rw [f.as_sum_range_C_mul_X_pow' hf'] at h₁ h₂ ⊢
  simp [Finset.sum_range_succ] at h₁ h₂ ⊢
  linarith

/-- The scheme. -/
noncomputable def calmScheme (ops : Expr.Ops Rat) : Scheme Rat (mesh restOptions).size :=
  directScheme ops (mesh restOptions) restProblem_declared.mesh (stepLength calmProblem (mesh restOptions))
    fun _ => 1

theorem calm_costs (ops : Expr.Ops Rat) (tr : GridValues Rat (mesh restOptions).size) :
    costOf ops (calmScheme ops) calmProblem tr = ∑ k, (calmScheme ops).weight k * (tr k 4 * tr k 4) := by
  simp [costOf, calmProblem, restProblem, Ocp.new, Expr.eval]

/-- A state that stays at one without a control is a solution. -/
theorem calm_solution (ops : Expr.Ops Rat) : SolutionFor ops (calmScheme ops) calmProblem [0, 1] calmTimes
    fun _ s => if s = 2 then 1 else 0 := by
  refine ⟨⟨fun k => allWithin_free (a := 1) (b := 1), fun k p hp => (by cases hp), ?_, ?_,
    fun s hs => (by cases hs), ?_, ?_, ?_, ?_, ?_⟩, ?_⟩
  · intro k p hp
    have : p = (4, ⊥, XRat.fin 1) := List.mem_singleton.1 hp
    subst this
    refine ⟨by decide, by decide, by rintro q ⟨⟩, fun q hq => ?_⟩
    have : q = 1 := by cases hq; rfl
    subst this
    show (if (4 : Nat) ∈ [0, 1] then _ else (if (4 : Nat) = 2 then (1 : Rat) else 0)) ≤ _
    rw [if_neg (by decide), if_neg (by decide)]
    norm_num
  · intro v hv el
    have : v = 4 := List.mem_singleton.1 hv
    subst this
    exact ⟨0, by decide, fun j => by simp [withValues]⟩
  · intro k e he
    cases he
  · intro p hp
    cases hp
  · intro p hp
    cases hp
  · intro q hq e he el
    have : q = (2, some (.sym 4)) := List.mem_singleton.1 hq
    subst this
    cases he
    refine ⟨1, by simp, ?_, fun j => ⟨by simp [withValues], by simp [withValues, Expr.eval]⟩⟩
    unfold valueBefore
    split
    · simp
    · simp [withValues]
  · refine ⟨fun e he => (by cases he), fun e he => ?_⟩
    have : e = .sub (.sym 2) (.sym 3) := List.mem_singleton.1 he
    subst this
    simp [Expr.eval]
  · intro tr' _
    rw [calm_costs, calm_costs]
    refine Finset.sum_le_sum fun k _ => ?_
    have := (C180_scheme ops (mesh restOptions) restProblem_declared.mesh
      (stepLength calmProblem (mesh restOptions)) fun _ => (1 : Rat)).2.2 (by decide +kernel) rest_quadrature k
    have h0 : withValues [0, 1] calmTimes (fun _ s => if s = 2 then (1 : Rat) else 0) k 4 = 0 := by
      simp [withValues]
    rw [h0, mul_zero, mul_zero]
    exact mul_nonneg this (mul_self_nonneg _)

/-- The call of `solve`. -/
noncomputable def calmCall (ops : Expr.Ops Rat) : DirectCall Rat :=
  ⟨restOptions, restNames, restArgs, fun _ _ => .ok [], fun _ _ => .ok [], bestSolver ops, [1], [], [[], []]⟩

theorem calm_ready (ops : Expr.Ops Rat) :
    (calmCall ops).Ready ops calmProblem (mesh restOptions) (fun _ => 1) [0, 1] calmTimes where
  mesh := rfl
  prepares := by
    show (Direct.prepare restOptions.controlRoots restOptions.controlRoots.length restNames.xc
      restNames.fresh restNames.base { problem := calmProblem }).1 = .ok ()
    decide +kernel
  posed := calm_posed
  data := ⟨rfl, rfl, by show ∀ el < 2, (([[], []] : List (List Rat)).getD el []).length = 0; decide⟩
  fits := ⟨.inr ⟨rfl, rfl⟩, .inr ⟨rfl, rfl, rfl⟩, .inr ⟨rfl, rfl, rfl⟩, .inl rfl, .inr (.inl (Option.some_ne_none _))⟩
  solver := bestSolver_good ops
  controls := .inr rfl
  problem := calm_points ops
  given := calm_given
  starts := calm_starts

/-- The state at rest is a best decision, so `solve` succeeds; what it shows is a solution at the points. -/
example (ops : Expr.Ops Rat) : ∃ r, (calmCall ops).result ops calmProblem = .ok r ∧
    r.report.success = true ∧ ∀ tr, Reported calmProblem (mesh restOptions) r.report tr →
      SolutionFor ops (calmScheme ops) calmProblem [0, 1] calmTimes tr := by
  obtain ⟨b, ρ, hb, -⟩ := (C180_best ops calmProblem (mesh restOptions) calm_posed.mesh (by decide)
    (.inr rfl) calm_posed.problem calm_posed.scope calm_posed.symbols calm_posed.bounds (calm_points ops)
    [1] [] [[], []] (lastOf calmProblem) (fun _ => 1) [0, 1] calmTimes calm_given calm_starts _).1
    (calm_solution ops)
  obtain ⟨r, hr, hs⟩ := C180_solve ops (calmCall ops) calmProblem (mesh restOptions) calm_posed.mesh
    (fun _ => 1) [0, 1] calmTimes (calm_ready ops)
  obtain ⟨r', hr', hs', -⟩ := C161_succeeds ops restOptions restNames { problem := calmProblem } (fun _ _ => .ok [])
    (fun _ _ => .ok []) (bestSolver ops) restArgs [1] [] [[], []] rfl rfl (calm_ready ops).prepares calm_posed
    (calm_ready ops).data (calm_ready ops).fits (bestSolver_good ops) (bestSolver_complete ops) b ρ hb
  have : r = r' := Except.ok.inj (hr.symm.trans hr')
  subst this
  exact ⟨r, hr, hs', fun tr ht => (hs hs' tr ht).1⟩

/-! ## Example: the market of C177 with collocation -/

/-- Controls of the degree of the collocation. -/
def gridMesh : Mesh := { elements := 2, roots := [1 / 2, 1], controlRoots := [1 / 2, 1] }

theorem gridMesh_good : GoodMesh gridMesh where
  elements := by decide
  points := by decide
  increasing := by decide +kernel
  last := rfl
  controls := by decide

/-- The times of the points, for both nodes and for their network. -/
def gridTimes (k : Fin gridMesh.size) (s : Sym) : Rat :=
  if s = 0 ∨ s = 2 then 1 / 2 * ((k.divNat.val : Rat) + gridMesh.root k.modNat) else gridMesh.root k.modNat

/-- The market at the points. -/
def gridMarket : ProblemNetwork Nat Rat gridMesh.size where
  nodes := [0, 1]
  problem m := if m = 0 then producer else consumer
  cables := [{ source := 0, target := 1, wires := [{ y := 10, u := 20, nu := fun _ => 1, mu := 1 }] }]
  fixed _ := [0, 1, 2, 3]
  given _ := gridTimes
  next _ := 100

noncomputable def gridScheme : Scheme Rat gridMesh.size :=
  directScheme noOps gridMesh gridMesh_good (1 / 2) fun _ => 0

theorem gridMarket_joint : gridMarket.Joint marketNetwork 2 3 where
  reached := marketNetwork_reached
  name := market_joint.name
  nodes := market_joint.nodes
  describes := ⟨market_describes.order, market_describes.problems, by
    rw [marketNetwork_edges]; exact .refl _⟩
  sizes := market_joint.sizes
  tags := market_joint.tags
  guesses := market_joint.guesses
  horizon := market_joint.horizon
  controls := market_joint.controls
  models := market_joint.models
  connections := market_joint.connections
  rates := by rw [show gridMarket.problems = [producer, consumer] from rfl]; decide +kernel

theorem gridMarket_separate : gridMarket.Separate gridScheme 2 3 marketOwn [0, 1, 2, 3] gridTimes where
  depends := by
    intro m hm
    have hm' : m ∈ [0, 1] := hm
    simp only [List.mem_cons, List.not_mem_nil, or_false] at hm'
    rcases hm' with rfl | rfl
    · exact ⟨by unfold marketOwn; decide +kernel, by unfold marketOwn; decide +kernel,
        fun _ _ _ => ⟨fun _ => nofun, fun _ => nofun, fun _ => ⟨nofun, nofun⟩⟩⟩
    · exact ⟨by unfold marketOwn; decide +kernel, by unfold marketOwn; decide +kernel,
        fun _ _ _ => ⟨fun _ => nofun, fun _ => nofun, fun _ => ⟨nofun, nofun⟩⟩⟩
  shared := market_separate.shared
  values := fun _ _ => ⟨rfl, rfl⟩
  ends := by unfold marketOwn; decide +kernel
  times := market_separate.times
  clock := by
    rw [show gridMarket.problems = [producer, consumer] from rfl]
    simp only [List.mem_cons, List.not_mem_nil, or_false, forall_eq_or_imp, forall_eq]
    exact ⟨fun _ => ⟨rfl, rfl⟩, fun _ => ⟨rfl, rfl⟩⟩

/-- The problem of the market. -/
def marketTotal : Ocp := ((getProblem marketNetwork 2 3).toOption).getD producer

theorem marketTotal_eq : (getProblem marketNetwork 2 3).toOption = some marketTotal := by decide +kernel

theorem marketTotal_x : marketTotal.model.x = [] ∧ marketTotal.model.x0 = [] ∧ marketTotal.model.p = [] ∧
    marketTotal.model.theta = [] ∧ marketTotal.model.t = 2 ∧ marketTotal.model.tau = 3 := by decide +kernel

theorem marketTotal_direct : DirectProblem marketTotal where
  horizon := by decide +kernel
  complete := by unfold Complete; decide +kernel
  starts := by decide +kernel
  controls := by decide +kernel
  apart := by unfold ControlsApart; decide +kernel
  parameters := by decide +kernel
  thetas := by decide +kernel
  tags := by decide +kernel
  tagged := by decide +kernel
  equations := by decide +kernel

theorem marketTotal_points (ops : Expr.Ops Rat) : PointProblem ops marketTotal where
  eta := by decide +kernel
  pOpt := by decide +kernel
  thetaOpt := by decide +kernel
  rates := by unfold NoRateLimits; decide +kernel
  positive := by decide +kernel
  tags := by decide +kernel
  pinned := by
    intro ρ h i s s' hs
    rw [marketTotal_x.1] at hs
    cases hs

theorem marketTotal_given :
    GivenAt marketTotal gridMesh ([] : List Rat) [[], []] [0, 1, 2, 3] gridTimes := by
  obtain ⟨hx, -, hp, hth, ht, htau⟩ := marketTotal_x
  refine ⟨⟨by rw [ht]; decide, fun el j => ?_⟩, ⟨by rw [htau]; decide, fun el j => ?_⟩, ?_, ?_,
    by decide +kernel⟩
  · rw [ht, show stepLength marketTotal gridMesh = (1 / 2 : Rat) by decide +kernel]
    show (if (2 : Nat) = 0 ∨ (2 : Nat) = 2 then _ else _) = _
    rw [if_pos (.inr rfl), point_div, point_mod]
  · rw [htau]
    show (if (3 : Nat) = 0 ∨ (3 : Nat) = 2 then _ else _) = _
    rw [if_neg (by decide), point_mod]
  · intro i s hs
    rw [hp] at hs
    cases hs
  · intro i s hs
    rw [hth] at hs
    cases hs

theorem marketTotal_starts : StartsAt marketTotal ([] : List Rat) fun _ => 0 := by
  obtain ⟨hx, hx0, -⟩ := marketTotal_x
  refine ⟨?_, ?_, ?_⟩
  · intro i s hs
    rw [hx] at hs
    cases hs
  · intro i s hs
    rw [hx0] at hs
    cases hs
  · rw [hx]
    intro p hp
    simp at hp

/-- The optimal solutions of the market at the collocation points are the best decisions of the direct method
for its problem. -/
example (z : Nat → GridValues Rat gridMesh.size) (w : GridValues Rat gridMesh.size)
    (hj : Joins [0, 1] marketOwn [0, 1, 2, 3] z w) : gridMarket.Optimum noOps gridScheme z ↔
      ∃ b ρ, BestDecision noOps marketTotal gridMesh [] [] [[], []] none b ρ ∧
        SampledFrom marketTotal gridMesh b w := by
  obtain ⟨o, ho, H⟩ := C180_network noOps gridMesh gridMesh_good rfl (1 / 2) (fun _ => 0) gridMarket
    marketNetwork 2 3 gridMarket_joint marketOwn [0, 1, 2, 3] gridTimes gridMarket_separate
  have := marketTotal_eq
  rw [ho] at this
  obtain rfl : o = marketTotal := Option.some.inj this
  exact H marketTotal_direct ⟨by decide +kernel, by decide +kernel, by decide +kernel, by decide +kernel,
    by decide +kernel⟩ (by decide +kernel)
    ⟨pairFits_free 0, pairFits_free 2, pairFits_free 1, pairFits_free 0, pairFits_free 0⟩
    (marketTotal_points _) (by decide +kernel) [] [] [[], []] marketTotal_given marketTotal_starts z w hj

end Example

end Verif
