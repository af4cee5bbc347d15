import Verif.Lemmas.RelaxTransfer
import Verif.Props.SolveDirect
import Verif.Props.NuUpdate
/-! # Lemmas on the loop of the augmented Lagrangian around a direct method -/
namespace Verif.SolveAugLag
open Spec SolveDirect Direct RelaxDirect
open AugLag (St Opts)

variable {K : Type} [Field K] [LinearOrder K]

/-! ## The data of the direct method -/

omit [Field K] [LinearOrder K] in
theorem elementData_getD {elements : Nat} (theta nu : List (List K)) {el : Nat} (h : el < elements) :
    (elementData elements theta nu).getD el [] = theta.getD el [] ++ nu.getD el [] := by
  simp [elementData, List.getD_eq_getElem?_getD, h]

/-- Multipliers of the right sizes. -/
def Rows (elements n : Nat) (nu : List (List K)) : Prop :=
  nu.length = elements ∧ ∀ row ∈ nu, row.length = n

omit [Field K] [LinearOrder K] in
theorem Rows.getD {elements n : Nat} {nu : List (List K)} (h : Rows elements n nu) {el : Nat}
    (he : el < elements) : (nu.getD el []).length = n := by
  rw [List.getD_eq_getElem?_getD, List.getElem?_eq_getElem (by rw [h.1]; exact he)]
  exact h.2 _ (List.getElem_mem _)

omit [Field K] [LinearOrder K] in
theorem nuTheta_get {elements n : Nat} {nu : List (List K)} (h : Rows elements n nu) {el : Nat}
    (he : el < elements) : (nuTheta nu).get? el = some (nu.getD el []) := by
  have : nuTheta nu = (List.range nu.length).map fun i => (i, nu.getD i []) := by
    unfold nuTheta
    refine List.ext_getElem (by simp) fun i h₁ h₂ => ?_
    have : i < nu.length := by simpa using h₂
    simp [List.getD_eq_getElem?_getD, this]
  rw [this]
  unfold Theta.get?
  rw [lookup_map_pair, if_pos (List.mem_range.2 (by rw [h.1]; exact he))]

omit [Field K] [LinearOrder K] in
theorem nuTheta_length (nu : List (List K)) : (nuTheta nu).length = nu.length := by simp [nuTheta]

omit [LinearOrder K] in
theorem joinNu_ok {opts : Options} {o : Ocp} {a : SolveArgs K} {n : Nat}
    {sim info : List K → Theta K → Except Err (List K)} {x0 p : List K} {theta nu : List (List K)}
    (ha : RelaxArgsFit o opts a sim info x0 p theta) (hd : DataFits o (mesh opts) x0 p theta)
    (hn : Rows opts.elements n nu) :
    ∃ th, joinNu a.theta nu = .ok th ∧ ∀ el < opts.elements,
      th.get? el = some ((elementData opts.elements theta nu).getD el []) := by
  unfold joinNu
  rcases ha.theta with ⟨th, h₁, h₂, h₃⟩ | ⟨h₁, h₂⟩
  · rw [h₁]
    simp only
    cases hj : joinThetas [some th, some (nuTheta nu)] with
    | error e =>
      exfalso
      have he := (C04_join_error_iff [some th, some (nuTheta nu)]).2 e hj
      subst he
      refine ((C04_join_error_iff _).1.1 hj) ?_
      unfold Spec.sameSizes
      intro x y hx hy _ _
      have key : ∀ z, some z ∈ [some th, some (nuTheta nu)] → z.length = opts.elements := by
        intro z hz
        simp only [List.mem_cons, Option.some.injEq, List.not_mem_nil, or_false] at hz
        rcases hz with rfl | rfl
        · exact h₂
        · rw [nuTheta_length, hn.1]
      rw [key x hx, key y hy]
    | ok r =>
      refine ⟨r, rfl, fun el he => ?_⟩
      have hmem : el ∈ th.keys := by
        by_contra hc
        have := (Theta.get?_eq_none_iff th el).2 hc
        rw [h₃ el he] at this
        cases this
      rw [((C04_join_value _ _ hj).2 el).1 ⟨th, by simp, hmem⟩, elementData_getD _ _ he]
      have e₁ : List.lookup el th = some (theta.getD el []) := h₃ el he
      have e₂ : List.lookup el (nuTheta nu) = some (nu.getD el []) := nuTheta_get hn he
      unfold Spec.concatAt
      simp only [List.filterMap_cons, Option.bind_some, e₁, e₂, List.filterMap_nil, List.flatten_cons,
        List.flatten_nil, List.append_nil]
  · rw [h₁]
    refine ⟨_, rfl, fun el he => ?_⟩
    have : theta.getD el [] = [] := by
      have := hd.theta el he
      rw [h₂] at this
      exact List.length_eq_zero_iff.1 this
    rw [elementData_getD _ _ he, this, nuTheta_get hn he]
    rfl

variable {opts : Options} {names : NewNames} {next : Sym} {o q : Ocp} {a : Relax.Args}

omit [LinearOrder K] in
theorem dataFits (hc : Constructed opts.roots opts.roots.length (a.alg o) (a.algVar o) next o q)
    {x0 p mu : List K} {theta nu : List (List K)} (hd : DataFits o (mesh opts) x0 p theta)
    (hm : mu.length = (a.alg o).length)
    (hn : Rows opts.elements ((a.alg o).length * opts.roots.length) nu) :
    DataFits q (mesh opts) x0 (p ++ mu) (elementData opts.elements theta nu) := by
  refine ⟨?_, ?_, fun el he => ?_⟩
  · rw [hc.relaxed.x]; exact hd.x0
  · rw [hc.p]; simp [hd.p, hm, newSyms]
  · have he : el < opts.elements := he
    rw [elementData_getD _ _ he, hc.theta]
    simp only [List.length_append, hd.theta el he, hn.getD he]
    simp [newSyms]

omit [LinearOrder K] in
theorem argsFit (hc : Constructed opts.roots opts.roots.length (a.alg o) (a.algVar o) next o q)
    (hl : o.lastU = none ∧ opts.lastControlAsParameter = false)
    {x0 p mu : List K} {theta nu : List (List K)} {args : SolveArgs K} {th : Theta K}
    {sim info : List K → Theta K → Except Err (List K)}
    (hd : DataFits o (mesh opts) x0 p theta) (ha : RelaxArgsFit o opts args sim info x0 p theta)
    (hth : ∀ el < opts.elements, th.get? el = some ((elementData opts.elements theta nu).getD el [])) :
    ArgsFit q opts { args with p := some (withMu args.p mu), theta := some th } sim info x0 (p ++ mu)
      (elementData opts.elements theta nu) := by
  refine ⟨?_, .inl ?_, .inl ⟨th, rfl, hth⟩, .inr ⟨?_, hl.2⟩, ha.guess⟩
  · rw [hc.relaxed.x0]; exact ha.x0
  · show some (withMu args.p mu) = _
    rcases ha.p with h | ⟨h, h'⟩
    · rw [h]; rfl
    · have : p = [] := by
        have := hd.p
        rw [h'] at this
        exact List.length_eq_zero_iff.1 this
      rw [h, this]
      rfl
  · rw [hc.untouched.lastU]; exact hl.1

/-! ## The relaxed equations as functions -/

section Functions
variable {m : Direct.Method} {S : Expr → Expr}

/-- What the preparation leaves of the expressions of the controls. -/
theorem prepared_controls {roots : List Rat} {xc fresh base : Sym} {s s' : Direct.Method}
    (hc : s.hasCostState = false) (h : prepare roots roots.length xc fresh base s = (.ok (), s'))
    (hu : ∀ k, base + k ∉ s.problem.model.u) (ht : s.problem.model.tau ∉ s.problem.model.u) :
    s'.problem.model.uExpr = polynomials roots s.problem.model.tau base s.problem.model.u.length roots.length := by
  obtain ⟨o₁, h₁, rfl⟩ := prepare_first hc h
  obtain ⟨-, -, -, -, -, -, -, -, -, -, hU, -⟩ := C41_added xc fresh s.problem o₁ h₁
  obtain ⟨o₂, h₂, rfl⟩ := Ocp.createCostState_ok_iff.mp h₁
  obtain ⟨-, lo, hi, m', hh, hlo, hhi, -, -, -, h₆, h₇, rfl⟩ := Ocp.includeState_ok_iff.mp h₂
  obtain ⟨-, -, -, -, rfl⟩ := (SysModel.includeState_ok_iff ..).mp h₆
  show (polynomials roots s.problem.model.tau base s.problem.model.u.length roots.length).map
    (Expr.subst s.problem.model.u _) = _
  conv_rhs => rw [← List.map_id (polynomials _ _ _ _ _)]
  refine List.map_congr_left fun e he => ?_
  refine Expr.subst_eq_self _ _ _ fun v hv hm => ?_
  rcases syms_polynomials _ _ _ _ _ (fun _ => rfl) e he v hm with rfl | hm
  · exact ht hv
  · obtain ⟨k, -, rfl⟩ := List.mem_map.1 hm
    exact hu k hv

/-- The first call creates the program. -/
theorem created_controls [IsStrictOrderedRing K] (ops : Expr.Ops K) {s : Direct.Method}
    (hc : s.hasCostState = false) (hp : s.prepared = false)
    (h : (prepare opts.controlRoots opts.controlRoots.length names.xc names.fresh names.base s).1 = .ok ())
    (hw : WellPosed K opts names s.problem) :
    ∃ m S P, Run opts names s.problem m.problem S ∧ Run.Builds ops opts names s.problem m.problem P ∧
      createProgram ops opts names ⟨s, none⟩ = (.ok P, (⟨m, some P⟩ : SolveDirect.State K)) ∧
      m.problem.model.uExpr = polynomials opts.controlRoots s.problem.model.tau names.base
        s.problem.model.u.length opts.controlRoots.length := by
  obtain ⟨m, S, P, R, hP, hcr⟩ := created ops hc hp h hw
  refine ⟨m, S, P, R, hP, hcr, ?_⟩
  have h' : prepare opts.controlRoots opts.controlRoots.length names.xc names.fresh names.base s =
      (.ok (), (prepare opts.controlRoots opts.controlRoots.length names.xc names.fresh names.base s).2) :=
    Prod.ext h rfl
  generalize (prepare opts.controlRoots opts.controlRoots.length names.xc names.fresh names.base s).2 = s'
    at h'
  have h₁ : onMethod (K := K) (solvePreparation opts.controlRoots
      opts.controlRoots.length names.xc names.fresh names.base) ⟨s, none⟩ =
      (.ok (), ⟨{ s' with prepared := true }, none⟩) := by
    unfold onMethod solvePreparation
    simp only [hp, Bool.false_eq_true, if_false]
    unfold prepareAndMark
    simp only [Py.bind_eq]
    rw [Py.bind_ok h']
    rfl
  have hm : m.problem = s'.problem := by
    unfold createProgram at hcr
    simp only [Py.bind_eq] at hcr
    rw [Py.bind_ok h₁] at hcr
    simp only [Py.get_bind] at hcr
    cases hb : build ops opts names { s' with prepared := true }.problem with
    | error e => 
      rw [hb] at hcr
      cases congrArg Prod.fst hcr
    | ok P' =>
      rw [hb] at hcr
      have := congrArg (fun r => r.2.method.problem) hcr
      exact this.symm
  rw [hm]
  refine prepared_controls hc h' ?_ ?_
  · intro k hk
    have := hw.new.points (names.base + k) (by
      simp only [problemSymbols, List.mem_cons, List.mem_append]
      tauto)
    exact absurd this (Nat.not_lt.2 (Nat.le_add_right _ _))
  · intro ht
    exact hw.problem.apart _ ht (by simp)

end Functions

/-! ## The loop -/

variable [IsStrictOrderedRing K]

/-- The method with its relaxed problem `q`, and what the direct method makes of it. -/
structure Ctx (ops : Expr.Ops K) (M : Method K) (next : Sym) (o : Ocp) (a : Relax.Args) (q : Ocp)
    (m : Direct.Method) (S : Expr → Expr) (P : Program K) : Prop where
  declared : RelaxDeclared K M.opts M.names next o a
  constructed : Constructed M.opts.roots M.opts.roots.length (a.alg o) (a.algVar o) next o q
  config : Configured M o a
  updates : Updates M
  prepares : (prepare M.opts.controlRoots M.opts.controlRoots.length M.names.xc M.names.fresh M.names.base
    ({ problem := q } : Direct.Method)).1 = .ok ()
  run : Run M.opts M.names q m.problem S
  builds : Run.Builds ops M.opts M.names q m.problem P
  created : createProgram ops M.opts M.names ⟨{ problem := q }, none⟩ =
    (.ok P, (⟨m, some P⟩ : SolveDirect.State K))
  controls : m.problem.model.uExpr = polynomials M.opts.controlRoots q.model.tau M.names.base
    q.model.u.length M.opts.controlRoots.length

theorem ctx (ops : Expr.Ops K) {M : Method K} {mu0 : Rat} {s' : Relax}
    (h : RelaxDeclared K M.opts M.names next o a) (hcfg : Configured M o a) (hu : Updates M)
    (hs : AfterConstruct mu0 M.opts.roots M.opts.roots.length (a.alg o) (a.algVar o) next o s') :
    ∃ m S P, Ctx ops M next o a s'.problem m S P := by
  have hw := wellPosed h hs.problem
  have hp := RelaxDirect.prepares M.opts.controlRoots M.opts.controlRoots.length M.names.xc M.names.fresh
    M.names.base ({ problem := s'.problem } : Direct.Method) hs.sized (by
      show M.names.xc ∉ s'.problem.model.ode.keys
      rw [hw.problem.complete.1]
      intro hm
      exact hw.new.costState (by simp [problemSymbols, hm]))
  obtain ⟨m, S, P, R, hP, hcr, hc⟩ := created_controls (names := M.names) ops
    (s := ({ problem := s'.problem } : Direct.Method)) rfl rfl hp hw
  exact ⟨m, S, P, h, hs.problem, hcfg, hu, hp, R, hP, hcr, hc⟩

namespace Ctx
variable {ops : Expr.Ops K} {M : Method K} {m : Direct.Method} {S : Expr → Expr} {P : Program K}
  (C : Ctx ops M next o a q m S P)
include C

theorem wellPosed : WellPosed K M.opts M.names q := RelaxDirect.wellPosed C.declared C.constructed

/-- The states of the direct method. -/
def Solver (q : Ocp) (m : Direct.Method) (P : Program K) (st : SolveDirect.State K) : Prop :=
  st = ⟨{ problem := q }, none⟩ ∨ st = ⟨m, some P⟩

theorem solve_same {st : SolveDirect.State K} (hst : Solver q m P st)
    (sim info : List K → Theta K → Except Err (List K))
    (solver : SolverCall K → Except Err (RawSolution K)) (args : SolveArgs K) :
    SolveDirect.solve ops M.opts M.names sim info solver args st =
      ((SolveDirect.solve ops M.opts M.names sim info solver args ⟨{ problem := q }, none⟩).1,
        ⟨m, some P⟩) := by
  have h₁ : program ops M.opts M.names ⟨{ problem := q }, none⟩ =
      (.ok P, (⟨m, some P⟩ : SolveDirect.State K)) := by
    unfold program; exact C.created
  have h₂ : program ops M.opts M.names ⟨m, some P⟩ = (.ok P, (⟨m, some P⟩ : SolveDirect.State K)) := rfl
  rcases hst with rfl | rfl
  · rw [solve_eq h₁]
  · rw [solve_eq h₂, solve_eq h₁]

/-- The symbols of a relaxed equation are symbols of the relaxed problem. -/
theorem relaxed_symbols (e : Expr) (he : e ∈ entriesAt o.model.alg (a.alg o)) (s : Sym) (hs : s ∈ e.syms) :
    s ∈ [q.model.t, q.model.tau] ++ q.model.x ++ q.model.y ++ q.model.u ++ q.model.p ++ q.model.theta := by
  have hmem : e ∈ alongPath o := by
    have := mem_of_entriesAt he
    simp only [alongPath, List.mem_append]
    tauto
  have hs := C.declared.scope.path e hmem s hs
  have hR := C.constructed.relaxed
  have hU := C.constructed.untouched
  have hsub : s ∈ o.model.y → s ∈ otherEntries o.model.y (a.algVar o) ∨
      s ∈ entriesAt o.model.y (a.algVar o) := fun hs => (mem_entries_or_other hs).symm
  rw [hU.clock.1, hU.clock.2, hR.x, hR.y, hR.u, C.constructed.p, C.constructed.theta]
  simp only [List.mem_append] at hs ⊢
  tauto

/-- The symbols of a relaxed equation are inputs of its function. -/
theorem relaxed_scope (e : Expr) (he : e ∈ entriesAt o.model.alg (a.alg o)) (s : Sym)
    (hs : s ∈ (S e).syms) : InScope m.problem.model s := by
  obtain ⟨h₁, h₂, h₃, h₄, h₅, h₆, h₇, h₈, h₉⟩ := C.run.prepared.symbols
  rw [C.run.prepared.subst] at hs
  rcases Expr.mem_syms_subst _ _ (polynomials_length ..).symm e s hs with ⟨hse, hu⟩ | ⟨r, hr, hs⟩
  · have := C.relaxed_symbols e he s hse
    simp only [List.mem_append, List.mem_cons, List.not_mem_nil, or_false] at this
    unfold InScope
    rw [h₁, h₂, h₃, h₅, h₆, h₇, List.mem_append]
    tauto
  · rcases syms_polynomials _ _ _ _ _ (fun _ => rfl) r hr s hs with rfl | h
    · exact .inr (.inl h₂.symm)
    · unfold InScope
      rw [h₉]
      tauto

/-- The functions of the relaxed equations. -/
def value (ops : Expr.Ops K) (M : Method K) (S : Expr → Expr) (m : Direct.Method) (es : List Expr) (el : Nat)
    (pt : Point K) : List K :=
  (Fun.mk m.problem.model.allSym ((es.map S).map (m.problem.inTime M.opts.elements el))).callAt ops pt

theorem relaxed_function (es : List Expr) (hes : ∀ e ∈ es, e ∈ entriesAt o.model.alg (a.alg o)) (el : Nat) :
    relaxedFunction m.problem M.opts.elements es el =
      .ok (Fun.mk m.problem.model.allSym ((es.map S).map (m.problem.inTime M.opts.elements el))) := by
  unfold relaxedFunction
  have e₁ : (es.map fun e => convertTauToTime (e.subst m.problem.model.u m.problem.model.uExpr)
      m.problem.model.t m.problem.model.tau (m.problem.timeBreakpoint M.opts.elements el)
      (m.problem.timeBreakpoint M.opts.elements (el + 1))) =
      (es.map S).map (m.problem.inTime M.opts.elements el) := by
    rw [List.map_map]
    refine List.map_congr_left fun e _ => ?_
    have hs := congrFun C.run.prepared.subst e
    rw [C.controls, C.run.prepared.symbols.2.2.2.2.2.2.2.1, ← hs]
    rfl
  rw [e₁]
  refine (Fun.make_ok_iff ..).2 ⟨?_, rfl⟩
  simp only [List.forall_mem_map]
  intro e he
  exact (convert_closed m.problem.model (S e) _ _).mpr (C.relaxed_scope e (hes e he))

omit [LinearOrder K] [IsStrictOrderedRing K] C in
theorem value_length (es : List Expr) (el : Nat) (pt : Point K) :
    (value ops M S m es el pt).length = es.length := by
  simp [value, Fun.callAt, Fun.call]

theorem relaxed_ok : ∃ R, relaxed ops M m.problem = .ok R ∧ R.direct = true ∧
    ∀ el < M.opts.elements, ∀ pt, R.value el pt = value ops M S m (entriesAt o.model.alg (a.alg o)) el pt := by
  have h₁ := mapM_ok (relaxedFunction m.problem M.al.elements M.relaxedAlg) _ (List.range M.al.elements)
    (fun el _ => by
      rw [C.config.relaxedAlg, C.config.elements]
      exact C.relaxed_function (entriesAt o.model.alg (a.alg o)) (fun _ h => h) el)
  have h₂ := mapM_ok (relaxedFunction m.problem M.al.elements M.relaxedEq) _ (List.range M.al.elements)
    (fun el _ => by
      rw [C.config.relaxedEq, C.config.elements]
      exact C.relaxed_function [] (by simp) el)
  unfold relaxed
  rw [h₁]
  simp only [bind, Except.bind, h₂]
  refine ⟨_, rfl, rfl, fun el hel pt => ?_⟩
  have hel' : el < M.al.elements := by rw [C.config.elements]; exact hel
  unfold AugLag.Relaxed.value
  simp only
  rw [funAt_range _ _ _ hel', funAt_range _ _ _ hel']
  unfold value Fun.callAt Fun.call
  simp

/-- The points at which the violations are evaluated. -/
noncomputable abbrev point (ops : Expr.Ops K) (M : Method K) (m : Direct.Method) (b : Blocks K) (p : List K)
    (theta : List (List K)) (el : Nat) (tau : K) : Point K :=
  pointAt (Setting.built ops (mesh M.opts) m.problem) b p theta el tau

theorem same_grid : SameGrid M.al (Setting.built ops (mesh M.opts) m.problem) := by
  have hU := C.constructed.untouched
  have hp := C.run.prepared.times
  refine ⟨C.config.degree.1, C.config.elements, ?_, ?_, ?_⟩
  · rw [C.config.horizon.1]
    show (o.t0 : K) = ((m.problem.t0 : Rat) : K)
    rw [hp.1, hU.horizon.1]
  · rw [C.config.horizon.2]
    show (o.tf : K) = ((m.problem.tf : Rat) : K)
    rw [hp.2, hU.horizon.2]
  · rw [C.config.degree.1, C.config.points]
    simp [inField]

/-- The violations are the values of the relaxed equations at the collocation points. -/
theorem violations_ok (hskip : M.al.skipCompute = false) {b : Blocks K}
    (hb : CollocationData (directDims q (mesh M.opts)) b) {x0 p : List K} {theta : List (List K)}
    (hd : DataFits q (mesh M.opts) x0 p theta) {th : Theta K}
    (hth : ∀ el < M.opts.elements, th.get? el = some (theta.getD el [])) :
    violations ops M ⟨m, some P⟩ p th (Layout.stacked b) = .ok ((List.range M.al.elements).map fun el =>
      (M.al.roots M.al.degree).map fun tau =>
        value ops M S m (entriesAt o.model.alg (a.alg o)) el (point ops M m b p theta el tau)) := by
  obtain ⟨R, hR, hdir, hval⟩ := C.relaxed_ok
  obtain ⟨ρ, hρ⟩ := C.run.readsAll b x0 p theta
  have hset := C.run.setting hb hd hρ
  have hcol := hset.collocatable ops
  have hfit := hset.data_fits ops
  have hgrid := C.same_grid
  have hmap : (List.range M.al.elements).mapM (MethodSetup.thetaAt th) =
      .ok ((List.range M.al.elements).map fun el => theta.getD el []) :=
    mapM_ok _ _ _ fun el hel => by
      unfold MethodSetup.thetaAt
      rw [hth el (by rw [← C.config.elements]; exact List.mem_range.1 hel)]
  unfold violations
  simp only
  rw [hR]
  simp only [bind, Except.bind, hskip, Bool.false_eq_true, if_false, hmap]
  unfold AugLag.violationsCollocation
  rw [C.builds.transcription, Layout.collocationBlocks_stacked hcol.elements hfit.toSharedShape hfit.x hfit.y]
  show AugLag.collect M.al R _ = _
  have hinc : IncreasingPoints M.al := by
    unfold IncreasingPoints
    rw [C.config.degree.1, C.config.points]
    exact hcol.increasing
  rw [AugLag.collect_ok M.al R _ (point ops M m b p theta) (M.al.roots M.al.degree) hgrid.points
    (fun el hel => ?_)]
  · congr 1
    refine List.map_congr_left fun el hel => List.map_congr_left fun tau _ => ?_
    exact hval el (by rw [← C.config.elements]; exact List.mem_range.1 hel) _
  · have hel' : el < M.opts.elements := by rw [← C.config.elements]; exact hel
    rw [AugLag.pointsCollocation_ok p _ hcol.toCollocationGrid hfit hgrid hinc (.inl hdir) hel']
    congr 1
    refine List.map_congr_left fun tau _ => ?_
    unfold point pointAt
    congr 1
    simp [List.getD_eq_getElem?_getD, hel]

/-- Without optimised parameters the values are those of the user's equations along the solution. -/
theorem value_eq (hopt : o.pOpt = [] ∧ o.thetaOpt = []) {b : Blocks K}
    (hb : CollocationData (directDims q (mesh M.opts)) b) {x0 p : List K} {theta : List (List K)}
    (hd : DataFits q (mesh M.opts) x0 p theta) {ρ : Nat → K → Sym → K}
    (hρ : ReadsAll q (mesh M.opts) b x0 p theta ρ) (el : Nat) (hel : el < M.opts.elements) (tau : K) :
    value ops M S m (entriesAt o.model.alg (a.alg o)) el (point ops M m b p theta el tau) =
      (entriesAt o.model.alg (a.alg o)).map (Expr.eval ops (ρ el tau)) := by
  have hset := C.run.setting hb hd hρ
  have hq : q.pOpt = [] ∧ q.thetaOpt = [] := by
    rw [C.constructed.untouched.pOpt.1, C.constructed.untouched.thetaOpt.1]; exact hopt
  have hput : ∀ (w v : List K), Ocp.putValues [] w v = v := fun w v => by simp [Ocp.putValues]
  have hP : (Setting.built ops (mesh M.opts) m.problem).fullP b p = p := by
    rw [hset.fullP_eq]
    unfold fullP
    rw [hq.1]
    exact hput _ _
  have hT : ((Setting.built ops (mesh M.opts) m.problem).fullTheta b theta).getD el [] = theta.getD el [] := by
    rw [hset.fullTheta_eq ops el hel]
    unfold fullTheta
    rw [hq.2]
    exact hput _ _
  have hpt : point ops M m b p theta el tau =
      Setting.at_ ops (mesh M.opts) m.problem b p theta el tau := by
    unfold Setting.at_ point pointAt
    rw [hP, hT]
  rw [hpt, hset.point_eq ops el hel tau]
  have r := (hset.reads el hel tau).toReadsData
  unfold value
  rw [call_inTime ops m.problem M.opts.elements hset.controlMesh.elements
    (by rw [hset.prepared.times.1, hset.prepared.times.2]; exact hset.problem.horizon) el _ ?_ _ _
    (hset.point_agrees hel r _) tau ?_ ?_]
  · rw [List.map_map]
    refine List.map_congr_left fun e he => ?_
    refine hset.eval_user ops hel r _ e fun s hse => ?_
    have := C.relaxed_symbols e he s hse
    simp only [problemSymbols, List.mem_append] at this ⊢
    tauto
  · simp only [List.forall_mem_map]
    exact fun e he => C.relaxed_scope e he
  · rw [hset.time_value r _, hset.prepared.times.1, hset.prepared.times.2]
    rfl
  · rw [hset.position_value r _]

omit C in
theorem primalMu_ok {al : Opts K} (hb : 0 ≤ al.beta) (hm : 0 ≤ al.muMax) :
    ∀ mu err last : List K, (∀ v ∈ mu, 0 ≤ v) →
      (AugLag.primalMu al mu err last).length = mu.length ∧
      ∀ v ∈ AugLag.primalMu al mu err last, 0 ≤ v
  | [], _, _, _ => by simp [AugLag.primalMu]
  | c :: mu, [], _, h => by simpa [AugLag.primalMu] using h
  | c :: mu, e :: err, [], h => by simpa [AugLag.primalMu] using h
  | c :: mu, e :: err, l :: last, h => by
    obtain ⟨h₁, h₂⟩ := primalMu_ok hb hm mu err last fun v hv => h v (List.mem_cons_of_mem _ hv)
    have hc := h c List.mem_cons_self
    refine ⟨by simp [AugLag.primalMu, h₁], ?_⟩
    intro v hv
    simp only [AugLag.primalMu, List.mem_cons] at hv
    rcases hv with rfl | hv
    · unfold AugLag.primalEntry
      split
      · exact hc
      · exact le_min hm (mul_nonneg hc hb)
    · exact h₂ v hv

omit C in
theorem updateMu_run {al : Opts K} (hb : 0 ≤ al.beta) (hm : 0 ≤ al.muMax)
    (hr : al.skipUpdateMu = true ∨ al.rule ∈ ["constant", "primal", "primal-dual", "bounded-increase"])
    (e : List K) (last : Option (List K)) (s : St K) (h0 : ∀ v ∈ s.mu, 0 ≤ v) :
    ∃ mu', AugLag.updateMu al e last s = (.ok (), { s with mu := mu' }) ∧ mu'.length = s.mu.length ∧
      ∀ v ∈ mu', 0 ≤ v := by
  unfold AugLag.updateMu
  by_cases hs : al.skipUpdateMu = true
  · rw [if_pos hs]; exact ⟨s.mu, rfl, rfl, h0⟩
  rw [if_neg hs]
  have hr := hr.resolve_left hs
  by_cases h₁ : al.rule = "constant"
  · rw [if_pos h₁]; exact ⟨s.mu, rfl, rfl, h0⟩
  rw [if_neg h₁]
  by_cases h₂ : al.rule = "primal"
  · rw [if_pos h₂]
    cases last with
    | none => exact ⟨s.mu, rfl, rfl, h0⟩
    | some l =>
      obtain ⟨g₁, g₂⟩ := primalMu_ok hb hm s.mu e l h0
      exact ⟨_, rfl, g₁, g₂⟩
  rw [if_neg h₂]
  by_cases h₃ : al.rule = "primal-dual"
  · rw [if_pos h₃]; exact ⟨s.mu, rfl, rfl, h0⟩
  rw [if_neg h₃]
  have h₄ : al.rule = "bounded-increase" := by
    simp only [List.mem_cons, List.not_mem_nil, or_false] at hr
    tauto
  rw [if_pos h₄]
  refine ⟨_, rfl, by simp, ?_⟩
  intro v hv
  obtain ⟨c, hc, rfl⟩ := List.mem_map.1 hv
  exact le_min hm (mul_nonneg (h0 c hc) hb)

omit [IsStrictOrderedRing K] C in
theorem newNu_rows {al : Opts K} {mu : List K} {nu : List (List K)} {viol : List (List (List K))}
    (hm : mu.length = al.nRelax) (hv : Violations al viol) :
    Rows al.elements (al.nRelax * al.degree) (AugLag.newNu al mu nu viol) := by
  refine ⟨by simp [AugLag.newNu], ?_⟩
  intro row hrow
  unfold AugLag.newNu at hrow
  obtain ⟨el, hel, rfl⟩ := List.mem_map.1 hrow
  rw [List.mem_range] at hel
  rw [List.length_flatMap]
  have : (List.map (fun j => (AugLag.newNuAt al mu (nu[el]?.getD []) (AugLag.violAt viol el j) el j).length)
      (List.range al.degree)) = (List.range al.degree).map fun _ => al.nRelax := by
    refine List.map_congr_left fun j hj => ?_
    exact AugLag.newNuAt_length al _ _ _ _ _ hm
      (AugLag.violAt_length al viol hv el j hel (List.mem_range.1 hj))
  rw [this]
  simp [Nat.mul_comm]

theorem discretised : Discretised M.al := by
  have hset := C.same_grid
  have hG := C.declared.mesh
  have hn : (0 : K) < (M.opts.elements : K) := Nat.cast_pos.2 hG.elements
  have ht : (o.t0 : K) < (o.tf : K) := Rat.cast_lt.2 C.declared.problem.horizon
  refine ⟨C.config.degree.2.trans C.config.degree.1.symm, hset.points, ?_, ?_, ?_⟩
  · rw [C.config.degree.1, C.config.points]
    exact (List.pairwise_cons.1 hG.increasing).2.imp (fun h => ne_of_lt h) |>.map Rat.cast fun a b h => by
      exact fun h' => h (Rat.cast_injective h')
  · rw [C.config.degree.1]
    have : 1 < M.opts.roots.length := hG.points
    omega
  · unfold AugLag.Opts.deltaT
    rw [C.config.horizon.1, C.config.horizon.2, C.config.elements]
    exact (div_pos (sub_pos.2 ht) hn).ne'

/-- The update of the multipliers and penalties. -/
theorem iterationError_run (hu : M.noUpdate = false) (al : St K) (hm : al.mu.length = (a.alg o).length)
    (h0 : ∀ v ∈ al.mu, 0 ≤ v) (pt : Nat → K → Point K) :
    ∃ e nu' mu', AugLag.iterationError M.al false ((List.range M.al.elements).map fun el =>
        (M.al.roots M.al.degree).map fun tau =>
          value ops M S m (entriesAt o.model.alg (a.alg o)) el (pt el tau)) al =
        (.ok (some e), { al with
          nuTilde := some nu', mu := mu', lastError := some e, errors := al.errors ++ [e] }) ∧
      Rows M.opts.elements ((a.alg o).length * M.opts.roots.length) nu' ∧
      mu'.length = (a.alg o).length ∧ (∀ v ∈ mu', 0 ≤ v) ∧ e.length = (a.alg o).length ∧
      ∀ i x, e[i]? = some x → LargestOver M.opts.elements (inField M.opts.roots)
        (value ops M S m (entriesAt o.model.alg (a.alg o))) pt i x := by
  obtain ⟨hc, hn, hi, hr⟩ := C.updates.plain.resolve_left (by simp [hu])
  obtain ⟨hb, hM⟩ := C.updates.nonnegative
  have hlen : ∀ el pt, (value ops M S m (entriesAt o.model.alg (a.alg o)) el pt).length = M.al.nRelax := by
    intro el pt
    rw [value_length, entriesAt_length _ _ C.declared.relaxable.equations.2, C.config.count]
  have hm' : al.mu.length = M.al.nRelax := by rw [C.config.count]; exact hm
  have hup := (AugLag.update_of M.al _ pt al C.discretised hlen hm' hc hn hi _ rfl).1
  have hviol := AugLag.violations_of (o := M.al) _ pt (M.al.roots M.al.degree) C.discretised.points hlen
  generalize hv : ((List.range M.al.elements).map fun el => (M.al.roots M.al.degree).map fun tau =>
    value ops M S m (entriesAt o.model.alg (a.alg o)) el (pt el tau)) = viol at hup hviol ⊢
  have hcomp := AugLag.computeNu_plain M.al viol al hc hn hi
  obtain ⟨mu', hmu, hl', hpos⟩ := updateMu_run hb hM hr (AugLag.rowErrors M.al viol) al.lastError
    { al with nuTilde := some (AugLag.newNu M.al al.mu al.nu viol) } h0
  have hpar : AugLag.updateParameters M.al viol al = (.ok (AugLag.rowErrors M.al viol),
      { al with nuTilde := some (AugLag.newNu M.al al.mu al.nu viol), mu := mu',
                lastError := some (AugLag.rowErrors M.al viol) }) := by
    unfold AugLag.updateParameters
    simp only [Py.bind_eq]
    rw [Py.bind_ok hcomp, Py.get_bind, Py.bind_ok hmu]
    rfl
  refine ⟨AugLag.rowErrors M.al viol, AugLag.newNu M.al al.mu al.nu viol, mu', ?_, ?_, ?_, hpos, ?_, ?_⟩
  · unfold AugLag.iterationError
    simp only [Bool.false_eq_true, if_false, Py.bind_eq]
    rw [Py.bind_ok hpar]
    rfl
  · have := newNu_rows (nu := al.nu) hm' hviol
    rw [C.config.elements, C.config.count, C.config.degree.1] at this
    exact this
  · rw [hl']; exact hm
  · rw [← C.config.count]; exact (hup _ (by rw [hpar])).1
  · intro i x hx
    have := (hup _ (by rw [hpar])).2 i x hx
    rw [C.config.elements, C.config.degree.1, C.config.points] at this
    exact this

/-- The states between the iterations. -/
structure Inv (M : Method K) (o : Ocp) (a : Relax.Args) (q : Ocp) (m : Direct.Method) (P : Program K)
    (st : State K) : Prop where
  solver : Solver q m P st.solver
  nu : Rows M.opts.elements ((a.alg o).length * M.opts.roots.length) st.al.nu
  tilde : ∀ t, st.al.nuTilde = some t → Rows M.opts.elements ((a.alg o).length * M.opts.roots.length) t
  count : st.al.mu.length = (a.alg o).length
  nonnegative : ∀ v ∈ st.al.mu, 0 ≤ v

/-- What an iteration returns and leaves. -/
structure Outcome (ops : Expr.Ops K) (M : Method K) (o : Ocp) (a : Relax.Args) (q : Ocp) (m : Direct.Method)
    (S : Expr → Expr) (x0 p : List K) (theta : List (List K))
    (solver : SolverCall K → Except Err (RawSolution K)) (r : SolveDirect.Result K) (al : St K)
    (mu : List K) (b : Blocks K) : Prop where
  solved : al.solves.getLast? = some (al.nu, mu)
  count : mu.length = (a.alg o).length
  nonnegative : ∀ v ∈ mu, 0 ≤ v
  rows : Rows M.opts.elements ((a.alg o).length * M.opts.roots.length) al.nu
  data : CollocationData (directDims q (mesh M.opts)) b
  raw : r.report.raw = Layout.stacked b
  shows : Shows q (mesh M.opts) b r.report
  final : r.xCFinal = some [(statePoly (mesh M.opts) b (M.opts.elements - 1) q.model.x.length).eval 1]
  optimal : r.report.success = true →
    (∃ ρ, ReadsAll q (mesh M.opts) b x0 (p ++ mu) (elementData M.opts.elements theta al.nu) ρ) ∧
    (∀ ρ, ReadsAll q (mesh M.opts) b x0 (p ++ mu) (elementData M.opts.elements theta al.nu) ρ →
      Decision ops q (mesh M.opts) x0 (p ++ mu) (elementData M.opts.elements theta al.nu) none b ρ ∧
      r.report.objective = directCost ops q (mesh M.opts) b ρ) ∧
    ∀ b' ρ', Decision ops q (mesh M.opts) x0 (p ++ mu) (elementData M.opts.elements theta al.nu) none b' ρ' →
      r.report.objective ≤ directCost ops q (mesh M.opts) b' ρ'
  succeeds : CompleteSolver ops solver → ∀ best ρ, BestDecision ops q (mesh M.opts) x0 (p ++ mu)
    (elementData M.opts.elements theta al.nu) none best ρ → r.report.success = true
  error : M.noUpdate = false → ∃ e, al.lastError = some e ∧ e.length = (a.alg o).length ∧
    ∀ i x, e[i]? = some x → LargestOver M.opts.elements (inField M.opts.roots)
      (value ops M S m (entriesAt o.model.alg (a.alg o)))
      (point ops M m b (p ++ mu) (elementData M.opts.elements theta al.nu)) i x
  step : M.noUpdate = false → ∃ (before : St K) (e : List K), before.nu = al.nu ∧ before.mu = mu ∧
    AugLag.iterationError M.al false ((List.range M.al.elements).map fun el =>
        (M.al.roots M.al.degree).map fun tau => value ops M S m (entriesAt o.model.alg (a.alg o)) el
          (point ops M m b (p ++ mu) (elementData M.opts.elements theta al.nu) el tau)) before =
      (.ok (some e), al)

theorem iteration_run {st : State K} (hi : Inv M o a q m P st) {x0 p : List K} {theta : List (List K)}
    (hd : DataFits o (mesh M.opts) x0 p theta) {args : SolveArgs K}
    {sim info : List K → Theta K → Except Err (List K)}
    (ha : RelaxArgsFit o M.opts args sim info x0 p theta)
    {solver : SolverCall K → Except Err (RawSolution K)} (hs : GoodSolver ops solver) :
    ∃ r flag st', iteration ops M sim info solver args st = (.ok (r, flag), st') ∧
      Inv M o a q m P st' ∧ st'.solver = ⟨m, some P⟩ ∧
      (∃ mu b, Outcome ops M o a q m S x0 p theta solver r st'.al mu b) ∧
      (flag = true ↔ M.noUpdate = false ∧ ∃ e, st'.al.lastError = some e ∧ Met M.al e) ∧
      st'.al.solves = st.al.solves ++ [(st.al.nuTilde.getD st.al.nu, st.al.mu)] := by
  have hnu : Rows M.opts.elements ((a.alg o).length * M.opts.roots.length) (st.al.nuTilde.getD st.al.nu) := by
    cases h : st.al.nuTilde with
    | none => exact hi.nu
    | some t => exact hi.tilde t h
  generalize hnew : st.al.nuTilde.getD st.al.nu = nu at hnu
  obtain ⟨th, hj, hth⟩ := joinNu_ok ha hd hnu
  have hdq := dataFits C.constructed hd hi.count hnu
  have hfit := argsFit (mu := st.al.mu) C.constructed ⟨C.declared.last.1, C.declared.last.2.2⟩ hd ha hth
  obtain ⟨r, b, h₁, h₂, h₃, h₄, h₅, h₆, h₇⟩ := C161_solve ops M.opts M.names
    ({ problem := q } : Direct.Method) sim info solver
    { args with p := some (withMu args.p st.al.mu), theta := some th } x0 (p ++ st.al.mu)
    (elementData M.opts.elements theta nu) rfl rfl C.prepares C.wellPosed hdq hfit hs
  have hlast : lastOf (K := K) q = none := by
    unfold lastOf
    rw [C.constructed.untouched.lastU, C.declared.last.1]
    rfl
  simp only [hlast] at h₇
  have hsuc : CompleteSolver ops solver → ∀ best ρ, BestDecision ops q (mesh M.opts) x0 (p ++ st.al.mu)
      (elementData M.opts.elements theta nu) none best ρ → r.report.success = true := by
    intro hcs best ρ hbest
    rw [← hlast] at hbest
    obtain ⟨r', hr', hr, -⟩ := C161_succeeds ops M.opts M.names ({ problem := q } : Direct.Method) sim info
      solver { args with p := some (withMu args.p st.al.mu), theta := some th } x0 (p ++ st.al.mu)
      (elementData M.opts.elements theta nu) rfl rfl C.prepares C.wellPosed hdq hfit hs hcs best ρ hbest
    obtain rfl : r = r' := Except.ok.inj (h₁.symm.trans hr')
    exact hr
  have hp : withMu args.p st.al.mu = p ++ st.al.mu := by
    rcases hfit.p with h | h
    · exact Option.some.inj h
    · exact absurd h.1 (by simp)
  let al₁ : St K := { st.al with nu := nu, solves := st.al.solves ++ [(nu, st.al.mu)] }
  have hsolve : onSolver (SolveDirect.solve ops M.opts M.names sim info solver
      { args with p := some (withMu args.p st.al.mu), theta := some th }) ⟨st.solver, al₁⟩ =
      (.ok r, ⟨⟨m, some P⟩, al₁⟩) := by
    unfold onSolver
    simp only
    rw [C.solve_same hi.solver, h₁]
  have hrun : ∀ {e st'}, update ops M (withMu args.p st.al.mu) th r.report.raw ⟨⟨m, some P⟩, al₁⟩ = (.ok e, st') →
      iteration ops M sim info solver args st = (.ok (r, AugLag.meets M.al e), st') := by
    intro e st' hup
    unfold iteration
    simp only [Py.bind_eq]
    have e₁ : onAl (Py.modify fun s : St K => { s with nu := s.nuTilde.getD s.nu }) st =
        (.ok (), ⟨st.solver, { st.al with nu := nu }⟩) := by
      unfold onAl
      simp only [Py.modify_apply, hnew]
    rw [Py.bind_ok e₁, Py.get_bind]
    simp only [hj, Py.lift_ok_bind]
    have e₂ : onAl (Py.modify fun s : St K => { s with solves := s.solves ++ [(s.nu, s.mu)] })
        (⟨st.solver, { st.al with nu := nu }⟩ : State K) = (.ok (), ⟨st.solver, al₁⟩) := rfl
    rw [Py.bind_ok e₂, Py.bind_ok hsolve, Py.bind_ok hup]
    rfl
  cases hno : M.noUpdate with
  | true =>
    have hup : update ops M (withMu args.p st.al.mu) th r.report.raw ⟨⟨m, some P⟩, al₁⟩ =
        (.ok none, ⟨⟨m, some P⟩, al₁⟩) := by
      unfold update
      rw [if_pos hno]
      rfl
    refine ⟨r, _, _, hrun hup, ⟨.inr rfl, hnu, hi.tilde, hi.count, hi.nonnegative⟩, rfl,
      ⟨st.al.mu, b, by simp [al₁], hi.count, hi.nonnegative, hnu, h₂, h₃, h₄, h₆, h₇, hsuc, ?_, ?_⟩, ?_, by simp [al₁, hnew]⟩
    · intro h; rw [hno] at h; cases h
    · intro h; rw [hno] at h; cases h
    · simp [AugLag.meets]
  | false =>
    obtain ⟨hskip, -⟩ := C.updates.plain.resolve_left (by simp [hno])
    obtain ⟨e, nu', mu', g₁, g₂, g₃, g₄, g₅, g₆⟩ := C.iterationError_run hno al₁ hi.count hi.nonnegative
      (point ops M m b (p ++ st.al.mu) (elementData M.opts.elements theta nu))
    have hup : update ops M (withMu args.p st.al.mu) th r.report.raw ⟨⟨m, some P⟩, al₁⟩ =
        (.ok (some e), ⟨⟨m, some P⟩, { al₁ with
          nuTilde := some nu', mu := mu', lastError := some e, errors := al₁.errors ++ [e] }⟩) := by
      unfold update
      rw [if_neg (by simp [hno]), hp, h₃]
      simp only [Py.bind_eq, Py.get_bind]
      rw [C.violations_ok hskip h₂ hdq hth]
      simp only [Py.lift_ok_bind]
      unfold onAl
      simp only
      rw [g₁]
    refine ⟨r, _, _, hrun hup, ⟨.inr rfl, hnu, ?_, g₃, g₄⟩, rfl,
      ⟨st.al.mu, b, by simp [al₁], hi.count, hi.nonnegative, hnu, h₂, h₃, h₄, h₆, h₇, hsuc, ?_, ?_⟩, ?_, by simp [al₁, hnew]⟩
    · intro t ht
      obtain rfl : nu' = t := Option.some.inj ht
      exact g₂
    · exact fun _ => ⟨e, rfl, g₅, g₆⟩
    · exact fun _ => ⟨al₁, e, rfl, rfl, g₁⟩
    · rw [meets_iff]
      constructor
      · exact fun h => ⟨rfl, e, rfl, h⟩
      · rintro ⟨-, e', he, hm⟩
        obtain rfl : e = e' := Option.some.inj he
        exact hm

theorem iterations_run {x0 p : List K} {theta : List (List K)} (hd : DataFits o (mesh M.opts) x0 p theta)
    {sim info : List K → Theta K → Except Err (List K)}
    {solver : SolverCall K → Except Err (RawSolution K)} (hs : GoodSolver ops solver)
    (dual : Report K → List K × List K) (n : Nat) :
    ∀ {st : State K} {args : SolveArgs K} (last : Option (SolveDirect.Result K)), Inv M o a q m P st →
      RelaxArgsFit o M.opts args sim info x0 p theta →
      ∃ r st', iterations ops M sim info solver dual (n + 1) args last st = (.ok (some r), st') ∧
        Inv M o a q m P st' ∧ (∃ mu b, Outcome ops M o a q m S x0 p theta solver r st'.al mu b) ∧
        (st'.al.solves.length = st.al.solves.length + (n + 1) ∨
          M.noUpdate = false ∧ ∃ e, st'.al.lastError = some e ∧ Met M.al e) ∧
        st'.al.solves.length ≤ st.al.solves.length + (n + 1) ∧
        st.al.solves ++ [(st.al.nuTilde.getD st.al.nu, st.al.mu)] <+: st'.al.solves := by
  induction n with
  | zero =>
    intro st args last hi ha
    obtain ⟨r, flag, st', h₁, h₂, -, h₃, -, h₄⟩ := C.iteration_run hi hd ha hs
    refine ⟨r, st', ?_, h₂, h₃, .inl (by simp [h₄]), by simp [h₄], by rw [h₄]⟩
    unfold iterations
    rw [Py.bind_ok h₁]
    cases flag <;> rfl
  | succ n ih =>
    intro st args last hi ha
    obtain ⟨r, flag, st', h₁, h₂, -, h₃, h₅, h₄⟩ := C.iteration_run hi hd ha hs
    cases flag with
    | true =>
      refine ⟨r, st', ?_, h₂, h₃, .inr (h₅.mp rfl), by simp [h₄], by rw [h₄]⟩
      unfold iterations
      rw [Py.bind_ok h₁]
      rfl
    | false =>
      obtain ⟨r', st'', g₁, g₂, g₃, g₄, g₅, g₆⟩ := ih (st := st')
        (args := { args with guessDict := some (r.report.raw, dual r.report) }) (some r) h₂
        ⟨ha.x0, ha.p, ha.theta, .inl (by simp)⟩
      have hl : st'.al.solves.length = st.al.solves.length + 1 := by simp [h₄]
      refine ⟨r', st'', ?_, g₂, g₃, g₄.imp_left fun h => by omega, by omega, ?_⟩
      rotate_left
      · rw [← h₄]
        exact (List.prefix_append _ _).trans g₆
      unfold iterations
      rw [Py.bind_ok h₁]
      exact g₁

omit C in
theorem iterations_zero (sim info : List K → Theta K → Except Err (List K))
    (solver : SolverCall K → Except Err (RawSolution K)) (dual : Report K → List K × List K)
    (args : SolveArgs K) (h : M.al.maxIter = 0) (st : State K) :
    solve ops M sim info solver dual args st = (.error .unboundLocalError, st) := by
  unfold solve
  rw [h]
  rfl

theorem solve_run {x0 p : List K} {theta : List (List K)} (hd : DataFits o (mesh M.opts) x0 p theta)
    {sim info : List K → Theta K → Except Err (List K)}
    {solver : SolverCall K → Except Err (RawSolution K)} (hs : GoodSolver ops solver)
    (dual : Report K → List K × List K) (hn : M.al.maxIter ≠ 0) {st : State K} {args : SolveArgs K}
    (hi : Inv M o a q m P st) (ha : RelaxArgsFit o M.opts args sim info x0 p theta) :
    ∃ r st', solve ops M sim info solver dual args st =
        (.ok ⟨r.report, r.xCFinal, args.x0, st'.al.lastError⟩, st') ∧
      Inv M o a q m P st' ∧ (∃ mu b, Outcome ops M o a q m S x0 p theta solver r st'.al mu b) ∧
      (st'.al.solves.length = st.al.solves.length + M.al.maxIter ∨
        M.noUpdate = false ∧ ∃ e, st'.al.lastError = some e ∧ Met M.al e) ∧
      st'.al.solves.length ≤ st.al.solves.length + M.al.maxIter ∧
      st.al.solves ++ [(st.al.nuTilde.getD st.al.nu, st.al.mu)] <+: st'.al.solves := by
  obtain ⟨n, hn⟩ := Nat.exists_eq_succ_of_ne_zero hn
  obtain ⟨r, st', h₁, h₂, h₃, h₄⟩ := C.iterations_run hd hs dual n none hi ha
  refine ⟨r, st', ?_, h₂, h₃, by rw [hn]; exact h₄⟩
  unfold solve
  rw [hn]
  simp only [Py.bind_eq]
  rw [Py.bind_ok h₁]
  rfl

/-- The states an augmented Lagrangian object can be in. -/
theorem inv_reached {mu0 : K} (h0 : 0 ≤ mu0) {st : State K} (h : AugLagReached ops M o mu0 q st) :
    Inv M o a q m P st := by
  induction h with
  | start =>
    refine ⟨.inl rfl, ⟨?_, ?_⟩, ?_, ?_, ?_⟩
    · simp [AugLag.start, C.config.elements]
    · intro v hv
      rw [List.eq_of_mem_replicate hv, List.length_replicate, C.config.count, C.config.degree.2]
    · rintro t ⟨⟩
    · simp [AugLag.start, C.config.count]
    · intro v hv
      rw [List.eq_of_mem_replicate hv]
      exact h0
  | call _ hd ha hs dual ih =>
    by_cases hn : M.al.maxIter = 0
    · rw [iterations_zero _ _ _ _ _ hn]
      exact ih
    · obtain ⟨r, st', h₁, h₂, -⟩ := C.solve_run hd hs dual hn ih ha
      rw [h₁]
      exact h₂

end Ctx

/-- Nothing has been updated yet. -/
def Fresh (nu : List (List K)) (mu : List K) (st : State K) : Prop :=
  st.al.nu = nu ∧ st.al.nuTilde = none ∧ st.al.mu = mu ∧ st.al.lastError = none

omit [IsStrictOrderedRing K] in
theorem iterations_fresh (ops : Expr.Ops K) (M : Method K) (hno : M.noUpdate = true)
    (sim info : List K → Theta K → Except Err (List K))
    (solver : SolverCall K → Except Err (RawSolution K)) (dual : Report K → List K × List K)
    (nu : List (List K)) (mu : List K) (n : Nat) : ∀ (args : SolveArgs K) (last : Option (SolveDirect.Result K)),
    Py.Always (Fresh nu mu) (iterations ops M sim info solver dual n args last) := by
  induction n with
  | zero => exact fun _ _ => Py.Always.pure _
  | succ n ih =>
    intro args last
    unfold iterations
    refine Py.Always.bind ?_ fun r => ?_
    · unfold iteration
      refine Py.Always.bind ?_ fun _ => Py.Always.bind Py.Always.get fun s => Py.Always.bind (Py.Always.lift _)
        fun th => Py.Always.bind ?_ fun _ => Py.Always.bind ?_ fun r => Py.Always.bind ?_ fun e =>
          Py.Always.pure _
      · intro s h
        exact ⟨by show s.al.nuTilde.getD s.al.nu = nu; rw [h.2.1]; exact h.1, h.2.1, h.2.2.1, h.2.2.2⟩
      · intro s h
        exact h
      · intro s h
        exact h
      · unfold update
        rw [if_pos hno]
        exact Py.Always.pure _
    · split
      · exact Py.Always.pure _
      · exact ih _ _

end Verif.SolveAugLag
