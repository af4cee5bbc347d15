import Verif.Lemmas.DirectSolution
/-!
# C159: a direct method with collocation solves the discretisation of the problem of the user
-/
namespace Verif
open Spec Direct

variable {K : Type} [Field K] [LinearOrder K] [IsStrictOrderedRing K]

/-- C159. After the preparation of a direct method (`s'`), the discretisation of the prepared problem
succeeds, and its constraints hold exactly when the expressions of the user hold, on the polynomials
of the decision vector; its objective is the cost of the user. -/
theorem C159_direct (ops : Expr.Ops K) (M : Mesh) (xc fresh base : Sym) (s s' : Method)
    (b : Blocks K) (x0 p : List K) (theta : List (List K)) (lastU : Option (List K))
    (ρ : Nat → K → Sym → K) (hc : s.hasCostState = false)
    (h : prepare M.controlRoots M.controlRoots.length xc fresh base s = (.ok (), s'))
    (hm : GoodMesh M) (ho : DirectProblem s.problem) (hs : DirectScope s.problem)
    (hn : NewSymbols s.problem xc fresh base) (hb : CollocationData (directDims s.problem M) b)
    (hd : DataFits s.problem M x0 p theta) (hl : LimitsFit s.problem lastU)
    (hρ : ∀ el < M.elements, ∀ tau, Reads s.problem M b x0 p theta el tau (ρ el tau)) :
    ∃ m cons, s'.problem.transcription ops M.roots M.elements M.roots.length M.controlRoots.length =
        .ok m ∧
      m.discretize b (x0 ++ [0]) p theta lastU = .ok (cons, directCost ops s.problem M b ρ) ∧
      ((∀ c ∈ cons, c.Holds) ↔ DirectSolution ops s.problem M b lastU ρ) := by
  obtain ⟨S, hp⟩ := prepared_of hc h hn ho.complete
  have C : Setting M s.problem s'.problem xc fresh base S b x0 p theta ρ :=
    ⟨⟨hm.toControlMesh, ho, hs, hn, hp, hb.toSharedShape, hd⟩, hm, hb, hρ⟩
  obtain ⟨cons, h₁, h₂⟩ := C92_feasible_iff (Setting.built ops M s'.problem) b (x0 ++ [0]) p theta lastU
    (C.collocatable ops) (C.data_fits ops) (C.rates_fit ops hl)
  refine ⟨_, cons, (Ocp.transcription_ok_iff ops _ _ _ _ _ hm.elements _).mpr ⟨C.function_scope, rfl⟩,
    ?_, ?_⟩
  · rw [h₁, C.cost_eq ops]
  · rw [h₂, C.collocates_iff ops lastU]

omit [LinearOrder K] [IsStrictOrderedRing K] in
/-- C159. The functions can be created exactly when each expression uses only the inputs of its
function; otherwise CasADi raises. -/
theorem C159_functions (ops : Expr.Ops K) (o : Ocp) (M : Mesh) (h : 0 < M.elements) :
    (∃ m, o.transcription ops M.roots M.elements M.roots.length M.controlRoots.length = .ok m) ∧
      FunctionScope o ∨
    o.transcription ops M.roots M.elements M.roots.length M.controlRoots.length =
      .error .runtimeError ∧ ¬ FunctionScope o := by
  by_cases hf : FunctionScope o
  · exact .inl ⟨⟨_, (Ocp.transcription_ok_iff ops o _ _ _ _ h _).mpr ⟨hf, rfl⟩⟩, hf⟩
  · refine .inr ⟨?_, hf⟩
    cases hm : o.functions M.elements with
    | ok f => exact absurd ((Ocp.functions_ok h _).mp hm).1 hf
    | error e =>
      rw [Ocp.functions_error hm] at hm
      simp only [Ocp.transcription, hm, bind, Except.bind]

omit [LinearOrder K] [IsStrictOrderedRing K] in
/-- C159. With different symbols there are values of the symbols to every decision vector: the
theorem above is about every decision vector. -/
theorem C159_values (o : Ocp) (M : Mesh) (b : Blocks K) (x0 p : List K) (theta : List (List K))
    (hd : (problemSymbols o).Nodup) (hp : o.pOpt.Nodup ∧ ∀ s ∈ o.pOpt, s ∈ o.model.p)
    (ht : o.thetaOpt.Nodup ∧ ∀ s ∈ o.thetaOpt, s ∈ o.model.theta) (el : Nat) (tau : K) :
    ∃ ρ, Reads o M b x0 p theta el tau ρ := by
  have idx : ∀ (l : List Sym) (i : Nat) (s : Sym), l.Nodup → l[i]? = some s → l.idxOf s = i := by
    intro l i s hl hs
    obtain ⟨hi, rfl⟩ := List.getElem?_eq_some_iff.mp hs
    exact hl.idxOf_getElem i hi
  obtain ⟨ρ, hρ⟩ := exists_assignment (K := K) [([o.model.t], fun _ => stepLength o M * ((el : K) + tau)),
    ([o.model.tau], fun _ => tau), (o.model.x, fun i => (statePoly M b el i).eval tau),
    (o.model.y, fun i => (algebraicPoly M b el i).eval tau),
    (o.model.u, fun i => (controlPoly M b el i).eval tau),
    (o.model.p, fun i => if o.model.p.getD i 0 ∈ o.pOpt
      then b.pOpt.getD (o.pOpt.idxOf (o.model.p.getD i 0)) 0 else p.getD i 0),
    (o.model.theta, fun i => if o.model.theta.getD i 0 ∈ o.thetaOpt
      then (b.thetaOpt.getD el []).getD (o.thetaOpt.idxOf (o.model.theta.getD i 0)) 0
      else (theta.getD el []).getD i 0),
    (o.model.x0, fun i => x0.getD i 0), (o.eta, fun i => b.eta.getD i 0)]
    (by simpa [problemSymbols] using hd)
  simp only [List.forall_mem_cons, List.not_mem_nil, false_implies, implies_true, and_true] at hρ
  obtain ⟨h₁, h₂, h₃, h₄, h₅, h₆, h₇, h₈, h₉⟩ := hρ
  refine ⟨ρ, ⟨h₁ 0 _ rfl, h₂ 0 _ rfl, h₅, ?_, ?_, ?_, ?_, h₈, h₉⟩, h₃, h₄⟩
  · intro i s hs hn
    rw [h₆ i s hs, List.getD_eq_getElem?_getD, hs, Option.getD_some, if_neg hn]
  · intro i s hs
    obtain ⟨j, hj⟩ := List.getElem?_of_mem (hp.2 s (List.mem_of_getElem? hs))
    rw [h₆ j s hj, List.getD_eq_getElem?_getD (l := o.model.p), hj, Option.getD_some,
      if_pos (List.mem_of_getElem? hs), idx _ i s hp.1 hs]
  · intro i s hs hn
    rw [h₇ i s hs, List.getD_eq_getElem?_getD (l := o.model.theta), hs, Option.getD_some,
      if_neg hn]
  · intro i s hs
    obtain ⟨j, hj⟩ := List.getElem?_of_mem (ht.2 s (List.mem_of_getElem? hs))
    rw [h₇ j s hj, List.getD_eq_getElem?_getD (l := o.model.theta), hj, Option.getD_some,
      if_pos (List.mem_of_getElem? hs), idx _ i s ht.1 hs]

omit [LinearOrder K] [IsStrictOrderedRing K] in
/-- C159 fails for an initial condition that uses the time, an algebraic variable or a parameter, a
final condition that uses the time or an algebraic variable, and a final cost that uses one of these:
their functions do not have these inputs. -/
theorem C159_scope_fails (ops : Expr.Ops K) (M : Mesh) (xc fresh base : Sym) (s s' : Method)
    (hc : s.hasCostState = false)
    (h : prepare M.controlRoots M.controlRoots.length xc fresh base s = (.ok (), s'))
    (hm : 0 < M.elements) (hk : Complete s.problem.model)
    (hn : NewSymbols s.problem xc fresh base) (e : Expr) (v : Sym) (hv : v ∈ e.syms)
    (hs : v ∈ problemSymbols s.problem) (hu : v ∉ s.problem.model.u)
    (he : (e ∈ s.problem.hInitial ∧ v ∉ s.problem.model.x ++ s.problem.model.x0) ∨
      (e ∈ s.problem.hFinal ∧ v ∉ s.problem.model.x ++ s.problem.eta ++ s.problem.model.p) ∨
      (e = s.problem.V ∧ v ∉ s.problem.model.x ++ s.problem.model.p)) :
    s'.problem.transcription ops M.roots M.elements M.roots.length M.controlRoots.length =
      .error .runtimeError := by
  obtain ⟨S, hp⟩ := prepared_of hc h hn hk
  rcases C159_functions ops s'.problem M hm with ⟨-, hf⟩ | ⟨hf, -⟩
  · exfalso
    have hS : ∀ e : Expr, v ∈ e.syms → v ∈ (S e).syms := by
      intro e hv
      rw [hp.subst, Expr.subst, Expr.mem_syms_mapSyms]
      refine ⟨v, hv, ?_⟩
      rw [Expr.replacementOf_not_mem _ _ _ hu]
      simp [Expr.syms]
    have hx : v ≠ xc := fun h => hn.costState (h ▸ hs)
    have hx0 : v ≠ fresh := fun h => hn.initial (h ▸ hs)
    obtain ⟨h₁, h₂, h₃, h₄, h₅, h₆, h₇, h₈, h₉⟩ := hp.symbols
    rcases he with ⟨he, hne⟩ | ⟨he, hne⟩ | ⟨rfl, hne⟩
    · have := hf.initial (S e) (by
        rw [hp.initial]; exact List.mem_map_of_mem (List.mem_append_left _ he)) v (hS e hv)
      rw [h₃, h₄] at this
      simp [hx, hx0] at this hne
      tauto
    · have := hf.final (S e) (by rw [hp.final]; exact List.mem_map_of_mem he) v (hS e hv)
      rw [h₃, h₆, hp.others.1] at this
      simp [hx] at this hne
      tauto
    · have := hf.cost v (by
        rw [hp.vCost]; exact hS _ (by simp [Expr.syms, hv]))
      rw [h₃, h₆] at this
      simp [hx] at this hne
      tauto
  · exact hf

omit [LinearOrder K] [IsStrictOrderedRing K] in
/-- C159 fails for algebraic equations of a model without algebraic variables: the discretised
problem is the one without these equations. -/
theorem C159_algebraic_fails (ops : Expr.Ops K) (M : Mesh) (o : Ocp) (h : o.model.y = []) :
    o.transcription ops M.roots M.elements M.roots.length M.controlRoots.length =
      { o with model := { o.model with alg := [] } }.transcription ops M.roots M.elements
        M.roots.length M.controlRoots.length := by
  have hd : o.model.getDae = { o.model with alg := [] }.getDae := by
    have : o.model.isDae = false := by simp [SysModel.isDae, h]
    simp [SysModel.getDae, this, h, SysModel.odeVec]
  have hf : o.functions M.elements = { o with model := { o.model with alg := [] } }.functions M.elements := by
    have : o.daeFunctions M.elements =
        { o with model := { o.model with alg := [] } }.daeFunctions M.elements := by
      funext el
      unfold Ocp.daeFunctions
      rw [hd]
      rfl
    unfold Ocp.functions
    rw [this]
    rfl
  unfold Ocp.transcription
  rw [hf]
  rfl

/-! ## An example: `x' = u - p x`, running cost `u²`, final cost `x²`, `u ≤ 1`, a limited rate -/

namespace Example

/-- The problem. -/
def directProblem : Ocp :=
  { Ocp.new { SysModel.new 0 1 with
      x := [2]
      x0 := [3]
      ode := [(2, some (.sub (.sym 4) (.mul (.sym 5) (.sym 2))))]
      u := [4]
      uExpr := [.sym 4]
      uPar := [4]
      p := [5] } (some [1]) 0 2 with
    L := .mul (.sym 4) (.sym 4)
    V := .mul (.sym 2) (.sym 2)
    gIneq := [.sub (.sym 4) (.const 1)]
    timeGIneq := ["default"]
    duMax := [XRat.fin (1 / 4)] }

/-- Two elements, two collocation points, one control value per element. -/
def directMesh : Mesh := ⟨2, [1 / 2, 1], [1 / 2]⟩

/-- Before the preparation. -/
def directMethod : Method := { problem := directProblem }

/-- After the preparation. -/
def directPrepared : Method := (prepare [1 / 2] 1 6 7 10 directMethod).2

theorem directMethod_prepared :
    prepare directMesh.controlRoots directMesh.controlRoots.length 6 7 10 directMethod =
      (.ok (), directPrepared) := by
  have : (prepare [1 / 2] 1 6 7 10 directMethod).1 = .ok () := by decide +kernel
  exact Prod.ext this rfl

theorem directMesh_good : GoodMesh directMesh where
  elements := by decide
  points := by decide
  increasing := by decide +kernel
  last := rfl
  controls := by decide

theorem directProblem_problem : DirectProblem directProblem where
  horizon := by decide +kernel
  complete := by unfold Complete; decide +kernel
  starts := rfl
  controls := by decide
  apart := by unfold ControlsApart; decide +kernel
  parameters := by decide
  thetas := by decide
  tags := by decide
  tagged := by decide
  equations := fun _ => rfl

theorem directProblem_scope : DirectScope directProblem where
  path := by decide +kernel
  initial := by decide +kernel
  final := by decide
  timeless := by decide
  cost := by decide +kernel

theorem directProblem_new : NewSymbols directProblem 6 7 10 where
  costState := by decide
  initial := by decide
  different := by decide
  points := by decide

end Example

open Example in
/-- The hypotheses of `C159_direct` are met for every decision vector of the right size. -/
example (ops : Expr.Ops Rat) (b : Blocks Rat) (hb : CollocationData (directDims directProblem directMesh) b) :
    ∃ ρ, (∀ el < 2, ∀ tau, Reads directProblem directMesh b [1] [3] [[], []] el tau (ρ el tau)) ∧
      ∃ m cons, directPrepared.problem.transcription ops [1 / 2, 1] 2 2 1 = .ok m ∧
        m.discretize b [1, 0] [3] [[], []] (some [0]) =
          .ok (cons, directCost ops directProblem directMesh b ρ) ∧
        ((∀ c ∈ cons, c.Holds) ↔
          DirectSolution ops directProblem directMesh b (some [0]) ρ) := by
  have hv := fun el tau => C159_values directProblem directMesh b [1] [3] [[], []] (by decide)
    (by decide) (by decide) el tau
  refine ⟨fun el tau => (hv el tau).choose, fun el _ tau => (hv el tau).choose_spec, ?_⟩
  exact C159_direct ops directMesh 6 7 10 directMethod directPrepared b [1] [3] [[], []] (some [0])
    _ rfl directMethod_prepared directMesh_good directProblem_problem directProblem_scope
    directProblem_new hb ⟨rfl, rfl, by decide⟩
    ⟨rfl, rfl, (by
      intro i lo hi h₁ h₂
      match i, h₁, h₂ with
      | 0, h₁, h₂ =>
        simp only [directMethod, directProblem, Ocp.new, List.getElem?_cons_zero, Option.some.injEq,
          List.length_singleton, List.replicate_one] at h₁ h₂
        subst h₁
        exact bot_le), (by rintro u ⟨⟩; rfl)⟩
    (fun el _ tau => (hv el tau).choose_spec)

open Example in
/-- The hypotheses of `C159_scope_fails` are met: the initial state depends on the parameter. -/
example (ops : Expr.Ops Rat) :
    let o : Ocp := { directProblem with hInitial := [.sub (.sym 2) (.mul (.sym 5) (.sym 3))] }
    (prepare [1 / 2] 1 6 7 10 { problem := o }).2.problem.transcription ops [1 / 2, 1] 2 2 1 =
      .error .runtimeError := by
  intro o
  refine C159_scope_fails ops directMesh 6 7 10 { problem := o } _ rfl
    (Prod.ext (by show (prepare [1 / 2] 1 6 7 10 { problem := o }).1 = _; decide +kernel) rfl)
    (by decide) directProblem_problem.complete
    ⟨by decide, by decide, by decide, by decide⟩ (.sub (.sym 2) (.mul (.sym 5) (.sym 3))) 5
    (by decide) (by decide) (by decide) (.inl ⟨by decide, by decide⟩)

end Verif
