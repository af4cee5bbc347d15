import Verif.Spec.SolveIndirect
import Verif.Lemmas.SolveDirectRun
import Verif.Lemmas.TranscribeIndirect
import Verif.Props.TranscribeIndirect
import Verif.Props.Export
/-! Lemmas on solving with an indirect method. -/
namespace Verif
open Spec
open Layout (stacked)
open SolveDirect (Program SolverCall Result numbers varBounds setup readVars valueIn varsOf
  data_readVars readVars_stacked stacked_readVars stacked_data_length bounds_iff lower_length)

namespace SolveIndirect

/-- What of a problem is kept by the preparation. -/
structure Kept (o q : Ocp) : Prop where
  x0 : q.x0 = o.x0 ++ List.replicate o.model.x.length 0
  x : q.xMin = o.xMin ++ List.replicate o.model.x.length ⊥ ∧
    q.xMax = o.xMax ++ List.replicate o.model.x.length ⊤
  y : q.yMin = o.yMin ++ List.replicate o.model.y.length ⊥ ∧
    q.yMax = o.yMax ++ List.replicate o.model.y.length ⊤
  u : q.uMin = o.uMin ∧ q.uMax = o.uMax
  pOpt : q.pOptMin = o.pOptMin ∧ q.pOptMax = o.pOptMax
  thetaOpt : q.thetaOptMin = o.thetaOptMin ∧ q.thetaOptMax = o.thetaOptMax
  lastU : q.lastU = o.lastU
  xCost : q.xCost = o.xCost

theorem kept_of {B : Backend} {prepared : Bool} {base xc fresh : Sym} {o q : Ocp}
    (h : Indirect.prepare B false prepared base xc fresh o = (.ok (), q)) : Kept o q := by
  simp only [Indirect.prepare, Py.bind_eq, Py.bind_eq_ok] at h
  obtain ⟨⟨⟩, o₁, h₁, H, o₂, h₂, ⟨⟩, o₃, h₃, o₄, o₅, h₄, us, o₆, h₅, h₆⟩ := h
  have e₁ : o₁ = o := by
    unfold Indirect.basePrepare at h₁
    split at h₁ <;> exact (Prod.mk.inj h₁).2.symm
  subst e₁
  have e₃ : o₂ = o₃ := (Prod.mk.inj h₃).2
  subst e₃
  obtain ⟨e₄, e₅⟩ : o₂ = o₄ ∧ o₂ = o₅ := by
    simp only [Py.get, Prod.mk.injEq, Except.ok.injEq] at h₄
    exact ⟨h₄.1, h₄.2⟩
  subst e₄ e₅
  obtain rfl : o₂ = o₆ := (Prod.mk.inj h₅).2
  obtain ⟨-, -, -, e₂⟩ := createAdjointStates_ok h₂
  obtain ⟨m', h₇, h₈⟩ := Ocp.parametrizeControl_ok_iff.mp h₆
  rw [Ocp.replaceVariable_run] at h₈
  split at h₈
  · cases h₈
  have hq := (Prod.mk.inj h₈).2
  subst hq e₂
  exact ⟨rfl, ⟨rfl, rfl⟩, ⟨rfl, rfl⟩, ⟨rfl, rfl⟩, ⟨rfl, rfl⟩, ⟨rfl, rfl⟩, rfl, rfl⟩

/-- Bounds without effect at the end. -/
theorem fits_free {n : Nat} {lo hi : List XRat} (k : Nat) (h : PairFits n lo hi) :
    PairFits (n + k) (lo ++ List.replicate k ⊥) (hi ++ List.replicate k ⊤) := by
  refine ⟨by simp [h.lower], by simp [h.upper], fun i a b ha hb => ?_⟩
  by_cases hi' : i < n
  · rw [List.getElem?_append_left (by rw [h.lower]; exact hi')] at ha
    rw [List.getElem?_append_left (by rw [h.upper]; exact hi')] at hb
    exact h.uncrossed i a b ha hb
  · rw [List.getElem?_append_right (by rw [h.lower]; omega)] at ha
    have := List.eq_of_mem_replicate (List.mem_of_getElem? ha)
    rw [this]
    exact bot_le

theorem within_free {n : Nat} {lo hi : List XRat} (k : Nat) (h : PairFits n lo hi) (col : List ℝ) :
    ColumnWithin (lo ++ List.replicate k ⊥) (hi ++ List.replicate k ⊤) col ↔ ColumnWithin lo hi col := by
  constructor
  · intro hc i a l u ha hl hu
    refine hc i a l u ha ?_ ?_
    · rw [List.getElem?_append_left (List.getElem?_eq_some_iff.mp hl).1]; exact hl
    · rw [List.getElem?_append_left (List.getElem?_eq_some_iff.mp hu).1]; exact hu
  · intro hc i a l u ha hl hu
    by_cases hi' : i < n
    · rw [List.getElem?_append_left (by rw [h.lower]; exact hi')] at hl
      rw [List.getElem?_append_left (by rw [h.upper]; exact hi')] at hu
      exact hc i a l u ha hl hu
    · rw [List.getElem?_append_right (by rw [h.lower]; omega)] at hl
      rw [List.getElem?_append_right (by rw [h.upper]; omega)] at hu
      rw [List.eq_of_mem_replicate (List.mem_of_getElem? hl),
        List.eq_of_mem_replicate (List.mem_of_getElem? hu)]
      exact ⟨bot_le, le_top⟩

section Base
variable {B : Backend} {ops : Expr.Ops ℝ} {opts : Options} {names : NewNames} {o q : Ocp}

/-- The problem of the user and the prepared one. -/
structure Base (B : Backend) (ops : Expr.Ops ℝ) (opts : Options) (names : NewNames) (o q : Ocp) :
    Prop where
  declared : IndirectDeclared B ops opts o q
  prepare : Indirect.prepare B false false names.base names.xc names.fresh o = (.ok (), q)

/-- The values given for the elements. -/
def thetaOf (opts : Options) (theta : List (List ℝ)) : List (List ℝ) :=
  (List.range opts.elements).map fun el => theta.getD el []

theorem data_thetaOf {x0 p : List ℝ} {theta : List (List ℝ)}
    (hd : IndirectData o (indirectMesh opts) x0 p theta) :
    IndirectData o (indirectMesh opts) x0 p (thetaOf opts theta) :=
  ⟨hd.x0, hd.p, fun el hel => by
    have : el < opts.elements := hel
    have h := hd.theta el hel
    simpa [thetaOf, this] using h⟩

variable (R : Base B ops opts names o q)
include R

namespace Base

theorem kept : Kept o q := kept_of R.prepare

theorem dims_eq : q.dims opts.elements opts.roots.length opts.roots.length =
    indirectDims o (indirectMesh opts) := by
  obtain ⟨H, us, hp⟩ := Indirect.prepared_of R.prepare
  simp [Ocp.dims, indirectDims, hp.x, hp.y, hp.eta, hp.others.1, hp.others.2, hp.known.2.2.2.2,
    Indirect.points_empty hp R.declared.problem, newSyms_length, indirectMesh]

theorem varBounds_eq : varBounds q =
    ⟨(numbers (o.xMin ++ List.replicate o.model.x.length ⊥),
        numbers (o.xMax ++ List.replicate o.model.x.length ⊤)),
      (numbers (o.yMin ++ List.replicate o.model.y.length ⊥),
        numbers (o.yMax ++ List.replicate o.model.y.length ⊤)), (numbers o.uMin, numbers o.uMax),
      (numbers o.pOptMin, numbers o.pOptMax), (numbers o.thetaOptMin, numbers o.thetaOptMax)⟩ := by
  have h := R.kept
  unfold varBounds
  rw [h.x.1, h.x.2, h.y.1, h.y.2, h.u.1, h.u.2, h.pOpt.1, h.pOpt.2, h.thetaOpt.1, h.thetaOpt.2]

/-! ### The arguments -/

/-- The last control as a parameter. -/
theorem last_of {w : Option (List ℝ)}
    (hw : w = none ∨ o.lastU = none ∧ opts.lastControlAsParameter = false) :
    ∃ (l : List ℝ) (lu : Option (List ℝ)), (setup (K := ℝ) opts.common q).lastControl w = .ok (lu, l) ∧
      l.length = if (setup (K := ℝ) opts.common q).lastControlAsParameter then o.model.u.length else 0 := by
  have hpl : (setup (K := ℝ) opts.common q).problemLastU = lastOf o := by
    show q.lastU.map _ = _
    rw [R.kept.lastU]
    rfl
  have hopt : (setup (K := ℝ) opts.common q).lastControlOption = opts.lastControlAsParameter := rfl
  unfold MethodSetup.lastControl MethodSetup.lastControlAsParameter
  rw [hpl, hopt]
  cases ho : o.lastU with
  | some u =>
    obtain rfl : w = none := hw.resolve_right fun h => by rw [ho] at h; cases h.1
    refine ⟨inField u, some (inField u), ?_, ?_⟩
    · simp [lastOf, ho]
    · simp [lastOf, ho, inField, R.declared.lastSize u ho]
  | none =>
    have hask : opts.lastControlAsParameter = false := by
      by_contra h
      exact R.declared.last (by simpa using h) ho
    refine ⟨[], w, ?_, by simp [lastOf, ho, hask]⟩
    cases w <;> simp [lastOf, ho, hask]

/-- The arguments of `solve` give the parameters of the nonlinear program. -/
theorem args_ok {a : SolveArgs ℝ} {sim info : List ℝ → Theta ℝ → Except Err (List ℝ)} {x0 p : List ℝ}
    {theta : List (List ℝ)} (hd : IndirectData o (indirectMesh opts) x0 p theta)
    (ha : IndirectArgs o opts a info x0 p theta) :
    ∃ c l, (setup opts.common q).callArgs sim info a = .ok c ∧ c.x0 = x0 ∧ c.p = p ∧
      c.par = p ++ (thetaOf opts theta).flatten ++ x0 ++ l ∧
      l.length = (if (setup (K := ℝ) opts.common q).lastControlAsParameter then o.model.u.length else 0) ∧
      (List.range opts.elements).map (fun el => (c.theta.get? el).getD []) = thetaOf opts theta := by
  obtain ⟨H, us, hpr⟩ := Indirect.prepared_of R.prepare
  obtain ⟨l, lu, hl, hlen⟩ := R.last_of ha.lastU
  have hx : q.model.x.length = o.model.x.length + o.model.x.length := congrArg Dims.nX R.dims_eq
  have hp : q.model.p = o.model.p := hpr.known.2.2.1
  have hth : q.model.theta = o.model.theta := hpr.known.2.2.2.1
  have h₁ : (setup (K := ℝ) opts.common q).initialCondition a.x0 = .ok x0 := by
    have hpx : (setup (K := ℝ) opts.common q).problemX0 =
        inField o.x0 ++ List.replicate o.model.x.length 0 := by
      show q.x0.map _ = _
      rw [R.kept.x0]
      simp [inField]
    have hval : a.x0.getD (setup (K := ℝ) opts.common q).problemX0 = x0 := by
      rw [hpx]
      rcases ha.x0 with h | ⟨h, rfl⟩
      · rw [h]; rfl
      · rw [h]; rfl
    unfold MethodSetup.initialCondition
    rw [hval, if_neg]
    rw [not_not]
    show x0.length = q.model.x.length
    rw [hx, hd.x0]
  have h₂ : (setup (K := ℝ) opts.common q).parameterValues a.p = .ok p := by
    rcases ha.p with h | ⟨h, he, rfl⟩
    · rw [h]; rfl
    · rw [h]
      unfold MethodSetup.parameterValues
      simp only
      rw [if_pos (by
        show q.pOpt.length = q.model.p.length
        rw [hpr.others.1, hp, he])]
      show Except.ok (List.replicate q.pOpt.length 0) = _
      rw [hpr.others.1, he]
  have h₃ : ∃ th, (setup (K := ℝ) opts.common q).thetaValues a.theta = .ok th ∧
      ∀ el < opts.elements, th.get? el = some (theta.getD el []) := by
    rcases ha.theta with ⟨th, h, hg⟩ | ⟨h, he, rfl⟩
    · exact ⟨th, by rw [h]; rfl, hg⟩
    · refine ⟨createConstantTheta 0 o.model.theta.length opts.elements, ?_, ?_⟩
      · rw [h]
        unfold MethodSetup.thetaValues
        simp only
        rw [if_pos (by
          show q.thetaOpt.length = q.model.theta.length
          rw [hpr.others.2, hth, he])]
        show Except.ok (createConstantTheta 0 q.thetaOpt.length opts.elements) = _
        rw [hpr.others.2, he]
      · intro el hel
        rw [(C04_constant (0 : ℝ) o.model.theta.length opts.elements el).2.1 hel]
        simp [hel]
  obtain ⟨th, h₃, hget⟩ := h₃
  have h₄ := SolveDirect.thetaVector_of (setup (K := ℝ) opts.common q) th (fun el => theta.getD el []) hget
  have h₆ : a.guessDict ≠ none ∨
      ∃ g, (setup (K := ℝ) opts.common q).guess a.initialGuess sim info p th = .ok g := by
    rcases ha.guess with h | h | hg
    · exact .inl h
    · right
      cases hi : a.initialGuess with
      | none => exact absurd hi h
      | some g => exact ⟨g, rfl⟩
    · right
      cases hi : a.initialGuess with
      | some g => exact ⟨g, rfl⟩
      | none =>
        unfold MethodSetup.guess
        simp only
        rw [if_neg (show ¬ (setup (K := ℝ) opts.common q).heuristic = "simulation" from
            (by decide : ¬ "problem_info" = "simulation")),
          if_pos (show (setup (K := ℝ) opts.common q).heuristic = "problem_info" from rfl)]
        exact hg p th
  obtain ⟨g, lx, lg, hc⟩ := SolveDirect.callArgs_ok (setup (K := ℝ) opts.common q) sim info a h₁ h₂
    h₃ h₄ hl h₆
  refine ⟨_, l, hc, rfl, rfl, ?_, hlen, ?_⟩
  · show _ ++ _ ++ (if opts.initialConditionAsParameter then _ else _) ++ _ = _
    rw [if_pos R.declared.initial]
    rfl
  · refine List.map_congr_left fun el hel => ?_
    show (th.get? el).getD [] = _
    rw [hget el (List.mem_range.mp hel)]
    rfl

theorem hasParameters : (setup (K := ℝ) opts.common q).hasParameters = true := by
  unfold MethodSetup.hasParameters
  have : (setup (K := ℝ) opts.common q).initialConditionAsParameter = true := R.declared.initial
  simp [this]

end Base
end Base

section Run
variable {B : Backend} {ops : Expr.Ops ℝ} {opts : Options} {names : NewNames} {o q : Ocp}
  {m : Transcription ℝ}

/-- The problem of the user, the prepared one and what is discretised. -/
structure Run (B : Backend) (ops : Expr.Ops ℝ) (opts : Options) (names : NewNames) (o q : Ocp)
    (m : Transcription ℝ) : Prop where
  posed : IndirectPosed B ops opts names o q
  prepare : Indirect.prepare B false false names.base names.xc names.fresh o = (.ok (), q)
  transcription : q.indirectTranscription ops opts.roots opts.elements = .ok m

variable (R : Run B ops opts names o q m)
include R

namespace Run

theorem base : Base B ops opts names o q := ⟨R.posed.toIndirectDeclared, R.prepare⟩

/-- Values of the symbols for every decision vector. -/
theorem values (b : Blocks ℝ) (x0 p : List ℝ) (theta : List (List ℝ))
    (hops : MinMax ops Indirect.opFmin Indirect.opFmax) :
    ∃ ρ, OptimalValues ops o (addedTo o q) (indirectMesh opts) x0 p theta b ρ := by
  obtain ⟨H, us, hp⟩ := Indirect.prepared_of R.prepare
  have hH : o.hamiltonian (addedTo o q).lamb (addedTo o q).nu = .ok H := by
    simp only [addedTo, hp.x, hp.y, List.drop_left]
    exact hp.hamiltonian
  have h := fun el tau => C183_values_partial B ops hops false names.base names.xc names.fresh o q
    R.prepare R.posed.problem H hH (R.posed.solvable H hH) R.posed.attainable R.posed.symbols
    (indirectMesh opts) b x0 p theta el tau
  choose ρ h₁ h₂ using h
  exact ⟨ρ, fun el _ tau => h₁ el tau, fun el _ tau => h₂ el tau⟩

theorem setting {b : Blocks ℝ} (hb : CollocationData (indirectDims o (indirectMesh opts)) b)
    {x0 p : List ℝ} {theta : List (List ℝ)} (hd : IndirectData o (indirectMesh opts) x0 p theta)
    {ρ : Nat → ℝ → Sym → ℝ}
    (hρ : OptimalValues ops o (addedTo o q) (indirectMesh opts) x0 p theta b ρ) :
    m = Own.Setting.built ops (indirectMesh opts) { q with V := .const 0 } ∧
      Own.Setting (indirectMesh opts) { q with V := .const 0 } b x0 p theta ρ := by
  obtain ⟨H, us, hp⟩ := Indirect.prepared_of R.prepare
  obtain ⟨hf, rfl⟩ := Indirect.transcribed (M := indirectMesh opts) R.posed.mesh ops R.transcription
  exact ⟨rfl, Indirect.setting hp R.posed.problem R.posed.mesh hb hd hρ.reads hf⟩

theorem value_ok (hops : MinMax ops Indirect.opFmin Indirect.opFmax) {b : Blocks ℝ}
    (hb : CollocationData (indirectDims o (indirectMesh opts)) b)
    {x0 p : List ℝ} {theta : List (List ℝ)} (hd : IndirectData o (indirectMesh opts) x0 p theta)
    (lastU : Option (List ℝ)) : ∃ cons, m.discretize b x0 p theta lastU = .ok (cons, 0) := by
  obtain ⟨ρ, hρ⟩ := R.values b x0 p theta hops
  obtain ⟨rfl, C⟩ := R.setting hb hd hρ
  obtain ⟨cons, h, -⟩ := C.program ops lastU
  exact ⟨cons, h⟩

theorem value_iff (hops : MinMax ops Indirect.opFmin Indirect.opFmax) {b : Blocks ℝ}
    (hb : CollocationData (indirectDims o (indirectMesh opts)) b)
    {x0 p : List ℝ} {theta : List (List ℝ)} (hd : IndirectData o (indirectMesh opts) x0 p theta)
    (lastU : Option (List ℝ)) {ρ : Nat → ℝ → Sym → ℝ}
    (hρ : OptimalValues ops o (addedTo o q) (indirectMesh opts) x0 p theta b ρ)
    (hk : DerivativesKnown ops B.table o (indirectMesh opts) ρ) :
    ∃ cons, m.discretize b x0 p theta lastU = .ok (cons, 0) ∧
      ((∀ c ∈ cons, c.Holds) ↔ IndirectSolution ops o (addedTo o q) (indirectMesh opts) b ρ) := by
  obtain ⟨H, us, hp⟩ := Indirect.prepared_of R.prepare
  have hH : o.hamiltonian (addedTo o q).lamb (addedTo o q).nu = .ok H := by
    simp only [addedTo, hp.x, hp.y, List.drop_left]
    exact hp.hamiltonian
  exact C183_partial B ops hops false names.base names.xc names.fresh o q R.prepare R.posed.problem
    (indirectMesh opts) R.posed.mesh m R.transcription b hb x0 p theta hd lastU H hH ρ hρ.reads
    (fun el _ tau => R.posed.solvable H hH _) hρ.controls hk

/-- The program that is built. -/
structure Builds (opts : Options) (names : NewNames) (o q : Ocp) (m : Transcription ℝ)
    (P : Program ℝ) : Prop where
  transcription : P.transcription = m
  vars : P.vars = varsOf (indirectDims o (indirectMesh opts)) names.var
  x : P.nlp.x = stacked (varsOf (indirectDims o (indirectMesh opts)) names.var)
  lb : P.nlp.xLb = stacked (lowerBlocks (indirectDims o (indirectMesh opts)) opts.elements
    (opts.roots.length + 1) opts.roots.length (varBounds q))
  ub : P.nlp.xUb = stacked (upperBlocks (indirectDims o (indirectMesh opts)) opts.elements
    (opts.roots.length + 1) opts.roots.length (varBounds q))
  setup : P.setup = setup opts.common q

theorem build_ok (hops : MinMax ops Indirect.opFmin Indirect.opFmax) :
    ∃ P, build ops opts names q = .ok P ∧ Builds opts names o q m P := by
  have hbd := R.posed.bounds
  obtain ⟨vars, nlp, hc⟩ := Layout.succeeds_createCollocation (indirectDims o (indirectMesh opts))
    names.var R.posed.newVars.toSymSizes (varBounds q) R.base.varBounds_eq (fits_free _ hbd.x)
    (fits_free _ hbd.y) hbd.u hbd.pOpt hbd.thetaOpt {}
  obtain ⟨rfl, hx, hlb, hub⟩ := Layout.creates_variables _ _ _ _ names.var
    R.posed.newVars.toSymSizes (varBounds q) _ _ _ hc
  let P : Program ℝ := ⟨m, varsOf (indirectDims o (indirectMesh opts)) names.var, nlp,
    setup opts.common q⟩
  refine ⟨P, ?_, ⟨rfl, rfl, hx, hlb, hub, rfl⟩⟩
  obtain ⟨H, us, hp⟩ := Indirect.prepared_of R.prepare
  have hzero : ∀ slot, P.parameter [] slot = 0 := by
    intro slot
    unfold Program.parameter valueIn
    rw [List.zip_nil_right]
    rfl
  have hx' : q.model.x.length = o.model.x.length + o.model.x.length := congrArg Dims.nX R.base.dims_eq
  have hb : CollocationData (indirectDims o (indirectMesh opts))
      (readVars (valueIn P.nlp.x ([] : List ℝ)) P.vars) :=
    data_readVars R.posed.newVars.toSymSizes _
  have hd : IndirectData o (indirectMesh opts) ((List.range q.model.x.length).map fun _ => (0 : ℝ))
      ((List.range q.model.p.length).map fun _ => 0)
      ((List.range opts.elements).map fun _ => (List.range q.model.theta.length).map fun _ => 0) := by
    refine ⟨by simp [hx'], by simp [hp.known.2.2.1], fun el hel => ?_⟩
    have : el < opts.elements := hel
    simp [this, hp.known.2.2.2.1]
  obtain ⟨cons, he⟩ := R.value_ok hops hb hd (Transcription.lastControlArgument
    P.setup.lastControlAsParameter ((List.range P.setup.nU).map fun i => P.parameter [] (.lastU i)))
  have he' : P.evaluate [] [] = .ok (cons, 0) := by
    unfold Program.evaluate
    rw [← he]
    simp only [hzero]
    rfl
  unfold build
  rw [R.base.dims_eq, hc]
  simp only [R.transcription, bind, Except.bind]
  have hr' : Program.evaluate ⟨m, variableBlocks (indirectDims o (indirectMesh opts)) opts.elements
      (opts.roots.length + 1) opts.roots.length names.var, nlp, setup opts.common q⟩ [] [] =
      .ok (cons, 0) := he'
  simp only [indirectMesh, indirectDims] at hr' ⊢
  rw [hr']
  rfl

/-! ### The call of the solver -/

/-- The call of the solver: constraints and objective are those of the prepared problem with the data
of the user. -/
theorem call_ok {P : Program ℝ} (hP : Builds opts names o q m P) {x0 p l : List ℝ}
    {theta : List (List ℝ)} (hd : IndirectData o (indirectMesh opts) x0 p theta)
    (hl : l.length =
      if (setup (K := ℝ) opts.common q).lastControlAsParameter then o.model.u.length else 0)
    (c : CallArgs ℝ) (hc : c.par = p ++ (thetaOf opts theta).flatten ++ x0 ++ l) :
    ∃ call lastU, P.call c = .ok call ∧ call.lb = P.nlp.xLb ∧ call.ub = P.nlp.xUb ∧
      ∀ v, call.value v = m.discretize (readVars (valueIn P.nlp.x v) P.vars) x0 p
        (thetaOf opts theta) lastU := by
  obtain ⟨H, us, hpr⟩ := Indirect.prepared_of R.prepare
  have hx : q.model.x.length = o.model.x.length + o.model.x.length := congrArg Dims.nX R.base.dims_eq
  obtain ⟨h₁, h₂, h₃, h₄, h₅⟩ := SolveDirect.parameters_read (setup (K := ℝ) opts.common q)
    R.base.hasParameters p x0 l (thetaOf opts theta) (by rw [hd.p, ← hpr.known.2.2.1]; rfl)
    ⟨by simp [thetaOf, setup, Options.common], fun col hcol => by
      obtain ⟨el, hel, rfl⟩ := List.mem_map.mp hcol
      rw [hd.theta el (List.mem_range.mp hel), ← hpr.known.2.2.2.1]
      rfl⟩
    (by rw [hd.x0]; exact hx.symm) (by rw [hl, ← hpr.known.2.2.2.2]; rfl)
  refine ⟨⟨P.evaluate c.par, P.nlp.xLb, P.nlp.xUb, c.initialGuess, c.lamX, c.lamG⟩,
    Transcription.lastControlArgument (setup (K := ℝ) opts.common q).lastControlAsParameter
      ((List.range (setup (K := ℝ) opts.common q).nU).map fun i =>
        valueIn (setup (K := ℝ) opts.common q).nlpParameters (p ++ (thetaOf opts theta).flatten ++ x0 ++ l)
          (.lastU i)), ?_, rfl, rfl, fun v => ?_⟩
  · unfold Program.call
    rw [if_neg (by rw [not_not, hc, hP.setup]; exact h₁), if_neg (by
      rw [not_not, hP.setup]
      unfold MethodSetup.freeSymbols
      rw [if_pos R.base.hasParameters])]
  · show P.evaluate c.par v = _
    unfold Program.evaluate Program.parameter
    rw [hP.setup, hP.transcription, hc, h₂, h₃, h₄]

omit R in
theorem values_thetaOf {a : Added} {b : Blocks ℝ} {x0 p : List ℝ} {theta : List (List ℝ)}
    {ρ : Nat → ℝ → Sym → ℝ} (h : OptimalValues ops o a (indirectMesh opts) x0 p theta b ρ) :
    OptimalValues ops o a (indirectMesh opts) x0 p (thetaOf opts theta) b ρ := by
  refine ⟨fun el hel tau => ?_, h.controls⟩
  have hel' : el < opts.elements := hel
  have hr := h.reads el hel tau
  refine ⟨hr.time, hr.position, hr.states, hr.algebraics, hr.parameters, hr.optimised,
    fun i s hi hs => ?_, hr.optimisedThetas, hr.starts, hr.etas⟩
  rw [hr.thetas i s hi hs]
  simp [thetaOf, hel']

/-- A decision vector is feasible exactly when it satisfies the conditions of optimality and the
bounds. -/
theorem feasible_iff (hops : MinMax ops Indirect.opFmin Indirect.opFmax) {P : Program ℝ}
    (hP : Builds opts names o q m P) {x0 p : List ℝ} {theta : List (List ℝ)}
    (hd : IndirectData o (indirectMesh opts) x0 p theta) {call : SolverCall ℝ}
    (hlb : call.lb = P.nlp.xLb) (hub : call.ub = P.nlp.xUb) {lastU : Option (List ℝ)}
    (hval : ∀ v, call.value v = m.discretize (readVars (valueIn P.nlp.x v) P.vars) x0 p
      (thetaOf opts theta) lastU) {b : Blocks ℝ}
    (hb : CollocationData (indirectDims o (indirectMesh opts)) b) {ρ : Nat → ℝ → Sym → ℝ}
    (hρ : OptimalValues ops o (addedTo o q) (indirectMesh opts) x0 p theta b ρ)
    (hk : DerivativesKnown ops B.table o (indirectMesh opts) ρ) :
    CallFeasible ops call (stacked b) ↔ WithinIndirect o b ∧
      IndirectSolution ops o (addedTo o q) (indirectMesh opts) b ρ := by
  have hbd := R.posed.bounds
  have hread : readVars (valueIn P.nlp.x (stacked b)) P.vars = b := by
    rw [hP.x, hP.vars]
    exact readVars_stacked R.posed.mesh.elements R.posed.newVars hb
  obtain ⟨cons, h₁, h₂⟩ := R.value_iff hops hb (data_thetaOf hd) lastU (values_thetaOf hρ) hk
  have hv : call.value (stacked b) = .ok (cons, 0) := by rw [hval, hread, h₁]
  have hbounds := bounds_iff ops hb R.base.varBounds_eq (fits_free _ hbd.x) (fits_free _ hbd.y) hbd.u
    hbd.pOpt hbd.thetaOpt
  have hsize : (stacked b).length = call.lb.length := by
    rw [hlb, hP.lb]
    exact (lower_length hb R.base.varBounds_eq (fits_free _ hbd.x) (fits_free _ hbd.y) hbd.u hbd.pOpt
      hbd.thetaOpt).symm
  have hu : ∀ el ∈ b.u, el = [] := by
    intro el hel
    have hc : controlPoints (indirectDims o (indirectMesh opts)) = 0 := by
      simp [controlPoints, indirectDims]
    have := hb.u
    rw [hc] at this
    simpa using (this.2 el hel).1
  refine ⟨fun h => ?_, fun h => ?_⟩
  · obtain ⟨hx, hy, -, hp, ht⟩ := hbounds.mp (fun i a l u hi hl hu => h.bounds i a l u hi
      (by rw [hlb, hP.lb]; exact hl) (by rw [hub, hP.ub]; exact hu))
    refine ⟨⟨fun el hel col hcol => (within_free _ hbd.x col).mp (hx el hel col hcol),
      fun el hel col hcol => (within_free _ hbd.y col).mp (hy el hel col hcol), hp, ht⟩, h₂.mp ?_⟩
    obtain ⟨cons', f, hc, hh⟩ := h.constraints
    rw [hv] at hc
    simp only [Except.ok.injEq, Prod.mk.injEq] at hc
    rw [hc.1]
    exact hh
  · refine ⟨hsize, fun i a l u hi hl hu' => ?_, cons, _, hv, h₂.mpr h.2⟩
    refine hbounds.mpr ⟨fun el hel col hcol => (within_free _ hbd.x col).mpr (h.1.x el hel col hcol),
      fun el hel col hcol => (within_free _ hbd.y col).mpr (h.1.y el hel col hcol), ?_, h.1.pOpt,
      h.1.thetaOpt⟩ i a l u hi (by rw [hlb, hP.lb] at hl; exact hl) (by rw [hub, hP.ub] at hu'; exact hu')
    intro el hel col hcol
    rw [hu el hel] at hcol
    cases hcol

/-! ### The result -/

/-- The control law is a function of the symbols of the model. -/
theorem law_scope : ∀ e ∈ q.model.uExpr, ∀ s ∈ e.syms, InScope q.model s := by
  have hm := R.transcription
  unfold Ocp.indirectTranscription at hm
  simp only [bind, Ocp.bind_ok_iff, Except.ok.injEq] at hm
  obtain ⟨_, -, fs, h₁, -⟩ := hm
  have h₂ := ((mapM_ok_iff (f := q.lawFunction opts.elements)
    (c := fun _ => ∀ e ∈ q.model.uExpr, ∀ s ∈ e.syms, InScope q.model s)
    (g := fun el => ⟨q.model.allSym, q.model.uExpr.map (q.inTime opts.elements el)⟩) (fun el g => by
      unfold Ocp.lawFunction
      rw [Fun.make_ok_iff]
      simp only [List.forall_mem_map, convert_closed]
      rfl) _ _).mp h₁).1
  exact h₂ 0 (List.mem_range.mpr R.posed.mesh.elements)

/-- The result shows the polynomials of the decision vector and the controls. -/
theorem report_shows (hops : MinMax ops Indirect.opFmin Indirect.opFmax) {b : Blocks ℝ}
    (hb : CollocationData (indirectDims o (indirectMesh opts)) b) {x0 p : List ℝ}
    {theta : List (List ℝ)} (hd : IndirectData o (indirectMesh opts) x0 p theta) (raw : RawSolution ℝ)
    (hraw : raw.x = stacked b) :
    ∃ r, m.report (controlLaw ops opts q) p (thetaOf opts theta) raw = .ok r ∧
      (∀ ρ, OptimalValues ops o (addedTo o q) (indirectMesh opts) x0 p theta b ρ →
        ShowsIndirect o (indirectMesh opts) b ρ r) ∧
      r.raw = raw.x ∧ r.objective = raw.f ∧ r.success = raw.success := by
  obtain ⟨H, us, hp⟩ := Indirect.prepared_of R.prepare
  have hH : o.hamiltonian (addedTo o q).lamb (addedTo o q).nu = .ok H := by
    simp only [addedTo, hp.x, hp.y, List.drop_left]
    exact hp.hamiltonian
  obtain ⟨ρ₀, hρ₀⟩ := R.values b x0 p theta hops
  obtain ⟨hm, C₀⟩ := R.setting hb (data_thetaOf hd) (values_thetaOf hρ₀)
  have hcol := C₀.collocatable ops
  have hdims : m.dims = indirectDims o (indirectMesh opts) := by rw [hm]; exact R.base.dims_eq
  rw [← hm] at hcol
  have hmesh := R.posed.mesh
  have hroots : m.roots = inField opts.roots := by rw [hm]; rfl
  have hpos : controlPositions m.dims (controlLaw ops opts q) = inField opts.roots := by
    unfold controlPositions
    rw [hdims, if_neg (by
      show ¬ opts.roots.length = 1
      have := hmesh.points
      show ¬ opts.roots.length = 1
      have h' : 1 < opts.roots.length := this
      omega)]
    rfl
  have hinc : (inField opts.roots : List ℝ).Pairwise (· < ·) := by
    have h₁ : opts.roots.Pairwise (· < ·) := (List.pairwise_cons.mp hmesh.increasing).2
    exact List.pairwise_map.mpr (h₁.imp fun h => by exact_mod_cast h)
  obtain ⟨r, hr, ⟨last, hx, hxs⟩, hys, hus, hrp, hrt, hre, hrpo, hrto, hrf, -, hrr, hrs⟩ :=
    C138_collocation m (controlLaw ops opts q) b p (thetaOf opts theta) raw hcol
      (by rw [hdims]; exact hb)
      (.inr ⟨by rw [hdims]; rfl, by rw [hpos]; exact hinc⟩) hraw
  have hstep : elementLength m = stepLength o (indirectMesh opts) := by
    rw [hm]
    show (((q.tf : Rat) : ℝ) - ((q.t0 : Rat) : ℝ)) / ((opts.elements : Nat) : ℝ) = _
    rw [hp.times.1, hp.times.2]
    rfl
  have hel : m.dims.elements = opts.elements := by rw [hdims]; rfl
  have hnx : m.dims.nX = o.model.x.length + o.model.x.length := by rw [hdims]; rfl
  have hny : m.dims.nY = o.model.y.length + o.model.y.length := by rw [hdims]; rfl
  refine ⟨r, hr, fun ρ hρ => ?_, hrr, hrf, hrs⟩
  obtain ⟨-, C⟩ := R.setting hb (data_thetaOf hd) (values_thetaOf hρ)
  refine ⟨?_, ?_, ?_, ?_, ?_, ?_, hrpo, hrto, hre⟩
  · rw [hxs.time, hel, hstep, hroots]
    rfl
  · rw [hx, hxs.values, hel]
    simp only [pointAt, hnx, hroots]
    rfl
  · rw [hys.time, hel, hstep, hroots]
    rfl
  · rw [hys.values, hel]
    simp only [pointAt, hny, hroots]
    rfl
  · rw [hus.time, hel, hstep, hpos]
    rfl
  · rw [hus.values, hel, hpos]
    refine List.map_congr_left fun el hel' => List.map_congr_left fun tau _ => ?_
    have hlt : el < opts.elements := List.mem_range.mp hel'
    rw [← C183_law_partial B ops hops false names.base names.xc names.fresh o q R.prepare
      R.posed.problem H hH (ρ el tau) (R.posed.solvable H hH _) (hρ.controls el hlt tau)]
    rw [hrp, hrt, hm]
    exact C.values ops el hlt tau q.model.uExpr R.law_scope

end Run
end Run

section Solve
variable {B : Backend} {ops : Expr.Ops ℝ} {opts : Options} {names : NewNames} {o q : Ocp}
  {m : Transcription ℝ}

/-- The first call creates the program. -/
theorem created (R : Run B ops opts names o q m) (hops : MinMax ops Indirect.opFmin Indirect.opFmax) :
    ∃ P, Run.Builds opts names o q m P ∧
      createProgram B ops opts names ⟨o, false, none⟩ = (.ok P, (⟨q, true, some P⟩ : State ℝ)) := by
  obtain ⟨P, hP, hB⟩ := R.build_ok hops
  refine ⟨P, hB, ?_⟩
  have h₁ : preparation (K := ℝ) B opts names ⟨o, false, none⟩ = (.ok (), ⟨q, true, none⟩) := by
    have h₀ : prepareProblem (K := ℝ) B opts names ⟨o, false, none⟩ = (.ok (), ⟨q, false, none⟩) := by
      unfold prepareProblem
      simp only [R.posed.cost.1, R.prepare]
    unfold preparation
    simp only [Py.bind_eq, Py.get_bind, Bool.false_eq_true, if_false]
    rw [Py.bind_ok h₀]
    rfl
  unfold createProgram
  simp only [Py.bind_eq]
  rw [Py.bind_ok h₁]
  simp only [Py.get_bind]
  rw [hP]
  rfl

/-- What `solve` does once there is a program. -/
theorem solve_eq {sim info : List ℝ → Theta ℝ → Except Err (List ℝ)}
    {solver : SolverCall ℝ → Except Err (RawSolution ℝ)} {a : SolveArgs ℝ} {st st' : State ℝ}
    {P : Program ℝ} (h : program B ops opts names st = (.ok P, st')) :
    solve B ops opts names sim info solver a st =
      ((do
        let c ← (setup opts.common st'.problem).callArgs sim info a
        let call ← P.call c
        let raw ← solver call
        result ops opts st'.problem P c raw), st') := by
  unfold solve
  simp only [Py.bind_eq]
  rw [Py.bind_ok h]
  simp only [Py.get_bind]
  cases h₁ : (setup opts.common st'.problem).callArgs sim info a with
  | error e => rfl
  | ok c =>
    rw [Py.lift_ok_bind]
    simp only [bind, Except.bind]
    cases h₂ : P.call c with
    | error e => rfl
    | ok call =>
      rw [Py.lift_ok_bind]
      simp only
      cases h₃ : solver call with
      | error e => rfl
      | ok raw => rfl

/-- A call of `solve`, with what the solver is called with. -/
theorem solve_core (R : Run B ops opts names o q m)
    (hops : MinMax ops Indirect.opFmin Indirect.opFmax)
    (sim info : List ℝ → Theta ℝ → Except Err (List ℝ))
    (solver : SolverCall ℝ → Except Err (RawSolution ℝ)) (a : SolveArgs ℝ) (x0 p : List ℝ)
    (theta : List (List ℝ)) (hd : IndirectData o (indirectMesh opts) x0 p theta)
    (ha : IndirectArgs o opts a info x0 p theta) (hs : GoodSolver ops solver) :
    ∃ r b call raw, (solve B ops opts names sim info solver a ⟨o, false, none⟩).1 = .ok r ∧
      CollocationData (indirectDims o (indirectMesh opts)) b ∧ r.report.raw = stacked b ∧
      (∀ ρ, OptimalValues ops o (addedTo o q) (indirectMesh opts) x0 p theta b ρ →
        ShowsIndirect o (indirectMesh opts) b ρ r.report) ∧ r.x0 = x0 ∧ r.xCFinal = none ∧
      solver call = .ok raw ∧ raw.x = stacked b ∧ r.report.success = raw.success ∧
      r.report.objective = raw.f ∧
      (∀ b', CollocationData (indirectDims o (indirectMesh opts)) b' → ∀ ρ,
        OptimalValues ops o (addedTo o q) (indirectMesh opts) x0 p theta b' ρ →
        DerivativesKnown ops B.table o (indirectMesh opts) ρ →
        (CallFeasible ops call (stacked b') ↔ WithinIndirect o b' ∧
          IndirectSolution ops o (addedTo o q) (indirectMesh opts) b' ρ)) ∧
      (∀ b', CollocationData (indirectDims o (indirectMesh opts)) b' →
        ∃ cons, call.value (stacked b') = .ok (cons, 0)) ∧
      ∀ v : List ℝ, v.length = call.lb.length → ∃ b' : Blocks ℝ,
        CollocationData (indirectDims o (indirectMesh opts)) b' ∧ stacked b' = v := by
  obtain ⟨P, hP, hcr⟩ := created R hops
  obtain ⟨c, l, hca, hcx, hcp, hcpar, hl, hcth⟩ := R.base.args_ok (sim := sim) hd ha
  obtain ⟨call, lastU, hcall, hlb, hub, hval⟩ := R.call_ok hP hd hl c hcpar
  obtain ⟨raw, hraw, hsize, hmin⟩ := hs call
  have hbd := R.posed.bounds
  have hd₀ : CollocationData (indirectDims o (indirectMesh opts))
      (readVars (valueIn P.nlp.x raw.x) P.vars) := by
    rw [hP.vars]
    exact data_readVars R.posed.newVars.toSymSizes _
  set b := readVars (valueIn P.nlp.x raw.x) P.vars with hb
  have hread : ∀ v : List ℝ, v.length = call.lb.length →
      stacked (readVars (valueIn P.nlp.x v) P.vars) = v := by
    intro v hv
    rw [hP.vars, hP.x]
    refine stacked_readVars R.posed.newVars _ ?_
    rw [hv, hlb, hP.lb, ← stacked_data_length R.posed.newVars.toSymSizes hd₀]
    exact lower_length hd₀ R.base.varBounds_eq (fits_free _ hbd.x) (fits_free _ hbd.y) hbd.u hbd.pOpt
      hbd.thetaOpt
  have hstack : stacked b = raw.x := hread _ hsize
  obtain ⟨rep, hrep, hshow, hrr, hro, hrs⟩ := R.report_shows hops hd₀ hd raw hstack.symm
  refine ⟨⟨rep, none, c.x0⟩, b, call, raw, ?_, hd₀, by rw [hrr, hstack], hshow, hcx, rfl, hraw,
    hstack.symm, hrs, hro, fun b' hb' ρ hρ hk => R.feasible_iff hops hP hd hlb hub hval hb' hρ hk,
    fun b' hb' => ?_, fun v hv => ⟨_, ?_, hread v hv⟩⟩
  · rw [solve_eq (st' := ⟨q, true, some P⟩) (P := P) (by unfold program; exact hcr)]
    simp only [hca, hcall, hraw, bind, Except.bind]
    unfold result
    rw [hP.transcription, hcp, hcth]
    simp only [hrep, bind, Except.bind]
    rw [R.base.kept.xCost, R.posed.cost.2]
    rfl
  · obtain ⟨cons, h⟩ := R.value_ok hops hb' (data_thetaOf hd) lastU
    refine ⟨cons, ?_⟩
    rw [hval, hP.x, hP.vars, readVars_stacked R.posed.mesh.elements R.posed.newVars hb', h]
  · rw [hP.vars]
    exact data_readVars R.posed.newVars.toSymSizes _

end Solve
end SolveIndirect
end Verif
