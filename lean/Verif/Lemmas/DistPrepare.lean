import Verif.Spec.DistPrepare
import Verif.Lemmas.Relax
import Verif.Props.NetworkModel
import Verif.Props.OcpSizes
import Verif.Props.Relax
/-! # Facts about the preparation of nodes -/
namespace Verif.DistPrepare
open Verif Net Spec

theorem shift (n a b d : Nat) : n + a * d + b * d = n + (a + b) * d := by
  rw [Nat.add_mul, Nat.add_assoc]

theorem shift_one (n b d : Nat) : n + d + b * d = n + (b + 1) * d := by
  rw [Nat.add_mul, Nat.add_assoc, Nat.one_mul, Nat.add_comm d]

theorem allParams_append (d : Nat) (next : Sym) (a b : Nat) :
    allParams d next (a + b) = allParams d next a ++ allParams d (next + a * d) b := by
  unfold allParams
  rw [List.range_add, List.flatMap_append, List.flatMap_map]
  congr 1
  refine List.flatMap_congr fun k _ => ?_
  simp only [couplingParams]
  congr 1
  exact (shift next a k d).symm

theorem approxAll_run (o : Opts) (n : Nat) (s : Prep) :
    approxAll o n s = (.ok ((List.range n).map fun k => o.approx (couplingParams o.degree s.next k),
      allParams o.degree s.next n), { s with next := s.next + n * o.degree }) := by
  induction n generalizing s with
  | zero => simp [approxAll, allParams, Py.pure]
  | succ n ih =>
    simp only [approxAll, Py.bind_eq]
    rw [Py.bind_ok (show approxOne o s = (.ok (o.approx (List.range' s.next o.degree),
      List.range' s.next o.degree), { s with next := s.next + o.degree }) from rfl),
      Py.bind_ok (ih _)]
    simp only [Py.pure, Prod.mk.injEq, Except.ok.injEq]
    refine ⟨⟨?_, ?_⟩, ?_⟩
    · rw [List.range_succ_eq_map, List.map_cons, List.map_map]
      congr 1
      · simp [couplingParams]
      · refine List.map_congr_left fun k _ => ?_
        simp only [Function.comp, couplingParams]
        congr 2
        exact shift_one ..
    · have := allParams_append o.degree s.next 1 n
      rw [Nat.add_comm] at this
      rw [this]
      congr 1
      · simp [allParams, couplingParams]
      · rw [Nat.one_mul]
    · congr 1
      exact shift_one ..

theorem inputEquations_append (o : Opts) (next : Sym) (a b : List Sym) :
    inputEquations o next (a ++ b) = inputEquations o next a ++
      inputEquations o (next + a.length * o.degree) b := by
  simp only [inputEquations, List.zipIdx_append, List.map_append, Nat.zero_add]
  congr 1
  rw [List.zipIdx_eq_map_add, List.map_map]
  refine List.map_congr_left fun p _ => ?_
  simp only [Function.comp, couplingParams]
  congr 3
  exact (shift ..).symm

theorem inputEquations_eq (o : Opts) (next : Sym) (u : List Sym) :
    u.zipWith (fun a b => Expr.sub (.sym a) b)
      ((List.range u.length).map fun k => o.approx (couplingParams o.degree next k)) =
    inputEquations o next u := by
  apply List.ext_getElem
  · simp [inputEquations]
  · intro i h₁ h₂
    simp [inputEquations]

theorem outputEquations_append (o : Opts) (next : Sym) (first : Nat) (a b : List Sym) :
    outputEquations o next first (a ++ b) = outputEquations o next first a ++
      outputEquations o next (first + a.length) b := by
  simp only [outputEquations, List.zipIdx_append, List.map_append, Nat.zero_add]
  congr 1
  rw [List.zipIdx_eq_map_add, List.map_map]
  refine List.map_congr_left fun p _ => ?_
  simp only [Function.comp]
  rw [Nat.add_assoc]

theorem outputEquations_eq (o : Opts) (next : Sym) (first n : Nat) (y : List Sym) (h : n = y.length) :
    List.zipWith (fun a b => Expr.sub a (.sym b))
      ((List.range n).map fun k => o.approx (couplingParams o.degree (next + first * o.degree) k)) y =
    outputEquations o next first y := by
  subst h
  apply List.ext_getElem
  · simp [outputEquations]
  · intro i h₁ h₂
    simp only [List.getElem_zipWith, List.getElem_map, List.getElem_range, outputEquations,
      List.getElem_zipIdx, couplingParams, Nat.zero_add]
    congr 3
    exact shift ..

theorem findIndices_suffix (l u : List Sym) (h : (l ++ u).Nodup) :
    findIndices u (l ++ u) = List.range' l.length u.length := by
  rw [findIndices_nodup u _ h (fun v hv => List.mem_append.2 (.inr hv))]
  apply List.ext_getElem
  · simp
  · intro i h₁ h₂
    have hi : i < u.length := by simpa using h₁
    rw [List.getElem_map, List.getElem_range', Nat.one_mul]
    have h₃ : (l ++ u)[l.length + i]'(by simp; omega) = u[i] := by
      rw [List.getElem_append_right (by omega)]
      congr 1; omega
    rw [← h₃]
    exact h.idxOf_getElem _ _

/-- Guesses that fit go on fitting. -/
theorem guesses_connect {u : List Sym} {y : List Expr} {o o' : Ocp} (h : Sized o)
    (hn : o.model.u.Nodup) (hu : ∀ v ∈ u, v ∈ o.model.u) (hg : GuessesFit o)
    (hr : o.connect u y false = (.ok (), o')) : GuessesFit o' := by
  obtain ⟨-, m', gy', gu', hm, h₁, h₂, rfl⟩ :=
    (Ocp.connect_ok_iff h.uMax h.uMin h.duMax h.duMin).mp hr
  obtain ⟨hx, hy, hv⟩ := SysModel.connect_vars _ _ _ _ _ hm
  rcases hg with ⟨e₁, e₂⟩ | ⟨gu, gy, e₁, e₂, l₁, l₂⟩
  · rw [e₁] at h₂
    simp only [Bool.false_eq_true, if_false, e₁, e₂, Ocp.connectGuess] at h₁
    cases h₁
    cases h₂
    exact .inl ⟨rfl, rfl⟩
  · rw [e₁, Ocp.removeGuess_find u _ gu l₁] at h₂
    simp only [Bool.false_eq_true, if_false, e₁, e₂, Ocp.connectGuess, gather_find u _ gu l₁] at h₁
    cases h₁
    cases h₂
    refine .inr ⟨_, _, rfl, rfl, ?_, ?_⟩
    · simp only [hv]
      exact Ocp.kept_length _ _ _ l₁
    · simp only [hy, Bool.false_eq_true, if_false, List.length_append, l₂,
        Ocp.gathered_length u _ gu l₁ hn hu]

theorem connect_run {u : List Sym} {y : List Expr} {o : Ocp} (h : Sized o) (hl : u.length = y.length)
    (hm : o.model.u.length = o.model.uExpr.length) (hu : ∃ s ∈ u, s ∈ o.model.u)
    (hp : ∃ s ∈ u, s ∈ o.model.uPar) (hg : GuessesFit o) :
    ∃ o', o.connect u y false = (.ok (), o') ∧ o'.model = { o.model with
      alg := o.model.alg ++ u.zipWith (fun a b => Expr.sub (.sym a) b) y
      y := o.model.y ++ u
      uExpr := ((o.model.u.zip o.model.uExpr).filter fun p => decide (p.1 ∉ u)).map Prod.snd
      u := o.model.u.filter fun a => decide (a ∉ u)
      uPar := o.model.uPar.filter fun a => decide (a ∉ u) } := by
  have hmod := SysModel.connect_run o.model u y hl hm hu hp
  rcases hg with ⟨e₁, e₂⟩ | ⟨gu, gy, e₁, e₂, l₁, l₂⟩
  · exact ⟨_, (Ocp.connect_ok_iff h.uMax h.uMin h.duMax h.duMin).mpr ⟨hl, _, none, none, hmod,
      by rw [e₁, e₂]; rfl, by rw [e₁]; rfl, rfl⟩, rfl⟩
  · exact ⟨_, (Ocp.connect_ok_iff h.uMax h.uMin h.duMax h.duMin).mpr ⟨hl, _, _, _, hmod,
      by simp only [Bool.false_eq_true, if_false, e₁, e₂, Ocp.connectGuess, gather_find u _ gu l₁]; rfl,
      by rw [e₁, Ocp.removeGuess_find u _ gu l₁], rfl⟩, rfl⟩

/-- What the loop over the predecessors does. -/
structure Inputs (o : Opts) (s s' : Prep) (ins : List Sym) : Prop where
  next : s'.next = s.next + ins.length * o.degree
  y : s'.problem.model.y = s.problem.model.y ++ ins
  alg : s'.problem.model.alg = s.problem.model.alg ++ inputEquations o s.next ins
  theta : s'.problem.model.theta = s.problem.model.theta ++ allParams o.degree s.next ins.length
  joined : JoinedProblem s.problem ins s'.problem
  uPar : s'.problem.model.uPar = s.problem.model.uPar.filter fun a => decide (a ∉ ins)
  ode : s'.problem.model.ode = s.problem.model.ode
  parameters : s'.problem.model.p = s.problem.model.p
  algInd : s'.algInd = s.algInd ++ List.range' s.problem.model.alg.length ins.length
  yRelax : s'.yRelax = s.yRelax ++ List.range' s.problem.model.y.length ins.length
  eqInd : s'.eqInd = s.eqInd
  sized : Sized s'.problem
  expressions : s'.problem.model.u.length = s'.problem.model.uExpr.length
  guesses : GuessesFit s'.problem

theorem Inputs.trans {o : Opts} {s₁ s₂ s₃ : Prep} {a b : List Sym} (h : Inputs o s₁ s₂ a)
    (h' : Inputs o s₂ s₃ b) : Inputs o s₁ s₃ (a ++ b) where
  next := by
    rw [h'.next, h.next, List.length_append]
    exact shift ..
  y := by rw [h'.y, h.y, List.append_assoc]
  alg := by rw [h'.alg, h.alg, h.next, inputEquations_append, List.append_assoc]
  theta := by rw [h'.theta, h.theta, h.next, List.length_append, allParams_append, List.append_assoc]
  joined := joined_trans h.joined h'.joined
  uPar := by
    rw [h'.uPar, h.uPar, List.filter_filter]
    congr 1
    funext v
    simp only [List.mem_append, not_or, Bool.decide_and]
    exact Bool.and_comm ..
  ode := h'.ode.trans h.ode
  parameters := h'.parameters.trans h.parameters
  algInd := by
    rw [h'.algInd, h.algInd, h.alg, List.append_assoc, List.length_append, List.length_append]
    congr 1
    rw [List.range'_append_1.symm]
    simp [inputEquations]
  yRelax := by
    rw [h'.yRelax, h.yRelax, h.y, List.append_assoc, List.length_append, List.length_append]
    congr 1
    rw [List.range'_append_1.symm]
  eqInd := h'.eqInd.trans h.eqInd
  sized := h'.sized
  expressions := h'.expressions
  guesses := h'.guesses

theorem bindInput_run (o : Opts) (hs : o.skip = false) (e : Edge) (s : Prep)
    (h : Fits s.problem [e] []) (hg : GuessesFit s.problem) :
    ∃ s', bindInput o e s = (.ok (), s') ∧ Inputs o s s' e.u := by
  obtain ⟨hl, hne⟩ := h.sizes e (by simp)
  obtain ⟨v, hv⟩ := List.exists_mem_of_ne_nil e.u hne
  have hin : ∀ v ∈ e.u, v ∈ s.problem.model.u ∧ v ∈ s.problem.model.uPar := fun v hv =>
    h.inputs v (by simp [inputsOf, hv])
  have hnd : (s.problem.model.y ++ e.u).Nodup := by simpa [inputsOf] using h.distinct
  obtain ⟨p', hc, hm⟩ := connect_run (u := e.u)
    (y := (List.range e.y.length).map fun k => o.approx (couplingParams o.degree s.next k))
    h.sized (by simpa using hl) h.expressions ⟨v, hv, (hin v hv).1⟩ ⟨v, hv, (hin v hv).2⟩ hg
  have hu : ∀ v ∈ e.u, v ∈ s.problem.model.u := fun v hv => (hin v hv).1
  have hj := joined_one e.u _ h.sized h.controls hu hc
  have hz := Ocp.connect_sized h.sized h.controls hu hc
  have hgu := guesses_connect h.sized h.controls hu hg hc
  refine ⟨{ s with
    next := s.next + e.y.length * o.degree
    algInd := s.algInd ++ List.range' s.problem.model.alg.length e.u.length
    problem := { p' with model := { p'.model with
      theta := p'.model.theta ++ allParams o.degree s.next e.y.length } }
    yRelax := s.yRelax ++ findIndices e.u p'.model.y }, ?_, ?_⟩
  · unfold bindInput
    rw [Py.bind_eq, Py.bind_ok (approxAll_run ..)]
    simp only [Py.modify_bind, Py.bind_eq, other, hs, Bool.false_eq_true, if_false]
    rw [Py.bind_ok (show onProblem (Ocp.connect e.u ((List.range e.y.length).map fun k =>
        o.approx (couplingParams o.degree s.next k)) false) _ = (.ok (), { s with
          next := s.next + e.y.length * o.degree
          algInd := s.algInd ++ List.range' s.problem.model.alg.length e.u.length
          problem := p' }) by simp only [onProblem, hc])]
    rfl
  · have ey : p'.model.y = s.problem.model.y ++ e.u := by rw [hm]
    refine { next := by simp only [hl], y := ey, alg := ?_, theta := by simp only [hm, hl],
             joined := ⟨hj.horizon, hj.costs, hj.constraints, hj.x, hj.u, hj.uMax, hj.uMin, hj.duMax,
               hj.duMin, hj.yMax, hj.yMin⟩,
             uPar := by simp only [hm], ode := by simp only [hm], parameters := by simp only [hm],
             algInd := rfl, yRelax := ?_, eqInd := rfl,
             sized := ⟨hz.x0, hz.xMax, hz.xMin, hz.yMax, hz.yMin, hz.uMax, hz.uMin, hz.duMax, hz.duMin,
               hz.pOptMax, hz.pOptMin, hz.thetaOptMax, hz.thetaOptMin⟩, expressions := ?_,
             guesses := hgu }
    · simp only [hm]
      rw [← hl, inputEquations_eq]
    · simp only [ey]
      rw [findIndices_suffix _ _ hnd]
    · simp only [hm, List.length_map]
      have : (s.problem.model.u.filter fun a => decide (a ∉ e.u)) =
          ((s.problem.model.u.zip s.problem.model.uExpr).filter fun p => decide (p.1 ∉ e.u)).map
            Prod.fst := by
        conv_lhs => rw [← List.map_fst_zip (l₁ := s.problem.model.u) (l₂ := s.problem.model.uExpr)
          (by have := h.expressions; omega)]
        rw [List.filter_map]; rfl
      rw [this, List.length_map]

theorem bindInputs_run (o : Opts) (hs : o.skip = false) (ins : List Edge) (s : Prep)
    (h : Fits s.problem ins []) (hg : GuessesFit s.problem) :
    ∃ s', Py.forEach ins (bindInput o) s = (.ok (), s') ∧ Inputs o s s' (inputsOf ins) := by
  induction ins generalizing s with
  | nil =>
    refine ⟨s, rfl, ?_⟩
    exact
      { next := by simp [inputsOf]
        y := by simp [inputsOf]
        alg := by simp [inputsOf, inputEquations]
        theta := by simp [inputsOf, allParams]
        joined := joined_refl _
        uPar := by simp [inputsOf]
        ode := rfl
        parameters := rfl
        algInd := by simp [inputsOf]
        yRelax := by simp [inputsOf]
        eqInd := rfl
        sized := h.sized
        expressions := h.expressions
        guesses := hg }
  | cons e es ih =>
    have hv := h.distinct
    simp only [inputsOf, List.flatMap_cons] at hv
    have hv' : (s.problem.model.y ++ e.u ++ es.flatMap (·.u)).Nodup := by rwa [List.append_assoc]
    have h₁ : Fits s.problem [e] [] :=
      { h with
        sizes := fun e' he => h.sizes e' (by simp at he; simp [he])
        inputs := fun v hv => h.inputs v (by
          simp only [inputsOf, List.flatMap_cons, List.flatMap_nil, List.append_nil] at hv
          simp only [inputsOf, List.flatMap_cons, List.mem_append]; exact .inl hv)
        distinct := by
          simp only [inputsOf, List.flatMap_cons, List.flatMap_nil, List.append_nil]
          exact (List.nodup_append.1 hv').1 }
    obtain ⟨s₁, hr₁, hi₁⟩ := bindInput_run o hs e s h₁ hg
    have h₂ : Fits s₁.problem es [] :=
      { sized := hi₁.sized
        controls := by rw [hi₁.joined.u]; exact h.controls.filter _
        expressions := hi₁.expressions
        sizes := fun e' he => h.sizes e' (by simp [he])
        sizesOut := by simp
        inputs := fun v hv => by
          have hin := h.inputs v (by simp only [inputsOf, List.flatMap_cons, List.mem_append]
                                     exact .inr hv)
          have hne : v ∉ e.u := fun hc =>
            (List.nodup_append.1 hv').2.2 v (by simp [hc]) v (by simpa [inputsOf] using hv) rfl
          rw [hi₁.joined.u, hi₁.uPar]
          simp [hin, hne]
        distinct := by rw [hi₁.y]; exact hv' }
    obtain ⟨s₂, hr₂, hi₂⟩ := ih s₁ h₂ hi₁.guesses
    refine ⟨s₂, ?_, by simpa [inputsOf] using hi₁.trans hi₂⟩
    simp only [Py.forEach]
    rw [Py.bind_ok hr₁, hr₂]

/-- The state after the loop over the successors. -/
def afterOutputs (o : Opts) (next : Sym) (first : Nat) (outs : List Sym) (s : Prep) : Prep :=
  { s with
    next := s.next + outs.length * o.degree
    eqInd := s.eqInd ++ List.range' s.problem.gEq.length outs.length
    problem := { s.problem with
      gEq := s.problem.gEq ++ outputEquations o next first outs
      timeGEq := s.problem.timeGEq ++ List.replicate outs.length "default"
      model := { s.problem.model with
        theta := s.problem.model.theta ++ allParams o.degree s.next outs.length } } }

theorem bindOutput_run (o : Opts) (hs : o.skip = false) (next : Sym) (first : Nat) (e : Edge)
    (s : Prep) (hl : e.u.length = e.y.length) (hn : s.next = next + first * o.degree) :
    bindOutput o e s = (.ok (), afterOutputs o next first e.y s) := by
  unfold bindOutput
  rw [Py.bind_eq, Py.bind_ok (approxAll_run ..)]
  simp only [Py.modify_bind, Py.bind_eq, other, hs, Bool.false_eq_true, if_false]
  rw [Py.bind_ok (show Py.raiseIf (decide (e.u.length ≠ e.y.length)) Err.runtimeError _ =
    (.ok (), _) by rw [show decide (e.u.length ≠ e.y.length) = false by simp [hl]]; rfl)]
  rw [Py.bind_ok (show onProblem (Ocp.includeTimeEquality _ "default") _ = (.ok (), _) from rfl)]
  unfold afterOutputs
  have he := outputEquations_eq o next first e.u.length e.y hl
  rw [← hn] at he
  simp only [onProblem, Ocp.onModel, SysModel.includeTheta, Ocp.includeTimeEquality, Py.modify]
  rw [he]
  simp [hl, outputEquations]

theorem bindOutputs_run (o : Opts) (hs : o.skip = false) (next : Sym) (first : Nat)
    (outs : List Edge) (s : Prep) (hl : ∀ e ∈ outs, e.u.length = e.y.length)
    (hn : s.next = next + first * o.degree) :
    Py.forEach outs (bindOutput o) s = (.ok (), afterOutputs o next first (outputsOf outs) s) := by
  induction outs generalizing s first with
  | nil => simp [Py.forEach, afterOutputs, outputsOf, outputEquations, allParams, Py.pure]
  | cons e es ih =>
    simp only [Py.forEach]
    rw [Py.bind_ok (bindOutput_run o hs next first e s (hl e (by simp)) hn),
      ih (first + e.y.length) _ (fun e' he => hl e' (by simp [he]))]
    · have e₁ : outputsOf (e :: es) = e.y ++ outputsOf es := rfl
      rw [e₁]
      unfold afterOutputs
      simp only [List.length_append, outputEquations_append, List.append_assoc, List.replicate_append_replicate,
        allParams_append, Prod.mk.injEq, true_and, Prep.mk.injEq]
      refine ⟨?_, ?_⟩
      · exact shift ..
      · congr 1
        rw [List.range'_append_1.symm]
        simp [outputEquations]
    · simp only [afterOutputs, hn]
      exact shift ..

/-! ### The size of `theta` -/

/-- The piecewise constant parameters of the model are the given ones. -/
def HasTheta (th : List Sym) (o : Ocp) : Prop := o.model.theta = th

theorem theta_model {α : Type} {c : Py SysModel α} {th}
    (h : Py.Always (fun m => m.theta = th) c) : Py.Always (HasTheta th) (Ocp.onModel c) :=
  fun _ ho => h _ ho

theorem theta_includeFromKwargs {th x e} :
    Py.Always (fun m : SysModel => m.theta = th) (SysModel.includeFromKwargs x e) := by
  intro m h
  unfold SysModel.includeFromKwargs
  split
  · exact h
  · split
    · exact h
    · exact h

theorem theta_includeEquations {th a b c d} :
    Py.Always (fun m : SysModel => m.theta = th) (SysModel.includeEquations a b c d) := by
  unfold SysModel.includeEquations SysModel.includeArgs SysModel.includeFromDiff
    SysModel.includeAlgEquations
  py_always [theta_includeFromKwargs]

theorem theta_includeAlgebraic {th a b} :
    Py.Always (fun m : SysModel => m.theta = th) (SysModel.includeAlgebraic a b) := by
  unfold SysModel.includeAlgebraic
  py_always [theta_includeEquations]

theorem theta_removeControl {th a} :
    Py.Always (fun m : SysModel => m.theta = th) (SysModel.removeControl a) := by
  unfold SysModel.removeControl
  py_always []

theorem theta_removeAlgebraic {th a b} :
    Py.Always (fun m : SysModel => m.theta = th) (SysModel.removeAlgebraic a b) := by
  unfold SysModel.removeAlgebraic
  py_always []

theorem theta_includeControl {th a} :
    Py.Always (fun m : SysModel => m.theta = th) (SysModel.includeControl a) := by
  unfold SysModel.includeControl
  py_always []

theorem theta_connect_model {th u y} :
    Py.Always (fun m : SysModel => m.theta = th) (SysModel.connect u y false) := by
  unfold SysModel.connect
  py_always [theta_includeEquations, theta_includeAlgebraic, theta_removeControl]
  all_goals simp_all

theorem theta_connect {th u y} : Py.Always (HasTheta th) (Ocp.connect u y false) := by
  unfold Ocp.connect Ocp.when Ocp.connectBounds
  py_always [theta_model theta_connect_model]

/-- The same for the object with the relaxations. -/
def HasTheta' (th : List Sym) (s : Relax) : Prop := s.problem.model.theta = th

theorem theta_onProblem {α : Type} {c : Py Ocp α} {th} (h : Py.Always (HasTheta th) c) :
    Py.Always (HasTheta' th) (Relax.onProblem c) := fun _ hs => h _ hs

theorem theta_newSyms {th n} : Py.Always (HasTheta' th) (Relax.newSyms n) := fun _ hs => hs

theorem theta_popTag {th n} : Py.Always (HasTheta' th) (Relax.popTag n) := by
  intro s hs
  unfold Relax.popTag
  split <;> exact hs

theorem theta_relax {th mu0 a} : Py.Always (HasTheta' th) (Relax.relax mu0 a) := by
  have h₁ : ∀ {v}, Py.Always (fun m : SysModel => m.theta = th) (SysModel.includeParameter v) :=
    fun {_} _ h => h
  have h₂ : ∀ {a b c d e f}, Py.Always (HasTheta th) (Ocp.includeControl a b c d e f) := by
    intro a b c d e f
    unfold Ocp.includeControl
    py_always [theta_model theta_includeControl]
  have h₃ : ∀ {a b}, Py.Always (HasTheta th) (Ocp.removeAlgebraic a b) := by
    intro a b
    unfold Ocp.removeAlgebraic
    py_always [theta_model theta_removeAlgebraic]
  unfold Relax.relax Relax.ifEquations Relax.relaxAlgebraic Relax.relaxTimeEqualities Relax.relaxStates
    Relax.relaxStateAt Relax.relaxState Relax.includeInObjective Relax.createMu Relax.addToCost
  py_always [theta_newSyms, theta_popTag, theta_onProblem h₂, theta_onProblem h₃,
    theta_onProblem (theta_model h₁)]

theorem bindInput_theta {o : Opts} {e : Edge} {s s' : Prep} (h : bindInput o e s = (.ok (), s')) :
    s'.problem.model.theta.length = s.problem.model.theta.length + e.y.length * o.degree := by
  unfold bindInput at h
  rw [Py.bind_eq, Py.bind_ok (approxAll_run ..)] at h
  simp only [Py.modify_bind, Py.bind_eq] at h
  obtain ⟨_, s₁, h₁, h₂⟩ := Py.bind_eq_ok.mp h
  have ht := theta_connect (th := s.problem.model.theta) (u := e.u)
    (y := other o e.y ((List.range e.y.length).map fun k =>
      o.approx (couplingParams o.degree s.next k))) s.problem rfl
  simp only [onProblem, Prod.mk.injEq] at h₁
  obtain ⟨-, rfl⟩ := h₁
  rw [Py.bind_ok (show onProblem (Ocp.onModel (SysModel.includeTheta _)) _ = (.ok (), _) from rfl)] at h₂
  simp only [Py.modify_ok] at h₂
  subst h₂
  unfold HasTheta at ht
  simp only [Ocp.onModel, SysModel.includeTheta, Py.modify, List.length_append, ht]
  simp [allParams, couplingParams]

theorem bindOutput_theta {o : Opts} {e : Edge} {s s' : Prep} (h : bindOutput o e s = (.ok (), s')) :
    s'.problem.model.theta.length = s.problem.model.theta.length + e.u.length * o.degree := by
  unfold bindOutput at h
  rw [Py.bind_eq, Py.bind_ok (approxAll_run ..)] at h
  simp only [Py.modify_bind, Py.bind_eq, Py.raiseIf_bind_ok] at h
  obtain ⟨-, h⟩ := h
  rw [Py.bind_ok (show onProblem (Ocp.includeTimeEquality _ "default") _ = (.ok (), _) from rfl)] at h
  simp only [onProblem, Ocp.onModel, SysModel.includeTheta, Py.modify, Ocp.includeTimeEquality,
    Prod.mk.injEq, true_and] at h
  subst h
  simp [allParams, couplingParams]

theorem forEach_theta {o : Opts} {es : List Edge} {f : Edge → Py Prep Unit} {n : Edge → Nat}
    (hf : ∀ e s s', f e s = (.ok (), s') →
      s'.problem.model.theta.length = s.problem.model.theta.length + n e * o.degree)
    {s s' : Prep} (h : Py.forEach es f s = (.ok (), s')) :
    s'.problem.model.theta.length = s.problem.model.theta.length + (es.map n).sum * o.degree := by
  induction es generalizing s with
  | nil => cases h; simp
  | cons e es ih =>
    obtain ⟨_, s₁, h₁, h₂⟩ := Py.bind_eq_ok.mp h
    rw [ih h₂, hf e s s₁ h₁, List.map_cons, List.sum_cons]
    exact shift ..

/-- The values a node gets for its couplings, per element: all variables of all connections. -/
theorem prepare_theta {o : Opts} {mu0 : Rat} {ins outs : List Edge} {p : Ocp} {next : Sym} {r : Relax}
    (h : prepare o mu0 ins outs p next = .ok r) :
    r.problem.model.theta.length = p.model.theta.length +
      ((ins.map fun e => e.y.length).sum + (outs.map fun e => e.u.length).sum) * o.degree := by
  unfold prepare at h
  split at h
  · cases h
  · rename_i s hs
    split at h
    · cases h
    · rename_i r' hr
      cases h
      have h₀ := theta_relax (th := s.problem.model.theta) (mu0 := mu0) (a := relaxArgs s)
        (Relax.start s.problem s.next) rfl
      rw [hr] at h₀
      unfold HasTheta' at h₀
      simp only at h₀
      rw [h₀]
      unfold includeAll at hs
      obtain ⟨_, s₁, h₁, h₂⟩ := Py.bind_eq_ok.mp hs
      rw [forEach_theta (o := o) (n := fun e => e.u.length) (fun _ _ _ => bindOutput_theta) h₂,
        forEach_theta (o := o) (n := fun e => e.y.length) (fun _ _ _ => bindInput_theta) h₁]
      exact shift ..

/-! ### The relaxed node -/

theorem filterMap_get {α : Type} (l : List α) : (List.range l.length).filterMap (fun i => l[i]?) = l := by
  induction l with
  | nil => rfl
  | cons a l ih =>
    rw [List.length_cons, List.range_succ_eq_map, List.filterMap_cons, List.filterMap_map]
    simpa [Function.comp_def] using ih

theorem entriesAt_suffix {α : Type} (l m : List α) :
    entriesAt (l ++ m) (List.range' l.length m.length) = m := by
  unfold entriesAt
  rw [List.range'_eq_map_range, List.filterMap_map]
  refine Eq.trans (List.filterMap_congr fun j _ => ?_) (filterMap_get m)
  simp only [Function.comp]
  rw [List.getElem?_append_right (by omega)]
  congr 1; omega

theorem otherEntries_suffix {α : Type} (l m : List α) :
    otherEntries (l ++ m) (List.range' l.length m.length) = l := by
  unfold otherEntries
  have h : (List.range (l ++ m).length).filter
      (fun i => decide (i ∉ List.range' l.length m.length)) = List.range l.length := by
    rw [List.length_append, List.range_add, List.filter_append]
    rw [List.filter_eq_self.2, List.filter_eq_nil_iff.2, List.append_nil]
    · intro a ha
      obtain ⟨b, hb, rfl⟩ := List.mem_map.1 ha
      have := List.mem_range.1 hb
      simp [List.mem_range'_1]
      omega
    · intro a ha
      have := List.mem_range.1 ha
      simp [List.mem_range'_1]
      omega
  rw [h]
  refine Eq.trans (List.filterMap_congr fun j hj => ?_) (filterMap_get l)
  rw [List.getElem?_append_left (List.mem_range.1 hj)]

theorem positions_suffix {α : Type} (l m : List α) :
    Positions (l ++ m) (List.range' l.length m.length) := by
  refine ⟨List.nodup_range', fun i hi => ?_⟩
  have := List.mem_range'_1.1 hi
  simp; omega

/-- Bounds given as pairs determine the vector. -/
theorem bounds_split {α : Type} {vars vars' : List Sym} {b b' : List α} {new : List (Sym × α)}
    (h : bounds vars' b' = bounds vars b ++ new) (hl : b.length = vars.length)
    (hl' : b'.length = vars'.length) : b' = b ++ new.map Prod.snd := by
  have := congrArg (List.map Prod.snd) h
  unfold bounds at this
  rwa [List.map_append, List.map_snd_zip (by omega), List.map_snd_zip (by omega)] at this

/-- The bounds of the controls of a decoupled node. -/
theorem lookup_restored {α : Type} {vars us ins : List Sym} {b b' : List α} {new : List (Sym × α)}
    (h : bounds us b' = boundsWithout ins (bounds vars b)) (hf : new.map Prod.fst = ins)
    (hn : ∀ p ∈ new, (bounds vars b).lookup p.1 = some p.2) (hl : b'.length = us.length) (v : Sym) :
    (bounds (us ++ ins) (b' ++ new.map Prod.snd)).lookup v = (bounds vars b).lookup v := by
  have e : bounds (us ++ ins) (b' ++ new.map Prod.snd) = bounds us b' ++ new := by
    unfold bounds
    rw [List.zip_append hl.symm, ← hf, List.zip_map', List.map_id'' (by simp)]
  rw [e, List.lookup_append, h, lookup_boundsWithout]
  by_cases hv : v ∈ ins
  · rw [if_pos hv, Option.none_or]
    rw [← hf] at hv
    obtain ⟨c, hc⟩ : ∃ c, new.lookup v = some c := by
      cases hc : new.lookup v with
      | some c => exact ⟨c, rfl⟩
      | none =>
        rw [List.lookup_eq_none_iff] at hc
        obtain ⟨p, hp, rfl⟩ := List.mem_map.1 hv
        have := hc p hp
        simp at this
    obtain ⟨l₁, l₂, rfl, -⟩ := List.lookup_eq_some_iff.1 hc
    rw [hc, hn (v, c) (by simp)]
  · rw [if_neg hv]
    have : new.lookup v = none := by
      rw [List.lookup_eq_none_iff]
      intro p hp
      rw [bne_iff_ne]
      rintro rfl
      exact hv (hf ▸ List.mem_map_of_mem hp)
    rw [this, Option.or_none]

end Verif.DistPrepare
